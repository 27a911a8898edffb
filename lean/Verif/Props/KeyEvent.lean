import Verif.Model.KeyEvent

/-!
# Key events: properties C26 and C27
-/

namespace Cskk.Props.KeyEvents
open Cskk.KeyEvent Cskk.Modifier

/-! ## C26 -/

/-- The bit numbers an IME can really deliver, written out from the documentation of `SkkKeyModifier`
(shift, caps lock, control, alt, num lock, hyper, super, mouse, super2, hyper2, meta, repeat). -/
def deliverableBits : List Nat := [0, 1, 2, 3, 4, 5, 6, 8, 26, 27, 28, 31]

theorem mask_bits (i : Nat) : NON_DUMMY_MASK.getLsbD i = decide (i ∈ deliverableBits) := by
  by_cases h : i < 32
  · revert h; revert i; decide
  · rw [BitVec.getLsbD_of_ge _ _ (by omega)]
    symm; apply decide_eq_false
    simp [deliverableBits]; omega

theorem all_bits_of_mask (i : Nat) (h : i ∈ deliverableBits) : ALL.getLsbD i = true := by
  revert i; decide

/-- **C26.** The event built from a raw fcitx key keeps exactly the deliverable modifier bits of the raw state,
sets RELEASE (bit 30) exactly for a release, and keeps the keysym except that ISO_Left_Tab becomes Tab. -/
theorem fcitx_event_normalised (keysym : Keysym) (raw : BitVec 32) (rel : Bool) :
    (∀ i, (fromFcitx keysym raw rel).modifiers.getLsbD i =
      if i = 30 then rel else (raw.getLsbD i && decide (i ∈ deliverableBits))) ∧
    ((fromFcitx keysym raw rel).symbol = if keysym = 0xfe20 then 0xff09 else keysym) := by
  refine ⟨fun i => ?_, rfl⟩
  have hm := mask_bits i
  have hbase : (fromBitsTruncate raw &&& NON_DUMMY_MASK).getLsbD i
      = (raw.getLsbD i && decide (i ∈ deliverableBits)) := by
    simp only [fromBitsTruncate, BitVec.getLsbD_and, hm]
    by_cases h : i ∈ deliverableBits
    · simp [h, all_bits_of_mask i h]
    · simp [h]
  have hrel : RELEASE.getLsbD i = decide (i = 30) := by
    by_cases h : i < 32
    · clear hm hbase; revert h; revert i; decide
    · rw [BitVec.getLsbD_of_ge _ _ (by omega)]; symm; apply decide_eq_false; omega
  cases rel
  · simp only [fromFcitx, Bool.false_eq_true, if_false, hbase]
    by_cases h : i = 30
    · subst h; simp [deliverableBits]
    · simp [h]
  · simp only [fromFcitx, if_true, Modifier.set, BitVec.getLsbD_or, hbase, hrel]
    by_cases h : i = 30
    · subst h; simp
    · simp [h]

/-- An fcitx event is a release event exactly if fcitx said so, whatever the raw state contains. -/
theorem fcitx_release_iff (keysym : Keysym) (raw : BitVec 32) (rel : Bool) :
    (fromFcitx keysym raw rel).modifiers.contains RELEASE = rel := by
  have h := (fcitx_event_normalised keysym raw rel).1 30
  simp only [if_true] at h
  generalize (fromFcitx keysym raw rel).modifiers = m at h
  subst h
  have key : m &&& RELEASE = if m.getLsbD 30 then RELEASE else 0 := by
    apply BitVec.eq_of_getLsbD_eq
    intro i hi
    rw [BitVec.getLsbD_and]
    have hrel : RELEASE.getLsbD i = decide (i = 30) := by revert hi; revert i; decide
    rw [hrel]
    by_cases h : i = 30
    · subst h; cases m.getLsbD 30 <;> simp [RELEASE]
    · cases m.getLsbD 30 <;> simp [h, hrel]
  simp only [Modifier.contains, key]
  cases m.getLsbD 30 <;> decide

/-- MOD5 (AltGr) is not deliverable: it is dropped, so a rule entry `G-x` can never match a key from fcitx. -/
theorem fcitx_drops_mod5 (keysym : Keysym) (raw : BitVec 32) (rel : Bool) :
    (fromFcitx keysym raw rel).modifiers.getLsbD 7 = false := by
  rw [(fcitx_event_normalised keysym raw rel).1 7]; simp [deliverableBits]

/-- The Rust-side constructor sets exactly the requested flags. -/
theorem flags_event (keysym : Keysym) (c s a : Bool) (i : Nat) :
    (fromKeysymWithFlags keysym c s a).modifiers.getLsbD i =
      (decide (i = 2) && c || decide (i = 0) && s || decide (i = 3) && a) ∧
    (fromKeysymWithFlags keysym c s a).symbol = keysym := by
  refine ⟨?_, rfl⟩
  by_cases h : i < 32
  · simp only [fromKeysymWithFlags]; cases c <;> cases s <;> cases a <;> (revert h; revert i; decide)
  · rw [BitVec.getLsbD_of_ge _ _ (by omega)]
    have : i ≠ 2 ∧ i ≠ 0 ∧ i ≠ 3 := by omega
    simp [this]

/-- An event counts as plain text input exactly when no modifier bit except SHIFT (bit 0) is set. -/
theorem modifierless_iff (k : KeyEvent) :
    k.isModifierlessInput = true ↔ ∀ i, i ≠ 0 → k.modifiers.getLsbD i = false := by
  simp only [isModifierlessInput, Modifier.difference, beq_iff_eq]
  have hs : ∀ i, i < 32 → (~~~SHIFT).getLsbD i = decide (i ≠ 0) := by decide
  constructor
  · intro h i hi
    by_cases h32 : i < 32
    · have := congrArg (fun b => b.getLsbD i) h
      simp only [BitVec.getLsbD_and, hs i h32] at this
      simpa [hi] using this
    · exact BitVec.getLsbD_of_ge _ _ (by omega)
  · intro h
    apply BitVec.eq_of_getLsbD_eq
    intro i hi
    rw [BitVec.getLsbD_and, hs i hi]
    by_cases h0 : i = 0
    · simp [h0]
    · simp [h i h0]

example : fromFcitx 0xfe20 0x80000081#32 true = ⟨0xff09, 0xC0000001#32⟩ := by decide

/-! ## C27 -/

/-- Specification: `Tokens s ts ok` — the text `s` is a series of tokens separated by white space, where a token
starting with `(` extends to the next `)`, and any other token extends to the next space or the end of the text.
`ok = false` when the text ends inside a parenthesis. -/
inductive Tokens : Str → List Str → Bool → Prop
  | done (ws : Str) : (∀ c ∈ ws, isWs c = true) → Tokens ws [] true
  | paren (ws body rest : Str) (ts ok) : (∀ c ∈ ws, isWs c = true) → ')' ∉ body →
      Tokens rest ts ok → Tokens (ws ++ ['('] ++ body ++ [')'] ++ rest) (('(' :: body ++ [')']) :: ts) ok
  | open_ (ws body : Str) : (∀ c ∈ ws, isWs c = true) → ')' ∉ body → Tokens (ws ++ ['('] ++ body) [] false
  | word (ws : Str) (c : Char) (w rest : Str) (ts ok) : (∀ d ∈ ws, isWs d = true) → isWs c = false → c ≠ '(' →
      ' ' ∉ w → (rest = [] ∨ rest.head? = some ' ') → Tokens rest ts ok →
      Tokens (ws ++ (c :: w) ++ rest) ((c :: w) :: ts) ok

/-- What a tokenised string denotes: every token is parsed in order, the first failure decides. -/
def denote (x : Xkb) : List Str → Bool → List KeyEvent → R (Option (List KeyEvent))
  | [], ok, acc => .ok (if ok then some acc else none)
  | t :: ts, ok, acc =>
    match fromStr x t with
    | .error e => .error e
    | .ok none => .ok none
    | .ok (some k) => denote x ts ok (acc ++ [k])

theorem ws_split (s : Str) : ∃ ws, (∀ c ∈ ws, isWs c = true) ∧ s = ws ++ s.dropWhile isWs := by
  refine ⟨s.takeWhile isWs, ?_, List.takeWhile_append_dropWhile.symm⟩
  intro c hc
  induction s with
  | nil => simp at hc
  | cons a s ih =>
    rw [List.takeWhile_cons] at hc
    split at hc
    · rcases List.mem_cons.mp hc with h | h
      · subst h; assumption
      · exact ih h
    · simp at hc

theorem dropWhile_head {p : Char → Bool} (s : Str) (c : Char) (t : Str) (h : s.dropWhile p = c :: t) :
    p c = false := by
  induction s with
  | nil => simp at h
  | cons a s ih =>
    rw [List.dropWhile_cons] at h
    split at h
    · exact ih h
    · cases h; simp_all

theorem takeWhile_not_mem (d : Char) (s : Str) : d ∉ s.takeWhile (· != d) := by
  induction s with
  | nil => simp
  | cons a s ih =>
    rw [List.takeWhile_cons]
    split
    · rename_i h; simp only [List.mem_cons, not_or]; refine ⟨?_, ih⟩
      intro e; subst e; simp at h
    · simp

theorem dropWhile_length_le {p : Char → Bool} (s : Str) : (s.dropWhile p).length ≤ s.length := by
  induction s with
  | nil => simp
  | cons a s ih => rw [List.dropWhile_cons]; split <;> simp_all <;> omega

/-- No trailing white space. -/
def Trimmed (s : Str) : Prop := ∀ c, s.getLast? = some c → isWs c = false

theorem trimmed_suffix {a b : Str} (h : Trimmed (a ++ b)) : Trimmed b := by
  intro c hc
  apply h c
  cases b with
  | nil => simp at hc
  | cons x b => rw [List.getLast?_append]; simp [hc]

theorem trimEnd_trimmed (s : Str) : Trimmed (trimEnd s) := by
  intro c hc
  rw [trimEnd, List.getLast?_reverse] at hc
  cases h : s.reverse.dropWhile isWs with
  | nil => rw [h] at hc; simp at hc
  | cons a t => rw [h] at hc; simp at hc; subst hc; exact dropWhile_head _ _ _ h

theorem trimEnd_of_trimmed {s : Str} (h : Trimmed s) : trimEnd s = s := by
  rw [trimEnd]
  cases hr : s.reverse with
  | nil => simp_all
  | cons a t =>
    have : isWs a = false := h a (by rw [← List.head?_reverse, hr]; rfl)
    rw [List.dropWhile_cons]; simp [this]
    rw [← List.reverse_cons, ← hr, List.reverse_reverse]

theorem trim_of_trimmed {s : Str} (h : Trimmed s) : trim s = s.dropWhile isWs := by
  obtain ⟨ws, _, e⟩ := ws_split s
  exact trimEnd_of_trimmed (trimmed_suffix (e ▸ h))

theorem trimmed_dropWhile {s : Str} {p : Char → Bool} (h : Trimmed s) : Trimmed (s.dropWhile p) := by
  have := @List.takeWhile_append_dropWhile _ p s
  rw [← this] at h; exact trimmed_suffix h

theorem dropWhile_space_head (s : Str) : s.dropWhile (· != ' ') = [] ∨ (s.dropWhile (· != ' ')).head? = some ' ' := by
  cases h : s.dropWhile (· != ' ') with
  | nil => simp
  | cons a t => right; have := dropWhile_head _ _ _ h; simp_all

theorem deserializeAux_tokens (x : Xkb) (fuel : Nat) (s : Str) (acc : List KeyEvent) (hf : s.length < fuel)
    (ht : Trimmed s) : ∃ ts ok, Tokens s ts ok ∧ deserializeAux x fuel s acc = denote x ts ok acc := by
  induction fuel generalizing s acc with
  | zero => omega
  | succ fuel ih =>
    rw [deserializeAux]
    simp only [trim_of_trimmed ht]
    obtain ⟨ws, hws, e⟩ := ws_split s
    have hlen := @dropWhile_length_le isWs s
    have htd := trimmed_dropWhile (p := isWs) ht
    cases hd : s.dropWhile isWs with
    | nil =>
      refine ⟨[], true, ?_, by simp [denote]⟩
      rw [hd, List.append_nil] at e; subst e; exact .done _ hws
    | cons c cs =>
      rw [hd] at hlen htd e
      have hc := dropWhile_head _ _ _ hd
      rw [if_neg (by simp)]
      by_cases hp : c = '('
      · subst hp
        have hsplit := @List.takeWhile_append_dropWhile _ (· != ')') cs
        have hn := takeWhile_not_mem ')' cs
        simp only [nextTok, List.head?_cons, if_true]
        rw [List.dropWhile_cons_of_pos (by decide), List.takeWhile_cons_of_pos (by decide)]
        cases hr : cs.dropWhile (· != ')') with
        | nil =>
          refine ⟨[], false, ?_, by simp [denote]⟩
          rw [hr, List.append_nil] at hsplit
          have := Tokens.open_ ws cs hws (hsplit ▸ hn)
          rw [e]; simpa using this
        | cons q rest =>
          have hq : q = ')' := by have := dropWhile_head _ _ _ hr; simpa using this
          subst hq
          rw [hr] at hsplit
          simp only
          have hrest : Trimmed rest :=
            trimmed_suffix (a := ('(' :: cs.takeWhile (· != ')') ++ [')'])) (by
              have : ('(' :: cs.takeWhile (· != ')') ++ [')']) ++ rest = '(' :: cs := by
                conv => rhs; rw [← hsplit]
                simp
              rw [this]; exact htd)
          have hl : rest.length < fuel := by
            have : (cs.takeWhile (· != ')') ++ ')' :: rest).length = cs.length := by rw [hsplit]
            simp at this hlen; omega
          have hT : ∀ ts ok, Tokens rest ts ok → Tokens s (('(' :: cs.takeWhile (· != ')') ++ [')']) :: ts) ok := by
            intro ts ok h
            have := Tokens.paren ws (cs.takeWhile (· != ')')) rest ts ok hws hn h
            rw [e]; conv => arg 1; rw [← hsplit]
            simpa using this
          cases hfs : fromStr x ('(' :: cs.takeWhile (· != ')') ++ [')']) with
          | error er =>
            obtain ⟨ts, ok, h1, _⟩ := ih rest acc hl hrest
            exact ⟨_, ok, hT ts ok h1, by simp only [denote, hfs]⟩
          | ok o =>
            cases o with
            | none =>
              obtain ⟨ts, ok, h1, _⟩ := ih rest acc hl hrest
              exact ⟨_, ok, hT ts ok h1, by simp only [denote, hfs]⟩
            | some k =>
              obtain ⟨ts, ok, h1, h2⟩ := ih rest (acc ++ [k]) hl hrest
              exact ⟨_, ok, hT ts ok h1, by simp only [denote, hfs, h2]⟩
      · have hsp : c ≠ ' ' := by intro h; subst h; exact absurd hc (by decide)
        simp only [nextTok, List.head?_cons, Option.some.injEq, hp, if_false]
        rw [List.dropWhile_cons_of_pos (by simp [hsp]), List.takeWhile_cons_of_pos (by simp [hsp])]
        have hsplit := @List.takeWhile_append_dropWhile _ (· != ' ') cs
        have hn := takeWhile_not_mem ' ' cs
        have hrest : Trimmed (cs.dropWhile (· != ' ')) :=
          trimmed_dropWhile (trimmed_suffix (a := [c]) htd)
        have hl : (cs.dropWhile (· != ' ')).length < fuel := by
          have := @dropWhile_length_le (· != ' ') cs
          simp at hlen; omega
        have hT : ∀ ts ok, Tokens (cs.dropWhile (· != ' ')) ts ok →
            Tokens s ((c :: cs.takeWhile (· != ' ')) :: ts) ok := by
          intro ts ok h
          have := Tokens.word ws c (cs.takeWhile (· != ' ')) _ ts ok hws hc hp hn (dropWhile_space_head cs) h
          rw [e]; conv => arg 1; rw [← hsplit]
          simpa using this
        cases hfs : fromStr x (c :: cs.takeWhile (· != ' ')) with
        | error er =>
          obtain ⟨ts, ok, h1, _⟩ := ih _ acc hl hrest
          exact ⟨_, ok, hT ts ok h1, by simp only [denote, hfs]⟩
        | ok o =>
          cases o with
          | none =>
            obtain ⟨ts, ok, h1, _⟩ := ih _ acc hl hrest
            exact ⟨_, ok, hT ts ok h1, by simp only [denote, hfs]⟩
          | some k =>
            obtain ⟨ts, ok, h1, h2⟩ := ih _ (acc ++ [k]) hl hrest
            exact ⟨_, ok, hT ts ok h1, by simp only [denote, hfs, h2]⟩

theorem deserializeAux_trimEnd (x : Xkb) (fuel : Nat) (s : Str) (acc) :
    deserializeAux x fuel s acc = deserializeAux x fuel (trim s) acc := by
  cases fuel with
  | zero => rfl
  | succ n =>
    have htt : trim (trim s) = trim s := by
      have h1 : Trimmed (trim s) := trimEnd_trimmed _
      rw [trim_of_trimmed h1]
      cases h : trim s with
      | nil => rfl
      | cons c cs =>
        have : isWs c = false := by
          cases hd : s.dropWhile isWs with
          | nil => simp [trim, hd, trimEnd] at h
          | cons d ds =>
            have hd' := dropWhile_head _ _ _ hd
            have he : ∃ suf, d :: ds = trimEnd (d :: ds) ++ suf := by
              refine ⟨((d :: ds).reverse.takeWhile isWs).reverse, ?_⟩
              rw [trimEnd, ← List.reverse_append, List.takeWhile_append_dropWhile, List.reverse_reverse]
            obtain ⟨suf, he⟩ := he
            rw [trim, hd] at h; rw [h] at he; simp at he; rw [← he.1]; exact hd'
        rw [List.dropWhile_cons]; simp [this]
    rw [deserializeAux, deserializeAux, htt]

theorem Tokens.det {s ts ok} (h : Tokens s ts ok) : ∀ {ts' ok'}, Tokens s ts' ok' → ts = ts' ∧ ok = ok' := by
  -- leading white space and first character determine the case
  have key : ∀ (ws ws' : Str) (c c' : Char) (r r' : Str), (∀ d ∈ ws, isWs d = true) → (∀ d ∈ ws', isWs d = true) →
      isWs c = false → isWs c' = false → ws ++ c :: r = ws' ++ c' :: r' → c = c' ∧ r = r' := by
    intro ws
    induction ws with
    | nil =>
      intro ws' c c' r r' _ h' hc _ e
      cases ws' with
      | nil => simpa using e
      | cons a ws' => simp at e; have := h' a (by simp); rw [← e.1, hc] at this; cases this
    | cons b ws ih =>
      intro ws' c c' r r' h h' hc hc' e
      cases ws' with
      | nil => simp at e; have := h b (by simp); rw [e.1, hc'] at this; cases this
      | cons a ws' =>
        simp at e
        exact ih ws' c c' r r' (fun d hd => h d (by simp [hd])) (fun d hd => h' d (by simp [hd])) hc hc' e.2
  have allws : ∀ (ws ws' : Str) (c : Char) (r : Str), (∀ d ∈ ws, isWs d = true) → isWs c = false →
      ws ≠ ws' ++ c :: r := by
    intro ws ws' c r h hc e
    have := h c (by rw [e]; simp); rw [hc] at this; cases this
  have cut : ∀ (d : Char) (a a' r r' : Str), d ∉ a → d ∉ a' → a ++ d :: r = a' ++ d :: r' → a = a' ∧ r = r' := by
    intro d a
    induction a with
    | nil =>
      intro a' r r' _ h' e
      cases a' with
      | nil => simpa using e
      | cons b a' => simp at e; simp [← e.1] at h'
    | cons b a ih =>
      intro a' r r' h h' e
      cases a' with
      | nil => simp at e; simp [e.1] at h
      | cons b' a' =>
        simp at e h h'
        obtain ⟨h1, h2⟩ := ih a' r r' h.2 h'.2 e.2
        exact ⟨by rw [e.1, h1], h2⟩
  have hpw : isWs '(' = false := by decide
  induction h with
  | done ws hws =>
    intro ts' ok' h'
    generalize hs : ws = s' at h'
    cases h' with
    | done => exact ⟨rfl, rfl⟩
    | paren ws' body rest ts ok h1 => exact absurd hs (by simpa using allws ws ws' '(' _ hws hpw)
    | open_ ws' body => exact absurd hs (by simpa using allws ws ws' '(' _ hws hpw)
    | word ws' c w rest ts ok h1 h2 => exact absurd hs (by simpa using allws ws ws' c _ hws h2)
  | paren ws body rest ts ok hws hb _ ih =>
    intro ts' ok' h'
    generalize hs : ws ++ ['('] ++ body ++ [')'] ++ rest = s' at h'
    cases h' with
    | done _ hws' => exact absurd hs.symm (by simpa using allws s' ws '(' _ hws' hpw)
    | paren ws' body' rest' ts2 ok2 h1 h2 h3 =>
      have := key ws ws' '(' '(' (body ++ ')' :: rest) (body' ++ ')' :: rest') hws h1 hpw hpw (by simpa using hs)
      obtain ⟨e1, e2⟩ := cut _ _ _ _ _ hb h2 this.2
      subst e1; subst e2
      obtain ⟨e3, e4⟩ := ih h3
      exact ⟨by rw [e3], e4⟩
    | open_ ws' body' h1 h2 =>
      have := key ws ws' '(' '(' (body ++ ')' :: rest) body' hws h1 hpw hpw (by simpa using hs)
      exact absurd (this.2 ▸ h2) (by simp)
    | word ws' c w rest' ts2 ok2 h1 h2 h3 =>
      have := key ws ws' '(' c (body ++ ')' :: rest) (w ++ rest') hws h1 hpw h2 (by simpa using hs)
      exact absurd this.1.symm h3
  | open_ ws body hws hb =>
    intro ts' ok' h'
    generalize hs : ws ++ ['('] ++ body = s' at h'
    cases h' with
    | done _ hws' => exact absurd hs.symm (by simpa using allws s' ws '(' _ hws' hpw)
    | paren ws' body' rest' ts2 ok2 h1 h2 h3 =>
      have := key ws ws' '(' '(' body (body' ++ ')' :: rest') hws h1 hpw hpw (by simpa using hs)
      exact absurd (this.2 ▸ hb) (by simp)
    | open_ ws' body' h1 h2 => exact ⟨rfl, rfl⟩
    | word ws' c w rest' ts2 ok2 h1 h2 h3 =>
      have := key ws ws' '(' c body (w ++ rest') hws h1 hpw h2 (by simpa using hs)
      exact absurd this.1.symm h3
  | word ws c w rest ts ok hws hc hp hw hr _ ih =>
    intro ts' ok' h'
    generalize hs : ws ++ (c :: w) ++ rest = s' at h'
    cases h' with
    | done _ hws' => exact absurd hs.symm (by simpa using allws s' ws c _ hws' hc)
    | paren ws' body' rest' ts2 ok2 h1 h2 h3 =>
      have := key ws ws' c '(' (w ++ rest) (body' ++ ')' :: rest') hws h1 hc hpw (by simpa using hs)
      exact absurd this.1 hp
    | open_ ws' body' h1 h2 =>
      have := key ws ws' c '(' (w ++ rest) body' hws h1 hc hpw (by simpa using hs)
      exact absurd this.1 hp
    | word ws' c' w' rest' ts2 ok2 h1 h2 h3 h4 h5 h6 =>
      have h := key ws ws' c c' (w ++ rest) (w' ++ rest') hws h1 hc h2 (by simpa using hs)
      obtain ⟨e0, e⟩ := h
      have : w = w' ∧ rest = rest' := by
        have shape : ∀ r : Str, (r = [] ∨ r.head? = some ' ') → r = [] ∨ ∃ t, r = ' ' :: t := by
          intro r h; cases r with
          | nil => simp
          | cons a t => right; simp at h; exact ⟨t, by rw [h]⟩
        rcases shape _ hr with r1 | ⟨t, r1⟩ <;> rcases shape _ h5 with r2 | ⟨t', r2⟩ <;> subst r1 <;> subst r2
        · simpa using e
        · simp at e; exact absurd (e ▸ hw) (by simp)
        · simp at e; exact absurd (e ▸ h4) (by simp)
        · obtain ⟨a, b⟩ := cut _ _ _ _ _ hw h4 e; exact ⟨a, by rw [b]⟩
      obtain ⟨e1, e2⟩ := this
      subst e0; subst e1; subst e2
      obtain ⟨e3, e4⟩ := ih h6
      exact ⟨by rw [e3], e4⟩

/-- **C27.** Parsing a key-sequence string terminates for every string (no fuel appears in the statement) and its
result is what its unique tokenisation denotes: all tokens parsed in order, an error if one token is not a key
description or a parenthesis is left open.  Leading and trailing white space is ignored. -/
theorem key_sequence_tokenwise (x : Xkb) (s : Str) :
    ∃ ts ok, Tokens (trim s) ts ok ∧ (∀ ts' ok', Tokens (trim s) ts' ok' → ts' = ts ∧ ok' = ok) ∧
      deserializeSeq x s = denote x ts ok [] := by
  have hl : (trim s).length < s.length + 1 := by
    have h1 := @dropWhile_length_le isWs s
    have h2 := @dropWhile_length_le isWs (s.dropWhile isWs).reverse
    simp [trim, trimEnd] at *; omega
  obtain ⟨ts, ok, h1, h2⟩ := deserializeAux_tokens x (s.length + 1) (trim s) [] hl (trimEnd_trimmed _)
  refine ⟨ts, ok, h1, ?_, ?_⟩
  · intro ts' ok' h'; obtain ⟨a, b⟩ := h'.det h1; exact ⟨a, b⟩
  · rw [deserializeSeq, deserializeAux_trimEnd, h2]

/-- A successful parse yields one event per token, each never `NoSymbol`/`VoidSymbol`. -/
theorem denote_length (x : Xkb) (ts : List Str) (ok : Bool) (acc evs : List KeyEvent)
    (h : denote x ts ok acc = .ok (some evs)) : evs.length = acc.length + ts.length ∧ ok = true := by
  induction ts generalizing acc with
  | nil =>
    simp only [denote] at h
    cases ok <;> simp at h
    subst h; simp
  | cons t ts ih =>
    simp only [denote] at h
    split at h
    · cases h
    · cases h
    · obtain ⟨h1, h2⟩ := ih _ h; simp at h1 ⊢; exact ⟨by omega, h2⟩

/-- A toy keysym table: single ASCII characters name themselves, `space` is known. -/
def demoXkb : Xkb where
  fromName s := match s with
    | [c] => if c.toNat < 128 then c.toNat else 0
    | _ => if s = c%"space" then 0x20 else 0
  toChar n := if n < 128 then some (Char.ofNat n) else none

example : deserializeSeq demoXkb c%" a C-b (control  space) " =
    .ok (some [⟨97, 0⟩, ⟨98, CONTROL⟩, ⟨0x20, CONTROL⟩]) := by decide +kernel

/-- **Finding (C27).** A token whose second byte is not a character boundary makes the parser panic: a key
description starting with a kana such as "あ" (three bytes) is sliced at byte 2. -/
theorem key_description_panics (x : Xkb) (rest : Str) (h : Trimmed ('あ' :: rest)) :
    fromStr x ('あ' :: rest) = .error .index := by
  have ha : isWs 'あ' = false := by decide
  have ht : trim ('あ' :: rest) = 'あ' :: rest := by
    rw [trim_of_trimmed h, List.dropWhile_cons]; simp [ha]
  have h3 : ('あ').utf8Size = 3 := by decide
  simp only [fromStr, ht, List.head?_cons]
  rw [if_neg (by intro hh; exact absurd hh.1 (by decide))]
  have hl : utf8Len ('あ' :: rest) > 2 := by simp only [utf8Len, h3]; omega
  simp [shortForm, hl, splitTwoBytes, h3]

example : deserializeSeq demoXkb c%"a あ" = .error .index := by decide +kernel

/-- Key descriptions made of ASCII characters never panic. -/
theorem ascii_description_no_panic (x : Xkb) (s : Str) (h : ∀ c ∈ s, c.utf8Size = 1) :
    ∃ o, fromStr x s = .ok o := by
  have hmem : ∀ c ∈ trim s, c.utf8Size = 1 := by
    intro c hc
    apply h
    rw [trim, trimEnd, List.mem_reverse] at hc
    have := (List.dropWhile_suffix _).subset hc
    rw [List.mem_reverse] at this
    exact (List.dropWhile_suffix _).subset this
  have hs : ∃ p, shortForm (trim s) = .ok p := by
    unfold shortForm
    split
    · rename_i hl
      match ht : trim s, hl with
      | [], hl => simp [utf8Len] at hl
      | [a], hl => rw [ht] at hmem; simp [utf8Len, hmem a (by simp)] at hl
      | a :: b :: cs, _ =>
        rw [ht] at hmem
        simp only [splitTwoBytes, hmem a (by simp), hmem b (by simp)]
        simp only [if_true]
        rw [if_neg (by decide)]
        simp only
        repeat' split
        all_goals exact ⟨_, rfl⟩
    · exact ⟨_, rfl⟩
  obtain ⟨p, hs⟩ := hs
  simp only [fromStr, hs]
  split <;> rename_i h1 <;> split at h1 <;> first
    | (cases h1; done)
    | (split
       · exact ⟨_, rfl⟩
       · split <;> exact ⟨_, rfl⟩)

example : ∀ c ∈ c%"(control a)", c.utf8Size = 1 := by decide

/-- The white space of Unicode 16, code point by code point. -/
def whiteSpace : List Nat :=
  [0x9, 0xa, 0xb, 0xc, 0xd, 0x20, 0x85, 0xa0, 0x1680, 0x2000, 0x2001, 0x2002, 0x2003, 0x2004, 0x2005, 0x2006, 0x2007, 0x2008, 0x2009, 0x200a, 0x2028,
    0x2029, 0x202f, 0x205f, 0x3000]

/-- **C27.** Keys are separated, and texts trimmed, at exactly these characters; the full-width space is one of them. -/
theorem white_space (c : Char) : isWs c = true ↔ c.toNat ∈ whiteSpace := by
  unfold isWs whiteSpace
  simp only [Bool.or_eq_true, Bool.and_eq_true, decide_eq_true_eq, beq_iff_eq, List.mem_cons, List.not_mem_nil, or_false]
  omega

end Cskk.Props.KeyEvents

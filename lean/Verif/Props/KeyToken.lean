import Verif.Props.KeyEvent

/-!
# C47: what one key description denotes

A key description is a key name, a key name after one of the prefixes `C-`, `M-`, `A-`, `G-`, or a parenthesised list
of modifier words and key names.
-/

namespace Cskk.Props.KeyToken
open Cskk Cskk.KeyEvent Cskk.Modifier Cskk.Props.KeyEvents

/-! ## Specification -/

/-- The bits held by a modifier word (fcitx-utils `KeyState`: SHIFT 0, CONTROL 2, ALT 3, META 28; cskk's own bits 22 and
23 tell the left and the right SHIFT); `none` for a word that is no modifier. -/
def heldBy (w : Str) : Option (List Nat) :=
  (([(c%"control", [2]), (c%"meta", [28]), (c%"alt", [3]), (c%"lshift", [0, 22]), (c%"rshift", [0, 23]),
    (c%"shift", [0])] : List (Str × List Nat)).find? (·.1 == w)).map (·.2)

/-- The bit held by a one-letter prefix. -/
def heldByPrefix (p : Char) : Option Nat :=
  (([('C', 2), ('M', 28), ('A', 3), ('G', 7)] : List (Char × Nat)).find? (·.1 == p)).map (·.2)

/-- `o` is the event of the key called `name` with exactly the modifiers `bits`; there is no event when no name is
given or the name is not that of a key. -/
def Denotes (x : Xkb) (name : Option Str) (bits : List Nat) (o : Option KeyEvent) : Prop :=
  match o with
  | none => ∀ n, name = some n → x.fromName n = 0 ∨ x.fromName n = 0xffffff
  | some k => (∃ n, name = some n ∧ k.symbol = x.fromName n) ∧ k.symbol ≠ (0 : Nat) ∧ k.symbol ≠ (0xffffff : Nat) ∧
      ∀ i, k.modifiers.getLsbD i = true ↔ i ∈ bits

/-- Words separated by single spaces. -/
def spaced : List Str → Str
  | [] => []
  | [w] => w
  | w :: ws => w ++ ' ' :: spaced ws

/-! ## Lemmas -/

theorem splitOn_ne_nil (d : Char) (s : Str) : splitOn d s ≠ [] := by
  cases s with
  | nil => simp [splitOn]
  | cons c s =>
    rw [splitOn]; split
    · simp
    · split <;> simp

theorem splitOn_word (d : Char) (w : Str) (h : d ∉ w) : splitOn d w = [w] := by
  induction w with
  | nil => rfl
  | cons c w ih =>
    simp at h
    rw [splitOn, if_neg (fun e => h.1 e.symm), ih h.2]

theorem splitOn_append (d : Char) (w rest : Str) (h : d ∉ w) :
    splitOn d (w ++ d :: rest) = w :: splitOn d rest := by
  induction w with
  | nil => simp [splitOn]
  | cons c w ih =>
    simp at h
    rw [List.cons_append, splitOn, if_neg (fun e => h.1 e.symm), ih h.2]

theorem splitOn_spaced (ws : List Str) (hne : ws ≠ []) (h : ∀ w ∈ ws, ' ' ∉ w) : splitOn ' ' (spaced ws) = ws := by
  induction ws with
  | nil => exact absurd rfl hne
  | cons w ws ih =>
    cases ws with
    | nil => exact splitOn_word _ _ (h w (by simp))
    | cons v ws =>
      rw [spaced, splitOn_append _ _ _ (h w (by simp)), ih (by simp) (fun u hu => h u (by simp [hu]))]
      simp

theorem mem_spaced (ws : List Str) (c : Char) (hc : c ≠ ' ') (h : c ∈ spaced ws) : ∃ w ∈ ws, c ∈ w := by
  induction ws with
  | nil => simp [spaced] at h
  | cons w ws ih =>
    cases ws with
    | nil => exact ⟨w, by simp, h⟩
    | cons v ws =>
      rw [spaced] at h
      · rw [List.mem_append, List.mem_cons] at h
        rcases h with h | h | h
        · exact ⟨w, by simp, h⟩
        · exact absurd h hc
        · obtain ⟨u, hu, hcu⟩ := ih h; exact ⟨u, by simp [hu], hcu⟩
      · simp

/-- The bits of a modifier set after one more word. -/
theorem parenWord_bits (x : Xkb) (st : Modifier × Keysym) (w : Str) (i : Nat) :
    (parenWord x st w).1.getLsbD i = (st.1.getLsbD i || decide (i ∈ (heldBy w).getD [])) := by
  have one : ∀ b : Nat, b < 32 → ∀ m : Modifier, (set m (1#32 <<< b) true).getLsbD i = (m.getLsbD i || decide (i = b)) := by
    intro b hb m
    simp only [Modifier.set, if_true, BitVec.getLsbD_or]
    congr 1
    rw [BitVec.getLsbD_shiftLeft, BitVec.getLsbD_one]
    by_cases e : i = b
    · subst e; simp [hb]
    · simp [e]; omega
  have one0 : ∀ m : Modifier, (set m 1#32 true).getLsbD i = (m.getLsbD i || decide (i = 0)) := fun m => one 0 (by omega) m
  unfold parenWord
  by_cases h1 : w = c%"control"
  · subst h1; rw [if_pos rfl]; simp only [CONTROL, one 2 (by omega)]
    rw [show (heldBy c%"control").getD [] = [2] by decide]; simp
  rw [if_neg h1]
  by_cases h2 : w = c%"meta"
  · subst h2; rw [if_pos rfl]; simp only [META, one 28 (by omega)]
    rw [show (heldBy c%"meta").getD [] = [28] by decide]; simp
  rw [if_neg h2]
  by_cases h3 : w = c%"alt"
  · subst h3; rw [if_pos rfl]; simp only [ALT, one 3 (by omega)]
    rw [show (heldBy c%"alt").getD [] = [3] by decide]; simp
  rw [if_neg h3]
  by_cases h4 : w = c%"lshift"
  · subst h4; rw [if_pos rfl]; simp only [L_SHIFT, SHIFT, one0, one 22 (by omega)]
    rw [show (heldBy c%"lshift").getD [] = [0, 22] by decide]
    simp [Bool.or_assoc, Bool.or_comm]
  rw [if_neg h4]
  by_cases h5 : w = c%"rshift"
  · subst h5; rw [if_pos rfl]; simp only [R_SHIFT, SHIFT, one0, one 23 (by omega)]
    rw [show (heldBy c%"rshift").getD [] = [0, 23] by decide]
    simp [Bool.or_assoc, Bool.or_comm]
  rw [if_neg h5]
  by_cases h6 : w = c%"shift"
  · subst h6; rw [if_pos rfl]; simp only [SHIFT, one0]
    rw [show (heldBy c%"shift").getD [] = [0] by decide]; simp
  rw [if_neg h6]
  have : heldBy w = none := by
    simp [heldBy, List.find?,
      beq_eq_false_iff_ne.mpr (Ne.symm h1), beq_eq_false_iff_ne.mpr (Ne.symm h2), beq_eq_false_iff_ne.mpr (Ne.symm h3),
      beq_eq_false_iff_ne.mpr (Ne.symm h4), beq_eq_false_iff_ne.mpr (Ne.symm h5), beq_eq_false_iff_ne.mpr (Ne.symm h6)]
  simp [this]

/-- The key after one more word. -/
theorem parenWord_key (x : Xkb) (st : Modifier × Keysym) (w : Str) :
    (parenWord x st w).2 = if (heldBy w).isNone then x.fromName w else st.2 := by
  unfold parenWord
  by_cases h1 : w = c%"control"
  · subst h1; simp [show heldBy c%"control" = some [2] by decide]
  rw [if_neg h1]
  by_cases h2 : w = c%"meta"
  · subst h2; simp [show heldBy c%"meta" = some [28] by decide]
  rw [if_neg h2]
  by_cases h3 : w = c%"alt"
  · subst h3; simp [show heldBy c%"alt" = some [3] by decide]
  rw [if_neg h3]
  by_cases h4 : w = c%"lshift"
  · subst h4; simp [show heldBy c%"lshift" = some [0, 22] by decide]
  rw [if_neg h4]
  by_cases h5 : w = c%"rshift"
  · subst h5; simp [show heldBy c%"rshift" = some [0, 23] by decide]
  rw [if_neg h5]
  by_cases h6 : w = c%"shift"
  · subst h6; simp [show heldBy c%"shift" = some [0] by decide]
  rw [if_neg h6]
  have : heldBy w = none := by
    simp [heldBy, List.find?,
      beq_eq_false_iff_ne.mpr (Ne.symm h1), beq_eq_false_iff_ne.mpr (Ne.symm h2), beq_eq_false_iff_ne.mpr (Ne.symm h3),
      beq_eq_false_iff_ne.mpr (Ne.symm h4), beq_eq_false_iff_ne.mpr (Ne.symm h5), beq_eq_false_iff_ne.mpr (Ne.symm h6)]
  simp [this]

theorem foldl_parenWord (x : Xkb) (ws : List Str) (st : Modifier × Keysym) :
    (∀ i, (ws.foldl (parenWord x) st).1.getLsbD i =
      (st.1.getLsbD i || decide (i ∈ ws.flatMap fun w => (heldBy w).getD []))) ∧
    (ws.foldl (parenWord x) st).2 =
      match (ws.filter fun w => (heldBy w).isNone).getLast? with
      | some n => x.fromName n
      | none => st.2 := by
  induction ws generalizing st with
  | nil => simp
  | cons w ws ih =>
    obtain ⟨h1, h2⟩ := ih (parenWord x st w)
    constructor
    · intro i
      rw [List.foldl_cons, h1, parenWord_bits]
      simp [Bool.or_assoc]
    · rw [List.foldl_cons, h2, parenWord_key, List.filter_cons]
      by_cases hw : (heldBy w).isNone = true
      · rw [if_pos hw, if_pos hw, List.getLast?_cons]
        cases hl : (ws.filter fun w => (heldBy w).isNone).getLast? <;> rfl
      · rw [if_neg hw, if_neg hw]

theorem trim_of_ends {s : Str} (h1 : ∀ c, s.head? = some c → isWs c = false) (h2 : Trimmed s) : trim s = s := by
  rw [trim_of_trimmed h2]
  cases s with
  | nil => rfl
  | cons c s => rw [List.dropWhile_cons, h1 c rfl]; rfl

theorem denotes_of (x : Xkb) (name : Option Str) (bits : List Nat) (m : Modifier) (k : Keysym)
    (hk : k = match name with | some n => x.fromName n | none => KEY_VoidSymbol)
    (hb : ∀ i, m.getLsbD i = decide (i ∈ bits)) :
    ∃ o, (if k = KEY_VoidSymbol then (.ok none : R (Option KeyEvent)) else if k = KEY_NoSymbol then .ok none
      else .ok (some { symbol := k, modifiers := m })) = .ok o ∧ Denotes x name bits o := by
  by_cases h1 : k = KEY_VoidSymbol
  · refine ⟨none, by rw [if_pos h1], ?_⟩
    intro n hn; subst hn; right; rw [← show k = x.fromName n from hk]; exact h1
  by_cases h2 : k = KEY_NoSymbol
  · refine ⟨none, by rw [if_neg h1, if_pos h2], ?_⟩
    intro n hn; subst hn; left; rw [← show k = x.fromName n from hk]; exact h2
  refine ⟨some { symbol := k, modifiers := m }, by rw [if_neg h1, if_neg h2], ?_, h2, h1, ?_⟩
  · cases name with
    | none => exact absurd hk h1
    | some n => exact ⟨n, rfl, hk⟩
  · intro i; simp [hb i]

/-! ## C47 -/

/-- A parenthesised description denotes the key named by its last word that is not a modifier, with exactly the
modifiers its words name, in whatever order they come. -/
theorem paren_description (x : Xkb) (ws : List Str) (hne : ws ≠ [])
    (h : ∀ w ∈ ws, ' ' ∉ w ∧ '(' ∉ w ∧ ')' ∉ w) :
    ∃ o, fromStr x ('(' :: spaced ws ++ [')']) = .ok o ∧
      Denotes x (ws.filter fun w => (heldBy w).isNone).getLast? (ws.flatMap fun w => (heldBy w).getD []) o := by
  have ho : '(' ∉ spaced ws := fun hm => by
    obtain ⟨w, hw, hc⟩ := mem_spaced ws _ (by decide) hm; exact (h w hw).2.1 hc
  have hc : ')' ∉ spaced ws := fun hm => by
    obtain ⟨w, hw, hc⟩ := mem_spaced ws _ (by decide) hm; exact (h w hw).2.2 hc
  have htrim : trim ('(' :: spaced ws ++ [')']) = '(' :: spaced ws ++ [')'] := by
    apply trim_of_ends
    · intro c hcc; simp at hcc; subst hcc; decide
    · intro c hcc
      rw [List.getLast?_append] at hcc; simp at hcc; subst hcc; decide
  have hinner : ((('(' :: spaced ws ++ [')']).dropWhile (· == '(')).reverse.dropWhile (· == ')')).reverse = spaced ws := by
    have e1 : ('(' :: spaced ws ++ [')']).dropWhile (· == '(') = spaced ws ++ [')'] := by
      rw [List.cons_append, List.dropWhile_cons]
      simp only [beq_self_eq_true, if_true]
      cases hs : spaced ws with
      | nil => rfl
      | cons c s =>
        rw [hs] at ho; simp at ho
        rw [List.cons_append, List.dropWhile_cons, if_neg]
        simpa using fun e => ho.1 e.symm
    rw [e1, List.reverse_append]
    simp only [List.reverse_cons, List.reverse_nil, List.nil_append, List.cons_append]
    rw [List.dropWhile_cons]
    simp only [beq_self_eq_true, if_true]
    have : (spaced ws).reverse.dropWhile (· == ')') = (spaced ws).reverse := by
      cases hs : (spaced ws).reverse with
      | nil => rfl
      | cons c s =>
        have : c ∈ spaced ws := by rw [← List.mem_reverse, hs]; simp
        rw [List.dropWhile_cons, if_neg]
        simp; intro e; exact hc (e ▸ this)
    rw [this, List.reverse_reverse]
  have hf := foldl_parenWord x ws (NONE, KEY_VoidSymbol)
  simp only [fromStr, htrim]
  rw [if_pos ⟨by simp, by rw [List.getLast?_append]; simp⟩, hinner,
    splitOn_spaced ws hne (fun w hw => (h w hw).1)]
  exact denotes_of x _ _ _ _ hf.2 (fun i => by rw [hf.1 i]; simp [NONE])

/-- "X-name" denotes the key `name` with the modifier of the letter X. -/
theorem prefixed_description (x : Xkb) (p : Char) (b : Nat) (name : Str) (hp : heldByPrefix p = some b)
    (hne : name ≠ []) (hend : ∀ c, name.getLast? = some c → isWs c = false) :
    ∃ o, fromStr x (p :: '-' :: name) = .ok o ∧ Denotes x (some name) [b] o := by
  have hlen : utf8Len (p :: '-' :: name) > 2 := by
    cases name with
    | nil => exact absurd rfl hne
    | cons c s =>
      simp only [utf8Len]
      have := Char.utf8Size_pos p; have := Char.utf8Size_pos '-'; have := Char.utf8Size_pos c; omega
  have hlast : (p :: '-' :: name).getLast? = name.getLast? := by
    cases name with
    | nil => exact absurd rfl hne
    | cons c s => rfl
  have hcases : (p = 'C' ∧ b = 2) ∨ (p = 'M' ∧ b = 28) ∨ (p = 'A' ∧ b = 3) ∨ (p = 'G' ∧ b = 7) := by
    by_cases h1 : p = 'C'
    · subst h1; simp [heldByPrefix] at hp; exact .inl ⟨rfl, hp.symm⟩
    by_cases h2 : p = 'M'
    · subst h2; simp [heldByPrefix] at hp; exact .inr (.inl ⟨rfl, hp.symm⟩)
    by_cases h3 : p = 'A'
    · subst h3; simp [heldByPrefix] at hp; exact .inr (.inr (.inl ⟨rfl, hp.symm⟩))
    by_cases h4 : p = 'G'
    · subst h4; simp [heldByPrefix] at hp; exact .inr (.inr (.inr ⟨rfl, hp.symm⟩))
    · exfalso
      simp [heldByPrefix, List.find?, beq_eq_false_iff_ne.mpr (Ne.symm h1), beq_eq_false_iff_ne.mpr (Ne.symm h2),
        beq_eq_false_iff_ne.mpr (Ne.symm h3), beq_eq_false_iff_ne.mpr (Ne.symm h4)] at hp
  have hws : isWs p = false := by rcases hcases with ⟨rfl, _⟩ | ⟨rfl, _⟩ | ⟨rfl, _⟩ | ⟨rfl, _⟩ <;> decide
  have hpar : p ≠ '(' := by rcases hcases with ⟨rfl, _⟩ | ⟨rfl, _⟩ | ⟨rfl, _⟩ | ⟨rfl, _⟩ <;> decide
  have htrim : trim (p :: '-' :: name) = p :: '-' :: name := by
    apply trim_of_ends
    · intro c hc; simp at hc; subst hc; exact hws
    · intro c hc; rw [hlast] at hc; exact hend c hc
  simp only [fromStr, htrim]
  rw [if_neg (by simp [hpar])]
  have hbit : ∀ m : Modifier, ∀ j, j < 32 → m = 1#32 <<< j → ∀ i, (set NONE m true).getLsbD i = decide (i ∈ [j]) := by
    intro m j hj hm i
    subst hm
    simp only [Modifier.set, if_true, BitVec.getLsbD_or]
    rw [BitVec.getLsbD_shiftLeft, BitVec.getLsbD_one]
    by_cases e : i = j
    · subst e; simp [hj, NONE]
    · simp [e, NONE]; omega
  have hsz : ('-').utf8Size = 1 := by decide
  rcases hcases with ⟨rfl, rfl⟩ | ⟨rfl, rfl⟩ | ⟨rfl, rfl⟩ | ⟨rfl, rfl⟩
  · have : shortForm ('C' :: '-' :: name) = .ok (set NONE CONTROL true, name) := by
      simp [shortForm, hlen, splitTwoBytes, hsz, show ('C').utf8Size = 1 by decide]
    simp only [this]
    exact denotes_of x _ _ _ _ rfl (hbit _ _ (by omega) rfl)
  · have : shortForm ('M' :: '-' :: name) = .ok (set NONE META true, name) := by
      simp [shortForm, hlen, splitTwoBytes, hsz, show ('M').utf8Size = 1 by decide]
    simp only [this]
    exact denotes_of x _ _ _ _ rfl (hbit _ _ (by omega) rfl)
  · have : shortForm ('A' :: '-' :: name) = .ok (set NONE ALT true, name) := by
      simp [shortForm, hlen, splitTwoBytes, hsz, show ('A').utf8Size = 1 by decide]
    simp only [this]
    exact denotes_of x _ _ _ _ rfl (hbit _ _ (by omega) rfl)
  · have : shortForm ('G' :: '-' :: name) = .ok (set NONE MOD5 true, name) := by
      simp [shortForm, hlen, splitTwoBytes, hsz, show ('G').utf8Size = 1 by decide]
    simp only [this]
    exact denotes_of x _ _ _ _ rfl (hbit _ _ (by omega) rfl)

/-- Any other description in ASCII is a key name without modifiers. -/
theorem plain_description (x : Xkb) (s : Str) (hascii : ∀ c ∈ s, c.utf8Size = 1)
    (hb : ∀ c, s.head? = some c → isWs c = false) (hend : ∀ c, s.getLast? = some c → isWs c = false)
    (hpar : ¬ (s.head? = some '(' ∧ s.getLast? = some ')'))
    (hpre : ∀ p b name, heldByPrefix p = some b → name ≠ [] → s ≠ p :: '-' :: name) :
    ∃ o, fromStr x s = .ok o ∧ Denotes x (some s) [] o := by
  have htrim : trim s = s := trim_of_ends hb hend
  have hs : shortForm s = .ok (NONE, s) := by
    unfold shortForm
    split
    · rename_i hl
      match s, hl with
      | [], hl => simp [utf8Len] at hl
      | [a], hl => simp [utf8Len, hascii a (by simp)] at hl
      | [a, b], hl => simp [utf8Len, hascii a (by simp), hascii b (by simp)] at hl
      | a :: b :: c :: cs, _ =>
        have e : splitTwoBytes (a :: b :: c :: cs) = .ok ([a, b], c :: cs) := by
          simp [splitTwoBytes, hascii a (by simp), hascii b (by simp)]
        simp only [e]
        have no : ∀ q : Char, (heldByPrefix q).isSome → ¬ ([a, b] : Str) = [q, '-'] := by
          intro q hq he
          simp at he
          obtain ⟨n, hn⟩ := Option.isSome_iff_exists.mp hq
          exact hpre q n (c :: cs) hn (by simp) (by rw [he.1, he.2])
        rw [if_neg (no 'C' (by decide)), if_neg (no 'M' (by decide)), if_neg (no 'A' (by decide)),
          if_neg (no 'G' (by decide))]
    · rfl
  simp only [fromStr, htrim]
  rw [if_neg hpar, hs]
  exact denotes_of x _ _ _ _ rfl (by simp [NONE])

example : fromStr demoXkb c%"(lshift alt a)" = .ok (some ⟨97, 0x400009#32⟩) := by decide +kernel
example : (∀ w ∈ [c%"lshift", c%"alt", c%"a"], ' ' ∉ w ∧ '(' ∉ w ∧ ')' ∉ w) ∧
    '(' :: spaced [c%"lshift", c%"alt", c%"a"] ++ [')'] = c%"(lshift alt a)" := by decide +kernel
example : fromStr demoXkb c%"G-a" = .ok (some ⟨97, 0x80#32⟩) ∧ fromStr demoXkb c%"M-" = .ok none := by decide +kernel

/-! ## The key lists of a rule -/

/-- Specification: the keys spelled by the characters of a text; characters that are not the name of a key are
passed over. -/
inductive Spelling (x : Xkb) : Str → List Keysym → Prop
  | nil : Spelling x [] []
  | key (c : Char) (s : Str) (ks) : x.fromName [c] ≠ 0 → Spelling x s ks → Spelling x (c :: s) (x.fromName [c] :: ks)
  | skip (c : Char) (s : Str) (ks) : x.fromName [c] = 0 → Spelling x s ks → Spelling x (c :: s) ks

/-- Specification: the keys of a list of words: a word that is the name of a key is that key, any other word is
spelled out. White space other than spaces around a word does not count. -/
inductive WordKeys (x : Xkb) : List Str → List Keysym → Prop
  | nil : WordKeys x [] []
  | named (w : Str) (ws ks) : x.fromName (trim w) ≠ 0 → WordKeys x ws ks → WordKeys x (w :: ws) (x.fromName (trim w) :: ks)
  | spelled (w : Str) (ws ks ks') : x.fromName (trim w) = 0 → Spelling x (trim w) ks → WordKeys x ws ks' →
      WordKeys x (w :: ws) (ks ++ ks')

theorem spelling_eq (x : Xkb) (s : Str) (ks : List Keysym) :
    Spelling x s ks ↔ ks = (s.map fun c => x.fromName [c]).filter (· != KEY_NoSymbol) := by
  constructor
  · intro h
    induction h with
    | nil => rfl
    | key c s ks hk _ ih =>
      rw [List.map_cons, List.filter_cons, if_pos (by simpa [KEY_NoSymbol] using hk), ← ih]
    | skip c s ks hk _ ih =>
      rw [List.map_cons, List.filter_cons, if_neg (by simpa [KEY_NoSymbol] using hk), ← ih]
  · intro h
    subst h
    induction s with
    | nil => exact .nil
    | cons c s ih =>
      rw [List.map_cons, List.filter_cons]
      by_cases hk : x.fromName [c] = KEY_NoSymbol
      · rw [if_neg (by simpa using hk)]; exact .skip _ _ _ hk ih
      · rw [if_pos (by simpa using hk)]; exact .key _ _ _ hk ih

/-- The keys of a rule's text are those of its words, in order. -/
theorem rule_keys (x : Xkb) (ws : List Str) (hne : ws ≠ []) (h : ∀ w ∈ ws, ' ' ∉ w) (ks : List Keysym) :
    keysymsFromStr x (spaced ws) = ks ↔ WordKeys x ws ks := by
  rw [keysymsFromStr, splitOn_spaced ws hne h]
  clear hne h
  constructor
  · intro e
    induction ws generalizing ks with
    | nil => subst e; exact .nil
    | cons w ws ih =>
      rw [List.flatMap_cons] at e
      subst e
      by_cases hk : x.fromName (trim w) = KEY_NoSymbol
      · rw [if_pos hk]
        exact .spelled _ _ _ _ hk ((spelling_eq x _ _).mpr rfl) (ih _ rfl)
      · rw [if_neg hk]
        exact .named _ _ _ hk (ih _ rfl)
  · intro e
    induction e with
    | nil => rfl
    | named w ws ks hk _ ih =>
      rw [List.flatMap_cons, ih]; simp only
      rw [if_neg (show ¬ x.fromName (trim w) = KEY_NoSymbol from hk)]; rfl
    | spelled w ws ks ks' hk hs _ ih =>
      rw [List.flatMap_cons, ih]; simp only
      rw [if_pos (show x.fromName (trim w) = KEY_NoSymbol from hk), (spelling_eq x _ _).mp hs]

example : keysymsFromStr demoXkb c%"k space yaあ" = [0x6b, 0x20, 0x79, 0x61] := by decide +kernel

end Cskk.Props.KeyToken

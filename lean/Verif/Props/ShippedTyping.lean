import Verif.Props.Words

/-!
# C25, C44 with the shipped rules: what a user types and gets
-/

namespace Cskk.Props.ShippedTyping
open Spec Spec.Typing Romaji KanaBuilder Navigate Convert Typing Words

/-- The printable keys which are commands in direct kana input and while typing a reading, with the default rule. -/
def defaultCommandKeys : CompositionMode → List Char
  | .direct => ['l', 'L', 'q', 'Q', '/']
  | _ => [' ', 'q', 'Q']

/-- The same with the AZIK rule. -/
def azikCommandKeys : CompositionMode → List Char
  | .direct => ['l', 'L', '@', '{', '/']
  | _ => [' ', '@']

theorem noCommand_of (r : CommandRule) (l : List Char) (m : CompositionMode) (im : InputMode)
    (h : ∀ k ∈ r m im, (k.1.symbol < 0x20 ∨ 0x7e < k.1.symbol) ∨ k.1.modifiers ≠ 0 ∨ k.1.symbol ∈ l.map Char.toNat)
    (ch : Char) (h1 : 0x20 ≤ ch.toNat) (h2 : ch.toNat ≤ 0x7e) (hl : ch ∉ l) :
    ∀ k ∈ r m im, ¬ KeyMatches k.1 ⟨ch.toNat, 0⟩ := by
  intro k hk hx
  have hs : k.1.symbol = ch.toNat := hx.1
  rcases h k hk with h | h | h
  · rw [hs] at h; exact h.elim (fun h => absurd h1 (Nat.not_le_of_lt h)) (fun h => absurd h2 (Nat.not_le_of_lt h))
  · apply h
    rw [← matchingKey_iff] at hx
    rw [hx]; unfold CommandRule.matchingKey
    split
    · show (0 : Modifier) &&& _ = 0
      exact BitVec.zero_and
    · rfl
  · rw [hs] at h
    obtain ⟨c', hc', he⟩ := List.mem_map.mp h
    have : c' = ch := by
      have := congrArg Char.ofNat he
      simpa using this
    exact hl (this ▸ hc')

/-- With the shipped rules, a printable key which is not listed above is no command in the kana modes. -/
theorem shipped_noCommand (c : Ctx) (hr : RomajiMode c) (ch : Char) (h1 : 0x20 ≤ ch.toNat) (h2 : ch.toNat ≤ 0x7e)
    (h : c.cmds = Assets.defaultCommands ∧ ch ∉ defaultCommandKeys c.top.mode ∨
      c.cmds = Assets.azikCommands ∧ ch ∉ azikCommandKeys c.top.mode) : NoCommand c ⟨ch.toNat, 0⟩ := by
  unfold NoCommand
  rcases h with ⟨h, hl⟩ | ⟨h, hl⟩ <;> rw [h]
  · refine noCommand_of _ (defaultCommandKeys c.top.mode) _ _ ?_ ch h1 h2 hl
    obtain ⟨a, b⟩ := hr
    rcases a with a | a | a <;> rw [a] <;> rcases b with b | b | b <;> rw [b] <;> decide +kernel
  · refine noCommand_of _ (azikCommandKeys c.top.mode) _ _ ?_ ch h1 h2 hl
    obtain ⟨a, b⟩ := hr
    rcases a with a | a | a <;> rw [a] <;> rcases b with b | b | b <;> rw [b] <;> decide +kernel

theorem shipped_key (p : Bool) (ch : Char) (h1 : 0x20 ≤ ch.toNat) (h2 : ch.toNat ≤ 0x7e) :
    Key (Assets.env ⟨p⟩) ⟨ch.toNat, 0⟩ ch := by
  refine ⟨rfl, ?_, ?_⟩
  · rintro ⟨i, _, hb⟩; simp at hb
  · show Assets.xkb.toChar ch.toNat = some ch
    unfold Assets.xkb
    simp only [h1, h2, and_self, if_true, Char.ofNat_toNat]

/-- The shipped tables have no capital letters (except the U of `tU` in the AZIK table) and no empty entry. -/
theorem shipped_tables : ∀ t, (t = Assets.defaultRomaji ∨ t = Assets.azikRomaji) →
    (∀ x ∈ t, ∀ k ∈ x.1, 0x41 ≤ k → k ≤ 0x5a → t = Assets.azikRomaji ∧ k = 0x55) ∧ valueOf t [] = none := by
  have h1 : (∀ x ∈ Assets.defaultRomaji, ∀ k ∈ x.1, ¬ (0x41 ≤ k ∧ k ≤ 0x5a)) ∧ valueOf Assets.defaultRomaji [] = none := by
    decide +kernel
  have h2 : (∀ x ∈ Assets.azikRomaji, ∀ k ∈ x.1, 0x41 ≤ k → k ≤ 0x5a → k = 0x55) ∧ valueOf Assets.azikRomaji [] = none := by
    decide +kernel
  rintro t (rfl | rfl)
  · exact ⟨fun x hx k hk a b => absurd ⟨a, b⟩ (h1.1 x hx k hk), h1.2⟩
  · exact ⟨fun x hx k hk a b => ⟨rfl, h2.1 x hx k hk a b⟩, h2.2⟩

/-- One of the shipped rules is in use: its table, and the keys which are commands in mode `m`. -/
inductive Shipped (c : Ctx) : Table → (CompositionMode → List Char) → Prop where
  | default (h1 : c.cmds = Assets.defaultCommands) (h2 : c.kanaConv = Assets.defaultKana) :
      Shipped c Assets.defaultRomaji defaultCommandKeys
  | azik (h1 : c.cmds = Assets.azikCommands) (h2 : c.kanaConv = Assets.azikKana) :
      Shipped c Assets.azikRomaji azikCommandKeys

theorem Shipped.kana {c : Ctx} {tbl : Table} {ks : CompositionMode → List Char} (h : Shipped c tbl ks) :
    c.kanaConv = ofTable tbl := by
  cases h with
  | default _ h => exact h
  | azik _ h => exact h

theorem Shipped.noCommand {c : Ctx} {tbl : Table} {ks : CompositionMode → List Char} (h : Shipped c tbl ks)
    (hr : RomajiMode c) (ch : Char) (h1 : 0x20 ≤ ch.toNat) (h2 : ch.toNat ≤ 0x7e) (hl : ch ∉ ks c.top.mode) :
    NoCommand c ⟨ch.toNat, 0⟩ := by
  apply shipped_noCommand c hr ch h1 h2
  cases h with
  | default h => exact Or.inl ⟨h, hl⟩
  | azik h => exact Or.inr ⟨h, hl⟩

theorem Shipped.table {c : Ctx} {tbl : Table} {ks : CompositionMode → List Char} (h : Shipped c tbl ks) :
    (∀ x ∈ tbl, ∀ k ∈ x.1, 0x41 ≤ k → k ≤ 0x5a → tbl = Assets.azikRomaji ∧ k = 0x55) ∧ valueOf tbl [] = none := by
  apply shipped_tables
  cases h with
  | default => exact Or.inl rfl
  | azik => exact Or.inr rfl

theorem typed_pairs (t : Str) : typed t = (t.map fun ch => ((⟨ch.toNat, 0⟩ : KeyEvent), ch)).map Prod.fst := by
  simp [typed, Function.comp_def]

theorem pairs_snd (t : Str) : (t.map fun ch => ((⟨ch.toNat, 0⟩ : KeyEvent), ch)).map Prod.snd = t := by
  simp [Function.comp_def]

/-- **C25 with the shipped rules.** A text without capital letters and command keys, which spells kana in the table, commits
these kana. -/
theorem shipped_spelled (p : Bool) (c : Ctx) (tbl : Table) (ks : CompositionMode → List Char) (h : Shipped c tbl ks)
    (hr : RomajiMode c) (hm : c.top.mode = .direct) (hpre : c.top.pre = []) (t : Str) (ws : List Str)
    (ht : ∀ ch ∈ t, Plain ch ∧ ch ∉ ks .direct) (hs : Spells tbl [] t ws) :
    ∃ c', c.processKeyEvents (Assets.env ⟨p⟩) (typed t) = .ok c' ∧ c'.top.pre = [] ∧ c'.top.mode = .direct ∧
      c'.below = c.below ∧ c'.dicts = c.dicts ∧
      c'.top.confirmed = c.top.confirmed ++ (ws.map ((Assets.env ⟨p⟩).kanaForm.adjust c.top.inputMode)).flatten := by
  rw [typed_pairs]
  apply spelled_direct (Assets.env ⟨p⟩) c tbl _ ws h.kana hr hm
  · intro x hx
    obtain ⟨ch, hch, rfl⟩ := List.mem_map.mp hx
    exact ⟨(ht ch hch).1, shipped_key p ch (ht ch hch).1.1 (ht ch hch).1.2.1⟩
  · apply undisturbed_of_noCommand
    intro x hx
    obtain ⟨ch, hch, rfl⟩ := List.mem_map.mp hx
    exact h.noCommand hr ch (ht ch hch).1.1 (ht ch hch).1.2.1 (by rw [hm]; exact (ht ch hch).2)
  · rw [pairs_snd, hpre]; exact hs

/-- `kekkonsiki` spells `けっこんしき`. -/
theorem kekkonsiki : Spells Assets.defaultRomaji [] c%"kekkonsiki" [c%"け", c%"っ", c%"こ", c%"ん", c%"し", c%"き"] := by
  refine .piece [] c%"ke" c%"kkonsiki" _ [] _ (by decide) (by decide +kernel) (by decide +kernel) (by decide) ?_
  refine .piece [] c%"kk" c%"onsiki" _ [0x6b] _ (by decide) (by decide +kernel) (by decide +kernel) (by decide) ?_
  refine .piece [0x6b] c%"o" c%"nsiki" _ [] _ (by decide) (by decide +kernel) (by decide +kernel) (by decide) ?_
  refine .short [] c%"n" c%"iki" 's' _ [] _ (by decide +kernel) (fun _ => by decide +kernel) (by decide +kernel) (by decide)
    (by decide +kernel) (by decide +kernel) (by decide) ?_
  refine .piece [] c%"si" c%"ki" _ [] _ (by decide) (by decide +kernel) (by decide +kernel) (by decide) ?_
  refine .piece [] c%"ki" [] _ [] _ (by decide) (by decide +kernel) (by decide +kernel) (by decide) ?_
  exact .done

/-- The hypotheses are met, in half-width katakana input. -/
example (p : Bool) : ∃ c', (WillProcess.start .hankakuKatakana).processKeyEvents (Assets.env ⟨p⟩) (typed c%"kekkonsiki") = .ok c' ∧
    c'.top.confirmed = c%"ｹｯｺﾝｼｷ" := by
  obtain ⟨c', h1, _, _, _, _, h2⟩ := shipped_spelled p (WillProcess.start .hankakuKatakana) _ _ (.default rfl rfl)
    ⟨Or.inl rfl, Or.inr (Or.inr rfl)⟩ rfl rfl _ _ (by decide +kernel) kekkonsiki
  refine ⟨c', h1, h2.trans ?_⟩
  cases p <;> decide +kernel

/-- **Violation.** Pending keys are lost, not written, if the next key is kana by itself: the `n` of `kan-`, which would be
written before any other letter, does not appear. -/
theorem pending_dropped (p : Bool) :
    (((WillProcess.start .hiragana).processKeyEvents (Assets.env ⟨p⟩) (typed c%"kan-")).toOption.map
      fun c => c.pollOutput.2) = some (some c%"かー") ∧
    (((WillProcess.start .hiragana).processKeyEvents (Assets.env ⟨p⟩) (typed c%"kan.")).toOption.map
      fun c => c.pollOutput.2) = some (some c%"かん。") ∧
    (((WillProcess.start .hiragana).processKeyEvents (Assets.env ⟨p⟩) (typed c%"kans")).toOption.map
      fun c => c.pollOutput.2) = some (some c%"かん") := by
  cases p <;> decide +kernel

/-! ## Words -/

theorem shipped_capital (p : Bool) (c : Ctx) (tbl : Table) (ks : CompositionMode → List Char) (h : Shipped c tbl ks)
    (up lo : Char) (hup : up.toNat + 0x20 = lo.toNat) (hlo : 0x61 ≤ lo.toNat ∧ lo.toNat ≤ 0x7a) (hU : up ≠ 'U') :
    Capital (Assets.env ⟨p⟩) tbl ⟨up.toNat, 0⟩ lo.toNat := by
  have h1 : 0x41 ≤ up.toNat := by omega
  have h2 : up.toNat ≤ 0x5a := by omega
  refine ⟨hlo, hup, ?_, ⟨up, (shipped_key p up (by omega) (by omega)).char, ?_⟩, ?_⟩
  · rintro ⟨i, _, hb⟩; simp at hb
  · constructor <;> (rintro rfl; revert h1; decide)
  · intro x hx hmem
    have := (h.table.1 x hx _ hmem h1 h2).2
    apply hU
    have := congrArg Char.ofNat this
    simpa using this

/-- A level as it is before a word is typed. -/
structure Fresh (c : Ctx) : Prop where
  rom : RomajiMode c
  mode : c.top.mode = .direct
  pre : c.top.pre = []
  kana : c.top.kana = []
  raw : c.top.raw = []
  okuri : c.top.okuri = []
  capital : c.top.capital = false
  history : c.top.history.length ≤ 20

/-- **C44 with the shipped rules.** A word with a capital first letter, then space: the words for its kana are offered. -/
theorem shipped_word (p : Bool) (c : Ctx) (tbl : Table) (ks : CompositionMode → List Char) (h : Shipped c tbl ks)
    (hf : Fresh c) (up lo : Char) (hup : up.toNat + 0x20 = lo.toNat) (hlo : 0x61 ≤ lo.toNat ∧ lo.toNat ≤ 0x7a)
    (hU : up ≠ 'U') (hcu : up ∉ ks .direct) (hb : begins tbl [lo.toNat] = true) (t : Str) (ws : List Str)
    (ht : ∀ ch ∈ t, Plain ch ∧ ch ∉ ks .preComposition) (hs : Spells tbl [] (lo :: t) ws)
    (hq : ∀ v, v <+: ws → Quiet c v.flatten)
    (x : Candidate) (xs : List Candidate) (hx : Dicts.getAll c.dicts ⟨ws.flatten, none⟩ = .ok (x :: xs)) :
    ∃ c', c.processKeyEvents (Assets.env ⟨p⟩) (typed (up :: t ++ [' '])) = .ok c' ∧ c'.below = c.below ∧
      c'.dicts = c.dicts ∧ c'.candidates = x :: xs ∧ c'.cursorPosition = some 0 ∧
      c'.top.preeditString (Assets.env ⟨p⟩) c'.top.inputMode =
        c.top.confirmed ++ '▼' :: (x.output ++ (Assets.env ⟨p⟩).kanaForm.adjust c.top.inputMode []) := by
  have hnc := h.noCommand hf.rom up (by omega) (by omega) (by rw [hf.mode]; exact hcu)
  have hop : Shipped (opened c) tbl ks := by
    cases h with
    | default a b => exact .default a b
    | azik a b => exact .azik a b
  have hopr : RomajiMode (opened c) := ⟨Or.inr (Or.inl rfl), hf.rom.2⟩
  have hsp := shipped_space (opened c) (Or.inl rfl)
    (by obtain ⟨_, h | h | h⟩ := hf.rom <;> (constructor <;> (intro h'; have := h.symm.trans h'; cases this)))
    (by cases h with
      | default a b => exact Or.inl ⟨a, b⟩
      | azik a b => exact Or.inr ⟨a, b⟩)
  have hev : typed (up :: t ++ [' ']) =
      (⟨up.toNat, 0⟩ : KeyEvent) :: (t.map fun ch => ((⟨ch.toNat, 0⟩ : KeyEvent), ch)).map Prod.fst ++ [⟨0x20, 0⟩] := by
    rw [← typed_pairs]; simp [typed]
  rw [hev]
  refine word_converted (Assets.env ⟨p⟩) c tbl ⟨up.toNat, 0⟩ lo _ ws h.kana hf.rom hf.mode hf.okuri hf.history
    hf.capital hf.pre (shipped_capital p c tbl ks h up lo hup hlo hU) (Or.inr ⟨hb, hnc⟩) ?_ ?_ (by rw [pairs_snd]; exact hs)
    ⟨hf.kana, hf.raw⟩ hq ⟨0x20, 0⟩ hsp.1 (by unfold IsRelease; decide) ?_ h.table.2 x xs hx
  · intro y hy
    obtain ⟨ch, hch, rfl⟩ := List.mem_map.mp hy
    exact ⟨(ht ch hch).1, shipped_key p ch (ht ch hch).1.1 (ht ch hch).1.2.1⟩
  · apply undisturbed_of_noCommand
    intro y hy
    obtain ⟨ch, hch, rfl⟩ := List.mem_map.mp hy
    exact hop.noCommand hopr ch (ht ch hch).1.1 (ht ch hch).1.2.1 (ht ch hch).2
  · cases h with
    | default => decide +kernel
    | azik => decide +kernel

/-- A context with one word. -/
def wedding : Ctx :=
  let d : CskkDict := ⟨true, .static ⟨[], [(c%"けっこんしき", ⟨c%"けっこんしき", false, [([], [⟨c%"結婚式", none⟩])]⟩)]⟩⟩
  Ctx.new Assets.defaultCommands Assets.defaultKana .hiragana .direct [d]

example (p : Bool) : ∃ c', wedding.processKeyEvents (Assets.env ⟨p⟩) (typed c%"Kekkonsiki ") = .ok c' ∧
    c'.candidates.map Candidate.output = [c%"結婚式"] := by
  obtain ⟨c', h1, _, _, h2, _⟩ := shipped_word p wedding _ _ (.default rfl rfl)
    ⟨⟨Or.inl rfl, Or.inl rfl⟩, rfl, rfl, rfl, rfl, rfl, rfl, by decide⟩ 'K' 'k' (by decide) (by decide) (by decide) (by decide)
    (by decide +kernel) c%"ekkonsiki" _ (by decide +kernel) kekkonsiki
    (by
      intro v hv kw hkw hsuf
      have : kw ≠ [] ∧ ∀ ch ∈ kw, ch ∉ [c%"け", c%"っ", c%"こ", c%"ん", c%"し", c%"き"].flatten := by
        revert kw
        have : ∀ kw ∈ wedding.config.keywords, kw ≠ [] ∧ ∀ ch ∈ kw, ch ∉ [c%"け", c%"っ", c%"こ", c%"ん", c%"し", c%"き"].flatten := by
          decide +kernel
        exact fun kw hkw _ => this kw hkw
      cases kw with
      | nil => exact absurd rfl this.1
      | cons a l =>
        exfalso
        obtain ⟨r, hr⟩ := hv
        refine this.2 a (by simp) ?_
        rw [← hr, List.flatten_append]
        exact List.mem_append_left _ (hsuf.subset (by simp)))
    ⟨c%"けっこんしき", none, false, c%"結婚式", none, c%"結婚式"⟩ [] (by decide +kernel)
  exact ⟨c', h1, by rw [h2]; rfl⟩

/-- A context with the verb 送る and the noun 奥. -/
def send : Ctx :=
  let d : CskkDict := ⟨true, .static
    ⟨[(c%"おくr", ⟨c%"おくr", true, [([], [⟨c%"送", none⟩]), (c%"っ", [⟨c%"贈", none⟩])]⟩)],
      [(c%"おく", ⟨c%"おく", false, [([], [⟨c%"奥", none⟩])]⟩)]⟩⟩
  Ctx.new Assets.defaultCommands Assets.defaultKana .hiragana .direct [d]

theorem oku : Spells Assets.defaultRomaji [] c%"oku" [c%"お", c%"く"] := by
  refine .piece [] c%"o" c%"ku" _ [] _ (by decide) (by decide +kernel) (by decide +kernel) (by decide) ?_
  refine .piece [] c%"ku" [] _ [] _ (by decide) (by decide +kernel) (by decide +kernel) (by decide) ?_
  exact .done

theorem oku_quiet (v : List Str) (hv : v <+: [c%"お", c%"く"]) : Quiet send v.flatten := by
  intro kw hkw hsuf
  have : ∀ kw ∈ send.config.keywords, kw ≠ [] ∧ ∀ ch ∈ kw, ch ∉ [c%"お", c%"く"].flatten := by decide +kernel
  have := this kw hkw
  cases kw with
  | nil => exact absurd rfl this.1
  | cons a l =>
    exfalso
    obtain ⟨r, hr⟩ := hv
    refine this.2 a (by simp) ?_
    rw [← hr, List.flatten_append]
    exact List.mem_append_left _ (hsuf.subset (by simp))

/-- The hypotheses of `okuri_word_converted` are met by `OkuRu`. -/
example (p : Bool) : ∃ r : State, send.processKeyEvents (Assets.env ⟨p⟩) (typed c%"OkuRu") =
      .ok (converted send r [⟨c%"おくr", some c%"る", true, c%"送", none, c%"送"⟩]) ∧ r.kana = c%"おく" ∧ r.okuri = c%"る" := by
  have hs : Shipped send _ _ := .default rfl rfl
  have hpl : ∀ t : Str, (∀ ch ∈ t, Plain ch) → ∀ x ∈ t.map (fun ch => ((⟨ch.toNat, 0⟩ : KeyEvent), ch)),
      Plain x.2 ∧ Key (Assets.env ⟨p⟩) x.1 x.2 := by
    intro t ht x hx
    obtain ⟨ch, hch, rfl⟩ := List.mem_map.mp hx
    exact ⟨ht ch hch, shipped_key p ch (ht ch hch).1 (ht ch hch).2.1⟩
  obtain ⟨r, h1, h2, h3, _⟩ := okuri_word_converted (Assets.env ⟨p⟩) send _ ⟨0x4f, 0⟩ ⟨0x52, 0⟩ 'o' 'r'
    (c%"ku".map fun ch => (⟨ch.toNat, 0⟩, ch)) (c%"u".map fun ch => (⟨ch.toNat, 0⟩, ch)) [c%"お", c%"く"] c%"る"
    hs.kana ⟨Or.inl rfl, Or.inl rfl⟩ rfl rfl (by decide) rfl rfl ⟨rfl, rfl⟩
    (shipped_capital p send _ _ hs 'O' 'o' (by decide) (by decide) (by decide))
    (Or.inl (by decide +kernel)) (hpl _ (by decide))
    (undisturbed_of_noCommand _ _ _ _ (by
      intro x hx
      obtain ⟨ch, hch, rfl⟩ := List.mem_map.mp hx
      have hch' : Plain ch ∧ ch ∉ defaultCommandKeys .preComposition := by revert ch; decide
      exact (show Shipped (opened send) _ _ from .default rfl rfl).noCommand ⟨Or.inr (Or.inl rfl), Or.inl rfl⟩ ch
        hch'.1.1 hch'.1.2.1 hch'.2))
    (by rw [pairs_snd]; exact oku) oku_quiet (by decide)
    (shipped_capital p send _ _ hs 'R' 'r' (by decide) (by decide) (by decide))
    ((show Shipped (opened send) _ _ from .default rfl rfl).noCommand ⟨Or.inr (Or.inl rfl), Or.inl rfl⟩ 'R'
        (by decide) (by decide) (by decide))
    (by decide +kernel) (by decide +kernel) (hpl _ (by decide))
    (by
      intro x hx
      obtain ⟨ch, hch, rfl⟩ := List.mem_map.mp hx
      have hch' : Plain ch ∧ ch ∉ defaultCommandKeys .preCompositionOkurigana := by revert ch; decide
      exact noCommand_of _ (defaultCommandKeys .preCompositionOkurigana) _ _ (by decide +kernel) ch hch'.1.1 hch'.1.2.1
        hch'.2)
    (.last [0x72] c%"u" c%"る" (by decide) (by decide +kernel) (by decide +kernel) (by decide)) (by decide)
    [⟨c%"おくr", some c%"る", true, c%"送", none, c%"送"⟩] (by decide +kernel)
  exact ⟨r, h1, h2, h3⟩

/-- `▽おく` typed. -/
def sendOku : Ctx := { send with top := { send.top with mode := .preComposition, kana := c%"おく", raw := c%"おく" } }

/-- The hypotheses of `keyword_converts` are met. -/
example (p : Bool) : sendOku.processKeyEvent (Assets.env ⟨p⟩) ⟨0x2e, 0⟩ =
    .ok (converted sendOku { sendOku.top with okuri := c%"。" } [⟨c%"おく", none, false, c%"奥", none, c%"奥"⟩], true) :=
  keyword_converts (Assets.env ⟨p⟩) sendOku Assets.defaultRomaji ⟨0x2e, 0⟩ '.' rfl ⟨Or.inr (Or.inl rfl), Or.inl rfl⟩ rfl rfl
    (by decide) (shipped_key p '.' (by decide) (by decide))
    (Or.inr ((show Shipped sendOku _ _ from .default rfl rfl).noCommand ⟨Or.inr (Or.inl rfl), Or.inl rfl⟩ '.' (by decide)
      (by decide) (by decide)))
    (by decide) rfl (by decide +kernel) [.kana c%"。"] false (by decide +kernel) c%"おく" c%"。" rfl (by decide)
    [] [c%"、", c%"」", c%"』"] rfl (by simp) _ rfl _ (by decide +kernel)

/-- `keyword_converts`: a full stop after the reading converts it. -/
example (p : Bool) : ((send.processKeyEvents (Assets.env ⟨p⟩) (typed c%"Oku.")).toOption.map
    fun c => (c.candidates.map Candidate.output, c.preedit (Assets.env ⟨p⟩))) = some ([c%"奥"], c%"▼奥。") := by
  cases p <;> decide +kernel

end Cskk.Props.ShippedTyping

import Verif.Spec.Document
import Verif.Props.TypeOn
import Verif.Props.Teach
import Verif.Props.ModeKeys
import Verif.Props.Output

/-!
# C71: a whole text is delivered as it was written
-/

namespace Cskk.Props.Document

open Spec Spec.Typing Spec.Teach Spec.Document Spec.ModeKeys Romaji KanaBuilder Navigate Convert Typing Words ShippedTyping WordCycle
open Cskk.Props.TypeOn (Shown settled)

/-- The layout of the default rule. -/
def defaultLayout : Layout := ⟨Assets.defaultRomaji, defaultCommandKeys, [' ', 'x', 'X', 'q'], 'q'⟩

/-- The layout of the AZIK rule. -/
def azikLayout : Layout := ⟨Assets.azikRomaji, azikCommandKeys, [' ', 'x', 'X', '@'], '@'⟩

/-- The rule with the layout `L` is in use. -/
inductive Uses (c : Ctx) : Layout → Prop where
  | default (h1 : c.cmds = Assets.defaultCommands) (h2 : c.kanaConv = Assets.defaultKana) : Uses c defaultLayout
  | azik (h1 : c.cmds = Assets.azikCommands) (h2 : c.kanaConv = Assets.azikKana) : Uses c azikLayout

theorem Uses.shipped {c : Ctx} {L : Layout} (h : Uses c L) : Shipped c L.tbl L.commands := by
  cases h with
  | default a b => exact .default a b
  | azik a b => exact .azik a b

theorem Uses.congr {c c' : Ctx} {L : Layout} (h : Uses c L) (h1 : c'.cmds = c.cmds) (h2 : c'.kanaConv = c.kanaConv) : Uses c' L := by
  cases h with
  | default a b => exact .default (h1.trans a) (h2.trans b)
  | azik a b => exact .azik (h1.trans a) (h2.trans b)

theorem Uses.cases {c : Ctx} {L : Layout} (h : Uses c L) : c.cmds = Assets.defaultCommands ∨ c.cmds = Assets.azikCommands := by
  cases h with
  | default a b => exact .inl a
  | azik a b => exact .inr a

/-- The context `c` is where the page says, on the level above `below`, with the configuration `g`. -/
structure At (L : Layout) (g : Config) (below : List State) (c : Ctx) (p : Page) : Prop where
  uses : Uses c L
  below : c.below = below
  config : c.config = g
  text : c.top.confirmed = p.text
  mode : c.top.inputMode = p.mode
  dicts : c.dicts = p.dicts
  default : c.top.defaultMode = .direct
  level : match p.chosen with
    | none => Fresh c
    | some (x, o) => Shown c x ∧ c.top.mode = .compositionSelection ∧ c.top.pre = [] ∧ c.top.okuri = o

theorem settled_none (form : InputMode → Str → Str) (p : Page) : (p.settled form).chosen = none := by
  unfold Page.settled
  split
  · assumption
  · rfl

theorem settled_mode (form : InputMode → Str → Str) (p : Page) : (p.settled form).mode = p.mode := by
  unfold Page.settled
  split <;> rfl

theorem settled_fresh (e : Env) {c : Ctx} {x : Candidate} (h : Shown c x) : Fresh (settled e c x) :=
  ⟨TypeOn.settled_rom e h, rfl, rfl, rfl, rfl, rfl, rfl, by show (0 : Nat) ≤ 20; omega⟩

/-- The first key after a shown word does the same as after confirming it. -/
theorem first_key (pr : Bool) {L : Layout} {g : Config} {B : List State} {c : Ctx} {p : Page} (h : At L g B c p) (ch : Char)
    (hg : GoesOn L p ch) (h1 : 0x20 ≤ ch.toNat) (h2 : ch.toNat ≤ 0x7e) (hd : ch ∉ L.commands .direct) :
    ∃ c0, At L g B c0 (p.settled (Assets.env ⟨pr⟩).kanaForm.adjust) ∧
      c.processKeyEvent (Assets.env ⟨pr⟩) ⟨ch.toNat, 0⟩ = c0.processKeyEvent (Assets.env ⟨pr⟩) ⟨ch.toNat, 0⟩ := by
  obtain ⟨text, mode, dicts, chosen⟩ := p
  cases chosen with
  | none => exact ⟨c, h, rfl⟩
  | some q =>
    obtain ⟨x, o⟩ := q
    obtain ⟨hs, hm, hpre, hok⟩ := h.level
    have hsh : ch ∉ L.shown := by
      rcases hg with h | h
      · cases h
      · exact h
    refine ⟨settled (Assets.env ⟨pr⟩) c x, ?_, ?_⟩
    · refine ⟨h.uses.congr rfl rfl, h.below, h.config, ?_, h.mode, ?_, rfl, ?_⟩
      · show c.top.confirmed ++ _ = text ++ _
        rw [h.text, hok, h.mode]
      · show c.dicts.map _ = dicts.map _
        rw [h.dicts]
      · exact settled_fresh _ hs
    · have hpr : Printable ⟨ch.toNat, 0⟩ := ⟨h1, h2⟩
      have hmod : ¬ HasOtherModifier ⟨ch.toNat, 0⟩ := (shipped_key pr ch h1 h2).modifier
      have hu := h.uses
      cases hu with
      | default a b =>
        have hss : TypeOn.ShippedShown c Assets.defaultRomaji ['l', 'L', 'q', 'Q', '/'] TypeOn.defaultShownKeys := .default a b
        exact TypeOn.typing_on _ hs Assets.defaultRomaji hss.kana hpre _ hmod hpr
          (hss.shown hs ch h1 h2 (by rw [hm]; exact hsh)) (.inr (.inr (hss.direct _ hs ch h1 h2 hd)))
      | azik a b =>
        have hss : TypeOn.ShippedShown c Assets.azikRomaji ['l', 'L', '@', '{', '/'] TypeOn.azikShownKeys := .azik a b
        exact TypeOn.typing_on _ hs Assets.azikRomaji hss.kana hpre _ hmod hpr
          (hss.shown hs ch h1 h2 (by rw [hm]; exact hsh)) (.inr (.inr (hss.direct _ hs ch h1 h2 hd)))

theorem first_keys (pr : Bool) {L : Layout} {g : Config} {B : List State} {c : Ctx} {p : Page} (h : At L g B c p) (ch : Char) (l : List KeyEvent)
    (hg : GoesOn L p ch) (h1 : 0x20 ≤ ch.toNat) (h2 : ch.toNat ≤ 0x7e) (hd : ch ∉ L.commands .direct) :
    ∃ c0, At L g B c0 (p.settled (Assets.env ⟨pr⟩).kanaForm.adjust) ∧
      c.processKeyEvents (Assets.env ⟨pr⟩) (⟨ch.toNat, 0⟩ :: l) = c0.processKeyEvents (Assets.env ⟨pr⟩) (⟨ch.toNat, 0⟩ :: l) := by
  obtain ⟨c0, a, b⟩ := first_key pr h ch hg h1 h2 hd
  refine ⟨c0, a, ?_⟩
  unfold Ctx.processKeyEvents
  rw [b]

theorem At.fresh {L : Layout} {g : Config} {B : List State} {c : Ctx} {p : Page} (h : At L g B c p) (hn : p.chosen = none) : Fresh c := by
  have := h.level
  rw [hn] at this
  exact this

/-- Kana. -/
theorem writes_kana (pr : Bool) {L : Layout} {g : Config} {B : List State} {c : Ctx} {p : Page} (h : At L g B c p) (hn : p.chosen = none)
    (t : Str) (out : List Piece) (hp : ∀ x ∈ t, Plain x ∧ x ∉ L.commands .direct)
    (ht : typeText L.tbl g.period g.comma ⟨[], [], false⟩ t = ⟨out, [], false⟩) :
    ∃ c', c.processKeyEvents (Assets.env ⟨pr⟩) (typed t) = .ok c' ∧
      At L g B c' { p with text := p.text ++ rendered ((Assets.env ⟨pr⟩).kanaForm.adjust p.mode) out } := by
  have hf := h.fresh hn
  have hsh := h.uses.shipped
  have key := typing_direct (Assets.env ⟨pr⟩) c L.tbl (t.map fun ch => ((⟨ch.toNat, 0⟩ : KeyEvent), ch)) hsh.kana hf.rom hf.mode
    (by
      intro y hy
      obtain ⟨d, hd, rfl⟩ := List.mem_map.mp hy
      have := (hp d hd).1
      exact ⟨this, shipped_key pr d this.1 this.2.1⟩)
    (by
      apply undisturbed_of_noCommand
      intro y hy
      obtain ⟨d, hd, rfl⟩ := List.mem_map.mp hy
      have := hp d hd
      exact hsh.noCommand hf.rom d this.1.1 this.1.2.1 (by rw [hf.mode]; exact this.2))
  rw [← typed_pairs, pairs_snd, h.config, hf.pre, hf.capital, ht] at key
  refine ⟨_, key, ⟨h.uses.congr rfl rfl, h.below, h.config, ?_, h.mode, h.dicts, h.default, ?_⟩⟩
  · show c.top.confirmed ++ rendered _ out = _
    rw [h.text, h.mode]
  · show match p.chosen with
      | none => _
      | some (x, o) => _
    rw [hn]
    exact ⟨hf.rom, hf.mode, rfl, hf.kana, hf.raw, hf.okuri, rfl, hf.history⟩

theorem asking_pre (c : Ctx) (tbl : Table) (t : Str) (hu : unspelled tbl c.config.period c.config.comma t = []) :
    (Teach.asking c tbl t).pre = [] := by
  unfold Teach.asking
  unfold unspelled at hu
  revert hu
  generalize typeText tbl c.config.period c.config.comma ⟨[], [], true⟩ t = s
  dsimp only
  cases hv : valueOf tbl s.pending <;> exact id

/-- A word. -/
theorem writes_word (pr : Bool) {L : Layout} {g : Config} {B : List State} {c : Ctx} {p : Page} (h : At L g B c p) (hn : p.chosen = none)
    (up : Char) (t r : Str) (n : Nat) (cs : List Candidate) (x : Candidate) (hw : WordKeys L.tbl L.commands g up t r)
    (hl : unspelled L.tbl g.period g.comma (small up :: t) = []) (hcs : Dicts.getAll p.dicts ⟨r, none⟩ = .ok cs) (hx : cs[n]? = some x) :
    ∃ c', c.processKeyEvents (Assets.env ⟨pr⟩) (typed (up :: t) ++ List.replicate (n + 1) ⟨0x20, 0⟩) = .ok c' ∧
      At L g B c' { p with chosen := some (x, []) } := by
  have hf := h.fresh hn
  have hsh := h.uses.shipped
  rw [← h.config] at hw hl
  have hty := Teach.keys_typed pr c L.tbl L.commands hsh hf up t r hw
  rw [processKeyEvents_append _ _ _ _ _ hty]
  obtain ⟨hlt, _⟩ := List.getElem?_eq_some_iff.mp hx
  obtain ⟨a1, a2, a3, a4, a5, a6⟩ := Teach.asking_kana c L.tbl (small up :: t) hf
  have hlk := Teach.lookup_asking c L.tbl (small up :: t) hf
  have hfl := Teach.asking_flushed c L.tbl (small up :: t)
  have hpre := asking_pre c L.tbl (small up :: t) hl
  rw [show spelled L.tbl c.config.period c.config.comma (small up :: t) = r from hw.reading] at hlk
  have hkm : c.top.inputMode ≠ .ascii ∧ c.top.inputMode ≠ .zenkaku := by
    obtain ⟨_, h | h | h⟩ := hf.rom <;> rw [h] <;> decide
  have hready : Ready L.tbl (reading (opened c) (typeText L.tbl c.config.period c.config.comma ⟨[], [], true⟩ (small up :: t)))
      (Teach.asking c L.tbl (small up :: t)) := by
    refine ⟨Or.inl rfl, hkm, ?_, hfl, remember_length _ _⟩
    have hu := h.uses
    cases hu with
    | default a b => exact .inl ⟨a, b, rfl⟩
    | azik a b => exact .inr ⟨a, b, rfl⟩
  have hsp := spaces (Assets.env ⟨pr⟩) hready (cs := cs) (by
    rw [hlk]
    show Dicts.getAll c.dicts _ = _
    rw [h.dicts]; exact hcs) n hlt
  refine ⟨_, hsp, ⟨h.uses.congr rfl rfl, h.below, h.config, a6.trans h.text, a4.trans h.mode, h.dicts, a5.trans h.default, ?_⟩⟩
  refine ⟨⟨.inl rfl, hx, ?_, a5.trans h.default⟩, rfl, hpre, a3⟩
  have h2 := hf.rom.2
  rw [← a4] at h2
  exact h2

theorem small_toNat (up : Char) (h : up.toNat ≤ 0x5a) : (small up).toNat = up.toNat + 0x20 := by
  have hv : (up.toNat + 0x20).isValidChar := Or.inl (by omega)
  have h0 : Char.ofNat (up.toNat + 0x20) = Char.ofNatAux (up.toNat + 0x20) hv := dif_pos hv
  have h1 : (Char.ofNatAux (up.toNat + 0x20) hv).val.toNat = up.toNat + 0x20 := rfl
  unfold small
  rw [h0]; exact h1

theorem okuri_commands {c : Ctx} {L : Layout} (h : Uses c L) (hr : RomajiMode c) (ch : Char) (h1 : 0x20 ≤ ch.toNat) (h2 : ch.toNat ≤ 0x7e)
    (hl : ch ∉ L.commands .preCompositionOkurigana) : ∀ k ∈ c.cmds .preCompositionOkurigana c.top.inputMode, ¬ KeyMatches k.1 ⟨ch.toNat, 0⟩ := by
  have := (h.congr (c' := { c with top := { c.top with mode := .preCompositionOkurigana } }) rfl rfl).shipped.noCommand
    ⟨.inr (.inr rfl), hr.2⟩ ch h1 h2 hl
  exact this

/-- A word with okurigana. -/
theorem writes_okuri (pr : Bool) {L : Layout} {g : Config} {B : List State} {c : Ctx} {p : Page} (h : At L g B c p) (hn : p.chosen = none)
    (up : Char) (t : Str) (up' : Char) (t' : Str) (n : Nat) (ws : List Str) (w : Str) (cs : List Candidate) (x : Candidate)
    (hi : Initial L .direct up) (hp : ∀ y ∈ t, Plain y ∧ y ∉ L.commands .preComposition) (hs : Spells L.tbl [] (small up :: t) ws)
    (hq : ∀ v, v <+: ws → ∀ kw ∈ g.keywords, kw <:+ v.flatten → kw = v.flatten) (hr : ws.flatten ≠ [])
    (hi' : Initial L .preComposition up') (hn' : completed L.tbl [up'.toNat + 0x20] = none)
    (hp' : ∀ y ∈ t', Plain y ∧ y ∉ L.commands .preCompositionOkurigana) (hs' : Okuri L.tbl [up'.toNat + 0x20] t' w) (hw : w ≠ [])
    (hcs : Dicts.getAll p.dicts ⟨ws.flatten, some w⟩ = .ok cs) (hx : cs[n]? = some x) :
    ∃ c', c.processKeyEvents (Assets.env ⟨pr⟩) (typed (up :: t ++ up' :: t') ++ List.replicate n ⟨0x20, 0⟩) = .ok c' ∧
      At L g B c' { p with chosen := some (x, w) } := by
  have hf := h.fresh hn
  have hsh := h.uses.shipped
  have hop := (h.uses.congr (c' := opened c) rfl rfl).shipped
  have hopr : RomajiMode (opened c) := ⟨Or.inr (Or.inl rfl), hf.rom.2⟩
  obtain ⟨i1, i2, i3, i4, i5⟩ := hi
  obtain ⟨j1, j2, j3, j4, j5⟩ := hi'
  have hpl : ∀ (t : Str) (l : List Char), (∀ ch ∈ t, Plain ch ∧ ch ∉ l) → ∀ x ∈ t.map (fun ch => ((⟨ch.toNat, 0⟩ : KeyEvent), ch)),
      Plain x.2 ∧ Key (Assets.env ⟨pr⟩) x.1 x.2 := by
    intro t l ht x hx
    obtain ⟨ch, hch, rfl⟩ := List.mem_map.mp hx
    exact ⟨(ht ch hch).1, shipped_key pr ch (ht ch hch).1.1 (ht ch hch).1.2.1⟩
  have hsm := small_toNat up i2
  have hsm' := small_toNat up' j2
  obtain ⟨r, k1, k2, k3, k4, k5, k6, k7⟩ := okuri_word_converted (Assets.env ⟨pr⟩) c L.tbl ⟨up.toNat, 0⟩ ⟨up'.toNat, 0⟩ (small up) (small up')
    (t.map fun ch => (⟨ch.toNat, 0⟩, ch)) (t'.map fun ch => (⟨ch.toNat, 0⟩, ch)) ws w
    hsh.kana hf.rom hf.mode hf.okuri hf.history hf.capital hf.pre ⟨hf.kana, hf.raw⟩
    (shipped_capital pr c _ _ hsh up (small up) hsm.symm (by omega) i3)
    (.inr ⟨by rw [hsm]; exact i5, hsh.noCommand hf.rom up (by omega) (by omega) (by rw [hf.mode]; exact i4)⟩)
    (hpl t _ hp)
    (undisturbed_of_noCommand _ _ _ _ (by
      intro x hx
      obtain ⟨ch, hch, rfl⟩ := List.mem_map.mp hx
      exact hop.noCommand hopr ch (hp ch hch).1.1 (hp ch hch).1.2.1 (hp ch hch).2))
    (by rw [pairs_snd]; exact hs) (by intro v hv; unfold Quiet; rw [h.config]; exact hq v hv) hr
    (shipped_capital pr c _ _ hsh up' (small up') hsm'.symm (by omega) j3)
    (hop.noCommand hopr up' (by omega) (by omega) j4) (by rw [hsm']; exact j5) (by rw [hsm']; exact hn')
    (hpl t' _ hp')
    (by
      intro x hx
      obtain ⟨ch, hch, rfl⟩ := List.mem_map.mp hx
      exact okuri_commands h.uses hf.rom ch (hp' ch hch).1.1 (hp' ch hch).1.2.1 (hp' ch hch).2)
    (by rw [pairs_snd, hsm']; exact hs') hw cs (by rw [h.dicts]; exact hcs)
  obtain ⟨hlt, _⟩ := List.getElem?_eq_some_iff.mp hx
  have hev : typed (up :: t ++ up' :: t') = (⟨up.toNat, 0⟩ : KeyEvent) :: (t.map fun ch => ((⟨ch.toNat, 0⟩ : KeyEvent), ch)).map Prod.fst ++
      ⟨up'.toNat, 0⟩ :: (t'.map fun ch => ((⟨ch.toNat, 0⟩ : KeyEvent), ch)).map Prod.fst := by
    rw [← typed_pairs, ← typed_pairs]; simp [typed]
  rw [hev, processKeyEvents_append _ _ _ _ _ k1]
  have hne : cs ≠ [] := by rintro rfl; simp at hlt
  have hcv : converted c r cs = { c with top := inMode (withCandidates r cs) .compositionSelection } := by
    unfold converted
    rw [if_pos hne]
  have hkm : c.top.inputMode ≠ .ascii ∧ c.top.inputMode ≠ .zenkaku := by
    obtain ⟨_, h | h | h⟩ := hf.rom <;> rw [h] <;> decide
  rw [hcv, show (⟨0x20, 0⟩ : KeyEvent) = space from rfl, next_repeated _ n { c with top := inMode (withCandidates r cs) .compositionSelection } _ ⟨rfl, by show 0 < cs.length; omega⟩ not_release.1
    ((shipped_keys { c with top := inMode (withCandidates r cs) .compositionSelection } h.uses.cases rfl (by show r.inputMode ≠ _ ∧ r.inputMode ≠ _; rw [k5]; exact hkm)).1)
    (by show 0 + n < cs.length; omega)]
  refine ⟨_, rfl, ⟨h.uses.congr rfl rfl, h.below, h.config, k4.trans h.text, k5.trans h.mode, h.dicts, k7.trans h.default, ?_⟩⟩
  refine ⟨⟨.inl rfl, ?_, ?_, k7.trans h.default⟩, rfl, k6, k3⟩
  · show cs[0 + n]? = _
    rw [Nat.zero_add]; exact hx
  · have h2 := hf.rom.2
    rw [← k5] at h2
    exact h2

/-- Ctrl-j takes the shown word. -/
theorem writes_confirm (pr : Bool) {L : Layout} {g : Config} {B : List State} {c : Ctx} {p : Page} (h : At L g B c p) (y : Candidate × Str)
    (hy : p.chosen = some y) :
    ∃ c', c.processKeyEvents (Assets.env ⟨pr⟩) [⟨0x6a, 4⟩] = .ok c' ∧ At L g B c' (p.settled (Assets.env ⟨pr⟩).kanaForm.adjust) := by
  obtain ⟨text, mode, dicts, chosen⟩ := p
  obtain ⟨x, o⟩ := y
  cases hy
  obtain ⟨hs, hm, hpre, hok⟩ := h.level
  have hkm : c.top.inputMode ≠ .ascii ∧ c.top.inputMode ≠ .zenkaku := by
    rcases hs.kana with h | h | h <;> rw [h] <;> decide
  have hc := shipped_choice c h.uses.cases hm hkm
  have hcom : c.confirmCurrent (Assets.env ⟨pr⟩) = settled (Assets.env ⟨pr⟩) c x := TypeOn.confirm_settles _ hs
  have hat : ∀ hist : List CompositionMode, hist.length ≤ 20 → At L g B { settled (Assets.env ⟨pr⟩) c x with
      top := { (settled (Assets.env ⟨pr⟩) c x).top with history := hist } }
      (Page.settled (Assets.env ⟨pr⟩).kanaForm.adjust ⟨text, mode, dicts, some (x, o)⟩) := by
    intro hist hh
    refine ⟨h.uses.congr rfl rfl, h.below, h.config, ?_, h.mode, ?_, rfl, ?_⟩
    · show c.top.confirmed ++ _ = text ++ _
      rw [h.text, hok, h.mode]
    · show c.dicts.map _ = dicts.map _
      rw [h.dicts]
    · exact ⟨TypeOn.settled_rom (Assets.env ⟨pr⟩) hs, rfl, rfl, rfl, rfl, rfl, rfl, hh⟩
  rcases hc.2 with hk | hk
  · refine ⟨_, ?_, hat [] (by simp)⟩
    apply processKeyEvents_one (b := true)
    rw [show (⟨0x6a, 4⟩ : KeyEvent) = ctrlJ from rfl, key_command _ _ _ _ not_release.2.2.1 (by rw [hm]; decide) hk (choosing_skip hm ctrlJ), hm]
    unfold Ctx.processInstructions Ctx.runInstructions
    simp only [Ctx.instruction, bind, Except.bind, Ctx.runInstructions, hcom]
    rfl
  · refine ⟨_, ?_, hat [.direct] (by simp)⟩
    apply processKeyEvents_one (b := true)
    rw [show (⟨0x6a, 4⟩ : KeyEvent) = ctrlJ from rfl, key_command _ _ _ _ not_release.2.2.1 (by rw [hm]; decide) hk (choosing_skip hm ctrlJ), hm]
    unfold Ctx.processInstructions Ctx.runInstructions
    simp only [Ctx.instruction, bind, Except.bind, Ctx.runInstructions, hcom]
    rfl

theorem pendingKana_nil : pendingKana Assets.defaultRomaji [] = [] ∧ pendingKana Assets.azikRomaji [] = [] := by
  decide +kernel

theorem switched_at {L : Layout} {g : Config} {B : List State} {c c' : Ctx} {p : Page} (h : At L g B c p) (hn : p.chosen = none)
    {m : InputMode} (hs : Switched c c' m p.text) (hm : m = .hiragana ∨ m = .katakana ∨ m = .hankakuKatakana) :
    At L g B c' { p with mode := m } := by
  have hf := h.fresh hn
  obtain ⟨o1, o2, o3, o4, o5⟩ := hs.only
  refine ⟨h.uses.congr o3 o4, o1.trans h.below, o5.trans h.config, hs.committed, hs.inputMode, o2.trans h.dicts, hs.default.trans h.default, ?_⟩
  show match p.chosen with
      | none => _
      | some (x, o) => _
  rw [hn]
  obtain ⟨e1, e2, e3⟩ := hs.empty ⟨hf.kana, hf.raw, hf.okuri⟩
  refine ⟨⟨.inl (hs.mode.trans hf.mode), ?_⟩, hs.mode.trans hf.mode, hs.pending.1, e1, e2, e3, hs.pending.2, ?_⟩
  · rw [hs.inputMode]; exact hm
  · rw [hs.history]; exact hf.history

/-- The key for the other kana mode. -/
theorem writes_toggle (pr : Bool) {L : Layout} {g : Config} {B : List State} {c : Ctx} {p : Page} (h : At L g B c p) (hn : p.chosen = none) :
    ∃ c', c.processKeyEvents (Assets.env ⟨pr⟩) [⟨L.toggle.toNat, 0⟩] = .ok c' ∧ At L g B c' { p with mode := ModeKey.target .kana p.mode } := by
  have hf := h.fresh hn
  have hu := h.uses
  have ht : ModeKey.target .kana c.top.inputMode = .hiragana ∨ ModeKey.target .kana c.top.inputMode = .katakana ∨
      ModeKey.target .kana c.top.inputMode = .hankakuKatakana := by
    rcases hf.rom.2 with h | h | h <;> rw [h] <;> decide
  rw [← h.mode]
  cases hu with
  | default a b =>
    obtain ⟨c', h1, h2⟩ := ModeKeys.default_mode_keys (Assets.env ⟨pr⟩) c a b ⟨hf.mode, hf.rom.2⟩ .kana ⟨0x71, 0⟩ (by simp [ModeKeys.defaultKey])
      (fun h => absurd rfl h)
    rw [hf.pre, pendingKana_nil.1, ModeKeys.adjust_nil, List.append_nil, h.text] at h2
    exact ⟨c', processKeyEvents_one _ _ _ _ _ h1, switched_at h hn h2 ht⟩
  | azik a b =>
    obtain ⟨c', h1, h2⟩ := ModeKeys.azik_mode_keys (Assets.env ⟨pr⟩) c a b ⟨hf.mode, hf.rom.2⟩ .kana ⟨0x40, 0⟩ (by simp [ModeKeys.azikKey])
      (fun h => absurd rfl h)
    rw [hf.pre, pendingKana_nil.2, ModeKeys.adjust_nil, List.append_nil, h.text] at h2
    exact ⟨c', processKeyEvents_one _ _ _ _ _ h1, switched_at h hn h2 ht⟩

/-- Latin letters. -/
theorem writes_latin (pr : Bool) {L : Layout} {g : Config} {B : List State} {c : Ctx} {p : Page} (h : At L g B c p) (hn : p.chosen = none) (t : Str)
    (ht : ∀ ch ∈ t, 0x20 ≤ ch.toNat ∧ ch.toNat ≤ 0x7e) :
    ∃ c', c.processKeyEvents (Assets.env ⟨pr⟩) (⟨0x6c, 0⟩ :: (typed t ++ [⟨0x6a, 4⟩])) = .ok c' ∧
      At L g B c' { p with text := p.text ++ t, mode := .hiragana } := by
  have hf := h.fresh hn
  have hl : ∃ c1, c.processKeyEvent (Assets.env ⟨pr⟩) ⟨0x6c, 0⟩ = .ok (c1, true) ∧ Switched c c1 .ascii p.text := by
    have hu := h.uses
    have htg : ModeKey.target .ascii c.top.inputMode = .ascii := by
      rcases hf.rom.2 with h | h | h <;> rw [h] <;> rfl
    cases hu with
    | default a b =>
      obtain ⟨c', h1, h2⟩ := ModeKeys.default_mode_keys (Assets.env ⟨pr⟩) c a b ⟨hf.mode, hf.rom.2⟩ .ascii ⟨0x6c, 0⟩ (by simp [ModeKeys.defaultKey])
        (fun _ => by rw [hf.pre]; decide)
      rw [hf.pre, pendingKana_nil.1, ModeKeys.adjust_nil, List.append_nil, h.text, htg] at h2
      exact ⟨c', h1, h2⟩
    | azik a b =>
      obtain ⟨c', h1, h2⟩ := ModeKeys.azik_mode_keys (Assets.env ⟨pr⟩) c a b ⟨hf.mode, hf.rom.2⟩ .ascii ⟨0x6c, 0⟩ (by simp [ModeKeys.azikKey])
        (fun _ => by
          rw [hf.pre]
          rintro ⟨_, h | h⟩ <;> (revert h; decide +kernel))
      rw [hf.pre, pendingKana_nil.2, ModeKeys.adjust_nil, List.append_nil, h.text, htg] at h2
      exact ⟨c', h1, h2⟩
  obtain ⟨c1, k1, s1⟩ := hl
  have hc1 : c1.cmds = Assets.defaultCommands ∨ c1.cmds = Assets.azikCommands := by
    rw [s1.only.2.2.1]; exact h.uses.cases
  have k2 := Ascii.shipped_ascii_typing pr c1 hc1 (s1.mode.trans hf.mode) s1.inputMode t ht
  have k3 := ModeKeys.back_to_kana (Assets.env ⟨pr⟩) (c1.mapTop fun s => { s with confirmed := s.confirmed ++ t }) hc1
    (s1.mode.trans hf.mode) (.inl s1.inputMode)
  have s3 : Switched c { (c1.mapTop fun s => { s with confirmed := s.confirmed ++ t }) with
      top := { (c1.mapTop fun s => { s with confirmed := s.confirmed ++ t }).top with inputMode := .hiragana } } .hiragana (p.text ++ t) := by
    refine ⟨s1.only, s1.mode, s1.history, rfl, ?_, s1.pending, s1.default, s1.empty⟩
    show c1.top.confirmed ++ t = _
    rw [s1.committed]
  refine ⟨{ (c1.mapTop fun s => { s with confirmed := s.confirmed ++ t }) with
      top := { (c1.mapTop fun s => { s with confirmed := s.confirmed ++ t }).top with inputMode := .hiragana } }, ?_, ?_⟩
  · rw [Ascii.pke_cons _ _ _ _ _ true k1, processKeyEvents_append _ _ _ _ _ k2]
    exact processKeyEvents_one _ _ _ _ _ k3
  · obtain ⟨o1, o2, o3, o4, o5⟩ := s3.only
    refine ⟨h.uses.congr o3 o4, o1.trans h.below, o5.trans h.config, s3.committed, s3.inputMode, o2.trans h.dicts, s3.default.trans h.default, ?_⟩
    show match p.chosen with
        | none => _
        | some (x, o) => _
    rw [hn]
    obtain ⟨e1, e2, e3⟩ := s3.empty ⟨hf.kana, hf.raw, hf.okuri⟩
    refine ⟨⟨.inl (s3.mode.trans hf.mode), .inl rfl⟩, s3.mode.trans hf.mode, s3.pending.1, e1, e2, e3, s3.pending.2, ?_⟩
    rw [s3.history]; exact hf.history

/-- **C71.** Each piece of a text does what it is meant to do. -/
theorem writes (pr : Bool) {L : Layout} {g : Config} {B : List State} {c : Ctx} {p q : Page} {x : Passage} (h : At L g B c p)
    (hw : Writes L g (Assets.env ⟨pr⟩).kanaForm.adjust p x q) :
    ∃ c', c.processKeyEvents (Assets.env ⟨pr⟩) (x.keys L) = .ok c' ∧ At L g B c' q := by
  cases hw with
  | kana ch t out hp ht ho =>
    have hc := hp ch (by simp)
    obtain ⟨c0, h0, k0⟩ := first_keys pr h ch (typed t) ho hc.1.1 hc.1.2.1 hc.2
    obtain ⟨c', k1, h1⟩ := writes_kana pr h0 (settled_none _ p) (ch :: t) out hp ht
    refine ⟨c', k0.trans k1, ?_⟩
    rw [← settled_mode (Assets.env ⟨pr⟩).kanaForm.adjust p]
    exact h1
  | word up t r n cs x hwk hl ho hcs hx =>
    obtain ⟨a1, a2, a3, a4⟩ := hwk.capital
    obtain ⟨c0, h0, k0⟩ := first_keys pr h up (typed t ++ List.replicate (n + 1) ⟨0x20, 0⟩) ho (by omega) (by omega) a4
    obtain ⟨c', k1, h1⟩ := writes_word pr h0 (settled_none _ p) up t r n cs x hwk hl hcs hx
    exact ⟨c', k0.trans k1, h1⟩
  | okuri up t up' t' n ws w cs x hi hp hs hq hr hi' hn hp' hs' hw ho hcs hx =>
    obtain ⟨c0, h0, k0⟩ := first_keys pr h up (typed (t ++ up' :: t') ++ List.replicate n ⟨0x20, 0⟩) ho (by have := hi.1; omega)
      (by have := hi.2.1; omega) hi.2.2.2.1
    obtain ⟨c', k1, h1⟩ := writes_okuri pr h0 (settled_none _ p) up t up' t' n ws w cs x hi hp hs hq hr hi' hn hp' hs' hw hcs hx
    exact ⟨c', k0.trans k1, h1⟩
  | confirm x hx => exact writes_confirm pr h x hx
  | toggle hn => exact writes_toggle pr h hn
  | latin t hn ht => exact writes_latin pr h hn t ht

/-- **C71.** A whole text: piece by piece, whatever the pieces are, the engine is where the page says. -/
theorem written (pr : Bool) {L : Layout} {g : Config} {B : List State} {c : Ctx} {p q : Page} {xs : List Passage} (h : At L g B c p)
    (hw : WritesAll L g (Assets.env ⟨pr⟩).kanaForm.adjust p xs q) :
    ∃ c', c.processKeyEvents (Assets.env ⟨pr⟩) (xs.flatMap (Passage.keys L)) = .ok c' ∧ At L g B c' q := by
  induction hw generalizing c with
  | nil => exact ⟨c, rfl, h⟩
  | cons hx hs ih =>
    obtain ⟨c1, k1, h1⟩ := writes pr h hx
    obtain ⟨c2, k2, h2⟩ := ih h1
    refine ⟨c2, ?_, h2⟩
    rw [List.flatMap_cons, processKeyEvents_append _ _ _ _ _ k1]
    exact k2

theorem run_keys (e : Env) (l : List KeyEvent) (c c' : Ctx) (h : c.processKeyEvents e l = .ok c') : run e c (l.map Op.key) = .ok c' := by
  induction l generalizing c with
  | nil => cases h; rfl
  | cons k l ih =>
    unfold Ctx.processKeyEvents at h
    cases hk : c.processKeyEvent e k with
    | error p => rw [hk] at h; cases h
    | ok r =>
      rw [hk] at h
      simp only [List.map_cons, run, Ctx.step, hk, bind, Except.bind, pure, Except.pure]
      exact ih r.1 h

/-! ## What the application gets -/

/-- The printable keys other than `X`, and Ctrl-j, are bound to nothing that erases text. -/
theorem shipped_safe {c : Ctx} {L : Layout} (h : Uses c L) (ev : KeyEvent)
    (hev : (∃ ch : Char, ev = ⟨ch.toNat, 0⟩ ∧ 0x20 ≤ ch.toNat ∧ ch.toNat ≤ 0x7e ∧ ch ≠ 'X') ∨ ev = ⟨0x6a, 4⟩) : Output.SafeKey c.cmds ev := by
  have hall : ∀ r, (r = Assets.defaultCommands ∨ r = Assets.azikCommands) → ∀ cm im, ∀ k ∈ r cm im,
      (∀ i ∈ k.2, i ≠ .purge ∧ i ≠ .delete ∧ i ≠ .clearKanaConvertedInputs) ∨
        ((k.1.symbol < 0x20 ∨ 0x7e < k.1.symbol) ∨ k.1.modifiers ≠ 0 ∨ k.1.symbol = 0x58) ∧ k.1 ≠ ⟨0x6a, 4⟩ := by
    rintro r (rfl | rfl) cm im <;> cases cm <;> cases im <;> decide +kernel
  intro cm im k hk hm
  rcases hall c.cmds h.cases cm im k hk with h | ⟨h, h'⟩
  · exact h
  · exfalso
    have hm' := (matchingKey_iff k.1 ev).mpr hm
    rcases hev with ⟨ch, rfl, h1, h2, h3⟩ | rfl
    · have hs : k.1.symbol = ch.toNat := hm.1
      rcases h with h | h | h
      · rw [hs] at h; exact h.elim (fun h => absurd h1 (Nat.not_le_of_lt h)) (fun h => absurd h2 (Nat.not_le_of_lt h))
      · apply h
        rw [hm']; unfold CommandRule.matchingKey
        split
        · show (0 : Modifier) &&& _ = 0
          exact BitVec.zero_and
        · rfl
      · rw [hs] at h
        apply h3
        have := congrArg Char.ofNat h
        simpa using this
    · apply h'
      rw [hm']
      decide

/-- The keys of a piece of text: printable characters, and Ctrl-j. -/
theorem writes_keys {L : Layout} {c : Ctx} (hu : Uses c L) {g : Config} {form : InputMode → Str → Str} {p q : Page} {x : Passage} (hw : Writes L g form p x q) :
    ∀ ev ∈ x.keys L, (∃ ch : Char, ev = ⟨ch.toNat, 0⟩ ∧ 0x20 ≤ ch.toNat ∧ ch.toNat ≤ 0x7e) ∨ ev = ⟨0x6a, 4⟩ := by
  have hty : ∀ (t : Str) (ev : KeyEvent), ev ∈ typed t → (∀ ch ∈ t, 0x20 ≤ ch.toNat ∧ ch.toNat ≤ 0x7e) →
      ∃ ch : Char, ev = ⟨ch.toNat, 0⟩ ∧ 0x20 ≤ ch.toNat ∧ ch.toNat ≤ 0x7e := by
    intro t ev hev ht
    obtain ⟨ch, hch, rfl⟩ := List.mem_map.mp hev
    exact ⟨ch, rfl, ht ch hch⟩
  have hsp : ∀ (n : Nat) (ev : KeyEvent), ev ∈ List.replicate n (⟨0x20, 0⟩ : KeyEvent) →
      ∃ ch : Char, ev = ⟨ch.toNat, 0⟩ ∧ 0x20 ≤ ch.toNat ∧ ch.toNat ≤ 0x7e := by
    intro n ev hev
    exact ⟨' ', List.eq_of_mem_replicate hev, by decide, by decide⟩
  intro ev hev
  cases hw with
  | kana ch t out hp ht ho => exact .inl (hty _ _ hev fun y hy => ⟨(hp y hy).1.1, (hp y hy).1.2.1⟩)
  | word up t r n cs x hwk hl ho hcs hx =>
    left
    rcases List.mem_append.mp hev with hev | hev
    · refine hty _ _ hev fun y hy => ?_
      rcases List.mem_cons.mp hy with rfl | hy
      · have := hwk.capital; omega
      · exact ⟨(hwk.plain y hy).1.1, (hwk.plain y hy).1.2.1⟩
    · exact hsp _ _ hev
  | okuri up t up' t' n ws w cs x hi hp hs hq hr hi' hn hp' hs' hw ho hcs hx =>
    left
    rcases List.mem_append.mp hev with hev | hev
    · refine hty _ _ hev fun y hy => ?_
      simp only [List.cons_append, List.mem_cons, List.mem_append] at hy
      rcases hy with rfl | hy | rfl | hy
      · have := hi.1; have := hi.2.1; omega
      · exact ⟨(hp y hy).1.1, (hp y hy).1.2.1⟩
      · have := hi'.1; have := hi'.2.1; omega
      · exact ⟨(hp' y hy).1.1, (hp' y hy).1.2.1⟩
    · exact hsp _ _ hev
  | confirm x hx => right; simpa [Passage.keys] using hev
  | toggle hn =>
    left
    refine ⟨L.toggle, by simpa [Passage.keys] using hev, ?_⟩
    cases hu <;> decide
  | latin t hn ht =>
    simp only [Passage.keys, List.mem_cons, List.mem_append, List.not_mem_nil, or_false] at hev
    rcases hev with rfl | hev | rfl
    · exact .inl ⟨'l', rfl, by decide, by decide⟩
    · exact .inl (hty _ _ hev ht)
    · exact .inr rfl

theorem written_keys {L : Layout} {c : Ctx} (hu : Uses c L) {g : Config} {form : InputMode → Str → Str} {p q : Page} {xs : List Passage}
    (hw : WritesAll L g form p xs q) :
    ∀ ev ∈ xs.flatMap (Passage.keys L), (∃ ch : Char, ev = ⟨ch.toNat, 0⟩ ∧ 0x20 ≤ ch.toNat ∧ ch.toNat ≤ 0x7e) ∨ ev = ⟨0x6a, 4⟩ := by
  induction hw with
  | nil => intro ev h; simp at h
  | cons hx hs ih =>
    intro ev h
    rw [List.flatMap_cons, List.mem_append] at h
    exact h.elim (writes_keys hu hx ev) (ih ev)

theorem pending_of_at {L : Layout} {g : Config} {c : Ctx} {p : Page} (h : At L g [] c p) : pendingOutput c = p.text := by
  unfold pendingOutput Ctx.states
  rw [h.below]
  simp [h.text]

/-- **C71.** A text is written into a new context and the output is polled at the end: the application gets the text. -/
theorem text_polled (pr : Bool) {L : Layout} {g : Config} {c : Ctx} {p q : Page} {xs : List Passage} (h : At L g [] c p)
    (hw : WritesAll L g (Assets.env ⟨pr⟩).kanaForm.adjust p xs q) :
    ∃ c', c.processKeyEvents (Assets.env ⟨pr⟩) (xs.flatMap (Passage.keys L)) = .ok c' ∧
      c'.pollOutput.2 = (if q.text = [] then none else some q.text) ∧ c'.dicts = q.dicts := by
  obtain ⟨c', k, h'⟩ := written pr h hw
  refine ⟨c', k, ?_, h'.dicts⟩
  rw [Output.poll_returns_pending, pending_of_at h']

/-- **C71.** The output may be polled at any time while the text is written, even between the keys of a word: nothing fails, and what the polls return
together with what is left is the text. (`X` is not typed: with a word shown it would erase it.) -/
theorem text_delivered (pr : Bool) {L : Layout} {g : Config} {c : Ctx} {p q : Page} {xs : List Passage} (h : At L g [] c p)
    (hg : c.top.raw.length ≤ c.top.kana.length)
    (hw : WritesAll L g (Assets.env ⟨pr⟩).kanaForm.adjust p xs q) (hX : ∀ ev ∈ xs.flatMap (Passage.keys L), ev ≠ ⟨0x58, 0⟩)
    (ops : List Op) (ho : withoutPolls ops = (xs.flatMap (Passage.keys L)).map Op.key) :
    ∃ c' out, deliver (Assets.env ⟨pr⟩) c ops = .ok (c', out) ∧ out ++ pendingOutput c' = q.text ∧ c'.dicts = q.dicts := by
  obtain ⟨c₂, k, h'⟩ := written pr h hw
  have hk := written_keys h.uses hw
  have hops : ∀ op ∈ ops, op = .poll ∨ ∃ ev, op = .key ev ∧ Output.SafeKey c.cmds ev := by
    have hmem : ∀ (l : List Op) (op : Op), op ∈ l → op = .poll ∨ op ∈ withoutPolls l := by
      intro l
      induction l with
      | nil => intro op h; simp at h
      | cons a l ih =>
        intro op h
        rcases List.mem_cons.mp h with rfl | h
        · cases op <;> first | exact .inl rfl | (right; simp [withoutPolls])
        · rcases ih op h with h2 | h2
          · exact .inl h2
          · right
            cases a <;> first | exact h2 | exact List.mem_cons_of_mem _ h2
    intro op hop
    rcases hmem ops op hop with h1 | h1
    · exact .inl h1
    · right
      rw [ho] at h1
      obtain ⟨ev, hev, rfl⟩ := List.mem_map.mp h1
      refine ⟨ev, rfl, shipped_safe h.uses ev ?_⟩
      rcases hk ev hev with ⟨ch, rfl, a, b⟩ | rfl
      · left
        refine ⟨ch, rfl, a, b, ?_⟩
        rintro rfl
        exact hX _ hev rfl
      · exact .inr rfl
  obtain ⟨c', out, hd, he⟩ := Output.polls_do_no_harm (Assets.env ⟨pr⟩) ops c c₂ (by
      intro s hs
      unfold Ctx.states at hs
      rw [h.below] at hs
      simp at hs
      rw [hs]; exact hg) (Output.safe_along ops c hops) (by rw [ho]; exact run_keys _ _ _ _ k)
  refine ⟨c', out, hd, ?_, ?_⟩
  · rw [← Output.pendingOutput_credit, ← he, pending_of_at h']
  · rw [← h'.dicts, he]
    cases hb : c'.below <;> simp [Ctx.credit, hb]

/-! ## An example -/

/-- The dictionary of the example. -/
def shelf : List CskkDict :=
  [⟨true, .user ⟨[(c%"おくr", ⟨c%"おくr", true, [([], [⟨c%"贈", none⟩, ⟨c%"送", none⟩])]⟩)],
      [(c%"わたし", ⟨c%"わたし", false, [([], [⟨c%"私", none⟩])]⟩)]⟩ false⟩]

def blank : Ctx := Ctx.new Assets.defaultCommands Assets.defaultKana .hiragana .direct shelf

/-- 私は送るテストOK -/
def letter : List Passage :=
  [.word 'W' c%"atasi" 0, .kana c%"ha", .okuri 'O' c%"ku" 'R' c%"u" 1, .confirm, .toggle, .kana c%"tesuto", .toggle, .latin c%"OK"]

theorem blank_at : At defaultLayout blank.config [] blank ⟨[], .hiragana, shelf, none⟩ :=
  ⟨.default rfl rfl, rfl, rfl, rfl, rfl, rfl, rfl, ⟨⟨.inl rfl, .inl rfl⟩, rfl, rfl, rfl, rfl, rfl, rfl, by show (0 : Nat) ≤ 20; omega⟩⟩

theorem watasi_keys : WordKeys defaultLayout.tbl defaultLayout.commands blank.config 'W' c%"atasi" c%"わたし" where
  capital := by decide
  begins := by decide +kernel
  plain := by decide
  calm := Teach.calm_check _ _ _ (by decide +kernel)
  reading := by decide +kernel

theorem letter_writes (pr : Bool) : ∃ q, WritesAll defaultLayout blank.config (Assets.env ⟨pr⟩).kanaForm.adjust ⟨[], .hiragana, shelf, none⟩ letter q ∧
    q.text = c%"私は送るテストOK" := by
  refine ⟨_, .cons (.word _ _ _ _ _ [⟨c%"わたし", none, false, c%"私", none, c%"私"⟩] _ watasi_keys (by decide +kernel) (.inl rfl) (by cases pr <;> decide +kernel) rfl)
    (.cons (.kana _ 'h' c%"a" [.kana c%"は"] (by decide) (by decide +kernel) (.inr (by decide)))
    (.cons (.okuri _ 'O' c%"ku" 'R' c%"u" 1 [c%"お", c%"く"] c%"る"
        [⟨c%"おくr", some c%"る", true, c%"贈", none, c%"贈"⟩, ⟨c%"おくr", some c%"る", true, c%"送", none, c%"送"⟩] _
        ⟨by decide, by decide, by decide, by decide, by decide +kernel⟩ (by decide) oku (fun v hv => oku_quiet v hv) (by decide)
        ⟨by decide, by decide, by decide, by decide, by decide +kernel⟩ (by decide +kernel) (by decide)
        (.last [0x72] c%"u" c%"る" (by decide) (by decide +kernel) (by decide +kernel) (by decide)) (by decide) (.inl rfl)
        (by cases pr <;> decide +kernel) rfl)
    (.cons (.confirm _ _ rfl)
    (.cons (.toggle _ rfl)
    (.cons (.kana _ 't' c%"esuto" [.kana c%"て", .kana c%"す", .kana c%"と"] (by decide) (by decide +kernel) (.inl rfl))
    (.cons (.toggle _ rfl)
    (.cons (.latin _ c%"OK" rfl (by decide))
    (.nil _)))))))), ?_⟩
  cases pr <;> decide +kernel

/-- The keys `Watasi`, space, `haOkuRu`, space, Ctrl-j, `q`, `tesuto`, `q`, `l`, `OK`, Ctrl-j, with polls wherever you like. -/
example (pr : Bool) (ops : List Op) (ho : withoutPolls ops = (letter.flatMap (Passage.keys defaultLayout)).map Op.key) :
    ∃ c' out, deliver (Assets.env ⟨pr⟩) blank ops = .ok (c', out) ∧ out ++ pendingOutput c' = c%"私は送るテストOK" := by
  obtain ⟨q, hq, ht⟩ := letter_writes pr
  obtain ⟨c', out, h1, h2, _⟩ := text_delivered pr blank_at (Nat.le_refl 0) hq (by decide +kernel) ops ho
  exact ⟨c', out, h1, h2.trans ht⟩

end Cskk.Props.Document

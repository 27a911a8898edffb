import Verif.Spec.Teach
import Verif.Props.ShippedTyping
import Verif.Props.Registration
import Verif.Props.Session

/-!
# C70: a word taught once is offered from then on, over restarts
-/

namespace Cskk.Props.Teach
open Cskk.DictFile Cskk.Session

open Spec Spec.Typing Spec.Teach Spec.UserDict Spec.Session Spec.SameWords Romaji KanaBuilder Navigate Convert Typing Words

section
variable (e : Env) (c : Ctx) (tbl : Table) (ev : KeyEvent) (lo : Char) (l : List (KeyEvent × Char))
  (hk : c.kanaConv = ofTable tbl) (hr : RomajiMode c) (hm : c.top.mode = .direct) (ho : c.top.okuri = [])
  (hh : c.top.history.length ≤ 20) (hcap : c.top.capital = false) (hpre : c.top.pre = [])
  (hev : Capital e tbl ev lo.toNat)
include hk hr hm ho hh hcap hpre hev

/-- Whatever is typed after a capital letter, the reading is what the keys write. -/
theorem text_typed (hc : completed tbl [lo.toNat] ≠ none ∨ (begins tbl [lo.toNat] = true ∧ NoCommand c ev))
    (hp : ∀ x ∈ l, Plain x.2 ∧ Key e x.1 x.2)
    (hu : Undisturbed tbl (opened c) (typeKey tbl c.config.period c.config.comma ⟨[], [], false⟩ lo).pending l)
    (hqs : ∀ q, q <+: lo :: l.map Prod.snd → Quiet c (c.top.raw ++ rendered id
      (typeText tbl c.config.period c.config.comma ⟨[], [], true⟩ q).out)) :
    c.processKeyEvents e (ev :: l.map Prod.fst) =
      .ok (reading (opened c) (typeText tbl c.config.period c.config.comma ⟨[], [], true⟩ (lo :: l.map Prod.snd))) := by
  have hpunct : lo ≠ '.' ∧ lo ≠ ',' := by
    obtain ⟨h1, h2⟩ := hev.lower
    constructor <;> (rintro rfl; revert h1; decide)
  have hkey := capital_types e c tbl ev lo hk hr hm ho hh hcap hpre hev hc hpunct (hqs [lo] (by simp))
  have hcat : ∀ t : Str, typeText tbl c.config.period c.config.comma ⟨[], [], true⟩ (lo :: t) =
      typeText tbl c.config.period c.config.comma (typeKey tbl c.config.period c.config.comma ⟨[], [], true⟩ lo) t :=
    fun t => rfl
  have hpend := typeKey_pending tbl c.config.period c.config.comma [] [] true lo
  rw [Ascii.pke_cons e c _ ev _ true hkey]
  rw [hcat]
  have hqs' := fun q (h : q <+: l.map Prod.snd) => hqs (lo :: q) (by simpa using h)
  simp only [hcat] at hqs'
  revert hqs' hpend
  generalize typeKey tbl c.config.period c.config.comma ⟨[], [], true⟩ lo = s
  obtain ⟨o, u, sh⟩ := s
  intro hpend hqs'
  rw [typeText_out tbl _ _ o u sh]
  rw [typing_reading e (reading (opened c) ⟨o, u, sh⟩) tbl l hk ⟨Or.inr (Or.inl rfl), hr.2⟩ rfl ho hp]
  · refine congrArg Except.ok ?_
    simp [reading, opened, inMode, List.append_assoc, rendered_append]
  · refine undisturbed_congr tbl (opened c) (reading (opened c) ⟨o, u, sh⟩) rfl rfl rfl rfl _ l ?_
    show Undisturbed tbl (opened c) u l
    simp only at hpend
    rw [hpend]
    exact hu
  · intro q hq'
    have := hqs' q hq'
    rw [typeText_out tbl _ _ o u sh] at this
    simpa [reading, opened, inMode, rendered_append, Quiet] using this
end

/-- The level after the keys of a word and the conversion key, before the words are looked up. -/
def asking (c : Ctx) (tbl : Table) (t : Str) : State :=
  let s := typeText tbl c.config.period c.config.comma ⟨[], [], true⟩ t
  match valueOf tbl s.pending with
  | some v => { (reading (opened c) ⟨s.out ++ [.kana v.1], v.2, false⟩).top with capital := false }
  | none => (reading (opened c) s).top

theorem asking_flushed (c : Ctx) (tbl : Table) (t : Str) :
    Flushed tbl (reading (opened c) (typeText tbl c.config.period c.config.comma ⟨[], [], true⟩ t)).top (asking c tbl t) := by
  unfold asking
  generalize typeText tbl c.config.period c.config.comma ⟨[], [], true⟩ t = s
  dsimp only
  cases hv : valueOf tbl s.pending with
  | some v =>
    left
    exact ⟨rfl, v.1, v.2, (valueOf_iff _ _ _).mp hv, by simp [reading, opened, inMode, rendered, rendered_append]⟩
  | none =>
    right; right
    refine ⟨.inr ?_, rfl⟩
    rintro ⟨v, h⟩
    have : valueOf tbl s.pending = some v := (valueOf_iff _ _ _).mpr h
    rw [hv] at this; cases this

theorem asking_kana (c : Ctx) (tbl : Table) (t : Str) (hf : ShippedTyping.Fresh c) :
    (asking c tbl t).kana = spelled tbl c.config.period c.config.comma t ∧
    (asking c tbl t).raw = spelled tbl c.config.period c.config.comma t ∧ (asking c tbl t).okuri = [] ∧
    (asking c tbl t).inputMode = c.top.inputMode ∧ (asking c tbl t).defaultMode = c.top.defaultMode ∧
    (asking c tbl t).confirmed = c.top.confirmed := by
  have h1 := hf.kana
  have h2 := hf.raw
  have h3 := hf.okuri
  unfold asking spelled flushed
  generalize typeText tbl c.config.period c.config.comma ⟨[], [], true⟩ t = s
  dsimp only
  cases hv : valueOf tbl s.pending <;> simp [reading, opened, inMode, h1, h2, h3]

/-- The word is typed up to the conversion key. -/
theorem keys_typed (p : Bool) (c : Ctx) (tbl : Table) (ks : CompositionMode → List Char) (h : ShippedTyping.Shipped c tbl ks)
    (hf : ShippedTyping.Fresh c) (up : Char) (t r : Str) (hw : WordKeys tbl ks c.config up t r) :
    c.processKeyEvents (Assets.env ⟨p⟩) (typed (up :: t)) =
      .ok (reading (opened c) (typeText tbl c.config.period c.config.comma ⟨[], [], true⟩ (Char.ofNat (up.toNat + 0x20) :: t))) := by
  obtain ⟨c1, c2, hU, hcu⟩ := hw.capital
  have hlon : (Char.ofNat (up.toNat + 0x20)).toNat = up.toNat + 0x20 := by
    have hv : (up.toNat + 0x20).isValidChar := Or.inl (by omega)
    have h0 : Char.ofNat (up.toNat + 0x20) = Char.ofNatAux (up.toNat + 0x20) hv := dif_pos hv
    have h1 : (Char.ofNatAux (up.toNat + 0x20) hv).val.toNat = up.toNat + 0x20 := rfl
    rw [h0]; exact h1
  have hnc := h.noCommand hf.rom up (by omega) (by omega) (by rw [hf.mode]; exact hcu)
  have hop : ShippedTyping.Shipped (opened c) tbl ks := by
    cases h with
    | default a b => exact .default a b
    | azik a b => exact .azik a b
  have hopr : RomajiMode (opened c) := ⟨Or.inr (Or.inl rfl), hf.rom.2⟩
  have hev : typed (up :: t) =
      (⟨up.toNat, 0⟩ : KeyEvent) :: (t.map fun ch => ((⟨ch.toNat, 0⟩ : KeyEvent), ch)).map Prod.fst := by
    rw [← ShippedTyping.typed_pairs]; rfl
  rw [hev]
  have := text_typed (Assets.env ⟨p⟩) c tbl ⟨up.toNat, 0⟩ (Char.ofNat (up.toNat + 0x20)) (t.map fun ch => ((⟨ch.toNat, 0⟩ : KeyEvent), ch))
    h.kana hf.rom hf.mode hf.okuri hf.history hf.capital hf.pre
    (ShippedTyping.shipped_capital p c tbl ks h up (Char.ofNat (up.toNat + 0x20)) hlon.symm (by rw [hlon]; omega) hU)
    (Or.inr ⟨by rw [hlon]; exact hw.begins, hnc⟩) ?_ ?_ ?_
  · rw [ShippedTyping.pairs_snd] at this
    exact this
  · intro y hy
    obtain ⟨ch, hch, rfl⟩ := List.mem_map.mp hy
    exact ⟨(hw.plain ch hch).1, ShippedTyping.shipped_key p ch (hw.plain ch hch).1.1 (hw.plain ch hch).1.2.1⟩
  · apply undisturbed_of_noCommand
    intro y hy
    obtain ⟨ch, hch, rfl⟩ := List.mem_map.mp hy
    exact hop.noCommand hopr ch (hw.plain ch hch).1.1 (hw.plain ch hch).1.2.1 (hw.plain ch hch).2
  · rw [ShippedTyping.pairs_snd, hf.raw]
    exact hw.calm

theorem shipped_cases {c : Ctx} {tbl : Table} {ks : CompositionMode → List Char} (h : ShippedTyping.Shipped c tbl ks) :
    c.cmds = Assets.defaultCommands ∧ c.kanaConv = Assets.defaultKana ∨ c.cmds = Assets.azikCommands ∧ c.kanaConv = Assets.azikKana := by
  cases h with
  | default a b => exact .inl ⟨a, b⟩
  | azik a b => exact .inr ⟨a, b⟩

theorem lookup_asking (c : Ctx) (tbl : Table) (t : Str) (hf : ShippedTyping.Fresh c) :
    lookupKey (asking c tbl t) = ⟨spelled tbl c.config.period c.config.comma t, none⟩ := by
  obtain ⟨_, h2, h3, _⟩ := asking_kana c tbl t hf
  simp [lookupKey, h2, h3]

/-- **C70, recall.** With a shipped rule, in direct input with nothing typed: the keys of a word and space offer exactly the words the dictionaries have
for its reading, and show the first. -/
theorem recalled (p : Bool) (c : Ctx) (tbl : Table) (ks : CompositionMode → List Char) (h : ShippedTyping.Shipped c tbl ks)
    (hf : ShippedTyping.Fresh c) (up : Char) (t r : Str) (hw : WordKeys tbl ks c.config up t r)
    (x : Candidate) (xs : List Candidate) (hx : Dicts.getAll c.dicts ⟨r, none⟩ = .ok (x :: xs)) :
    ∃ c', c.processKeyEvents (Assets.env ⟨p⟩) (typed (up :: t ++ [' '])) = .ok c' ∧ c'.below = c.below ∧
      c'.dicts = c.dicts ∧ c'.candidates = x :: xs ∧ c'.cursorPosition = some 0 ∧
      c'.top.preeditString (Assets.env ⟨p⟩) c'.top.inputMode = c.top.confirmed ++ '▼' :: x.output := by
  have hty := keys_typed p c tbl ks h hf up t r hw
  have hev : typed (up :: t ++ [' ']) = typed (up :: t) ++ [⟨0x20, 0⟩] := by simp [typed]
  rw [hev, pke_append, hty]
  have hf1 := asking_flushed c tbl (Char.ofNat (up.toNat + 0x20) :: t)
  obtain ⟨_, _, a3, a4, _, a6⟩ := asking_kana c tbl (Char.ofNat (up.toNat + 0x20) :: t) hf
  have hlk := lookup_asking c tbl (Char.ofNat (up.toNat + 0x20) :: t) hf
  rw [hw.reading] at hlk
  generalize hs : typeText tbl c.config.period c.config.comma ⟨[], [], true⟩ (Char.ofNat (up.toNat + 0x20) :: t) = s at hf1
  have hcs := shipped_cases h
  have hsp := shipped_space (reading (opened c) s) (Or.inl rfl)
    (by obtain ⟨_, h | h | h⟩ := hf.rom <;> (constructor <;> (intro h'; have := h.symm.trans h'; cases this))) hcs
  obtain ⟨c', h1, h2, h3, h4, h5, h6⟩ := convert_shows (Assets.env ⟨p⟩) (reading (opened c) s) ⟨0x20, 0⟩ tbl _ h.kana (Or.inl rfl)
    (by unfold IsRelease; decide) hf1 hsp.2 hsp.1 (remember_length _ _) x xs (by rw [hlk]; exact hx)
  refine ⟨c', ?_, h2, h3, h4, h5, ?_⟩
  · show Ctx.processKeyEvents _ _ [_] = _
    rw [Ascii.pke_cons _ _ _ _ [] true h1]
    rfl
  · rw [h6, a3, Register.adjust_nil, List.append_nil]
    rfl

/-- Leaving a registration with a word which makes one candidate. -/
theorem exit_word (e : Env) (c : Ctx) (s : State) (rest : List State) (w : Str) (x : Candidate) (hb : c.below = s :: rest) (hw : w ≠ [])
    {xs : List Candidate} (h : Ctx.registered c.dicts s w = .ok (x :: xs)) :
    c.exitRegister e w = .ok { c with
      below := rest
      top := Confirm.committed s (x.output ++ e.kanaForm.adjust s.inputMode s.okuri)
      dicts := c.dicts.map fun (d : CskkDict) => d.confirm x } := by
  have hwe : w.isEmpty = false := by cases w <;> simp_all
  have hreg : Ctx.registered c.dicts { s with mode := .direct } w = Ctx.registered c.dicts s w := rfl
  unfold Ctx.exitRegister
  rw [hb]
  simp only [hwe, Bool.false_eq_true, if_false, Ctx.mapTop]
  rw [hreg, h]
  have hcur : (State.addCandidates { s with mode := .direct } (x :: xs)).cands.cands[
      (State.addCandidates { s with mode := .direct } (x :: xs)).cands.cursor]? = some x := by
    simp only [State.addCandidates, CandidateList.addNew, List.length_append, Nat.add_sub_cancel]
    rw [List.getElem?_append_right (Nat.le_refl _), Nat.sub_self]
    rfl
  have := Confirm.confirmCurrent_commits e { c with below := rest, top := State.addCandidates { s with mode := .direct } (x :: xs) } x hcur
    (.inr (.inr rfl))
  show Except.ok (Ctx.confirmCurrent _ _) = _
  rw [this]
  rfl

/-- **C70, teaching.** With a shipped rule, in direct input with nothing typed: the keys of a word no dictionary knows and space ask for the word.
Whatever is typed there, conversions and further registrations included, when Return is pressed at that level with the text `w` written, `w` is committed after what was
committed before, is recorded in every user dictionary for the reading, and direct input goes on with nothing typed. -/
theorem teaching (p : Bool) (c : Ctx) (tbl : Table) (ks : CompositionMode → List Char) (h : ShippedTyping.Shipped c tbl ks)
    (hf : ShippedTyping.Fresh c) (hdm : c.top.defaultMode = .direct) (hdep : c.depth < 10) (up : Char) (t r : Str)
    (hw : WordKeys tbl ks c.config up t r) (hne : r ≠ []) (hd : ∀ ch ∈ r, isNd ch = false)
    (hx : Dicts.getAll c.dicts ⟨r, none⟩ = .ok []) :
    ∃ c₁, c.processKeyEvents (Assets.env ⟨p⟩) (typed (up :: t ++ [' '])) = .ok c₁ ∧ c₁.below.length = c.below.length + 1 ∧
      c₁.top = State.new .hiragana .direct ∧ c₁.dicts = c.dicts ∧
      ∀ ops c' w, Inside (Assets.env ⟨p⟩) (c.below.length + 1) c₁ ops c' → c'.below.length = c.below.length + 1 →
        c'.top.mode = .direct → c'.top.confirmed = w → w ≠ [] →
        c'.processKeyEvent (Assets.env ⟨p⟩) ⟨0xff0d, 0⟩ =
          .ok ({ c with
            top := { State.new c.top.inputMode .direct with confirmed := c.top.confirmed ++ w }
            dicts := c'.dicts.map fun (d : CskkDict) => d.confirm (taught r w) }, true) := by
  have hty := keys_typed p c tbl ks h hf up t r hw
  have hev : typed (up :: t ++ [' ']) = typed (up :: t) ++ [⟨0x20, 0⟩] := by simp [typed]
  rw [hev, pke_append, hty]
  have hf1 := asking_flushed c tbl (Char.ofNat (up.toNat + 0x20) :: t)
  have ha := asking_kana c tbl (Char.ofNat (up.toNat + 0x20) :: t) hf
  have hlk := lookup_asking c tbl (Char.ofNat (up.toNat + 0x20) :: t) hf
  rw [hw.reading] at hlk ha
  obtain ⟨a1, a2, a3, a4, a5, a6⟩ := ha
  generalize asking c tbl (Char.ofNat (up.toNat + 0x20) :: t) = s₀ at *
  generalize hs : typeText tbl c.config.period c.config.comma ⟨[], [], true⟩ (Char.ofNat (up.toNat + 0x20) :: t) = s at hf1
  have hcs := shipped_cases h
  have hsp := shipped_space (reading (opened c) s) (Or.inl rfl)
    (by obtain ⟨_, h | h | h⟩ := hf.rom <;> (constructor <;> (intro h'; have := h.symm.trans h'; cases this))) hcs
  have hu := convert_unknown (Assets.env ⟨p⟩) (reading (opened c) s) ⟨0x20, 0⟩ tbl _ h.kana (Or.inl rfl)
    (by unfold IsRelease; decide) hf1 hsp.2 hsp.1 (remember_length _ _) (by rw [hlk]; exact hx) (by rw [a1]; exact hne)
  rw [if_pos (show (reading (opened c) s).depth < 10 from hdep)] at hu
  refine ⟨registering { c with top := withCandidates s₀ [] } .preComposition, ?_, rfl, rfl, rfl, fun ops c' w hin hlen hmode hconf hwne => ?_⟩
  · show Ctx.processKeyEvents _ _ [_] = _
    rw [Ascii.pke_cons _ _ _ _ [] true hu]
    rfl
  · have hal : AbortLast c.cmds := by
      rcases shipped_cases h with ⟨h, _⟩ | ⟨h, _⟩ <;> rw [h]
      · exact Registration.shipped_abortLast.1
      · exact Registration.shipped_abortLast.2
    obtain ⟨fh, fm, _, _⟩ := Convert.flushed_frame hf1
    have hin' : Inside (Assets.env ⟨p⟩) (c.below.length + 1)
        (registering { c with top := withCandidates s₀ [] } .preComposition) ops c' := hin
    have he := Registration.at_level { c with top := withCandidates s₀ [] } c' .preComposition ops hal hin' hlen
    have hrule' : c'.cmds = Assets.defaultCommands ∧ c'.kanaConv = Assets.defaultKana ∨
        c'.cmds = Assets.azikCommands ∧ c'.kanaConv = Assets.azikKana := by
      rw [he]; exact hcs
    obtain ⟨tbl', hk', _, _, hc1, hc2, _⟩ := Registration.shipped_ends c' hmode hrule'
    have hko : c.kanaConv = ofTable tbl' := by rw [← hk', he]; rfl
    rw [Registration.return_exits { c with top := withCandidates s₀ [] } c' .preComposition ops tbl' ⟨0xff0d, 0⟩ hal hko hin' hlen
      (by rw [hmode]; decide) (by unfold IsRelease; decide) hc1 hc2, hconf]
    have hbel : c'.below = { withCandidates s₀ [] with mode := .register, history := remember s₀.history .preComposition } :: c.below := by
      rw [he]; rfl
    have hreg : ∀ s : State, s.cands = (withCandidates s₀ []).cands → s.okuri = [] → Ctx.registered c'.dicts s w = .ok [taught r w] := by
      intro s hs ho
      unfold Ctx.registered
      rw [hs, ho]
      have hn : Numeric.numericStringCount r = 0 := by
        have := Numeric.numeric_key_no_digits r hd
        have h2 := congrArg Prod.snd this
        unfold Numeric.numericStringCount
        rw [show digitRuns r = [] from h2]; rfl
      simp only [withCandidates, hlk, hn]
      rw [if_neg (by omega)]
      rfl
    rw [exit_word _ c' _ c.below w (taught r w) hbel hwne (hreg _ rfl a3)]
    show Except.ok _ = Except.ok _
    rw [he]
    simp only [Confirm.committed, withCandidates, a3, a4, a5, a6, hdm, Register.adjust_nil, List.append_nil]
    rfl

/-! ## What the dictionaries answer afterwards -/

/-- After `w` was recorded for `r`, a dictionary answers for `r` what it answered before, and `w`. -/
theorem answers_taught (d : CskkDict) (r w : Str) (y : DictCand) (hy : y ∈ Candidates.answers (d.confirm (taught r w)) none r) :
    y ∈ Candidates.answers d none r ∨ y.kouho = w := by
  unfold Candidates.answers CskkDict.confirm UserDict.maps at *
  cases hk : d.kind with
  | user m b =>
    rw [hk] at hy
    dsimp only at hy ⊢
    obtain ⟨new, h1, h2⟩ := UserDict.confirm_moves_to_front m (taught r w) [] (.inl rfl)
    have h1 : listed (m.select (taught r w)) false r [] = some new := h1
    rw [h1] at hy
    generalize hold : (listed m (taught r w).okuri (taught r w).midashi []).getD [] = old at h2
    have hold : (listed m false r []).getD [] = old := hold
    rw [hold]
    cases h2 with
    | known h h' hp => exact .inl (hp.mem_iff.mp hy)
    | added h =>
      rcases List.mem_cons.mp hy with rfl | hy
      · exact .inr rfl
      · exact .inl hy
  | static m => rw [hk] at hy; simp only [hk] at hy; exact .inl hy
  | empty => rw [hk] at hy; simp only [hk] at hy; exact .inl hy

theorem nodup_all {A : Type} [DecidableEq A] (l : List A) (w : A) (hn : l.Nodup) (hm : w ∈ l) (ha : ∀ x ∈ l, x = w) : l = [w] := by
  cases l with
  | nil => cases hm
  | cons a l =>
    have := ha a (by simp)
    subst this
    cases l with
    | nil => rfl
    | cons b l =>
      have := ha b (by simp)
      subst this
      simp at hn

/-- Dictionaries among which a word was recorded for a reading without digits offer it for the reading; if no dictionary knew the reading before,
they offer nothing else. -/
theorem offered (ds : List CskkDict) (r w : Str) (hd : ∀ ch ∈ r, isNd ch = false) (hu : ∃ d ∈ ds, ∃ m b, d.kind = .user m b) :
    ∃ x xs, Dicts.getAll (ds.map fun (d : CskkDict) => d.confirm (taught r w)) ⟨r, none⟩ = .ok (x :: xs) ∧
      w ∈ (x :: xs).map (·.output) ∧ (Dicts.getAll ds ⟨r, none⟩ = .ok [] → (x :: xs).map (·.output) = [w]) := by
  have hnum : (Numeric.numericKey r).1 = r := by rw [Numeric.numeric_key_no_digits r hd]
  obtain ⟨cs, key, h1, hkey, h3, h4⟩ := Candidates.offered_words (ds.map fun (d : CskkDict) => d.confirm (taught r w)) ⟨r, none⟩ (by simp) hnum
  have hkey : key = r := hkey
  subst hkey
  have hin : w ∈ cs.map (·.output) := (h4 w).mpr (Register.known_confirmed ds (taught key w) rfl rfl hu)
  have honly : Dicts.getAll ds ⟨key, none⟩ = .ok [] → cs.map (·.output) = [w] := by
    intro h0
    refine nodup_all _ w h3 hin fun v hv => ?_
    obtain ⟨d', hd', y, hy, rfl⟩ := (h4 v).mp hv
    obtain ⟨d, hdm, rfl⟩ := List.mem_map.mp hd'
    rcases answers_taught d key w y hy with hy | hy
    · exfalso
      obtain ⟨cs', key', g1, gkey, g3, g4⟩ := Candidates.offered_words ds ⟨key, none⟩ (by simp) hnum
      rw [h0] at g1
      cases g1
      have gkey : key' = key := gkey
      subst gkey
      exact absurd ((g4 y.kouho).mpr ⟨d, hdm, y, hy, rfl⟩) (by simp)
    · exact hy
  cases cs with
  | nil => simp at hin
  | cons x xs => exact ⟨x, xs, h1, hin, honly⟩

/-- Everything a user does inside a registration keeps the dictionaries in step with their files. -/
theorem inside_inStep {e : Env} {ss : List Source} {fs : FS} {n : Nat} {c c' : Ctx} {ops : List Op} (h : AllInStep ss fs c.dicts)
    (hi : Inside e n c ops c') : AllInStep ss fs c'.dicts := by
  induction hi with
  | nil => exact h
  | cons c c₁ c' op ops hn hw hs _ ih =>
    refine ih (Session.call_inStep h op ?_ hs)
    cases op <;> first | trivial | exact hw

/-- … and leaves them well-formed. -/
theorem inside_wf {e : Env} {n : Nat} {c c' : Ctx} {ops : List Op} (h : ∀ d ∈ c.dicts, WellFormed (UserDict.maps d))
    (hi : Inside e n c ops c') : ∀ d ∈ c'.dicts, WellFormed (UserDict.maps d) := by
  induction hi with
  | nil => exact h
  | cons c c₁ c' op ops hn hw hs _ ih =>
    refine ih ?_
    obtain ⟨es, he⟩ := ContextDicts.dictionaries_only_edited e c c₁
      (.step .init (show ContextDicts.KeepsDictionaries c op by cases op <;> first | trivial | exact hw) hs)
    rw [he]
    intro d hd
    obtain ⟨d', hd', rfl⟩ := List.mem_map.mp hd
    exact UserDict.wf_history d' (h d' hd') es

theorem plain_confirm (d : CskkDict) (x : Candidate) (hx : Spec.Persist.PlainCandidate x)
    (h : kindOf d = .user → Spec.Persist.PlainDict (UserDict.maps d)) (hk : kindOf (d.confirm x) = .user) :
    Spec.Persist.PlainDict (UserDict.maps (d.confirm x)) := by
  obtain ⟨co, k⟩ := d
  cases k with
  | user m b => exact Persist.plain_select (h rfl) hx
  | static m => cases hk
  | empty => cases hk

/-- Saving changes no word. -/
inductive Kept : List CskkDict → List CskkDict → Prop
  | nil : Kept [] []
  | cons {d d' ds ds'} : UserDict.maps d' = UserDict.maps d ∧ kindOf d' = kindOf d → Kept ds ds' → Kept (d :: ds) (d' :: ds')

theorem saveDict_kept (s : Source) (fs : FS) (d : CskkDict) (o : Outcome) :
    UserDict.maps (saveDict s fs d o).1 = UserDict.maps d ∧ kindOf (saveDict s fs d o).1 = kindOf d := by
  refine ⟨?_, Session.saveDict_kind s fs d o⟩
  obtain ⟨co, k⟩ := d
  cases k with
  | user m b =>
    show (saveWith s.cd s.path fs ⟨m, b⟩ o).1.maps = m
    unfold saveWith
    repeat' split
    all_goals first | rfl | simp
  | static m => rfl
  | empty => rfl

theorem kept_refl (ds : List CskkDict) : Kept ds ds := by
  induction ds with
  | nil => exact .nil
  | cons d ds ih => exact .cons ⟨rfl, rfl⟩ ih

theorem saveAll_same (ss : List Source) (ds : List CskkDict) (os : Nat → Outcome) (fs : FS) :
    Kept ds (saveAll ss ds os fs).1 := by
  induction ss generalizing ds os fs with
  | nil => unfold saveAll; exact kept_refl ds
  | cons s ss ih =>
    cases ds with
    | nil => exact .nil
    | cons d ds => exact .cons (saveDict_kept s fs d _) (ih ds _ _)

theorem same_back {ds ds' : List CskkDict} (h : Kept ds ds') (d' : CskkDict) (hd : d' ∈ ds') :
    ∃ d ∈ ds, UserDict.maps d' = UserDict.maps d ∧ kindOf d' = kindOf d := by
  induction h with
  | nil => cases hd
  | cons h1 _ ih =>
    rcases List.mem_cons.mp hd with rfl | hd
    · exact ⟨_, by simp, h1⟩
    · obtain ⟨d, h2, h3⟩ := ih hd
      exact ⟨d, by simp [h2], h3⟩

theorem kept_answers {ds ds' : List CskkDict} (h : Kept ds ds') (o : Option Str) (key : Str) :
    (ds'.flatMap fun d => Candidates.answers d o key) = ds.flatMap fun d => Candidates.answers d o key := by
  induction h with
  | nil => rfl
  | cons h1 _ ih =>
    rw [List.flatMap_cons, List.flatMap_cons, ih]
    congr 1
    unfold Candidates.answers
    rw [h1.1]

theorem kept_getAll {ds ds' : List CskkDict} (h : Kept ds ds') (r : Str) (hd : ∀ ch ∈ r, isNd ch = false) :
    Dicts.getAll ds' ⟨r, none⟩ = Dicts.getAll ds ⟨r, none⟩ := by
  have hnum : (Numeric.numericKey r).1 = r := by rw [Numeric.numeric_key_no_digits r hd]
  have hk : (⟨r, none⟩ : CompositeKey).getDictKey = .ok r := rfl
  unfold Dicts.getAll
  simp only [hnum, if_true]
  rw [Candidates.exact_eq ds' _ r hk, Candidates.exact_eq ds _ r hk]
  show _ = Except.ok _
  rw [kept_answers h]
  rfl

/-- **C70.** Teach once, recall for ever. With a shipped rule, the keys of a word which no dictionary knows and space ask for the word; whatever is
typed there, when Return is pressed at that level with `w` written, `w` is committed. If the dictionaries are now saved, the program ends, and another
program opens the dictionaries again, then in each of its contexts (with either shipped rule) any keys which spell the reading and space offer `w`; and
if nothing else was recorded for the reading meanwhile, `w` is all that is offered and is what is shown. -/
theorem taught_for_ever (p : Bool) (c : Ctx) (tbl : Table) (ks : CompositionMode → List Char) (h : ShippedTyping.Shipped c tbl ks)
    (hf : ShippedTyping.Fresh c) (hdm : c.top.defaultMode = .direct) (hdep : c.depth < 10) (up : Char) (t r : Str)
    (hw : WordKeys tbl ks c.config up t r) (hne : r ≠ []) (hd : ∀ ch ∈ r, isNd ch = false)
    (hx : Dicts.getAll c.dicts ⟨r, none⟩ = .ok [])
    (ss : List Source) (fs : FS) (hstep : AllInStep ss fs c.dicts) (ha : Apart ss) (hsa : StaticApart ss) (ht : ∀ s ∈ ss, Persist.Total s.cd)
    (hwf : ∀ d ∈ c.dicts, WellFormed (UserDict.maps d)) (hu : ∃ s ∈ ss, s.wanted = .user) :
    ∃ c₁, c.processKeyEvents (Assets.env ⟨p⟩) (typed (up :: t ++ [' '])) = .ok c₁ ∧ c₁.below.length = c.below.length + 1 ∧
      ∀ ops c' w, Inside (Assets.env ⟨p⟩) (c.below.length + 1) c₁ ops c' → c'.below.length = c.below.length + 1 →
        c'.top.mode = .direct → c'.top.confirmed = w → w ≠ [] → Spec.Persist.PlainCandidate (taught r w) →
        (∀ d ∈ c'.dicts, kindOf d = .user → Spec.Persist.PlainDict (UserDict.maps d)) →
        ∃ c₂, c'.processKeyEvent (Assets.env ⟨p⟩) ⟨0xff0d, 0⟩ = .ok (c₂, true) ∧ c₂.below = c.below ∧
          c₂.top.confirmed = c.top.confirmed ++ w ∧
          ∃ ds', openAll (saveAll ss c₂.dicts (fun _ => .completes) fs).2 ss = some ds' ∧
            ∀ (p' : Bool) (c₃ : Ctx) tbl' ks' up' t', ShippedTyping.Shipped c₃ tbl' ks' → ShippedTyping.Fresh c₃ → c₃.dicts = ds' →
              WordKeys tbl' ks' c₃.config up' t' r →
              ∃ c₄, c₃.processKeyEvents (Assets.env ⟨p'⟩) (typed (up' :: t' ++ [' '])) = .ok c₄ ∧ c₄.below = c₃.below ∧
                w ∈ c₄.candidates.map (·.output) ∧
                (Dicts.getAll c'.dicts ⟨r, none⟩ = .ok [] → c₄.candidates.map (·.output) = [w] ∧
                  c₄.top.preeditString (Assets.env ⟨p'⟩) c₄.top.inputMode = c₃.top.confirmed ++ '▼' :: w) := by
  obtain ⟨c₁, k1, k2, k3, k4, k5⟩ := teaching p c tbl ks h hf hdm hdep up t r hw hne hd hx
  refine ⟨c₁, k1, k2, fun ops c' w hin hlen hmode hconf hwne hpc hpd => ⟨_, k5 ops c' w hin hlen hmode hconf hwne, rfl, rfl, ?_⟩⟩
  have hs1 : AllInStep ss fs c'.dicts := inside_inStep (by rw [k4]; exact hstep) hin
  have hw1 := inside_wf (by rw [k4]; exact hwf) hin
  have hs2 : AllInStep ss fs (c'.dicts.map fun (d : CskkDict) => d.confirm (taught r w)) := by
    have := Session.call_inStep (e := Assets.env ⟨p⟩) (c := c') hs1 (.key ⟨0xff0d, 0⟩) trivial
      (by show (do let r ← c'.processKeyEvent (Assets.env ⟨p⟩) ⟨0xff0d, 0⟩; pure r.1) = _; rw [k5 ops c' w hin hlen hmode hconf hwne]; rfl)
    exact this
  have huser : ∃ d ∈ c'.dicts, ∃ m b, d.kind = .user m b := by
    obtain ⟨s, hsm, hsw⟩ := hu
    have hfit := hs1.fits
    unfold Fits at hfit
    have : Wanted.user ∈ c'.dicts.map kindOf := by rw [hfit]; exact List.mem_map.mpr ⟨s, hsm, hsw⟩
    obtain ⟨d, hdm', hdk⟩ := List.mem_map.mp this
    refine ⟨d, hdm', ?_⟩
    unfold kindOf at hdk
    cases hk : d.kind with
    | user m b => exact ⟨m, b, rfl⟩
    | static m => rw [hk] at hdk; cases hdk
    | empty => rw [hk] at hdk; cases hdk
  obtain ⟨x, xs, o1, o2, o3⟩ := offered c'.dicts r w hd huser
  have hs3 := Session.save_inStep hs2 ha hsa (fun _ => .completes) (fun _ => by decide)
  have hs4 := Session.save_completes ss fs _ hs2 ha ht
  have hwD : ∀ d ∈ c'.dicts.map (fun (d : CskkDict) => d.confirm (taught r w)), WellFormed (UserDict.maps d) := by
    intro d hdm'
    obtain ⟨d', hd', rfl⟩ := List.mem_map.mp hdm'
    exact UserDict.wf_history d' (hw1 d' hd') [.confirm (taught r w)]
  have hpD : ∀ d ∈ c'.dicts.map (fun (d : CskkDict) => d.confirm (taught r w)), kindOf d = .user → Spec.Persist.PlainDict (UserDict.maps d) := by
    intro d hdm' hdk
    obtain ⟨d', hd', rfl⟩ := List.mem_map.mp hdm'
    exact plain_confirm d' (taught r w) hpc (hpd d' hd') hdk
  have hsame := saveAll_same ss (c'.dicts.map fun (d : CskkDict) => d.confirm (taught r w)) (fun _ => .completes) fs
  obtain ⟨ds', h5, h6⟩ := Session.openAll_same hs3 hs4 ht
    (fun d hd' => by
      obtain ⟨d', h1, h2⟩ := same_back hsame d hd'
      rw [h2.1]; exact hwD d' h1)
    (fun d hd' hk' => by
      obtain ⟨d', h1, h2⟩ := same_back hsame d hd'
      rw [h2.1]; exact hpD d' h1 (by rw [← h2.2]; exact hk'))
  refine ⟨ds', h5, fun p' c₃ tbl' ks' up' t' hsh hfr hds hwk => ?_⟩
  have hall : Dicts.getAll c₃.dicts ⟨r, none⟩ = .ok (x :: xs) := by
    rw [hds, SameWords.same_getAll h6, kept_getAll hsame r hd]
    exact o1
  obtain ⟨c₄, q1, q2, q3, q4, q5, q6⟩ := recalled p' c₃ tbl' ks' hsh hfr up' t' r hwk x xs hall
  refine ⟨c₄, q1, q2, by rw [q4]; exact o2, fun hun => ?_⟩
  have := o3 hun
  refine ⟨by rw [q4]; exact this, ?_⟩
  rw [q6]
  have hxo : x.output = w := by simpa using (List.cons.inj this).1
  rw [hxo]

/-! ## A session -/

/-- A program with one user dictionary, whose file is empty. -/
def oneFile : List Source := [Session.userFile c%"d"]

/-- Its context. -/
def start : Ctx := Ctx.new Assets.defaultCommands Assets.defaultKana .hiragana .direct [⟨true, .user ⟨[], []⟩ false⟩]

theorem calm_check (tbl : Table) (g : Config) (t : Str)
    (h : ∀ n ∈ List.range (t.length + 1), ∀ kw ∈ g.keywords, kw <:+ rendered id (typeText tbl g.period g.comma ⟨[], [], true⟩ (t.take n)).out →
      kw = rendered id (typeText tbl g.period g.comma ⟨[], [], true⟩ (t.take n)).out) : Calm tbl g t := by
  intro q hq
  have := h q.length (List.mem_range.mpr (by have := hq.length_le; omega))
  rwa [← List.prefix_iff_eq_take.mp hq] at this

/-- The keys `Hon` are a word with the reading ほん: the pending `n` counts. -/
theorem hon_keys : WordKeys Assets.defaultRomaji ShippedTyping.defaultCommandKeys start.config 'H' c%"on" c%"ほん" where
  capital := by decide +kernel
  begins := by decide +kernel
  plain := by decide +kernel
  calm := by
    apply calm_check
    decide +kernel
  reading := by decide +kernel

/-- What is typed in the registration: ブック, in katakana. -/
def inner : List KeyEvent := typed c%"qbukku"

theorem oneFile_apart : Apart oneFile ∧ StaticApart oneFile := by
  constructor
  · intro i j a b hij hi hj
    match i, j with
    | 0, 0 => exact absurd rfl hij
    | 0, n + 1 => cases hj
    | n + 1, _ => cases hi
  · intro a ha b _ h
    have : a = Session.userFile c%"d" := by simpa [oneFile] using ha
    subst this
    cases h

theorem taught_plain : Spec.Persist.PlainCandidate (taught c%"ほん" c%"ブック") :=
  ⟨by unfold Spec.Persist.PlainReading; decide, Persist.candOk_plain _ (by decide) (by decide) (by decide) (by decide) (by decide) (by decide),
    fun _ => rfl, fun h => by cases h⟩

/-- The session up to Return. -/
theorem hon_inside : ∃ c', Inside (Assets.env ⟨true⟩) 1
    ((start.processKeyEvents (Assets.env ⟨true⟩) (typed c%"Hon ")).toOption.getD start) (inner.map .key) c' ∧
    c'.below.length = 1 ∧ c'.top.mode = .direct ∧ c'.top.confirmed = c%"ブック" ∧ c'.dicts = start.dicts := by
  have h : ∃ c', Registration.insideKeys (Assets.env ⟨true⟩) 1
      ((start.processKeyEvents (Assets.env ⟨true⟩) (typed c%"Hon ")).toOption.getD start) inner = some c' ∧
      c'.below.length = 1 ∧ c'.top.mode = .direct ∧ c'.top.confirmed = c%"ブック" ∧ c'.dicts = start.dicts := by
    have : (Registration.insideKeys (Assets.env ⟨true⟩) 1
      ((start.processKeyEvents (Assets.env ⟨true⟩) (typed c%"Hon ")).toOption.getD start) inner).any
      (fun c' => decide (c'.below.length = 1 ∧ c'.top.mode = .direct ∧ c'.top.confirmed = c%"ブック" ∧ c'.dicts = start.dicts)) = true := by
      decide +kernel
    cases hx : Registration.insideKeys (Assets.env ⟨true⟩) 1
      ((start.processKeyEvents (Assets.env ⟨true⟩) (typed c%"Hon ")).toOption.getD start) inner with
    | none => rw [hx] at this; cases this
    | some c' =>
      rw [hx] at this
      exact ⟨c', rfl, of_decide_eq_true this⟩
  obtain ⟨c', h1, h2⟩ := h
  exact ⟨c', Registration.insideKeys_inside h1, h2⟩

theorem inside_keys {e : Env} {n : Nat} {c c' : Ctx} {l : List KeyEvent} (h : Inside e n c (l.map .key) c') : c.processKeyEvents e l = .ok c' := by
  induction l generalizing c with
  | nil => cases h; rfl
  | cons k l ih =>
    cases h with
    | cons _ c₁ _ _ _ hn hw hs hi =>
      cases hk : c.processKeyEvent e k with
      | error p => simp [Ctx.step, hk, bind, Except.bind] at hs
      | ok r =>
        have : r.1 = c₁ := by simpa [Ctx.step, hk, bind, Except.bind, pure, Except.pure] using hs
        subst this
        rw [Ascii.pke_cons e c r.1 k l r.2 hk]
        exact ih hi

/-- The theorem applied: `Hon`, space, `qbukku`, Return; save; another program, with either rule: the keys of ほん offer ブック alone. -/
theorem hon_taught :
    ∃ c₂, start.processKeyEvents (Assets.env ⟨true⟩) (typed c%"Hon " ++ inner ++ [⟨0xff0d, 0⟩]) = .ok c₂ ∧ c₂.top.confirmed = c%"ブック" ∧
      ∃ ds', openAll (saveAll oneFile c₂.dicts (fun _ => .completes) Session.disk).2 oneFile = some ds' ∧
        ∀ (p' : Bool) (c₃ : Ctx) tbl' ks' up' t', ShippedTyping.Shipped c₃ tbl' ks' → ShippedTyping.Fresh c₃ → c₃.dicts = ds' →
          WordKeys tbl' ks' c₃.config up' t' c%"ほん" →
          ∃ c₄, c₃.processKeyEvents (Assets.env ⟨p'⟩) (typed (up' :: t' ++ [' '])) = .ok c₄ ∧
            c₄.candidates.map (·.output) = [c%"ブック"] ∧
            c₄.top.preeditString (Assets.env ⟨p'⟩) c₄.top.inputMode = c₃.top.confirmed ++ c%"▼ブック" := by
  obtain ⟨c', i1, i2, i3, i4, i5⟩ := hon_inside
  have hempty : Spec.Persist.PlainDict ⟨[], []⟩ := by
    have h := Persist.empty_file_plain.1
    have : load Utf8.utf8 [] = ⟨[], []⟩ := by decide +kernel
    rwa [this] at h
  have hone : ∀ d ∈ start.dicts, UserDict.maps d = ⟨[], []⟩ := by
    intro d hd
    have : d = ⟨true, .user ⟨[], []⟩ false⟩ := by simpa [start, Ctx.new] using hd
    rw [this]; rfl
  obtain ⟨c₁, h1, h2, h3⟩ := taught_for_ever true start Assets.defaultRomaji ShippedTyping.defaultCommandKeys (.default rfl rfl)
    ⟨⟨Or.inl rfl, Or.inl rfl⟩, rfl, rfl, rfl, rfl, rfl, rfl, by decide⟩ rfl (by decide) 'H' c%"on" c%"ほん" hon_keys (by decide) (by decide +kernel)
    (by decide +kernel) oneFile Session.disk (Session.openAll_inStep (by decide +kernel)) oneFile_apart.1 oneFile_apart.2
    (by intro s hs; have : s = Session.userFile c%"d" := by simpa [oneFile] using hs
        subst this; exact Persist.total_utf8)
    (by intro d hd; rw [hone d hd]; exact hempty.wf) ⟨Session.userFile c%"d", by simp [oneFile], rfl⟩
  have h1 : start.processKeyEvents (Assets.env ⟨true⟩) (typed c%"Hon ") = .ok c₁ := h1
  rw [h1] at i1
  obtain ⟨c₂, k1, k2, k3, ds', k4, k5⟩ := h3 _ c' c%"ブック" i1 i2 i3 i4 (by decide) taught_plain
    (by intro d hd _; rw [i5] at hd; rw [hone d hd]; exact hempty)
  have hun : Dicts.getAll c'.dicts ⟨c%"ほん", none⟩ = .ok [] := by rw [i5]; decide +kernel
  refine ⟨c₂, ?_, k3, ds', k4, fun p' c₃ tbl' ks' up' t' q1 q2 q3 q4 => ?_⟩
  · rw [pke_append, pke_append, h1]
    have hrun : c₁.processKeyEvents (Assets.env ⟨true⟩) inner = .ok c' := inside_keys i1
    show (do let c' ← c₁.processKeyEvents (Assets.env ⟨true⟩) inner; c'.processKeyEvents _ [_]) = _
    rw [hrun]
    show c'.processKeyEvents _ [_] = _
    rw [Ascii.pke_cons _ _ _ _ [] true k1]
    rfl
  · obtain ⟨c₄, r1, _, _, r2⟩ := k5 p' c₃ tbl' ks' up' t' q1 q2 q3 q4
    exact ⟨c₄, r1, (r2 hun).1, (r2 hun).2⟩

end Cskk.Props.Teach

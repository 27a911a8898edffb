import Verif.Props.Document
import Verif.Spec.Wishes

/-!
# Words whose okurigana is one kana written by one key

`IU` is 言う: the second capital letter is the whole okurigana.
-/

namespace Cskk.Props.Wishes

open Spec Spec.Typing Spec.Document Spec.Wishes Romaji KanaBuilder Navigate Convert Typing Words ShippedTyping WordCycle Document
open Cskk.Props.TypeOn (Shown settled)

theorem vowel_word_converted (e : Env) (c : Ctx) (tbl : Table) (ev ev' : KeyEvent) (lo : Char) (lo' : Keysym)
    (l : List (KeyEvent × Char)) (ws : List Str) (w : Str)
    (hk : c.kanaConv = ofTable tbl) (hr : RomajiMode c) (hm : c.top.mode = .direct) (ho : c.top.okuri = [])
    (hh : c.top.history.length ≤ 20) (hcap : c.top.capital = false) (hpre : c.top.pre = [])
    (hempty : c.top.kana = [] ∧ c.top.raw = [])
    (hev : Capital e tbl ev lo.toNat)
    (hc : completed tbl [lo.toNat] ≠ none ∨ (begins tbl [lo.toNat] = true ∧ NoCommand c ev))
    (hp : ∀ x ∈ l, Plain x.2 ∧ Key e x.1 x.2)
    (hu : Undisturbed tbl (opened c) (typeKey tbl c.config.period c.config.comma ⟨[], [], false⟩ lo).pending l)
    (hs : Spells tbl [] (lo :: l.map Prod.snd) ws) (hq : ∀ v, v <+: ws → Quiet c v.flatten) (hw : ws.flatten ≠ [])
    (hev' : CapitalAt e tbl [] ev' lo') (hv : completed tbl [lo'] = some (w, [])) (hw' : w ≠ [])
    (cs : List Candidate) (hx : Dicts.getAll c.dicts ⟨ws.flatten, some w⟩ = .ok cs) :
    ∃ r : State, c.processKeyEvents e (ev :: l.map Prod.fst ++ [ev']) = .ok (converted c r cs) ∧
      r.kana = ws.flatten ∧ r.okuri = w ∧ r.confirmed = c.top.confirmed ∧ r.inputMode = c.top.inputMode ∧ r.pre = [] ∧
      r.defaultMode = c.top.defaultMode := by
  have hb := word_typed e c tbl ev lo l ws hk hr hm ho hh hcap hpre hev hc hp hu hs
    (by rw [hempty.2]; simpa using hq)
  rw [hempty.1, hempty.2, List.nil_append] at hb
  rw [pke_append, hb]
  show ∃ r : State, Ctx.processKeyEvents e _ _ = _ ∧ _
  generalize hc1 : ({ c with top := { inMode c.top .preComposition with
      kana := ws.flatten, raw := ws.flatten, pre := [], capital := false } } : Ctx) = c1
  have e1 : c1.top = { inMode c.top .preComposition with
      kana := ws.flatten, raw := ws.flatten, pre := [], capital := false } := by rw [← hc1]
  have h2 := okuri_starts e c1 tbl ev' lo' (by rw [← hc1]; exact hk)
    (by rw [← hc1]; exact ⟨Or.inr (Or.inl rfl), hr.2⟩) (by rw [e1]; rfl) (by rw [e1]; exact hw)
    (by rw [e1]; exact remember_length _ _) (by rw [e1]) (by rw [e1]; exact hev') w (by rw [e1]; exact hv) _ rfl cs
    (by
      have : lookupKey { inMode c1.top .preCompositionOkurigana with
          okuri := c1.top.okuri ++ w, useOkuri := true, pre := [], capital := false } = ⟨ws.flatten, some w⟩ := by
        simp [e1, lookupKey, inMode, ho, hw']
      rw [this, ← hc1]
      exact hx)
  rw [Ascii.pke_cons e _ _ ev' _ true h2]
  refine ⟨{ inMode c1.top .preCompositionOkurigana with okuri := c1.top.okuri ++ w, useOkuri := true, pre := [], capital := false },
    by rw [← hc1]; rfl, ?_, ?_, ?_, ?_, rfl, ?_⟩
  · rw [e1]; rfl
  · simp [e1, inMode, ho]
  · rw [e1]; rfl
  · rw [e1]; rfl
  · rw [e1]; rfl

/-- A word typed with a capital letter, and the okurigana `w` with one capital letter. -/
theorem writes_vowel (pr : Bool) {L : Layout} {g : Config} {B : List State} {c : Ctx} {p : Page} (h : At L g B c p) (hn : p.chosen = none)
    (up : Char) (t : Str) (up' : Char) (n : Nat) (ws : List Str) (w : Str) (cs : List Candidate) (x : Candidate)
    (hi : Initial L .direct up) (hp : ∀ y ∈ t, Plain y ∧ y ∉ L.commands .preComposition) (hs : Spells L.tbl [] (small up :: t) ws)
    (hq : ∀ v, v <+: ws → ∀ kw ∈ g.keywords, kw <:+ v.flatten → kw = v.flatten) (hr : ws.flatten ≠ [])
    (hi' : 0x41 ≤ up'.toNat ∧ up'.toNat ≤ 0x5a ∧ begins L.tbl [up'.toNat] = false)
    (hv : completed L.tbl [up'.toNat + 0x20] = some (w, [])) (hw : w ≠ [])
    (hcs : Dicts.getAll p.dicts ⟨ws.flatten, some w⟩ = .ok cs) (hx : cs[n]? = some x) :
    ∃ c', c.processKeyEvents (Assets.env ⟨pr⟩) (typed (up :: t ++ [up']) ++ List.replicate n ⟨0x20, 0⟩) = .ok c' ∧
      At L g B c' { p with chosen := some (x, w) } := by
  have hf := h.fresh hn
  have hsh := h.uses.shipped
  have hop := (h.uses.congr (c' := opened c) rfl rfl).shipped
  have hopr : RomajiMode (opened c) := ⟨Or.inr (Or.inl rfl), hf.rom.2⟩
  obtain ⟨i1, i2, i3, i4, i5⟩ := hi
  have hsm := small_toNat up i2
  have hcap' : CapitalAt (Assets.env ⟨pr⟩) L.tbl [] ⟨up'.toNat, 0⟩ (up'.toNat + 0x20) := by
    obtain ⟨j1, j2, j3⟩ := hi'
    have a1 : (0x61 : Nat) ≤ up'.toNat + 0x20 := by omega
    have a2 : up'.toNat + 0x20 ≤ (0x7a : Nat) := by omega
    refine ⟨⟨a1, a2⟩, rfl, ?_, ⟨up', (shipped_key pr up' (by omega) (by omega)).char, ?_⟩, ⟨by simpa using j3, j3⟩⟩
    · rintro ⟨i, _, hb⟩; simp at hb
    · constructor <;> (rintro rfl; revert j1; decide)
  obtain ⟨r, k1, k2, k3, k4, k5, k6, k7⟩ := vowel_word_converted (Assets.env ⟨pr⟩) c L.tbl ⟨up.toNat, 0⟩ ⟨up'.toNat, 0⟩ (small up) (up'.toNat + 0x20)
    (t.map fun ch => (⟨ch.toNat, 0⟩, ch)) ws w
    hsh.kana hf.rom hf.mode hf.okuri hf.history hf.capital hf.pre ⟨hf.kana, hf.raw⟩
    (shipped_capital pr c _ _ hsh up (small up) hsm.symm (by omega) i3)
    (.inr ⟨by rw [hsm]; exact i5, hsh.noCommand hf.rom up (by omega) (by omega) (by rw [hf.mode]; exact i4)⟩)
    (by
      intro x hx
      obtain ⟨ch, hch, rfl⟩ := List.mem_map.mp hx
      exact ⟨(hp ch hch).1, shipped_key pr ch (hp ch hch).1.1 (hp ch hch).1.2.1⟩)
    (undisturbed_of_noCommand _ _ _ _ (by
      intro x hx
      obtain ⟨ch, hch, rfl⟩ := List.mem_map.mp hx
      exact hop.noCommand hopr ch (hp ch hch).1.1 (hp ch hch).1.2.1 (hp ch hch).2))
    (by rw [pairs_snd]; exact hs) (by intro v hv; unfold Quiet; rw [h.config]; exact hq v hv) hr
    hcap' hv hw cs (by rw [h.dicts]; exact hcs)
  obtain ⟨hlt, _⟩ := List.getElem?_eq_some_iff.mp hx
  have hev : typed (up :: t ++ [up']) = (⟨up.toNat, 0⟩ : KeyEvent) :: (t.map fun ch => ((⟨ch.toNat, 0⟩ : KeyEvent), ch)).map Prod.fst ++
      [⟨up'.toNat, 0⟩] := by
    rw [← typed_pairs]; simp [typed]
  rw [hev, processKeyEvents_append _ _ _ _ _ k1]
  have hne : cs ≠ [] := by rintro rfl; simp at hlt
  have hcv : converted c r cs = { c with top := inMode (withCandidates r cs) .compositionSelection } := by
    unfold converted
    rw [if_pos hne]
  have hkm : c.top.inputMode ≠ .ascii ∧ c.top.inputMode ≠ .zenkaku := by
    obtain ⟨_, h | h | h⟩ := hf.rom <;> rw [h] <;> decide
  rw [hcv, show (⟨0x20, 0⟩ : KeyEvent) = space from rfl, next_repeated _ n { c with top := inMode (withCandidates r cs) .compositionSelection } _ ⟨rfl, by show 0 < cs.length; omega⟩ not_release.1
    ((shipped_keys { c with top := inMode (withCandidates r cs) .compositionSelection } h.uses.cases rfl (by show r.inputMode ≠ _ ∧ r.inputMode ≠ _; rw [k5]; exact hkm)).1)
    (by show 0 + n < cs.length; omega)]
  refine ⟨_, rfl, ⟨h.uses.congr rfl rfl, h.below, h.config, k4.trans h.text, k5.trans h.mode, h.dicts, k7.trans h.default, ?_⟩⟩
  refine ⟨⟨.inl rfl, ?_, ?_, k7.trans h.default⟩, rfl, k6, k3⟩
  · show cs[0 + n]? = _
    rw [Nat.zero_add]; exact hx
  · have h2 := hf.rom.2
    rw [← k5] at h2
    exact h2

end Cskk.Props.Wishes

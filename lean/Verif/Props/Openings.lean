import Verif.Props.Shortened

/-!
# Readings begun with the key which begins an empty reading

`Q` under the default rule and `{` under AZIK; then small letters, so that the reading may begin with any kana.
-/

namespace Cskk.Props.Wishes

open Spec Spec.Typing Spec.Document Spec.Wishes Romaji KanaBuilder Navigate Convert Typing Words ShippedTyping WordCycle Document
open Cskk.Props.TypeOn (Shown settled)

/-- The key which begins an empty reading. -/
def opener (L : Layout) : Char := if L.toggle = 'q' then 'Q' else '{'

theorem opener_printable (L : Layout) : 0x20 ≤ (opener L).toNat ∧ (opener L).toNat ≤ 0x7e := by
  unfold opener; split <;> decide

theorem opener_opens (pr : Bool) {L : Layout} {g : Config} {B : List State} {c : Ctx} {p : Page} (h : At L g B c p) (hn : p.chosen = none) :
    c.processKeyEvent (Assets.env ⟨pr⟩) ⟨(opener L).toNat, 0⟩ = .ok ({ c with top := inMode c.top .preComposition }, true) := by
  have hf := h.fresh hn
  have hcomp : ¬ ModeKeys.Completes L.tbl c.top.pre ⟨(opener L).toNat, 0⟩ := by
    rw [hf.pre]
    have hu := h.uses
    cases hu with
    | default a b => rintro ⟨_, h | h⟩ <;> (revert h; decide +kernel)
    | azik a b => rintro ⟨_, h | h⟩ <;> (revert h; decide +kernel)
  have hfind : ((c.cmds .direct c.top.inputMode).find? fun b => decide (b.1 = CommandRule.matchingKey ⟨(opener L).toNat, 0⟩)).map (·.2) =
      some [.changeCompositionMode .preComposition] := by
    have hu := h.uses
    cases hu with
    | default a b => rw [a]; rcases hf.rom.2 with h | h | h <;> rw [h] <;> decide +kernel
    | azik a b => rw [a]; rcases hf.rom.2 with h | h | h <;> rw [h] <;> decide +kernel
  have hrel : ¬ IsRelease ⟨(opener L).toNat, 0⟩ := by unfold IsRelease; show ¬ (0 : BitVec _).getLsbD 30 = true; decide
  rw [key_command _ c _ _ hrel (by rw [hf.mode]; decide) (commandIs_of_find (by rw [hf.mode]; exact hfind))
    (ModeKeys.skip_iff c L.tbl _ h.uses.shipped.kana hcomp)]
  have : c.top.changeModeFrom .preComposition c.top.mode = inMode c.top .preComposition := changeModeFrom_eq _ _ _ hf.history
  show Except.ok (c.setCompositionMode .preComposition, true) = _
  unfold Ctx.setCompositionMode Ctx.mapTop State.changeMode
  show Except.ok ({ c with top := c.top.changeModeFrom .preComposition c.top.mode }, true) = _
  rw [this]

/-- The context with the reading `w`. -/
def reads (c : Ctx) (w : Str) : Ctx := { c with top := { inMode c.top .preComposition with kana := w, raw := w, pre := [], capital := false } }

/-- The reading after the opening key and the small letters. -/
theorem opened_reading (pr : Bool) {L : Layout} {g : Config} {B : List State} {c : Ctx} {p : Page} (h : At L g B c p) (hn : p.chosen = none)
    (t : Str) (ws : List Str) (hp : ∀ y ∈ t, Plain y ∧ y ∉ L.commands .preComposition) (hs : Spells L.tbl [] t ws) (ht : ws ≠ [])
    (hq : ∀ v, v <+: ws → ∀ kw ∈ g.keywords, kw <:+ v.flatten → kw = v.flatten) :
    c.processKeyEvents (Assets.env ⟨pr⟩) (typed (opener L :: t)) = .ok (reads c ws.flatten) := by
  have hf := h.fresh hn
  have k1 := opener_opens pr h hn
  have hop := (h.uses.congr (c' := { c with top := inMode c.top .preComposition }) rfl rfl).shipped
  obtain ⟨b, k2, hb⟩ := spelled_reading (Assets.env ⟨pr⟩) { c with top := inMode c.top .preComposition } L.tbl
    (t.map fun ch => (⟨ch.toNat, 0⟩, ch)) ws hop.kana ⟨Or.inr (Or.inl rfl), hf.rom.2⟩ rfl hf.okuri
    (by
      intro x hx
      obtain ⟨ch, hch, rfl⟩ := List.mem_map.mp hx
      exact ⟨(hp ch hch).1, shipped_key pr ch (hp ch hch).1.1 (hp ch hch).1.2.1⟩)
    (undisturbed_of_noCommand _ _ _ _ (by
      intro x hx
      obtain ⟨ch, hch, rfl⟩ := List.mem_map.mp hx
      exact hop.noCommand ⟨Or.inr (Or.inl rfl), hf.rom.2⟩ ch (hp ch hch).1.1 (hp ch hch).1.2.1 (hp ch hch).2))
    (by rw [pairs_snd]; show Spells L.tbl c.top.pre t ws; rw [hf.pre]; exact hs)
    (by
      intro v hv
      show Quiet _ (c.top.raw ++ v.flatten)
      rw [hf.raw, List.nil_append]
      unfold Quiet
      show ∀ kw ∈ c.config.keywords, _
      rw [h.config]; exact hq v hv)
  obtain rfl := hb ht
  rw [← typed_pairs] at k2
  show c.processKeyEvents (Assets.env ⟨pr⟩) ((⟨(opener L).toNat, 0⟩ : KeyEvent) :: typed t) = _
  rw [Ascii.pke_cons _ _ _ _ _ true k1, k2]
  unfold reads inMode
  dsimp only
  rw [hf.kana, hf.raw, List.nil_append]

theorem no_value_nil {L : Layout} {c : Ctx} (h : Uses c L) : valueOf L.tbl [] = none := by
  cases h with
  | default => decide +kernel
  | azik => decide +kernel

/-- A word by its reading. -/
theorem writes_opened (pr : Bool) {L : Layout} {g : Config} {B : List State} {c : Ctx} {p : Page} (h : At L g B c p) (hn : p.chosen = none)
    (t : Str) (ws : List Str) (n : Nat) (cs : List Candidate) (x : Candidate)
    (hp : ∀ y ∈ t, Plain y ∧ y ∉ L.commands .preComposition) (hs : Spells L.tbl [] t ws) (ht : ws ≠ [])
    (hq : ∀ v, v <+: ws → ∀ kw ∈ g.keywords, kw <:+ v.flatten → kw = v.flatten)
    (hcs : Dicts.getAll p.dicts ⟨ws.flatten, none⟩ = .ok cs) (hx : cs[n]? = some x) :
    ∃ c', c.processKeyEvents (Assets.env ⟨pr⟩) (typed (opener L :: t) ++ List.replicate (n + 1) ⟨0x20, 0⟩) = .ok c' ∧
      At L g B c' { p with chosen := some (x, []) } := by
  have hf := h.fresh hn
  obtain ⟨hlt, _⟩ := List.getElem?_eq_some_iff.mp hx
  rw [processKeyEvents_append _ _ _ _ _ (opened_reading pr h hn t ws hp hs ht hq)]
  have hkm : c.top.inputMode ≠ .ascii ∧ c.top.inputMode ≠ .zenkaku := by
    obtain ⟨_, h | h | h⟩ := hf.rom <;> rw [h] <;> decide
  have hready : Ready L.tbl (reads c ws.flatten) (reads c ws.flatten).top := by
    refine ⟨Or.inl rfl, hkm, ?_, .inr (.inr ⟨.inr ?_, rfl⟩), remember_length _ _⟩
    · have hu := h.uses
      cases hu with
      | default a b => exact .inl ⟨a, b, rfl⟩
      | azik a b => exact .inr ⟨a, b, rfl⟩
    · rintro ⟨v, hv⟩
      have := (valueOf_iff L.tbl [] v).mpr hv
      rw [no_value_nil h.uses] at this
      cases this
  have hsp := spaces (Assets.env ⟨pr⟩) hready (cs := cs) (by
    have : lookupKey (reads c ws.flatten).top = ⟨ws.flatten, none⟩ := by
      simp [lookupKey, reads, inMode, hf.okuri]
    rw [this]
    show Dicts.getAll c.dicts _ = _
    rw [h.dicts]; exact hcs) n hlt
  refine ⟨_, hsp, ⟨h.uses.congr rfl rfl, h.below, h.config, h.text, h.mode, h.dicts, h.default, ?_⟩⟩
  refine ⟨⟨.inl rfl, hx, hf.rom.2, h.default⟩, rfl, rfl, hf.okuri⟩

/-- What is shown once the okurigana is complete, and after more spaces. -/
theorem shows_okuri (pr : Bool) {L : Layout} {g : Config} {B : List State} {c : Ctx} {p : Page} (h : At L g B c p) (hn : p.chosen = none)
    (r : State) (w : Str) (n : Nat) (cs : List Candidate) (x : Candidate) (hx : cs[n]? = some x)
    (k3 : r.okuri = w) (k4 : r.confirmed = c.top.confirmed) (k5 : r.inputMode = c.top.inputMode) (k6 : r.pre = [])
    (k7 : r.defaultMode = c.top.defaultMode) :
    ∃ c', (converted c r cs).processKeyEvents (Assets.env ⟨pr⟩) (List.replicate n ⟨0x20, 0⟩) = .ok c' ∧
      At L g B c' { p with chosen := some (x, w) } := by
  have hf := h.fresh hn
  obtain ⟨hlt, _⟩ := List.getElem?_eq_some_iff.mp hx
  have hne : cs ≠ [] := by rintro rfl; simp at hlt
  have hcv : converted c r cs = { c with top := inMode (withCandidates r cs) .compositionSelection } := by
    unfold converted
    rw [if_pos hne]
  have hkm : c.top.inputMode ≠ .ascii ∧ c.top.inputMode ≠ .zenkaku := by
    obtain ⟨_, h | h | h⟩ := hf.rom <;> rw [h] <;> decide
  rw [hcv, show (⟨0x20, 0⟩ : KeyEvent) = space from rfl, next_repeated _ n { c with top := inMode (withCandidates r cs) .compositionSelection } _ ⟨rfl, by show 0 < cs.length; omega⟩ not_release.1
    ((shipped_keys { c with top := inMode (withCandidates r cs) .compositionSelection } h.uses.cases rfl (by show r.inputMode ≠ _ ∧ r.inputMode ≠ _; rw [k5]; exact hkm)).1)
    (by show 0 + n < cs.length; omega)]
  refine ⟨_, rfl, ⟨h.uses.congr rfl rfl, h.below, h.config, k4.trans h.text, k5.trans h.mode, h.dicts, k7.trans h.default, ?_⟩⟩
  refine ⟨⟨.inl rfl, ?_, ?_, k7.trans h.default⟩, rfl, k6, k3⟩
  · show cs[0 + n]? = _
    rw [Nat.zero_add]; exact hx
  · have h2 := hf.rom.2
    rw [← k5] at h2
    exact h2

/-- A word with okurigana of one key. -/
theorem writes_opened_vowel (pr : Bool) {L : Layout} {g : Config} {B : List State} {c : Ctx} {p : Page} (h : At L g B c p) (hn : p.chosen = none)
    (t : Str) (ws : List Str) (up' : Char) (n : Nat) (w : Str) (cs : List Candidate) (x : Candidate)
    (hp : ∀ y ∈ t, Plain y ∧ y ∉ L.commands .preComposition) (hs : Spells L.tbl [] t ws) (ht : ws ≠ [])
    (hq : ∀ v, v <+: ws → ∀ kw ∈ g.keywords, kw <:+ v.flatten → kw = v.flatten) (hr : ws.flatten ≠ [])
    (hi' : 0x41 ≤ up'.toNat ∧ up'.toNat ≤ 0x5a ∧ begins L.tbl [up'.toNat] = false)
    (hv : completed L.tbl [up'.toNat + 0x20] = some (w, [])) (hw : w ≠ [])
    (hcs : Dicts.getAll p.dicts ⟨ws.flatten, some w⟩ = .ok cs) (hx : cs[n]? = some x) :
    ∃ c', c.processKeyEvents (Assets.env ⟨pr⟩) (typed (opener L :: t) ++ ([⟨up'.toNat, 0⟩] ++ List.replicate n ⟨0x20, 0⟩)) = .ok c' ∧
      At L g B c' { p with chosen := some (x, w) } := by
  have hf := h.fresh hn
  have hcap' : CapitalAt (Assets.env ⟨pr⟩) L.tbl [] ⟨up'.toNat, 0⟩ (up'.toNat + 0x20) := by
    obtain ⟨j1, j2, j3⟩ := hi'
    have a1 : (0x61 : Nat) ≤ up'.toNat + 0x20 := by omega
    have a2 : up'.toNat + 0x20 ≤ (0x7a : Nat) := by omega
    refine ⟨⟨a1, a2⟩, rfl, ?_, ⟨up', (shipped_key pr up' (by omega) (by omega)).char, ?_⟩, ⟨by simpa using j3, j3⟩⟩
    · rintro ⟨i, _, hb⟩; simp at hb
    · constructor <;> (rintro rfl; revert j1; decide)
  have h2 := okuri_starts (Assets.env ⟨pr⟩) (reads c ws.flatten) L.tbl ⟨up'.toNat, 0⟩ (up'.toNat + 0x20) h.uses.shipped.kana
    ⟨Or.inr (Or.inl rfl), hf.rom.2⟩ rfl hr (remember_length _ _) rfl hcap' w hv _ rfl cs (by
      have : lookupKey { inMode (reads c ws.flatten).top .preCompositionOkurigana with
          okuri := (reads c ws.flatten).top.okuri ++ w, useOkuri := true, pre := [], capital := false } = ⟨ws.flatten, some w⟩ := by
        simp [lookupKey, inMode, reads, hf.okuri, hw]
      rw [this]
      show Dicts.getAll c.dicts _ = _
      rw [h.dicts]; exact hcs)
  rw [processKeyEvents_append _ _ _ _ _ (opened_reading pr h hn t ws hp hs ht hq), processKeyEvents_append _ _ _ _ _ (processKeyEvents_one _ _ _ _ _ h2)]
  exact shows_okuri pr h hn { inMode (reads c ws.flatten).top .preCompositionOkurigana with
    okuri := (reads c ws.flatten).top.okuri ++ w, useOkuri := true, pre := [], capital := false } w n cs x hx
    (by simp [reads, inMode, hf.okuri]) rfl rfl rfl rfl

/-- A word with other okurigana. -/
theorem writes_opened_okuri (pr : Bool) {L : Layout} {g : Config} {B : List State} {c : Ctx} {p : Page} (h : At L g B c p) (hn : p.chosen = none)
    (t : Str) (ws : List Str) (up' : Char) (t' : Str) (n : Nat) (w : Str) (cs : List Candidate) (x : Candidate)
    (hp : ∀ y ∈ t, Plain y ∧ y ∉ L.commands .preComposition) (hs : Spells L.tbl [] t ws) (ht : ws ≠ [])
    (hq : ∀ v, v <+: ws → ∀ kw ∈ g.keywords, kw <:+ v.flatten → kw = v.flatten) (hr : ws.flatten ≠ [])
    (hi' : Initial L .preComposition up') (hn' : completed L.tbl [up'.toNat + 0x20] = none)
    (hp' : ∀ y ∈ t', Plain y ∧ y ∉ L.commands .preCompositionOkurigana) (hs' : Okuri L.tbl [up'.toNat + 0x20] t' w) (hw : w ≠ [])
    (hcs : Dicts.getAll p.dicts ⟨ws.flatten, some w⟩ = .ok cs) (hx : cs[n]? = some x) :
    ∃ c', c.processKeyEvents (Assets.env ⟨pr⟩) (typed (opener L :: t) ++ (typed (up' :: t') ++ List.replicate n ⟨0x20, 0⟩)) = .ok c' ∧
      At L g B c' { p with chosen := some (x, w) } := by
  have hf := h.fresh hn
  obtain ⟨j1, j2, j3, j4, j5⟩ := hi'
  have hsm' := small_toNat up' j2
  have hrd := (h.uses.congr (c' := reads c ws.flatten) rfl rfl).shipped
  have hrr : RomajiMode (reads c ws.flatten) := ⟨Or.inr (Or.inl rfl), hf.rom.2⟩
  have h2 := okuri_begins (Assets.env ⟨pr⟩) (reads c ws.flatten) L.tbl ⟨up'.toNat, 0⟩ (up'.toNat + 0x20) h.uses.shipped.kana
    hrr rfl hr (remember_length _ _) rfl
    ((hsm' ▸ shipped_capital pr (reads c ws.flatten) _ _ hrd up' (small up') hsm'.symm (by omega) j3 : Capital (Assets.env ⟨pr⟩) L.tbl ⟨up'.toNat, 0⟩ (up'.toNat + 0x20)).at _)
    (hrd.noCommand hrr up' (by omega) (by omega) j4) hn' j5
  generalize hc2 : ({ (reads c ws.flatten) with top := { inMode (reads c ws.flatten).top .preCompositionOkurigana with
      pre := (reads c ws.flatten).top.pre ++ [up'.toNat + 0x20], capital := true } } : Ctx) = c2 at h2
  have h3 := okuri_typed (Assets.env ⟨pr⟩) L.tbl (t'.map fun ch => (⟨ch.toNat, 0⟩, ch)) c2 _ _ w hs' (by rw [← hc2]; rfl) (pairs_snd t').symm
    (by rw [← hc2]; exact h.uses.shipped.kana) (by rw [← hc2]; exact ⟨Or.inr (Or.inr rfl), hf.rom.2⟩) (by rw [← hc2]; rfl)
    (by
      intro x hx
      obtain ⟨ch, hch, rfl⟩ := List.mem_map.mp hx
      exact ⟨(hp' ch hch).1, shipped_key pr ch (hp' ch hch).1.1 (hp' ch hch).1.2.1⟩)
    (by
      intro x hx
      obtain ⟨ch, hch, rfl⟩ := List.mem_map.mp hx
      have := okuri_commands h.uses hf.rom ch (hp' ch hch).1.1 (hp' ch hch).1.2.1 (hp' ch hch).2
      rw [← hc2]; exact this)
    (by rw [← hc2]; exact remember_length _ _) (by rw [← hc2]; exact hr) cs
    (by
      have : lookupKey (withOkuri c2.top w) = ⟨ws.flatten, some w⟩ := by
        simp [← hc2, lookupKey, withOkuri, inMode, reads, hf.okuri, hw]
      rw [this, ← hc2]
      show Dicts.getAll c.dicts _ = _
      rw [h.dicts]; exact hcs)
  rw [← typed_pairs] at h3
  rw [processKeyEvents_append _ _ _ _ _ (opened_reading pr h hn t ws hp hs ht hq)]
  show ∃ c', Ctx.processKeyEvents (Assets.env ⟨pr⟩) (reads c ws.flatten) ((⟨up'.toNat, 0⟩ : KeyEvent) :: (typed t' ++ List.replicate n ⟨0x20, 0⟩)) = .ok c' ∧ _
  rw [Ascii.pke_cons _ _ _ _ _ true h2, processKeyEvents_append _ _ _ _ _ h3]
  have hcv : converted c2 (withOkuri c2.top w) cs = converted c (withOkuri c2.top w) cs := by rw [← hc2]; rfl
  rw [hcv]
  exact shows_okuri pr h hn _ w n cs x hx (by simp [← hc2, reads, withOkuri, inMode, hf.okuri]) (by rw [← hc2]; rfl) (by rw [← hc2]; rfl) rfl
    (by rw [← hc2]; rfl)

end Cskk.Props.Wishes

import Verif.Lemmas.Keys
import Verif.Spec.Preedit
import Verif.Model.DefaultRule

/-!
# C40: confirming commits the shown conversion
-/

namespace Cskk.Props.Confirm
open Spec

/-- The level after `w` was committed and composition left: everything but modes and committed text is as new. -/
def committed (s : State) (w : Str) : State :=
  { State.new s.inputMode s.defaultMode with confirmed := s.confirmed ++ w }

/-- What the confirmation does, whatever API call causes it. -/
theorem confirmCurrent_commits (e : Env) (c : Ctx) (x : Candidate)
    (hc : c.top.cands.cands[c.top.cands.cursor]? = some x)
    (hm : c.top.mode = .compositionSelection ∨ c.top.mode = .completion ∨ c.top.mode = .direct) :
    c.confirmCurrent e =
      { c with
        top := committed c.top (x.output ++ e.kanaForm.adjust c.top.inputMode c.top.okuri)
        dicts := c.dicts.map fun (d : CskkDict) => d.confirm x } := by
  have hcur : c.top.cands.current = some x := hc
  unfold Ctx.confirmCurrent
  rw [hcur]
  dsimp only [Ctx.mapTop]
  have hp : c.top.push (x.output ++ e.kanaForm.adjust c.top.inputMode c.top.okuri) =
      { c.top with confirmed := c.top.confirmed ++ (x.output ++ e.kanaForm.adjust c.top.inputMode c.top.okuri) } := by
    rcases hm with h | h | h <;> simp [State.push, State.pushFor, h]
  rw [hp]
  rfl

/-- The text shown for a level in selection or completion: committed text, mark, conversion. -/
theorem shown (e : Env) (s : State) (x : Candidate) (hc : s.cands.cands[s.cands.cursor]? = some x) :
    (s.mode = .compositionSelection →
      s.preeditString e s.inputMode =
        s.confirmed ++ '▼' :: (x.output ++ e.kanaForm.adjust s.inputMode s.okuri)) ∧
    (s.mode = .completion →
      s.preeditString e s.inputMode =
        s.confirmed ++ '■' :: (x.output ++ e.kanaForm.adjust s.inputMode s.okuri)) := by
  have hcur : s.cands.current = some x := hc
  have ho : (if s.okuri.isEmpty then none else some (e.kanaForm.adjust s.inputMode s.okuri)).getD [] =
      e.kanaForm.adjust s.inputMode s.okuri := by
    cases h : s.okuri with
    | nil =>
      cases s.inputMode <;> rfl
    | cons a l => simp
  constructor <;> intro hm <;>
    simp [State.preeditString, State.preeditDetail, hm, hcur] <;>
    simpa using ho

/-- C40: `skk_context_confirm_candidate_at` with a valid index `i` in selection or completion: the text which is
shown behind the mark once `i` is selected is what is appended to the output; the level leaves composition, nothing else of the
context changes but the user dictionaries, which learn the candidate. -/
theorem confirm_commits_shown (e : Env) (c : Ctx) (i : Nat) (x : Candidate) (hi : c.top.cands.cands[i]? = some x)
    (hm : c.top.mode = .compositionSelection ∨ c.top.mode = .completion) :
    ∃ w mark, (mark = '▼' ∨ mark = '■') ∧
      (c.selectCandidateAt i).1.top.preeditString e c.top.inputMode = c.top.confirmed ++ mark :: w ∧
      (c.confirmCandidateAt e i) =
        ({ c with
            top := committed c.top w
            dicts := c.dicts.map fun (d : CskkDict) => d.confirm x }, true) ∧
      (c.top.defaultMode = .direct →
        (c.confirmCandidateAt e i).1.top.preeditString e c.top.inputMode = c.top.confirmed ++ w) := by
  have hlt : i < c.top.cands.cands.length := (List.getElem?_eq_some_iff.mp hi).1
  have hset : c.top.setPointer i = ({ c.top with cands := { c.top.cands with cursor := i } }, true) := by
    simp [State.setPointer, CandidateList.setSelectionPointer, hi]
  have hsel : (c.selectCandidateAt i).1 = { c with top := { c.top with cands := { c.top.cands with cursor := i } } } := by
    unfold Ctx.selectCandidateAt
    dsimp only
    rw [if_neg (by omega), if_neg (by omega), if_neg (by omega)]
    dsimp only [Ctx.mapTop]
    rw [Int.toNat_natCast, hset]
  have hconf : c.confirmCandidateAt e i =
      (({ c with top := { c.top with cands := { c.top.cands with cursor := i } } } : Ctx).confirmCurrent e, true) := by
    unfold Ctx.confirmCandidateAt
    rw [hset]
    rfl
  have hcc := confirmCurrent_commits e { c with top := { c.top with cands := { c.top.cands with cursor := i } } } x hi
    (by rcases hm with h | h <;> simp [h])
  have hs := shown e { c.top with cands := { c.top.cands with cursor := i } } x hi
  have hlast : ∀ w, c.confirmCandidateAt e i =
        ({ c with top := committed c.top w, dicts := c.dicts.map fun (d : CskkDict) => d.confirm x }, true) →
      c.top.defaultMode = .direct →
      (c.confirmCandidateAt e i).1.top.preeditString e c.top.inputMode = c.top.confirmed ++ w := by
    intro w h hd
    rw [h]
    simp [committed, State.preeditString, State.preeditDetail, State.new, hd, State.unconverted]
  have hres := hconf.trans (congrArg (fun c => (c, true)) hcc)
  rcases hm with hm | hm
  · exact ⟨_, '▼', Or.inl rfl, by rw [hsel]; exact hs.1 hm, hres, hlast _ hres⟩
  · exact ⟨_, '■', Or.inr rfl, by rw [hsel]; exact hs.2 hm, hres, hlast _ hres⟩

/-- An index outside the list confirms nothing and changes nothing. -/
theorem confirm_invalid_index (e : Env) (c : Ctx) (i : Nat) (hi : c.top.cands.cands.length ≤ i) :
    c.confirmCandidateAt e i = (c, false) := by
  have : c.top.cands.cands[i]? = none := List.getElem?_eq_none hi
  unfold Ctx.confirmCandidateAt State.setPointer CandidateList.setSelectionPointer
  simp [this]

/-- The command ConfirmComposition (Return and C-j in the default rule's selection mode) commits the current
candidate in the same way. -/
theorem command_commits (e : Env) (c : Ctx) (x : Candidate) (cm : CompositionMode) (im : InputMode)
    (hc : c.top.cands.cands[c.top.cands.cursor]? = some x)
    (hm : c.top.mode = .compositionSelection ∨ c.top.mode = .completion) :
    c.instruction e .confirmComposition cm im =
      .ok ({ c with
              top := committed c.top (x.output ++ e.kanaForm.adjust c.top.inputMode c.top.okuri)
              dicts := c.dicts.map fun (d : CskkDict) => d.confirm x }, none) := by
  show Except.ok (c.confirmCurrent e, none) = _
  rw [confirmCurrent_commits e c x hc (by rcases hm with h | h <;> simp [h])]

/-- A context in selection mode, `愛` selected, okurigana `す`. -/
def sample : Ctx :=
  let x : Candidate := ⟨c%"あい", some c%"す", true, c%"愛", none, c%"愛"⟩
  let s := State.new .katakana .direct
  Ctx.mk [] { s with mode := .compositionSelection, kana := c%"あい", raw := c%"あい", okuri := c%"す", useOkuri := true,
                     cands := ⟨⟨c%"あい", some c%"す"⟩, 0, [x]⟩, confirmed := c%"ん" }
    Assets.defaultCommands Assets.defaultKana [] Config.default

/-- The hypotheses are met, and the text is committed in the current kana form. -/
example : (sample.top.cands.cands[0]?).isSome ∧ sample.top.mode = .compositionSelection ∧
    (sample.confirmCandidateAt (Assets.env ⟨true⟩) 0).1.top.confirmed = c%"ん愛ス" := by decide +kernel

/-- Outside these modes the confirmed word is lost: with candidates left in the list and the mode set to
PreComposition by `skk_context_set_composition_mode`, `skk_context_confirm_candidate_at` reports success, teaches the word to
the user dictionary and commits nothing. -/
theorem confirm_in_precomposition_loses_word (e : Env) (c : Ctx) (i : Nat) (hi : i < c.top.cands.cands.length)
    (hm : c.top.mode = .preComposition) :
    (c.confirmCandidateAt e i).2 = true ∧ (c.confirmCandidateAt e i).1.top.confirmed = c.top.confirmed := by
  obtain ⟨x, hx⟩ : ∃ x, c.top.cands.cands[i]? = some x := ⟨_, List.getElem?_eq_getElem hi⟩
  unfold Ctx.confirmCandidateAt State.setPointer CandidateList.setSelectionPointer
  simp only [hx]
  refine ⟨rfl, ?_⟩
  simp [Ctx.confirmCurrent, CandidateList.current, hx, Ctx.mapTop, State.push, State.pushFor, hm,
    State.clearUnconfirmed, State.resetToDefault, State.clearCandidateList, State.clearKanas, State.clearPre]

/-- The situation arises from `sample` by one API call. -/
example : (sample.setCompositionMode .preComposition).top.mode = .preComposition ∧
    0 < (sample.setCompositionMode .preComposition).top.cands.cands.length := by decide +kernel

end Cskk.Props.Confirm

import Verif.Props.Levels
import Verif.Props.CandidateList

/-!
# C06 for the whole context: the candidate cursor
-/

namespace Cskk.Props.Cursor
open Spec

/-- A marker `#4` in a text is a substring `#4`. -/
theorem marker_infix (s : Str) (h : '4' ∈ Numeric.markers s) : c%"#4" <:+: s := by
  fun_induction Numeric.markers s with
  | case1 d cs hd ih =>
    rcases List.mem_cons.mp h with h | h
    · subst h; exact ⟨[], cs, rfl⟩
    · exact (ih h).trans ⟨['#', d], [], by simp⟩
  | case2 d cs hd ih => exact (ih h).trans ⟨['#'], [], by simp⟩
  | case3 c cs _ ih => exact (ih h).trans ⟨[c], [], by simp⟩
  | case4 => cases h

theorem markerTexts_ne_nil {lookup : Str → List Str} {d : Char} {n : Str} {ts : List Str} (hd : d ≠ '4')
    (h : Numeric.markerTexts lookup d n = .ok ts) : ts ≠ [] := by
  unfold Numeric.markerTexts at h
  split at h
  · cases h; simp
  split at h
  · cases h; simp
  split at h
  · cases h; simp
  split at h
  · cases hs : Numeric.simpleKanji n with
    | error p => rw [hs] at h; cases h
    | ok t => rw [hs] at h; cases h; simp
  split at h
  · cases hs : Numeric.daijiNum n false with
    | error p => rw [hs] at h; cases h
    | ok t =>
      cases hs' : Numeric.daijiNum n true with
      | error p => rw [hs, hs'] at h; cases h
      | ok t => rw [hs, hs'] at h; cases h; simp
  · cases h; simp

theorem replaceLoop_ne_nil {lookup : Str → List Str} (ds : List Char) (ns : List Str) (ts rs : List Str) (hd : '4' ∉ ds)
    (ht : ts ≠ []) (h : Numeric.replaceLoop lookup ds ns ts = .ok rs) : rs ≠ [] := by
  induction ds generalizing ns ts with
  | nil => cases ns <;> (unfold Numeric.replaceLoop at h; cases h; exact ht)
  | cons d ds ih =>
    cases ns with
    | nil => unfold Numeric.replaceLoop at h; cases h; exact ht
    | cons n ns =>
      unfold Numeric.replaceLoop at h
      have he : ts.isEmpty = false := by cases ts <;> simp_all
      rw [he] at h
      cases hm : Numeric.markerTexts lookup d n with
      | error p => rw [hm] at h; cases h
      | ok reps =>
        rw [hm] at h
        have hr := markerTexts_ne_nil (fun h => hd (h ▸ List.mem_cons_self)) hm
        refine ih ns _ (fun h => hd (List.mem_cons_of_mem _ h)) ?_ h
        cases ts with
        | nil => exact absurd rfl ht
        | cons t ts =>
          cases reps with
          | nil => exact absurd rfl hr
          | cons r reps => simp

/-- A registered word without the marker `#4` is offered in at least one form. -/
theorem registered_ne_nil {ds : List CskkDict} {s : State} {w : Str} {cs : List Candidate} (hw : ¬ c%"#4" <:+: w)
    (h : Ctx.registered ds s w = .ok cs) : cs ≠ [] := by
  unfold Ctx.registered at h
  dsimp only at h
  split at h
  · cases hr : Numeric.replaceNumericString (Dicts.relookup ds) w (Numeric.numericKey s.cands.toComposite.toComposite).2 with
    | error p => rw [hr] at h; cases h
    | ok outs =>
      rw [hr] at h
      cases h
      have := replaceLoop_ne_nil _ _ _ _ (fun h => hw (marker_infix w h)) (by simp) hr
      simpa using this
  · cases h; simp

/-- The cursor points to a candidate, or there is none. -/
def CursorOk (s : State) : Prop := s.cands.cands = [] ∨ s.cands.cursor < s.cands.cands.length

/-- A word with a re-lookup marker is not registered. -/
def NoRelookup (s : State) (i : Instruction) : Prop := i = .confirmDirect → ¬ c%"#4" <:+: s.confirmed

theorem abort_cands (s : State) : s.abortToPrevious.cands = s.cands := by
  unfold State.abortToPrevious
  cases s.history.getLast? with
  | none => rfl
  | some m => dsimp only; split <;> rfl

theorem delete_cands (s : State) : s.delete.1.cands = s.cands := by
  unfold State.delete
  cases hm : s.mode <;> dsimp only
  case direct => split <;> rfl
  case preComposition => split <;> (try split) <;> rfl
  case abbreviation => split <;> (try split) <;> rfl
  case preCompositionOkurigana =>
    by_cases hp : s.pre = []
    · simp only [hp, ne_eq, not_true_eq_false, if_false]
      split <;> rfl
    · simp only [hp, ne_eq, not_false_eq_true, if_true]
      split <;> rfl

theorem CursorOk.set (s : State) (k : CompositeKey) (cs : List Candidate) :
    CursorOk { s with cands := s.cands.set k cs } := by
  cases cs with
  | nil => exact Or.inl rfl
  | cons a l => exact Or.inr (Nat.zero_lt_succ _)

theorem CursorOk.inv : Inv CursorOk CursorOk (fun _ => True) NoRelookup where
  new := Or.inl rfl
  pushFor := by intro s w m h; cases m <;> exact h
  setPre := fun _ _ _ h => h
  setCandidates := fun s cs _ => CursorOk.set s _ cs
  clearUnconfirmed := fun _ _ => Or.inl rfl
  clearKanas := fun _ h _ => h
  clearCandidateList := fun _ _ => Or.inl rfl
  clearAll := fun _ _ => Or.inl rfl
  consolidate := fun _ h => h
  setPostfix := fun _ _ h => h
  changeMode := fun _ _ h _ => h
  abortToPrevious := fun s h => by unfold CursorOk; rw [abort_cands]; exact h
  resetToDefault := fun _ h => h
  cursor := by
    intro s i h hi
    rcases hi with hi | hi | hi
    · exact Or.inl hi
    · exact Or.inr hi
    · rcases h with h | h
      · exact Or.inl h
      · exact Or.inr (by show i < s.cands.cands.length; omega)
  inputMode := fun _ _ h => h
  flush := fun _ h => h
  flushQ := fun _ h => h
  deleteAuto := fun s h _ => by unfold CursorOk; rw [delete_cands]; exact h
  delete := fun s h _ => by unfold CursorOk; rw [delete_cands]; exact h
  enter := fun _ _ h _ => h
  leave := fun s h => by unfold CursorOk; rw [abort_cands]; exact h
  exit := by
    intro s t ds cs hs ht ha hne hr
    right
    have := registered_ne_nil (ha rfl) hr
    have : 0 < cs.length := List.length_pos_iff.mpr this
    show (s.cands.cands ++ cs).length - cs.length < (s.cands.cands ++ cs).length
    rw [List.length_append]
    omega
  mode := fun _ _ => trivial
  instr := fun _ _ _ _ => trivial
  mPre := trivial
  mOkuri := trivial
  mSel := trivial
  mComp := trivial

end Cskk.Props.Cursor
namespace Cskk.Spec

/-- The call does not register a word which contains `#4`. -/
def RegistersNoRelookup (e : Env) (c : Ctx) : Op → Prop
  | .key ev => c.KeyAdmissible e (fun c i => i = .confirmDirect → ¬ c%"#4" <:+: c.top.confirmed) ev
  | _ => True

end Cskk.Spec
namespace Cskk.Props.Cursor
open Spec

/-- **C06.** After any calls, as long as no word with `#4` is registered, the reported cursor position is that of an
existing candidate. -/
theorem cursor_points_to_candidate (e : Env) (r : CommandRule) (k : KanaBuilder) (im : InputMode) (cm : CompositionMode)
    (ds : List CskkDict) (c : Ctx) (h : Reach e (RegistersNoRelookup e) (Ctx.new r k im cm ds) c) (i : Nat)
    (hi : c.cursorPosition = some i) : i < c.candidateCount := by
  have hg : c.Good CursorOk CursorOk := by
    refine CursorOk.inv.reach (e := e) (r := True) (fun _ s _ => Or.inl rfl)
      (c₀ := Ctx.new r k im cm ds) ⟨Or.inl rfl, by intro s hs; cases hs⟩ ?_
    clear hi
    induction h with
    | init => exact .init
    | @step c c' op _ hg hs ih =>
      refine .step ih ?_ hs
      cases op <;> first | trivial | exact hg | exact Or.inr trivial
  unfold Ctx.cursorPosition at hi
  split at hi
  · cases hi
  · cases hi
    rcases hg.1 with h | h
    · simp [h] at *
    · exact h

/-- A dictionary with the word `第#0` for the reading `だい#`. -/
def daiDict : CskkDict :=
  ⟨true, .static ⟨[], [(c%"だい#", ⟨c%"だい#", false, [([], [⟨c%"第#0", none⟩])]⟩)]⟩⟩

/-- **Exception to C06.** Reading `だい5`, conversion, next candidate: there is only one, so a registration opens; `#4`
is registered there, but the number 5 has no entry of its own.  No candidate is added, nothing is committed, the
cursor is behind the last candidate, and the mode is Direct although the reading and the candidates are still there. -/
theorem relookup_registration_breaks_cursor (p : Bool) :
    (((Ctx.new Assets.defaultCommands Assets.defaultKana .hiragana .direct [daiDict]).processKeyEvents (Assets.env ⟨p⟩)
        (typed c%"Dai5  #4" ++ [⟨0xff0d, 0⟩])).toOption.map fun c =>
      (c.cursorPosition, c.candidateCount, c.top.mode, c.top.kana, c.preedit (Assets.env ⟨p⟩))) =
    some (some 1, 1, .direct, c%"だい5", []) := by
  cases p <;> decide +kernel

/-- Without the marker the same history is covered by the theorem, and the registered word is committed. -/
example :
    (((Ctx.new Assets.defaultCommands Assets.defaultKana .hiragana .direct [daiDict]).processKeyEvents (Assets.env ⟨true⟩)
        (typed c%"Dai5  #1" ++ [⟨0xff0d, 0⟩])).toOption.map fun c =>
      (c.cursorPosition, c.candidateCount, c.top.mode, c.pollOutput.2)) =
    some (none, 0, .direct, some c%"５") := by decide +kernel

/-- While candidates are shown the position is reported. -/
example :
    (((Ctx.new Assets.defaultCommands Assets.defaultKana .hiragana .direct [daiDict]).processKeyEvents (Assets.env ⟨true⟩)
        (typed c%"Dai5 ")).toOption.map fun c => (c.cursorPosition, c.candidateCount)) = some (some 0, 1) := by
  decide +kernel

end Cskk.Props.Cursor

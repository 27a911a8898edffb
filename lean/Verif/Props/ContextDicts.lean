import Verif.Props.Levels
import Verif.Props.UserDict
import Verif.Props.Cursor

/-!
# C10 for the whole context: what calls do to the dictionaries
-/

namespace Cskk.Props.ContextDicts
open Spec UserDict

/-- The call does not replace the list of dictionaries. -/
def KeepsDictionaries (_ : Ctx) : Op → Prop
  | .setDictionaries _ => False
  | _ => True

theorem edits_frame (ds : List CskkDict) :
    Frame fun c => ∃ es : List Edit, c.dicts = ds.map fun d => es.foldl applyEdit d where
  setTop := fun _ _ h => h
  push := fun _ _ _ _ h => h
  pop := fun _ _ _ _ _ h => h
  drop := fun _ _ h => h
  relevel := fun _ _ _ h => h
  confirm := by
    rintro c x ⟨es, h⟩
    refine ⟨es ++ [.confirm x], ?_⟩
    simp only [h, List.map_map, List.foldl_append]
    rfl
  purge := by
    rintro c k x ⟨es, h⟩
    refine ⟨es ++ [.purge k x], ?_⟩
    simp only [h, List.map_map, List.foldl_append]
    rfl

/-- After any calls each dictionary has been changed by the same sequence of confirmations and purges, and by nothing
else. -/
theorem dictionaries_only_edited (e : Env) (c₀ c : Ctx) (h : Reach e KeepsDictionaries c₀ c) :
    ∃ es : List Edit, c.dicts = c₀.dicts.map fun d => es.foldl applyEdit d := by
  induction h with
  | init => exact ⟨[], by simp⟩
  | @step c c' op _ hg hs ih =>
    by_cases hp : Frame.Plain op
    · exact ((edits_frame c₀.dicts).step ih op hp).out c' hs
    · cases op <;> first | exact absurd trivial hp | (cases hs; exact ih) | exact absurd hg id

/-- **C10.** No calls whatsoever change a read-only dictionary: as long as the list of dictionaries is not replaced,
the dictionary at the same place is the same. -/
theorem static_never_modified (e : Env) (c₀ c : Ctx) (h : Reach e KeepsDictionaries c₀ c) (i : Nat) (d : CskkDict)
    (hd : c₀.dicts[i]? = some d) (hr : ReadOnly d) : c.dicts[i]? = some d := by
  obtain ⟨es, he⟩ := dictionaries_only_edited e c₀ c h
  rw [he, List.getElem?_map, hd]
  simp [read_only_unchanged d hr es]

/-- The number of dictionaries stays the same. -/
theorem dictionary_count (e : Env) (c₀ c : Ctx) (h : Reach e KeepsDictionaries c₀ c) :
    c.dicts.length = c₀.dicts.length := by
  obtain ⟨es, he⟩ := dictionaries_only_edited e c₀ c h
  rw [he, List.length_map]

/-- Every dictionary which is well-formed at the beginning is well-formed after any calls, so that the theorems about
well-formed user dictionaries (C08, C09, C12) apply throughout the life of a context. -/
theorem dictionaries_stay_well_formed (e : Env) (c₀ c : Ctx) (h : Reach e KeepsDictionaries c₀ c)
    (hw : ∀ d ∈ c₀.dicts, WellFormed (maps d)) : ∀ d ∈ c.dicts, WellFormed (maps d) := by
  obtain ⟨es, he⟩ := dictionaries_only_edited e c₀ c h
  intro d hd
  rw [he] at hd
  obtain ⟨d₀, h₀, rfl⟩ := List.mem_map.mp hd
  exact wf_history d₀ (hw d₀ h₀) es

theorem flag_after_edit (es : List Edit) (d : CskkDict) (m : DictMaps) (b : Bool) (h : d.kind = .user m b) (hne : es ≠ []) :
    ∃ m', (es.foldl applyEdit d).kind = .user m' true := by
  induction es generalizing d m b with
  | nil => exact absurd rfl hne
  | cons x es ih =>
    have hx : ∃ m', (applyEdit d x).kind = .user m' true := by
      cases x with
      | confirm c => exact ⟨m.select c, by simp [applyEdit, CskkDict.confirm, h]⟩
      | purge k c => exact ⟨m.purge k c, by simp [applyEdit, CskkDict.purge, h]⟩
    obtain ⟨m', hm'⟩ := hx
    cases es with
    | nil => exact ⟨m', hm'⟩
    | cons y es => exact ih _ m' true hm' (by simp)

/-- **C39 for the context.** A user dictionary which is not marked as changed after some calls has not been changed by
them, so saving it may be skipped. -/
theorem unmarked_is_unchanged (e : Env) (c₀ c : Ctx) (h : Reach e KeepsDictionaries c₀ c) (i : Nat) (d₀ d : CskkDict)
    (m₀ m : DictMaps) (b₀ : Bool) (h₀ : c₀.dicts[i]? = some d₀) (hk₀ : d₀.kind = .user m₀ b₀)
    (hd : c.dicts[i]? = some d) (hk : d.kind = .user m false) : d = d₀ := by
  obtain ⟨es, he⟩ := dictionaries_only_edited e c₀ c h
  rw [he, List.getElem?_map, h₀] at hd
  cases hd
  cases es with
  | nil => rfl
  | cons x es =>
    obtain ⟨m', hm'⟩ := flag_after_edit (x :: es) d₀ m₀ b₀ hk₀ (by simp)
    rw [hm'] at hk
    cases hk

/-- A static dictionary with a word is read-only, and a history with a confirmation reaches a context where the user
dictionary beside it has changed. -/
example : ReadOnly Cursor.daiDict := by intro m b h; cases h

example :
    let c₀ := Ctx.new Assets.defaultCommands Assets.defaultKana .hiragana .direct
      [⟨true, .user ⟨[], []⟩ false⟩, Cursor.daiDict]
    ((run (Assets.env ⟨true⟩) c₀ ((typed c%"Dai5 " ++ [(⟨0xff0d, 0⟩ : KeyEvent)]).map Op.key)).toOption.map fun c =>
      (c.dicts.length, c.dicts[0]?.map fun d => match d.kind with
        | .user m b => (m.nashi.map (·.1), b)
        | _ => ([], false))) =
      some (2, some ([c%"だい#"], true)) := by decide +kernel

end Cskk.Props.ContextDicts

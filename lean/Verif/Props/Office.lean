import Verif.Spec.Office
import Verif.Props.MachineUse
import Verif.Props.World

/-!
# C79: several contexts refine several machines
-/

namespace Cskk.Props.Office

open Spec.Machine Spec.Office
open Cskk.Props.Machine (At shipped names commandsOf kanaOf fresh start seen answered call)
open Cskk.Props.Lists (Good)

/-- What the engine is told. -/
def told : Turn → WOp
  | .act i x => .call i (call x)
  | .use i ids => .use i ids

/-- What the engine answers. -/
def replied (e : Env) (w : World) : Turn → R Answer
  | .act i x => answered e (w.view i) x
  | .use _ _ => .ok .nothing

/-- What the applications get from the engine, and what is then seen of all contexts. -/
def observed (e : Env) (w : World) : List Turn → R (World × List (Answer × (Nat → View)))
  | [] => .ok (w, [])
  | x :: l => do
    let ans ← replied e w x
    let w ← w.step e (told x)
    let (w', rest) ← observed e w l
    return (w', (ans, fun i => seen e (w.clients i).ctx) :: rest)

/-- The contexts stand for the machines. -/
structure Stands (pr : Bool) (w : World) (O : Office) : Prop where
  shelf : w.store = O.shelf
  uses : ∀ i, (w.clients i).ids = O.uses i
  seat : ∀ i, At pr (w.view i) (O.seat i)

theorem putBack_written (st : Nat → CskkDict) : ∀ (ids : List Nat) (ds : List CskkDict) (d : Nat), World.written ids ds st d = putBack st ids ds d
  | [], ds, d => by cases ds <;> rfl
  | a :: ids, [], d => rfl
  | a :: ids, x :: ds, d => by
    unfold World.written putBack
    by_cases h : d = a
    · subst h; simp
    · have : (d == a) = false := by simpa using h
      rw [if_neg h, List.zip_cons_cons, List.lookup_cons, this]
      exact putBack_written st ids ds d

/-- Other dictionaries in hand. -/
theorem at_dicts {pr : Bool} {c : Ctx} {Z : Seat} (h : At pr c Z) (ds : List CskkDict) :
    At pr { c with dicts := ds } { Z with desk := { Z.desk with dicts := ds } } := by
  obtain ⟨_, c', hs, hat⟩ := Machine.act_goes h (x := .setDictionaries ds) rfl
  cases hs
  exact hat

/-- What is seen does not depend on the dictionaries. -/
theorem seen_dicts (e : Env) (c : Ctx) (ds : List CskkDict) : seen e { c with dicts := ds } = seen e c := rfl

section
variable {pr : Bool} {w : World} {O O' : Office}

theorem view_stands (h : Stands pr w O) (i : Nat) : seen (Assets.env ⟨pr⟩) (w.clients i).ctx = O.view (shipped pr) (names pr) i := by
  have := Machine.view_seen (h.seat i)
  unfold World.view at this
  rw [seen_dicts] at this
  rw [this]
  rfl

theorem turn_goes (h : Stands pr w O) {x : Turn} {ans : Answer} (hs : O.turn (shipped pr) x = some (O', ans)) :
    replied (Assets.env ⟨pr⟩) w x = .ok ans ∧ ∃ w', w.step (Assets.env ⟨pr⟩) (told x) = .ok w' ∧ Stands pr w' O' := by
  cases x with
  | use i ids =>
    simp only [Office.turn] at hs
    split at hs
    · injection hs with hs
      injection hs with h1 h2
      subst h1 h2
      refine ⟨rfl, _, rfl, ⟨h.shelf, fun j => ?_, fun j => ?_⟩⟩
      · by_cases hj : j = i
        · simp [hj]
        · simp [hj, h.uses j]
      · by_cases hj : j = i
        · subst hj
          have := at_dicts (h.seat j) (ids.map O.shelf)
          simpa [World.view, Office.seat, h.shelf] using this
        · simpa [World.view, Office.seat, hj] using h.seat j
    · cases hs
  | act i x =>
    have hs' : (((O.seat i).act (shipped pr) x).map fun r =>
        ((⟨fun j => if j = i then r.1 else O.seats j, O.uses, putBack O.shelf (O.uses i) r.1.desk.dicts⟩ : Office), r.2)) = some (O', ans) := by
      cases x <;> first | exact hs | cases hs
    clear hs
    cases ha : (O.seat i).act (shipped pr) x with
    | none => rw [ha] at hs'; cases hs'
    | some r =>
      rw [ha] at hs'
      injection hs' with hs'
      injection hs' with h1 h2
      obtain ⟨Z, ans'⟩ := r
      dsimp only at h1 h2
      subst h1 h2
      obtain ⟨hans, c', hstep, hat⟩ := Machine.act_goes (h.seat i) ha
      refine ⟨hans, ⟨World.written (w.clients i).ids c'.dicts w.store, fun j => if j = i then ⟨c', (w.clients i).ids⟩ else w.clients j⟩, ?_, ⟨?_, fun j => ?_, fun j => ?_⟩⟩
      · show (w.step _ (.call i (call x))) = _
        simp only [World.step, hstep]
        rfl
      · funext d
        show World.written _ _ _ d = _
        rw [putBack_written, h.shelf, h.uses i, hat.rel.dicts]
      · show (if j = i then _ else _ : Client).ids = O.uses j
        by_cases hj : j = i
        · subst hj; simp [h.uses j]
        · simp [hj, h.uses j]
      · have hst : World.written (O.uses i) c'.dicts w.store = putBack O.shelf (O.uses i) Z.desk.dicts := by
          funext d
          rw [putBack_written, h.shelf, hat.rel.dicts]
        by_cases hj : j = i
        · subst hj
          have := at_dicts hat ((O.uses j).map (putBack O.shelf (O.uses j) Z.desk.dicts))
          simpa [World.view, Office.seat, hst, h.uses j] using this
        · have := at_dicts (h.seat j) ((O.uses j).map (putBack O.shelf (O.uses i) Z.desk.dicts))
          simpa [World.view, Office.seat, hst, hj, h.uses i, h.uses j] using this

/-- A day at the office. -/
theorem day_goes (h : Stands pr w O) : ∀ {l : List Turn} {got : List (Answer × (Nat → View))}, O.day (shipped pr) (names pr) l = some (O', got) →
    ∃ w', observed (Assets.env ⟨pr⟩) w l = .ok (w', got) ∧ Stands pr w' O' := by
  intro l
  induction l generalizing w O with
  | nil =>
    intro got hs
    injection hs with hs
    injection hs with h1 h2
    subst h1 h2
    exact ⟨w, rfl, h⟩
  | cons x l ih =>
    intro got hs
    simp only [Office.day, Option.bind_eq_some_iff, Option.map_eq_some_iff] at hs
    obtain ⟨⟨O1, ans⟩, h1, ⟨O2, got'⟩, h2, h3⟩ := hs
    injection h3 with h3 h4
    subst h3 h4
    obtain ⟨ha, w1, hw1, hst⟩ := turn_goes h h1
    obtain ⟨w2, hw2, hst2⟩ := ih hst h2
    refine ⟨w2, ?_, hst2⟩
    simp only [observed, ha, hw1, hw2, bind, Except.bind, pure, Except.pure]
    congr 4
    funext i
    exact view_stands hst i

end

/-- The office in the morning. -/
def opening (azik : Nat → Bool) (g : Nat → Config) (m : Nat → InputMode) (uses : Nat → List Nat) (shelf : Nat → CskkDict) : Office :=
  ⟨fun i => start (azik i) (g i) (m i) [], uses, shelf⟩

/-- Fresh contexts, with shared dictionaries. -/
def world (azik : Nat → Bool) (g : Nat → Config) (m : Nat → InputMode) (uses : Nat → List Nat) (shelf : Nat → CskkDict) : World :=
  ⟨shelf, fun i => ⟨fresh (azik i) (g i) (m i) [], uses i⟩⟩

/-- **C79.** Several contexts which share dictionaries refine several machines on one shelf: for all rules, configurations, input modes, lists of dictionaries
and dictionaries, and for all histories of calls at all contexts, in any order, of which the machines say what is seen: no call fails, every application gets
the answer its machine gives, after each call the screens of *all* applications are those of their machines, and in the end each shared dictionary is the one
on the shelf. -/
theorem office_refines (pr : Bool) (azik : Nat → Bool) (g : Nat → Config) (m : Nat → InputMode) (uses : Nat → List Nat) (shelf : Nat → CskkDict)
    (l : List Turn) (O : Office) (got : List (Answer × (Nat → View)))
    (h : (opening azik g m uses shelf).day (shipped pr) (names pr) l = some (O, got)) :
    ∃ w, observed (Assets.env ⟨pr⟩) (world azik g m uses shelf) l = .ok (w, got) ∧ w.store = O.shelf ∧ (∀ i, (w.clients i).ids = O.uses i) ∧
      ∀ i, (w.clients i).ctx.config = (O.seats i).config ∧ (w.clients i).ctx.depth = (O.seats i).desk.waiting.length + 1 := by
  have h0 : Stands pr (world azik g m uses shelf) (opening azik g m uses shelf) :=
    ⟨rfl, fun _ => rfl, fun i => Machine.fresh_at pr (azik i) (g i) (m i) ((uses i).map shelf)⟩
  obtain ⟨w, h1, h2⟩ := day_goes h0 h
  exact ⟨w, h1, h2.shelf, h2.uses, fun i => ⟨(h2.seat i).config, (h2.seat i).rel.depth⟩⟩

/-- What an application does changes no screen but its own. -/
theorem other_screens (pr : Bool) (O O' : Office) (i j : Nat) (x : Act) (ans : Answer) (hij : j ≠ i)
    (h : O.turn (shipped pr) (.act i x) = some (O', ans)) : O'.view (shipped pr) (names pr) j = O.view (shipped pr) (names pr) j := by
  have hs' : (((O.seat i).act (shipped pr) x).map fun r =>
      ((⟨fun j => if j = i then r.1 else O.seats j, O.uses, putBack O.shelf (O.uses i) r.1.desk.dicts⟩ : Office), r.2)) = some (O', ans) := by
    cases x <;> first | exact h | cases h
  rw [Option.map_eq_some_iff] at hs'
  obtain ⟨r, _, hr⟩ := hs'
  injection hr with h1 h2
  subst h1
  simp [Office.view, hij]

/-! ## Two applications -/

/-- A user dictionary. -/
def own : CskkDict :=
  ⟨true, .user ⟨[], [(c%"か", ⟨c%"か", false, [([], [⟨c%"化", none⟩, ⟨c%"下", none⟩])]⟩)]⟩ false⟩

/-- Application 0 uses dictionary 0; application 1 uses dictionaries 1 and 0; application 2 uses the AZIK rule and dictionary 1. -/
def morning : Office :=
  opening (· == 2) (fun _ => Config.default) (fun _ => .hiragana) (fun i => if i = 0 then [0] else if i = 1 then [1, 0] else [1]) (fun _ => own)

/-- Keys at application `i`. -/
def keysAt (i : Nat) (t : Str) : List Turn := (Cskk.Props.Machine.keys t).map (.act i)

/-- Application 1 opens its list; application 0 chooses the second word; application 1 chooses it too; then all ask again. Application 0 purges
a word, and application 2 takes dictionary 0 instead of dictionary 1. -/
def turns : List Turn :=
  keysAt 1 c%"Ka " ++ keysAt 0 c%"Ka  " ++ [.act 0 (.key .enter), .act 0 .poll] ++ keysAt 1 c%" " ++ [.act 1 (.key .enter), .act 1 .poll] ++
    keysAt 0 c%"Ka " ++ keysAt 1 c%"Ka " ++ keysAt 2 c%"Ka " ++ keysAt 0 c%"X" ++ [.act 2 (.key .ctrlG), .use 2 [0]] ++ keysAt 2 c%" "

/-- The machines say what is seen: the list open at application 1 stays as it is; afterwards the chosen word comes first for all applications which use
a dictionary it was learned in; the word purged by application 0 is not offered to application 2, while application 1 still shows it. -/
theorem turns_seen : (morning.day (shipped true) (names true) turns).map (fun r => r.2.map fun x => ((x.2 0).line, (x.2 1).line, (x.2 2).line)) =
    some [([], c%"▽k", []), ([], c%"▽か", []), ([], c%"▼化", []), (c%"▽k", c%"▼化", []), (c%"▽か", c%"▼化", []), (c%"▼化", c%"▼化", []),
      (c%"▼下", c%"▼化", []), (c%"下", c%"▼化", []), ([], c%"▼化", []), ([], c%"▼下", []), ([], c%"下", []), ([], [], []),
      (c%"▽k", [], []), (c%"▽か", [], []), (c%"▼下", [], []), (c%"▼下", c%"▽k", []), (c%"▼下", c%"▽か", []), (c%"▼下", c%"▼下", []),
      (c%"▼下", c%"▼下", c%"▽k"), (c%"▼下", c%"▼下", c%"▽か"), (c%"▼下", c%"▼下", c%"▼下"), ([], c%"▼下", c%"▼下"), ([], c%"▼下", c%"▽か"),
      ([], c%"▼下", c%"▽か"), ([], c%"▼下", c%"▼化")] := by
  decide +kernel

/-- So this is what the engine does. -/
theorem turns_done : ∃ w got, observed (Assets.env ⟨true⟩) (world (· == 2) (fun _ => Config.default) (fun _ => .hiragana)
      (fun i => if i = 0 then [0] else if i = 1 then [1, 0] else [1]) (fun _ => own)) turns = .ok (w, got) ∧
    got.length = 25 := by
  have h := turns_seen
  rw [Option.map_eq_some_iff] at h
  obtain ⟨⟨O, got⟩, h1, h2⟩ := h
  obtain ⟨w, h3, _⟩ := office_refines true _ _ _ _ _ turns O got h1
  exact ⟨w, got, h3, by simpa using congrArg List.length h2⟩

end Cskk.Props.Office

import Verif.Spec.CarefulYears
import Verif.Props.CarefulLife
import Verif.Props.Years

/-! # Careful users at the office never lose a word (C83, C85) -/

namespace Cskk.Props.CarefulYears
open Cskk Dicts Spec Spec.Persist Spec.Machine Spec.Office Spec.Session Spec.Years Spec.CarefulYears UserDict World
open Cskk.Props.Machine (shipped names)
open Cskk.Spec.Careful (Careful AllPlain)
open Cskk.Props.Careful (Good act_good)
open Cskk.Props.Office (opening)

/-- All words of the shelf are plain, and so are those on the screens. -/
structure Fair (O : Office) : Prop where
  shelf : ∀ d, PlainDict (maps (O.shelf d))
  seats : ∀ i, (∀ W ∈ (O.seats i).desk.waiting, Careful.Fine W.asked W.words) ∧ Careful.Listed (O.seats i).desk.phase

theorem Fair.good {O : Office} (h : Fair O) (i : Nat) : Good (O.seat i).desk := by
  refine ⟨⟨?_, (h.seats i).1⟩, (h.seats i).2⟩
  intro d hd
  obtain ⟨k, _, rfl⟩ := List.mem_map.mp hd
  exact h.shelf k

theorem putBack_plain {shelf : Nat → CskkDict} (hs : ∀ d, PlainDict (maps (shelf d))) {ids : List Nat} {ds : List CskkDict} (hd : AllPlain ds) (d : Nat) :
    PlainDict (maps (putBack shelf ids ds d)) := by
  unfold putBack
  cases hl : (ids.zip ds).lookup d with
  | none => exact hs d
  | some x =>
    have : (d, x) ∈ ids.zip ds := List.lookup_eq_some_iff.mp hl |> fun ⟨l1, l2, h, _⟩ => by rw [h]; simp
    exact hd x (List.of_mem_zip this).2

theorem turn_fair {pr : Bool} {O O' : Office} {x : Turn} {ans : Answer} (h : Fair O) (hc : ∀ i a, x = .act i a → Careful (O.seat i).desk a)
    (ht : O.turn (shipped pr) x = some (O', ans)) : Fair O' := by
  cases x with
  | use i ids =>
    unfold Office.turn at ht
    dsimp only at ht
    split at ht
    · injection ht with ht; injection ht with h1 _; subst h1; exact ⟨h.shelf, h.seats⟩
    · cases ht
  | act i a =>
    have hk : Spec.Life.Keeps a := by cases a <;> first | trivial | cases ht
    have ht : ((O.seat i).act (shipped pr) a).map (fun r =>
      ((⟨fun j => if j = i then r.1 else O.seats j, O.uses, putBack O.shelf (O.uses i) r.1.desk.dicts⟩ : Office), r.2)) = some (O', ans) := by
      cases a <;> first | exact ht | exact hk.elim
    obtain ⟨⟨Z, b⟩, hr, ht⟩ := Option.map_eq_some_iff.mp ht
    injection ht with h1 _; subst h1
    have hg := act_good (h.good i) hk (hc i a rfl) hr
    refine ⟨putBack_plain h.shelf hg.sound.dicts, fun j => ?_⟩
    dsimp only
    split
    · exact ⟨hg.sound.waiting, hg.listed⟩
    · exact h.seats j

theorem tells_spent {pr : Bool} : ∀ {l : List Event} {O O' : Office} {got : List (Answer × (Nat → View))}, Fair O → Prudent pr O l → tells pr O l = some (O', got) →
    Spent pr O l O' got ∧ Fair O' := by
  intro l
  induction l with
  | nil => intro O O' got h _ ht; injection ht with ht; injection ht with h1 h2; subst h1; subst h2; exact ⟨.done _, h⟩
  | cons ev l ih =>
    intro O O' got h hp ht
    cases ev with
    | turn x =>
      unfold tells at ht
      obtain ⟨⟨O1, ans⟩, hr, ht⟩ := Option.bind_eq_some_iff.mp ht
      obtain ⟨q, hq, ht⟩ := Option.map_eq_some_iff.mp ht
      injection ht with e1 e2
      subst e1; subst e2
      obtain ⟨k1, k2⟩ := ih (turn_fair h hp.1 hr) (hp.2 _ hr) hq
      exact ⟨.turn hr k1, k2⟩
    | save i os =>
      obtain ⟨k1, k2⟩ := ih h hp.2 ht
      exact ⟨.save hp.1 k1, k2⟩
    | refresh i =>
      obtain ⟨k1, k2⟩ := ih h hp ht
      refine ⟨.refresh ?_ k1, k2⟩
      intro d hd _
      obtain ⟨k, _, rfl⟩ := List.mem_map.mp hd
      exact h.shelf k

theorem morning_fair {shelf : Nat → CskkDict} (h : ∀ d, PlainDict (maps (shelf d))) (x : Day) : Fair (morning shelf x) :=
  ⟨h, fun _ => ⟨fun _ hW => absurd hW List.not_mem_nil, True.intro⟩⟩

theorem tells_passed {pr : Bool} : ∀ {l : List Day} {shelf shelf' : Nat → CskkDict} {gots : List (List (Answer × (Nat → View)))}, (∀ d, PlainDict (maps (shelf d))) →
    PrudentYears pr shelf l → tellsYears pr shelf l = some (shelf', gots) → Passed pr shelf l shelf' gots ∧ ∀ d, PlainDict (maps (shelf' d)) := by
  intro l
  induction l with
  | nil => intro shelf shelf' gots h _ ht; injection ht with ht; injection ht with h1 h2; subst h1; subst h2; exact ⟨.done _, h⟩
  | cons x l ih =>
    intro shelf shelf' gots h hp ht
    unfold tellsYears at ht
    obtain ⟨⟨O, got⟩, hr, ht⟩ := Option.bind_eq_some_iff.mp ht
    obtain ⟨q, hq, ht⟩ := Option.map_eq_some_iff.mp ht
    injection ht with e1 e2
    subst e1; subst e2
    obtain ⟨k1, k2⟩ := tells_spent (morning_fair h x) hp.2.1 hr
    obtain ⟨h1, h2⟩ := hp.2.2 _ hr
    obtain ⟨j1, j2⟩ := ih k2.shelf h2 hq
    exact ⟨.day hp.1 k1 (fun d hd => ⟨k2.shelf d, h1 d hd⟩) j1, j2⟩

/-- **C83, C85.** At every moment of a day with several applications the dictionaries on the shelf can be saved, if they could in the morning and the users are careful. -/
theorem shelf_stays_plain (pr : Bool) (shelf : Nat → CskkDict) (hs : ∀ d, PlainDict (maps (shelf d))) (x : Day) (l : List Event) (hp : Prudent pr (morning shelf x) l)
    (O : Office) (got : List (Answer × (Nat → View))) (ht : tells pr (morning shelf x) l = some (O, got)) (d : Nat) : PlainDict (maps (O.shelf d)) :=
  (tells_spent (morning_fair hs x) hp ht).2.shelf d

/-- **C83, C85.** Careful users never lose a word: whatever the machines, which know nothing of files and never forget, say about the days of an office where several
applications share the dictionaries is what the applications get and what is seen on all screens; and the files in the end hold the words on the machines' shelf, which can
be saved again. -/
theorem careful_years (pr : Bool) (ss : List Source) (fs : DictFile.FS) (ds : List CskkDict) (shelf' : Nat → CskkDict) (ho : Session.openAll fs ss = some ds) (hd : AllPlain ds)
    (ha : Apart ss) (hsa : StaticApart ss) (ht : ∀ s ∈ ss, Persist.Total s.cd) (l : List Day) (gots : List (List (Answer × (Nat → View))))
    (hp : PrudentYears pr (shelfOf ds) l) (hl : tellsYears pr (shelfOf ds) l = some (shelf', gots)) :
    ∃ fs' ds', years (Assets.env ⟨pr⟩) ss fs l = some (fs', gots) ∧ Session.openAll fs' ss = some ds' ∧ ∀ d, Spec.SameWords.SameDict (shelf' d) (shelfOf ds' d) ∧
      PlainDict (maps (shelf' d)) := by
  have hs : ∀ d, PlainDict (maps (shelfOf ds d)) := by
    intro d
    unfold shelfOf
    cases h : ds[d]? with
    | none => exact Life.empty_plain
    | some x => exact hd x (List.mem_of_getElem? h)
  obtain ⟨h1, h2⟩ := tells_passed hs hp hl
  obtain ⟨fs', ds', k1, k2, k3⟩ := Years.years_told pr ss fs ds shelf' ho (fun d h => (hd d h).wf) ha hsa ht l gots h1
  exact ⟨fs', ds', k1, k2, fun d => ⟨k3 d, h2 d⟩⟩

/-! ## The hypotheses are met -/

/-- The user is careful, tested. -/
def prudently (pr : Bool) (O : Office) : List Event → Bool
  | [] => true
  | .turn x :: l => (match x with | .act i a => Careful.carefully (O.seat i).desk a | _ => true) && (O.turn (shipped pr) x).all fun r => prudently pr r.1 l
  | .save _ os :: l => decide (os 0 ≠ .createFails) && prudently pr O l
  | .refresh _ :: l => prudently pr O l

/-- Whatever happens to a save happens to all its dictionaries. -/
def Evenly : List Event → Prop
  | [] => True
  | .save _ os :: l => (∀ j, os j = os 0) ∧ Evenly l
  | _ :: l => Evenly l

theorem prudently_prudent {pr : Bool} : ∀ {l : List Event} {O : Office}, Evenly l → prudently pr O l = true → Prudent pr O l := by
  intro l
  induction l with
  | nil => intro O _ _; trivial
  | cons ev l ih =>
    intro O he h
    cases ev with
    | turn x =>
      unfold prudently at h
      rw [Bool.and_eq_true, Option.all_eq_true] at h
      refine ⟨?_, fun r hr => ih he (h.2 r hr)⟩
      intro i a hx
      subst hx
      exact (Careful.carefully_careful h.1).2
    | save i os =>
      unfold prudently at h
      rw [Bool.and_eq_true, decide_eq_true_eq] at h
      exact ⟨fun j => by rw [he.1 j]; exact h.1, ih he.2 h.2⟩
    | refresh i => exact ih he h

/-- The machines' two days. -/
theorem days_checked : ((tells true (morning (shelfOf Session.openedDicts) (Years.days[0]'(by decide))) (Years.days[0]'(by decide)).events).any fun r =>
    (tells true (morning r.1.shelf (Years.days[1]'(by decide))) (Years.days[1]'(by decide)).events).any fun q =>
      prudently true (morning (shelfOf Session.openedDicts) (Years.days[0]'(by decide))) (Years.days[0]'(by decide)).events &&
      prudently true (morning r.1.shelf (Years.days[1]'(by decide))) (Years.days[1]'(by decide)).events &&
      decide (r.1.uses 1 = [1, 0] ∧ q.1.uses 0 = [0, 2] ∧ r.2.length = 20 ∧ q.2.length = 4 ∧ q.1.shelf 0 = ⟨true, .user Years.learned true⟩)) = true := by
  decide +kernel

theorem days_eq : Years.days = [Years.days[0]'(by decide), Years.days[1]'(by decide)] := rfl

theorem opened_plain : AllPlain Session.openedDicts := by
  have hod : Session.openedDicts = [⟨true, .user ⟨[], []⟩ false⟩, ⟨true, .static Session.learnt⟩, ⟨false, .empty⟩] := by decide +kernel
  rw [hod]
  intro d hd
  simp only [List.mem_cons, List.not_mem_nil, or_false] at hd
  rcases hd with rfl | rfl | rfl
  · exact Life.empty_plain
  · exact Session.learnt_plain
  · exact Life.empty_plain

/-- **The theorem applied** to the two days of `Years.years_seen`: the users were careful, so nothing has to be known about the words. -/
theorem careful_years_seen : PrudentYears true (shelfOf Session.openedDicts) Years.days ∧
    ∃ fs' ds' shelf' gots, tellsYears true (shelfOf Session.openedDicts) Years.days = some (shelf', gots) ∧ gots.map (·.length) = [20, 4] ∧
      years (Assets.env ⟨true⟩) Session.sources Session.files Years.days = some (fs', gots) ∧ Session.openAll fs' Session.sources = some ds' ∧
      (∀ d, Spec.SameWords.SameDict (shelf' d) (shelfOf ds' d)) ∧ shelf' 0 = ⟨true, .user Years.learned true⟩ := by
  have hopen : Session.openAll Session.files Session.sources = some Session.openedDicts := Session.sample_end.1
  have ht : ∀ s ∈ Session.sources, Persist.Total s.cd := by
    intro s hm
    have : s = Session.userFile c%"d" ∨ s = ⟨c%"jisyo", Utf8.utf8, true, .static⟩ ∨ s = ⟨[], Utf8.utf8, true, .empty⟩ := by simpa [Session.sources] using hm
    rcases this with rfl | rfl | rfl <;> exact Persist.total_utf8
  obtain ⟨⟨O1, got1⟩, h1, h⟩ := Years.any_some days_checked
  obtain ⟨⟨O2, got2⟩, h2, h⟩ := Years.any_some h
  simp only [Bool.and_eq_true, decide_eq_true_eq] at h
  obtain ⟨⟨p1, p2⟩, u1, u2, n1, n2, hs⟩ := h
  have hp1 := prudently_prudent (by unfold Evenly Years.days; simp [Evenly, Years.first, Years.later, Life.noon, Machine.keys]) p1
  have hp2 := prudently_prudent (by unfold Evenly Years.days; simp [Evenly, Years.second, Machine.keys]) p2
  have hpl : ∀ d, PlainDict (maps (shelfOf Session.openedDicts d)) := by
    intro d
    unfold shelfOf
    cases h : Session.openedDicts[d]? with
    | none => exact Life.empty_plain
    | some x => exact opened_plain x (List.mem_of_getElem? h)
  obtain ⟨s1, f1⟩ := tells_spent (morning_fair hpl _) hp1 h1
  obtain ⟨s2, f2⟩ := tells_spent (morning_fair f1.shelf _) hp2 h2
  have k1 : ∀ d, kindOf (O1.shelf d) = (sourceOf Session.sources d).wanted := fun d =>
    (Years.spent_kinds s1 (Years.opening_stands _ _ _ _ _ _) d).trans (Years.opened_shelved hopen d).1
  have k2 : ∀ d, kindOf (O2.shelf d) = kindOf (O1.shelf d) := fun d => Years.spent_kinds s2 (Years.opening_stands true _ _ _ _ O1.shelf) d
  have hyears : PrudentYears true (shelfOf Session.openedDicts) Years.days := by
    rw [days_eq]
    refine ⟨?_, hp1, ?_⟩
    · intro i
      show (if i = 0 then [0, 1] else [1, 0] : List Nat).Nodup
      split <;> decide
    intro r hr
    rw [h1] at hr
    injection hr with hr; subst hr
    refine ⟨?_, ?_, hp2, ?_⟩
    · intro d hd
      rw [k1] at hd
      rw [Years.only_user hd]
      exact ⟨1, List.mem_singleton.mpr rfl, by rw [u1]; simp⟩
    · intro i; exact (by decide : [0, 2].Nodup)
    intro r hr
    rw [h2] at hr
    injection hr with hr; subst hr
    refine ⟨?_, trivial⟩
    intro d hd
    rw [k2, k1] at hd
    rw [Years.only_user hd]
    exact ⟨0, List.mem_singleton.mpr rfl, by rw [u2]; simp⟩
  have htells : tellsYears true (shelfOf Session.openedDicts) Years.days = some (O2.shelf, [got1, got2]) := by
    rw [days_eq]
    simp only [tellsYears, h1, h2, Option.bind_some, Option.map_some]
  obtain ⟨fs', ds', j1, j2, j3⟩ := careful_years true Session.sources Session.files Session.openedDicts O2.shelf hopen opened_plain Session.sources_apart.1
    Session.sources_apart.2 ht Years.days [got1, got2] hyears htells
  exact ⟨hyears, fs', ds', O2.shelf, [got1, got2], htells, by simp [n1, n2], j1, j2, fun d => (j3 d).1, hs⟩

end Cskk.Props.CarefulYears

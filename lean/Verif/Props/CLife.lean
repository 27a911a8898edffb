import Verif.Spec.CLife
import Verif.Props.Front
import Verif.Props.Life

/-!
# C82: a life with C programs
-/

namespace Cskk.Props.CLife

open Cskk Spec.Machine Spec.CLife Spec.CSession Spec.Session
open Cskk.CSession Cskk.Session Cskk.DictFile
open Cskk.Spec.Front (Gives)
open Cskk.Props.Machine (At shipped names fresh start)
open Cskk.Props.CSession (Holds call_refines)
open Cskk.Props.Life (AllHeld allHeld_trans allHeld_refl)
open Cskk.Props.UserDict (maps)
open Cskk.Spec.UserDict (WellFormed)

/-! ## Twins -/

/-- Several keys. -/
theorem keys_twin {e : Env} (evs : List KeyEvent) : ∀ {c c2 : Ctx}, Twin AllHeld c c2 → Both (Twin AllHeld) (c.processKeyEvents e evs) (c2.processKeyEvents e evs) := by
  induction evs with
  | nil => intro c c2 h; exact Both.ok h
  | cons ev evs ih => intro c c2 h; exact Both.bind (Life.sim.processKeyEvent h ev) fun a b hab => ih hab.1

/-- Calls which do not save do the same to contexts which have the same words. -/
theorem step_twin {e : Env} {ogs ogs' : List Source} {s s' : CState} {cl : Call} {v : Val} {c2 : Ctx} {fs2 : FS} (h : Twin AllHeld s.ctx c2) (hs : Saveless cl)
    (hst : step e ogs s cl = .ok (s', v)) :
    ∃ c2', step e ogs' ⟨c2, fs2, s.heap⟩ cl = .ok (⟨c2', fs2, s'.heap⟩, v) ∧ Twin AllHeld s'.ctx c2' := by
  cases cl with
  | key k m r =>
    have h1 := Life.sim.processKeyEvent (e := e) h (KeyEvent.fromFcitx k m r)
    simp only [step, bind, Except.bind] at hst ⊢
    cases hk : s.ctx.processKeyEvent e (KeyEvent.fromFcitx k m r) with
    | error p => rw [hk] at hst; cases hst
    | ok p =>
      rw [hk] at hst h1
      cases hk2 : c2.processKeyEvent e (KeyEvent.fromFcitx k m r) with
      | error q => rw [hk2] at h1; exact h1.elim
      | ok q =>
        rw [hk2] at h1
        injection hst with hst; injection hst with h2 h3
        subst h2; subst h3
        exact ⟨q.1, by rw [show q = (q.1, p.2) from Prod.ext rfl h1.2]; rfl, h1.1⟩
  | save os => exact absurd rfl (hs os)
  | keys text =>
    simp only [step] at hst ⊢
    cases ht : cstr text with
    | none =>
      rw [ht] at hst
      injection hst with hst; injection hst with h2 h3
      subst h2; subst h3
      exact ⟨c2, rfl, h⟩
    | some t =>
      rw [ht] at hst
      simp only [processKeyEventsString, bind, Except.bind] at hst ⊢
      cases hd : KeyEvent.deserializeSeq e.xkb t with
      | error p => rw [hd] at hst; cases hst
      | ok o =>
        rw [hd] at hst
        cases o with
        | none => cases hst
        | some evs =>
          simp only at hst ⊢
          have h1 := keys_twin (e := e) evs h
          cases hk : s.ctx.processKeyEvents e evs with
          | error p => rw [hk] at hst; cases hst
          | ok c =>
            rw [hk] at hst h1
            cases hk2 : c2.processKeyEvents e evs with
            | error q => rw [hk2] at h1; exact h1.elim
            | ok q =>
              rw [hk2] at h1
              injection hst with hst; injection hst with h2 h3
              subst h2; subst h3
              exact ⟨q, rfl, h1⟩
  | selectAt i =>
    have h1 : Twin AllHeld (s.ctx.selectCandidateAt i).1 (c2.selectCandidateAt i).1 := Life.sim.step (e := e) h (op := .selectAt i) rfl
    have h2 := Life.twin_answers (e := e) h (.select i) rfl
    injection hst with hst; injection hst with h3 h4
    subst h3; subst h4
    injection h2 with h2
    injection h2 with h2
    exact ⟨_, by simp only [step, h2], h1⟩
  | confirmAt i =>
    have h1 : Twin AllHeld (s.ctx.confirmCandidateAt e i).1 (c2.confirmCandidateAt e i).1 := Life.sim.step (e := e) h (op := .confirmAt i) rfl
    have h2 := Life.twin_answers (e := e) h (.confirm i) rfl
    injection hst with hst; injection hst with h3 h4
    subst h3; subst h4
    injection h2 with h2
    injection h2 with h2
    exact ⟨_, by simp only [step, h2], h1⟩
  | poll =>
    have h1 : Twin AllHeld s.ctx.pollOutput.1 c2.pollOutput.1 := Life.sim.step (e := e) h (op := .poll) rfl
    have h2 := Life.twin_answers (e := e) h .poll rfl
    injection h2 with h2
    injection h2 with h2
    injection hst with hst; injection hst with h3 h4
    subst h3; subst h4
    refine ⟨_, ?_, h1⟩
    simp only [step, CApi.pollOutput, h2]
  | setRule name files dir =>
    simp only [step] at hst ⊢
    cases ht : cstr name with
    | none =>
      rw [ht] at hst
      injection hst with hst; injection hst with h2 h3
      subst h2; subst h3
      exact ⟨c2, rfl, h⟩
    | some n =>
      rw [ht] at hst
      injection hst with hst; injection hst with h2 h3
      subst h2; subst h3
      obtain ⟨ds, rfl, hh⟩ := h
      have h1 : ∀ c : Ctx, RuleLoad.setRule files dir c n = match dir.bind fun d => RuleLoad.loadRule files d n with
          | some r => ({ c with kanaConv := r.kana, cmds := r.cmds }, true)
          | none => (c, false) := fun _ => rfl
      simp only [h1]
      generalize (dir.bind fun d => RuleLoad.loadRule files d n) = o
      cases o with
      | none => exact ⟨_, rfl, ds, rfl, hh⟩
      | some r => exact ⟨_, rfl, ds, rfl, hh⟩
  | detail =>
    obtain ⟨ds, rfl, hh⟩ := h
    simp only [step, bind, Except.bind] at hst ⊢
    have hp : CApi.preeditDetail e s.heap { s.ctx with dicts := ds } = CApi.preeditDetail e s.heap s.ctx := rfl
    rw [hp]
    cases hd : CApi.preeditDetail e s.heap s.ctx with
    | error p => rw [hd] at hst; cases hst
    | ok r =>
      rw [hd] at hst
      injection hst with hst; injection hst with h2 h3
      subst h2; subst h3
      exact ⟨_, rfl, ds, rfl, hh⟩
  | candidates buf size offset =>
    obtain ⟨ds, rfl, hh⟩ := h
    simp only [step, bind, Except.bind] at hst ⊢
    have hp : CApi.getCandidates s.heap { s.ctx with dicts := ds } buf size offset = CApi.getCandidates s.heap s.ctx buf size offset := rfl
    rw [hp]
    cases hd : CApi.getCandidates s.heap s.ctx buf size offset with
    | error p => rw [hd] at hst; cases hst
    | ok r =>
      rw [hd] at hst
      injection hst with hst; injection hst with h2 h3
      subst h2; subst h3
      exact ⟨_, rfl, ds, rfl, hh⟩
  | setKeywords array =>
    obtain ⟨ds, rfl, hh⟩ := h
    simp only [step, bind, Except.bind] at hst ⊢
    cases hd : keywords array with
    | error p => rw [hd] at hst; cases hst
    | ok r =>
      rw [hd] at hst
      injection hst with hst; injection hst with h2 h3
      subst h2; subst h3
      exact ⟨_, rfl, ds, rfl, hh⟩
  | freeString a =>
    simp only [step, bind, Except.bind] at hst ⊢
    cases hd : CApi.freeString s.heap a with
    | error p => rw [hd] at hst; cases hst
    | ok r =>
      rw [hd] at hst
      injection hst with hst; injection hst with h2 h3
      subst h2; subst h3
      exact ⟨_, rfl, h⟩
  | freeDetail fs =>
    simp only [step, bind, Except.bind] at hst ⊢
    cases hd : CApi.freePreeditDetail s.heap fs with
    | error p => rw [hd] at hst; cases hst
    | ok r =>
      rw [hd] at hst
      injection hst with hst; injection hst with h2 h3
      subst h2; subst h3
      exact ⟨_, rfl, h⟩
  | freeCandidates buf size =>
    simp only [step, bind, Except.bind] at hst ⊢
    cases hd : CApi.freeCandidateList s.heap buf size with
    | error p => rw [hd] at hst; cases hst
    | ok r =>
      rw [hd] at hst
      injection hst with hst; injection hst with h2 h3
      subst h2; subst h3
      exact ⟨_, rfl, h⟩
  | _ =>
    obtain ⟨ds, rfl, hh⟩ := h
    injection hst with hst; injection hst with h2 h3
    subst h2; subst h3
    exact ⟨_, rfl, ds, rfl, hh⟩

/-! ## One program -/

section
variable {pr : Bool} {ss : List Source}

/-- The program's context and files stand for the machine, and the program holds its strings. -/
structure Stands (pr : Bool) (ss : List Source) (s : CState) (Z : Seat) (l : List (Nat × Str)) : Prop where
  life : Life.Stands pr ss (s.ctx, s.fs) Z
  holds : Holds s.heap l

/-- What a program may do to the context while it does not save. -/
theorem acts_ordinary (e : Env) (cl : Call) (hs : Saveless cl) : ∀ a ∈ acts e cl, Ordinary a := by
  intro a ha
  cases cl with
  | save os => exact absurd rfl (hs os)
  | keys text =>
    have ha : a ∈ (match (cstr text).map (KeyEvent.deserializeSeq e.xkb) with
      | some (.ok (some evs)) => evs.map fun ev => Session.Act.call (.key ev)
      | _ => []) := ha
    split at ha
    · obtain ⟨ev, -, rfl⟩ := List.mem_map.mp ha
      trivial
    · cases ha
  | setRule name files dir =>
    have ha : a ∈ (match (cstr name).bind fun n => dir.bind fun d => RuleLoad.loadRule files d n with
      | some r => [Session.Act.call (.setRule r.cmds r.kana)]
      | none => []) := ha
    split at ha
    · rw [List.mem_singleton] at ha; subst ha; trivial
    · cases ha
  | _ =>
    first
      | (rcases List.mem_singleton.mp ha with rfl; trivial)
      | cases ha

/-- The strings which are handed out are the same. -/
theorem handed_twin {e : Env} {c c2 : Ctx} (h : Twin AllHeld c c2) (cl : Call) (v : Val) : handed e c2 cl v = handed e c cl v := by
  have h2 := Life.twin_answers (e := e) h .poll rfl
  injection h2 with h2
  injection h2 with h2
  obtain ⟨ds, rfl, hh⟩ := h
  cases cl with
  | poll =>
    cases v <;> try rfl
    simp only [handed, text, h2]
  | _ => cases v <;> rfl

/-- A call of which the machine knows what it says. -/
theorem says_goes (ha : Apart ss) (hsa : StaticApart ss) {s : CState} {Z Z' : Seat} {l : List (Nat × Str)} {cl : Call} {r : Spec.Front.Reply} (h : Stands pr ss s Z l)
    (hl : Allowed l cl) (hs : Says pr Z cl Z' r) :
    ∃ s' v, step (Assets.env ⟨pr⟩) ss s cl = .ok (s', v) ∧ Gives s'.heap r v ∧ Stands pr ss s' Z' (ledger (Assets.env ⟨pr⟩) s.ctx l cl v) ∧
      (Saveless cl → s'.fs = s.fs) := by
  cases hs with
  | save ho =>
    rename_i os
    refine ⟨_, _, rfl, rfl, ⟨Life.save_stands ha hsa h.life ho, ?_⟩, fun hx => absurd rfl (hx os)⟩
    show Holds s.heap ([] ++ l.filter _)
    rw [List.nil_append, List.filter_eq_self.mpr (by intro p _; simp [returned])]
    exact h.holds
  | other hx hs =>
    obtain ⟨c, h1, h2, h3⟩ := h.life
    obtain ⟨s1, v, i1, i2, i3⟩ := Front.says_goes (ogs := []) (s := ⟨c, fun _ => none, s.heap⟩) (l := l) ⟨h1, rfl, h.holds⟩ hl hs
    obtain ⟨c2, j1, j2⟩ := step_twin (ogs' := ss) (fs2 := s.fs) h2 hx i1
    refine ⟨_, v, j1, i2, ⟨⟨s1.ctx, i3.seat, j2, ?_⟩, ?_⟩, fun _ => rfl⟩
    · have := call_refines _ _ _ _ _ _ j1
      exact (Session.actAll_inStep ha hsa _ (acts_ordinary _ cl hx) h3 this)
    · show Holds s1.heap (handed (Assets.env ⟨pr⟩) s.ctx cl v ++ _)
      rw [handed_twin h2]
      exact i3.holds

/-- A program whose calls the machine follows. -/
theorem follows_goes (ha : Apart ss) (hsa : StaticApart ss) {s s' : CState} {l l' : List (Nat × Str)} {t : List (Call × Val)} {Z Z' : Seat}
    (hu : Uses (Assets.env ⟨pr⟩) ss s l t s' l') (h : Stands pr ss s Z l) (hf : Follows pr Z (t.map (·.1)) Z') :
    Stands pr ss s' Z' l' ∧ ((∀ cl ∈ t.map (·.1), Saveless cl) → s'.fs = s.fs) := by
  induction hu generalizing Z with
  | done s l => cases hf; exact ⟨h, fun _ => rfl⟩
  | call hl hst _ ih =>
    cases hf with
    | call hs hf =>
      obtain ⟨s1, v1, i1, -, i3, i4⟩ := says_goes ha hsa h hl hs
      rw [i1] at hst
      injection hst with hst
      injection hst with e1 e2
      subst e1; subst e2
      obtain ⟨j1, j2⟩ := ih i3 hf
      exact ⟨j1, fun hx => (j2 fun cl hc => hx cl (List.mem_cons_of_mem _ hc)).trans (i4 (hx _ (by simp)))⟩

/-- A program can be cut in two. -/
theorem uses_split {e : Env} {s s' : CState} {l l' : List (Nat × Str)} {t : List (Call × Val)} (hu : Uses e ss s l t s' l') {a b : List Call}
    (ht : t.map (·.1) = a ++ b) : ∃ ta tb s1 l1, Uses e ss s l ta s1 l1 ∧ Uses e ss s1 l1 tb s' l' ∧ ta.map (·.1) = a ∧ tb.map (·.1) = b := by
  induction hu generalizing a with
  | done s l =>
    have : a = [] ∧ b = [] := by simpa using ht.symm
    obtain ⟨rfl, rfl⟩ := this
    exact ⟨[], [], s, l, .done _ _, .done _ _, rfl, rfl⟩
  | @call s l s1 s' l' cl v t hl hst hu ih =>
    cases a with
    | nil => exact ⟨[], (cl, v) :: t, s, l, .done _ _, .call hl hst hu, rfl, ht⟩
    | cons x a =>
      rw [List.map_cons, List.cons_append] at ht
      injection ht with h1 h2
      obtain ⟨ta, tb, s2, l2, k1, k2, k3, k4⟩ := ih h2
      exact ⟨(cl, v) :: ta, tb, s2, l2, .call hl hst k1, k2, by rw [List.map_cons, k3, ← h1], k4⟩

/-- The program begins. -/
theorem begins {fs : FS} {ds dsE : List CskkDict} (ho : openAll fs ss = some dsE) (hh : AllHeld ds dsE) (azik : Bool) (g : Config) (m : InputMode) :
    Stands pr ss ⟨fresh azik g m dsE, fs, ⟨1, []⟩⟩ (start azik g m ds) [] :=
  ⟨⟨fresh azik g m ds, Machine.fresh_at pr azik g m ds, ⟨dsE, rfl, hh⟩, Session.openAll_inStep ho⟩, ⟨⟨Nat.one_pos, by simp, by simp⟩, by simp⟩⟩

/-- After the programs the files hold what the machine remembers. -/
theorem remembered (ha : Apart ss) (hsa : StaticApart ss) (ht : ∀ s ∈ ss, Persist.Total s.cd) {ds ds' : List CskkDict} {ps : List Program} (hm : Remembers pr ds ps ds') :
    ∀ {fs fs' : FS} {dsE : List CskkDict}, openAll fs ss = some dsE → AllHeld ds dsE → Runs pr ss fs ps fs' → ∃ dsE', openAll fs' ss = some dsE' ∧ AllHeld ds' dsE' := by
  induction hm with
  | done ds => intro fs fs' dsE ho hh hr; cases hr; exact ⟨dsE, ho, hh⟩
  | @saved ds x before after Z Z' ps ds' hx hf hw hq hf' _ ih =>
    intro fs fs' dsE ho hh hr
    cases hr with
    | @program _ ds0 _ s l _ _ ho' hu hr =>
      rw [ho] at ho'
      injection ho' with ho'
      subst ho'
      obtain ⟨ta, tb, s1, l1, u1, u2, u3, u4⟩ := uses_split hu hx
      obtain ⟨k1, -⟩ := follows_goes ha hsa u1 (begins ho hh x.azik x.config x.mode) (by rw [u3]; exact hf)
      cases u2 with
      | done => cases u4
      | @call _ _ s2 _ _ cl v t hl hst u2 =>
        rw [List.map_cons] at u4
        injection u4 with e1 e2
        subst e1
        have hcomp : ∀ i : Nat, (fun _ => Outcome.completes : Nat → Outcome) i ≠ .createFails := fun _ h => by cases h
        obtain ⟨s3, v3, i1, -, i3, -⟩ := says_goes ha hsa k1 hl (.save hcomp)
        rw [i1] at hst
        injection hst with hst
        injection hst with e3 e4
        subst e3; subst e4
        obtain ⟨-, k3⟩ := follows_goes ha hsa u2 i3 (by rw [e2]; exact hf')
        have k3 := k3 (by rw [e2]; exact hq)
        obtain ⟨c, h1, h2, h3⟩ := i3.life
        have hd := Life.twin_dicts h2
        obtain ⟨_, _, _, hin⟩ := k1.life
        have hst : s3 = ⟨{ s1.ctx with dicts := (saveAll ss s1.ctx.dicts (fun _ => .completes) s1.fs).1 }, (saveAll ss s1.ctx.dicts (fun _ => .completes) s1.fs).2, s1.heap⟩ := by
          injection i1 with i1
          injection i1 with i1 _
          exact i1.symm
        have hu := Session.save_completes ss s1.fs s1.ctx.dicts hin ha ht
        have hu : ∀ d ∈ s3.ctx.dicts, ¬ Unsaved d := by rw [hst]; exact hu
        have hdz : c.dicts = Z.desk.dicts := h1.rel.dicts
        obtain ⟨ds1, q1, q2, -⟩ := Life.openAll_held h3 hu ht (Life.allHeld_wf hd) (Life.allHeld_writable hd (by rw [hdz]; exact hw))
        exact ih (by rw [k3]; exact q1) (by rw [← hdz]; exact allHeld_trans hd q2) hr
  | @lost ds x Z ps ds' hq hf _ ih =>
    intro fs fs' dsE ho hh hr
    cases hr with
    | @program _ ds0 _ s l _ _ ho' hu hr =>
      rw [ho] at ho'
      injection ho' with ho'
      subst ho'
      obtain ⟨-, k3⟩ := follows_goes ha hsa hu (begins ho hh x.azik x.config x.mode) hf
      have k3 := k3 hq
      exact ih (by rw [k3]; exact ho) hh hr

end

/-! ## The whole life -/

/-- **C82.** One C program after the other opens the user's dictionaries, drives a context over the C API by any calls whatever, keeping the rules of the header, saves
whenever it likes and ends whenever it likes. Then the next program can open the dictionaries, and they hold the words which the machine remembers: those it had
when the programs saved for the last time. And at any time in the next program any call which the machine knows succeeds and returns what the machine says,
which has no files and no C: the flag, the number, the mode, the text at the returned address; and the strings the program holds are what they were. -/
theorem c_life (pr : Bool) (ss : List Source) (fs fs' : FS) (ds ds' : List CskkDict) (ho : openAll fs ss = some ds) (hw : ∀ d ∈ ds, WellFormed (maps d))
    (ha : Apart ss) (hsa : StaticApart ss) (ht : ∀ s ∈ ss, Persist.Total s.cd) (ps : List Program) (hr : Runs pr ss fs ps fs') (hm : Remembers pr ds ps ds') :
    ∃ dsE, openAll fs' ss = some dsE ∧ Spec.SameWords.AllSame ds' dsE ∧
      ∀ (azik : Bool) (g : Config) (m : InputMode) (t : List (Call × Val)) (s : CState) (l : List (Nat × Str)) (Z Z' : Seat) (cl : Call) (r : Spec.Front.Reply),
        Uses (Assets.env ⟨pr⟩) ss ⟨fresh azik g m dsE, fs', ⟨1, []⟩⟩ [] t s l → Follows pr (start azik g m ds') (t.map (·.1)) Z →
        Allowed l cl → Says pr Z cl Z' r →
        ∃ s' v, step (Assets.env ⟨pr⟩) ss s cl = .ok (s', v) ∧ Gives s'.heap r v ∧ Holds s'.heap (ledger (Assets.env ⟨pr⟩) s.ctx l cl v) := by
  obtain ⟨dsE, h1, h2⟩ := remembered ha hsa ht hm ho (allHeld_refl hw) hr
  refine ⟨dsE, h1, h2.same, ?_⟩
  intro azik g m t s l Z Z' cl r hu hf hl hs
  obtain ⟨k1, -⟩ := follows_goes ha hsa hu (begins h1 h2 azik g m) hf
  obtain ⟨s', v, i1, i2, i3, -⟩ := says_goes ha hsa k1 hl hs
  exact ⟨s', v, i1, i2, i3.holds⟩

/-! ## A life -/

/-- Acts as calls. -/
def callOf : Spec.Machine.Act → Call × Option Spec.Machine.Act
  | .key k => (.key k.event.symbol k.event.modifiers false, some (.key k))
  | x => (.poll, some x)

/-- The first program: words are used and registered, it saves, and ends while another word is typed. -/
def first : List Spec.Machine.Act := Life.morning ++ Life.noon
def firstAfter : List Spec.Machine.Act := Machine.keys c%"Ai "

/-- The second program: the registered word is erased; it ends without saving. -/
def second : List Spec.Machine.Act := Machine.keys c%"Hon X"

/-- The third program: the word is asked for. -/
def third : List Spec.Machine.Act := Machine.keys c%"Hon "

def calls (l : List Spec.Machine.Act) : List Call := l.map fun x => (callOf x).1

/-- The calls of the first program, from its start to its end. -/
def whole : List Call := calls first ++ .save (fun _ => .completes) :: calls firstAfter

/-- The programs on the files: what the calls return. -/
def programs : Option (FS × List (List (Call × Val)) × List (List (Nat × Str))) := do
  let (s, _, t) ← CSession.play (Assets.env ⟨true⟩) Session.sources ⟨fresh false Config.default .hiragana (← openAll Session.files Session.sources), Session.files, ⟨1, []⟩⟩ [] whole
  let (s2, _, t2) ← CSession.play (Assets.env ⟨true⟩) Session.sources ⟨fresh false Config.default .hiragana (← openAll s.fs Session.sources), s.fs, ⟨1, []⟩⟩ [] (calls second)
  let (s3, l3, t3) ← CSession.play (Assets.env ⟨true⟩) Session.sources ⟨fresh false Config.default .hiragana (← openAll s2.fs Session.sources), s2.fs, ⟨1, []⟩⟩ [] (calls third ++ [.preedit])
  return (s2.fs, [t, t2, t3], [l3])

/-- Acts which are these calls. -/
theorem use_follows {pr : Bool} (l : List Spec.Machine.Act) (hw : ∀ x ∈ l, Spec.Front.Wants (callOf x).1 x) : ∀ {Z : Seat} {r : Seat × List (Answer × View)},
    Z.use (shipped pr) (names pr) l = some r → Follows pr Z (calls l) r.1 := by
  induction l with
  | nil => intro Z r h; injection h with h; subst h; exact .done _
  | cons x l ih =>
    intro Z r h
    unfold Seat.use at h
    obtain ⟨p, h1, h2⟩ := Option.bind_eq_some_iff.mp h
    obtain ⟨q, h3, h4⟩ := Option.map_eq_some_iff.mp h2
    subst h4
    have i1 := ih (fun y hy => hw y (by simp [hy])) h3
    exact .call (.other (by intro os; cases x <;> nofun) (.act (hw x (by simp)) h1)) i1

theorem wants {l : List Spec.Machine.Act} (h : (l.all fun
    | .key k => decide (KeyEvent.fromFcitx k.event.symbol k.event.modifiers false = k.event)
    | .poll => true
    | _ => false) = true) : ∀ x ∈ l, Spec.Front.Wants (callOf x).1 x := by
  intro x hx
  have := List.all_eq_true.mp h x hx
  cases x with
  | key k => exact .key k _ _ _ (by simpa using this)
  | poll => exact .poll
  | _ => cases this

/-- What the machine remembers after the first program. -/
def kept : List CskkDict := [⟨true, .user Life.known true⟩, ⟨true, .static Session.learnt⟩, ⟨false, .empty⟩]

theorem programs_run : programs.isSome = true := by decide +kernel

/-- **The theorem applied.** The first program registers ブック for ほん, saves, and is ended while something else is typed. The second erases the word and ends without
saving. In the third, `Hon` and Space lead to the word: the text at the address which `skk_context_get_preedit` returns is ▼ブック. -/
theorem life_applies : ∃ ps fs' dsE t s l, ps.length = 2 ∧ Runs true Session.sources Session.files ps fs' ∧ Remembers true Session.openedDicts ps kept ∧
    openAll fs' Session.sources = some dsE ∧ Uses (Assets.env ⟨true⟩) Session.sources ⟨fresh false Config.default .hiragana dsE, fs', ⟨1, []⟩⟩ [] t s l ∧ t.map (·.1) = calls third ∧
    ∃ s' a, step (Assets.env ⟨true⟩) Session.sources s .preedit = .ok (s', .ptr a) ∧ s'.heap.read a = some c%"▼ブック" := by
  have hopen : openAll Session.files Session.sources = some Session.openedDicts := Session.sample_end.1
  have hod : Session.openedDicts = [⟨true, .user ⟨[], []⟩ false⟩, ⟨true, .static Session.learnt⟩, ⟨false, .empty⟩] := by decide +kernel
  have hrun := Option.isSome_iff_exists.mp programs_run
  obtain ⟨r, hrun⟩ := hrun
  unfold programs at hrun
  simp only [Option.bind_eq_bind, Option.bind_eq_some_iff] at hrun
  obtain ⟨d1, o1, ⟨s1, l1, t1⟩, p1, d2, o2, ⟨s2, l2, t2⟩, p2, d3, o3, ⟨s3, l3, t3⟩, p3, -⟩ := hrun
  have hr : Runs true Session.sources Session.files [⟨false, Config.default, .hiragana, t1⟩, ⟨false, Config.default, .hiragana, t2⟩] s2.fs :=
    .program o1 (CSession.play_uses _ _ _ _ _ _ _ _ p1) (.program o2 (CSession.play_uses _ _ _ _ _ _ _ _ p2) (.done _))
  -- the machine
  have m1 : ((start false Config.default .hiragana Session.openedDicts).use (shipped true) (names true) first).map (fun r => r.1.desk.dicts) = some kept := by decide +kernel
  have m1' : ((start false Config.default .hiragana Session.openedDicts).use (shipped true) (names true) (first ++ firstAfter)).isSome = true := by decide +kernel
  have m2 : ((start false Config.default .hiragana kept).use (shipped true) (names true) second).isSome = true := by decide +kernel
  have m3 : ((start false Config.default .hiragana kept).use (shipped true) (names true) third).map
      (fun r => (r.1.desk.view (shipped true r.1.azik r.1.config) (names true)).line) = some c%"▼ブック" := by decide +kernel
  obtain ⟨⟨Z1, g1⟩, u1, u2⟩ := Option.map_eq_some_iff.mp m1
  obtain ⟨r1, v1⟩ := Option.isSome_iff_exists.mp m1'
  obtain ⟨r2, v2⟩ := Option.isSome_iff_exists.mp m2
  obtain ⟨r3, v3, v4⟩ := Option.map_eq_some_iff.mp m3
  obtain ⟨Z1', _, _, w1, w2, -⟩ := Life.use_append first firstAfter v1
  rw [u1] at w1
  injection w1 with w1
  injection w1 with w1 _
  subst w1
  dsimp only at u2
  have hq : ∀ l : List Spec.Machine.Act, ∀ cl ∈ calls l, Saveless cl := by
    intro l cl hc os he
    obtain ⟨x, -, hx⟩ := List.mem_map.mp hc
    rw [he] at hx
    cases x <;> cases hx
  have hm : Remembers true Session.openedDicts [⟨false, Config.default, .hiragana, t1⟩, ⟨false, Config.default, .hiragana, t2⟩] kept := by
    refine .saved (before := calls first) (after := calls firstAfter) (Z := Z1) (Front.play_calls _ p1) (use_follows first (wants (by decide +kernel)) u1) ?_
      (hq firstAfter) (use_follows firstAfter (wants (by decide +kernel)) w2) ?_
    · rw [u2]; exact Life.shelf_writable Life.known_plain.1
    · rw [u2]
      refine .lost (Z := r2.1) ?_ ?_ (.done _)
      · rw [Front.play_calls _ p2]; exact hq second
      · rw [Front.play_calls _ p2]; exact use_follows second (wants (by decide +kernel)) v2
  obtain ⟨dsE, k1, -, k3⟩ := c_life true Session.sources Session.files s2.fs Session.openedDicts kept hopen
    (by intro d hd
        rw [hod] at hd
        simp only [List.mem_cons, List.not_mem_nil, or_false] at hd
        rcases hd with rfl | rfl | rfl
        · exact Life.empty_plain.wf
        · exact Session.learnt_plain.wf
        · exact Life.empty_plain.wf)
    Session.sources_apart.1 Session.sources_apart.2
    (by intro s hm
        have : s = Session.userFile c%"d" ∨ s = ⟨c%"jisyo", Utf8.utf8, true, .static⟩ ∨ s = ⟨[], Utf8.utf8, true, .empty⟩ := by simpa [Session.sources] using hm
        rcases this with rfl | rfl | rfl <;> exact Persist.total_utf8)
    _ hr hm
  rw [o3] at k1
  injection k1 with k1
  subst k1
  obtain ⟨ta, tb, s4, l4, x1, -, x3, -⟩ := uses_split (CSession.play_uses _ _ _ _ _ _ _ _ p3) (a := calls third) (b := [.preedit]) (Front.play_calls _ p3)
  obtain ⟨s', v, y1, y2, -⟩ := k3 false Config.default .hiragana ta s4 l4 r3.1 r3.1 .preedit _ x1 (by rw [x3]; exact use_follows third (wants (by decide +kernel)) v3)
    ⟨by simp [returned], by simp [returned], trivial⟩ (.other (by intro os; nofun) .line)
  obtain ⟨a, hv, y3⟩ := y2
  subst hv
  refine ⟨_, s2.fs, d3, ta, s4, l4, rfl, hr, hm, o3, x1, x3, s', a, y1, ?_⟩
  rw [v4] at y3
  unfold Spec.Front.Reads at y3
  rw [if_neg (by decide)] at y3
  exact y3.2

end Cskk.Props.CLife

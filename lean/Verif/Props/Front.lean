import Verif.Spec.Front
import Verif.Props.Office
import Verif.Props.CSession
import Verif.Props.MachineSeen

/-!
# C80: a C program refines the machine
-/

namespace Cskk.Props.Front

open Spec.Machine Spec.Front Spec.CSession
open Cskk.CSession Cskk.DictFile
open Cskk.Props.Machine (At shipped names commandsOf kanaOf fresh start seen answered call observe)
open Cskk.Props.CSession (Holds read_iff call_kept call_refines keys_acts)

section
variable {pr : Bool} {ogs : List Source}

theorem holds_read {h : CHeap} {l : List (Nat × Str)} (hh : Holds h l) {a : Nat} {w : Str} (hm : (a, w) ∈ l) : h.read a = some w :=
  (read_iff hh.1 a w).mpr ((hh.2 _).mpr hm)

/-- What a call says which returns a pointer. -/
theorem reads_of {e : Env} {c : Ctx} {l : List (Nat × Str)} {h : CHeap} {cl : Call} {a : Nat} {w : Str}
    (hh : Holds h (ledger e c l cl (.ptr a))) (hd : handed e c cl (.ptr a) = if a = 0 then [] else [(a, w)]) (ha : a = 0 ↔ '\x00' ∈ w) : Reads h a w := by
  unfold Reads
  split
  · exact ha.mpr ‹_›
  · rename_i hn
    have h0 : a ≠ 0 := fun h => hn (ha.mp h)
    refine ⟨h0, holds_read hh ?_⟩
    unfold ledger
    rw [hd, if_neg h0]
    simp

/-- Asking changes nothing. -/
theorem asks {e : Env} {s s' : CState} {cl : Call} {v : Val} (h : step e ogs s cl = .ok (s', v)) (ha : acts e cl = []) : s'.ctx = s.ctx ∧ s'.fs = s.fs := by
  have := call_refines e ogs s s' cl v h
  rw [ha] at this
  injection this with this
  injection this with h1 h2
  exact ⟨h1.symm, h2.symm⟩

/-- One call of the Rust API. -/
theorem calls {e : Env} {s s' : CState} {cl : Call} {v : Val} {op : Op} {c' : Ctx} (h : step e ogs s cl = .ok (s', v)) (ha : acts e cl = [.call op])
    (hc : s.ctx.step e op = .ok c') : s'.ctx = c' ∧ s'.fs = s.fs := by
  have := call_refines e ogs s s' cl v h
  rw [ha] at this
  simp only [Session.actAll, Session.act, hc, bind, Except.bind, pure, Except.pure] at this
  injection this with this
  injection this with h1 h2
  exact ⟨h1.symm, h2.symm⟩

/-- The engine is where the machine is, and the strings are those the program holds. -/
structure Stands (pr : Bool) (s : CState) (p : Seat × FS) (l : List (Nat × Str)) : Prop where
  seat : At pr s.ctx p.1
  files : s.fs = p.2
  holds : Holds s.heap l

variable {s : CState} {p p' : Seat × FS} {l : List (Nat × Str)} {cl : Call} {r : Reply}

/-- A machine act, once the answer of the call is known to be the act's. -/
theorem act_goes {Z Z' : Seat} {fs : FS} {x : Act} {ans : Answer} (h : Stands pr s (Z, fs) l) (ha : Allowed l cl) (hacts : acts (Assets.env ⟨pr⟩) cl = [.call (call x)])
    (hdies : Dies (Assets.env ⟨pr⟩) s.ctx cl → ∃ p, answered (Assets.env ⟨pr⟩) s.ctx x = .error p) (hact : Z.act (shipped pr) x = some (Z', ans))
    (hg : ∀ (s' : CState) v, answered (Assets.env ⟨pr⟩) s.ctx x = .ok ans → Answers (Assets.env ⟨pr⟩) s.ctx cl v → Holds s'.heap (ledger (Assets.env ⟨pr⟩) s.ctx l cl v) →
      Gives s'.heap r v) :
    ∃ s' v, step (Assets.env ⟨pr⟩) ogs s cl = .ok (s', v) ∧ Gives s'.heap r v ∧ Stands pr s' (Z', fs) (ledger (Assets.env ⟨pr⟩) s.ctx l cl v) := by
  obtain ⟨hans, c', hc, hat⟩ := Machine.act_goes h.seat hact
  obtain ⟨_, hd⟩ | ⟨s', v, hst, _, hv, hh⟩ := call_kept (Assets.env ⟨pr⟩) ogs s l cl h.holds ha
  · obtain ⟨p, hp⟩ := hdies hd
    rw [hans] at hp
    cases hp
  · obtain ⟨e1, e2⟩ := calls hst hacts hc
    exact ⟨s', v, hst, hg s' v hans hv hh, ⟨e1 ▸ hat, e2.trans h.files, hh⟩⟩

/-- A question. -/
theorem ask_goes {Z : Seat} {fs : FS} (h : Stands pr s (Z, fs) l) (ha : Allowed l cl) (hacts : acts (Assets.env ⟨pr⟩) cl = [])
    (hdies : ¬ Dies (Assets.env ⟨pr⟩) s.ctx cl)
    (hg : ∀ (s' : CState) v, Answers (Assets.env ⟨pr⟩) s.ctx cl v → step (Assets.env ⟨pr⟩) ogs s cl = .ok (s', v) → Holds s'.heap (ledger (Assets.env ⟨pr⟩) s.ctx l cl v) →
      Gives s'.heap r v) :
    ∃ s' v, step (Assets.env ⟨pr⟩) ogs s cl = .ok (s', v) ∧ Gives s'.heap r v ∧ Stands pr s' (Z, fs) (ledger (Assets.env ⟨pr⟩) s.ctx l cl v) := by
  obtain ⟨_, hd⟩ | ⟨s', v, hst, _, hv, hh⟩ := call_kept (Assets.env ⟨pr⟩) ogs s l cl h.holds ha
  · exact absurd hd hdies
  · obtain ⟨e1, e2⟩ := asks hst hacts
    exact ⟨s', v, hst, hg s' v hv hst hh, ⟨e1 ▸ h.seat, e2.trans h.files, hh⟩⟩

theorem keys_go (ks : List Key) : ∀ {c : Ctx} {Z Z' : Seat} {got : List (Answer × View)}, At pr c Z →
    Z.use (shipped pr) (names pr) (ks.map .key) = some (Z', got) → ∃ c', c.processKeyEvents (Assets.env ⟨pr⟩) (ks.map Key.event) = .ok c' ∧ At pr c' Z' := by
  induction ks with
  | nil =>
    intro c Z Z' got h hs
    injection hs with hs; injection hs with h1 h2
    subst h1
    exact ⟨c, rfl, h⟩
  | cons k ks ih =>
    intro c Z Z' got h hs
    simp only [List.map_cons, Seat.use, Option.bind_eq_some_iff, Option.map_eq_some_iff] at hs
    obtain ⟨⟨Z1, ans⟩, h1, ⟨Z2, got'⟩, h2, h3⟩ := hs
    injection h3 with h3 h4
    subst h3
    obtain ⟨hans, c1, hc1, hat⟩ := Machine.act_goes h h1
    obtain ⟨c2, hc2, hat2⟩ := ih hat h2
    refine ⟨c2, ?_, hat2⟩
    simp only [call, Ctx.step, bind, Except.bind] at hc1
    simp only [List.map_cons, Ctx.processKeyEvents, bind, Except.bind]
    cases hr : c.processKeyEvent (Assets.env ⟨pr⟩) k.event with
    | error q => rw [hr] at hc1; cases hc1
    | ok q =>
      rw [hr] at hc1
      injection hc1 with hc1
      simp only [hc1, hc2]

theorem fragile_text {i : StateInfo} {t : Str} (h : t ∈ fragile i) : t ∈ Spec.textsOf i := by
  revert h
  cases i <;> simp only [fragile, Spec.textsOf, List.mem_append, List.mem_cons, Option.mem_toList] <;> intro h <;> simp_all <;> grind

theorem says_goes (h : Stands pr s p l) (ha : Allowed l cl) (hs : Says (Assets.env ⟨pr⟩) (shipped pr) (names pr) ogs p cl p' r) :
    ∃ s' v, step (Assets.env ⟨pr⟩) ogs s cl = .ok (s', v) ∧ Gives s'.heap r v ∧ Stands pr s' p' (ledger (Assets.env ⟨pr⟩) s.ctx l cl v) := by
  cases hs with
  | act hw hact =>
    rename_i x Z Z' fs ans
    cases hw with
    | key k sym mods release hk =>
      refine act_goes h ha (by simp [acts, call, hk]) ?_ hact ?_
      · rintro ⟨q, hq⟩
        rw [hk] at hq
        exact ⟨q, by simp only [answered, hq, bind, Except.bind]⟩
      · rintro s' v ha ⟨c', b, hb, rfl⟩ -
        rw [hk] at hb
        simp only [answered, hb, bind, Except.bind, pure, Except.pure] at ha
        injection ha with ha
        subst ha
        rfl
    | poll =>
      refine act_goes h ha rfl (fun hd => hd.elim) hact ?_
      rintro s' v ha ⟨a, rfl, h0⟩ hh
      injection ha with ha
      subst ha
      exact ⟨a, rfl, reads_of hh rfl h0⟩
    | select i =>
      refine act_goes h ha rfl (fun hd => hd.elim) hact ?_
      rintro s' v ha rfl -
      injection ha with ha
      subst ha
      rfl
    | confirm i =>
      refine act_goes h ha rfl (fun hd => hd.elim) hact ?_
      rintro s' v ha rfl -
      injection ha with ha
      subst ha
      rfl
    | mode m =>
      refine act_goes h ha rfl (fun hd => hd.elim) hact ?_
      rintro s' v ha rfl -
      injection ha with ha
      subst ha
      rfl
    | reset =>
      refine act_goes h ha rfl (fun hd => hd.elim) hact ?_
      rintro s' v ha rfl -
      injection ha with ha
      subst ha
      rfl
    | period m =>
      refine act_goes h ha rfl (fun hd => hd.elim) hact ?_
      rintro s' v ha rfl -
      injection ha with ha
      subst ha
      rfl
    | comma m =>
      refine act_goes h ha rfl (fun hd => hd.elim) hact ?_
      rintro s' v ha rfl -
      injection ha with ha
      subst ha
      rfl
    | keywords array ws hl =>
      have hne : array.head? ≠ some none := by
        intro hh
        cases array with
        | nil => cases hh
        | cons b bs =>
          injection hh with hh
          subst hh
          cases ws <;> simp at hl
      have hf : array.filterMap (fun b => b.bind cstr) = ws := by
        have := congrArg (List.filterMap id) hl
        simpa [List.filterMap_map, Function.comp_def] using this
      refine act_goes h ha (by simp [acts, call, hne, hf]) (fun hd => hd.elim) hact ?_
      rintro s' v ha rfl -
      injection ha with ha
      subst ha
      rfl
    | rule azik name files dir n rl h1 h2 h3 h4 =>
      refine act_goes h ha ?_ (fun hd => hd.elim) hact ?_
      · simp only [acts, h1, h2, Option.bind, call, commandsOf, kanaOf, h3, h4]
      · rintro s' v ha hv -
        simpa [Answers, h1, h2, Gives] using hv
  | keys h1 h2 h3 =>
    rename_i bytes t ks Z Z' got fs
    obtain ⟨c', hc, hat⟩ := keys_go ks h.seat h3
    obtain ⟨_, hd⟩ | ⟨s', v, hst, _, hv, hh⟩ := call_kept (Assets.env ⟨pr⟩) ogs s l (.keys bytes) h.holds ha
    · obtain ⟨t', ht, hd⟩ := hd
      rw [h1] at ht
      injection ht with ht
      subst ht
      obtain ⟨q, hq⟩ := hd _ h2
      rw [hc] at hq
      cases hq
    · have := call_refines _ ogs s s' _ v hst
      simp only [acts, h1, Option.map, h2, keys_acts, hc, Except.map] at this
      injection this with this
      injection this with e1 e2
      refine ⟨s', v, hst, ?_, ⟨e1 ▸ hat, e2 ▸ h.files, hh⟩⟩
      simpa [Answers, h1, Gives] using hv
  | line =>
    refine ask_goes h ha rfl id ?_
    rintro s' v ⟨a, rfl, h0⟩ - hh
    have hv := congrArg View.line (Machine.view_seen h.seat)
    exact ⟨a, rfl, reads_of hh (by rw [← hv]; rfl) (by rw [← hv]; exact h0)⟩
  | mode =>
    refine ask_goes h ha rfl id ?_
    rintro s' v rfl - -
    exact congrArg Val.inputMode (congrArg View.mode (Machine.view_seen h.seat))
  | doing =>
    refine ask_goes h ha rfl id ?_
    rintro s' v rfl - -
    exact congrArg Val.compositionMode (congrArg View.doing (Machine.view_seen h.seat))
  | count hn =>
    refine ask_goes h ha rfl id ?_
    rintro s' v hv - -
    have hw : s.ctx.candidates = _ := congrArg View.words (Machine.view_seen h.seat)
    have hc : s.ctx.candidateCount = _ := congrArg List.length hw
    have := hv (by rw [hc]; exact hn)
    rw [hc] at this
    exact this
  | cursor hi hn =>
    refine ask_goes h ha rfl id ?_
    rintro s' v - hst -
    have hw : s.ctx.cursorPosition = _ := congrArg View.cursor (Machine.view_seen h.seat)
    injection hst with hst
    injection hst with _ hst
    subst hst
    rw [show (Desk.view _ _ _).cursor = _ from hi] at hw
    simp only [CApi.cursorPosition, hw, Gives]
    rw [if_neg (by omega)]
  | nowhere hi =>
    refine ask_goes h ha rfl id ?_
    rintro s' v - hst -
    have hw : s.ctx.cursorPosition = _ := congrArg View.cursor (Machine.view_seen h.seat)
    injection hst with hst
    injection hst with _ hst
    subst hst
    rw [show (Desk.view _ _ _).cursor = _ from hi] at hw
    simp only [CApi.cursorPosition, hw, Gives]
  | words =>
    rename_i Z fs buf size offset
    obtain ⟨hb, hz⟩ := ha.2.2
    refine ask_goes h ha rfl id ?_
    rintro s' v - hst -
    have hw : s.ctx.candidates = Z.desk.phase.list.1 := congrArg View.words (Machine.view_seen h.seat)
    rw [← hw]
    show Gives s'.heap (.words (Props.CApi.window s.ctx size offset)) v
    by_cases hn : ∀ w ∈ Props.CApi.window s.ctx size offset, Spec.NoNul w
    · obtain ⟨h', buf', n, h1, h2, _, _, h3, _⟩ := CApi.candidates_copied s.heap h.holds.1 s.ctx buf size offset hb hz hn
      simp only [step, h1, bind, Except.bind, pure, Except.pure] at hst
      injection hst with hst
      injection hst with g1 g2
      subst g1 g2
      refine ⟨buf', n, rfl, ?_⟩
      rw [if_neg (by rintro ⟨w, hw, hw'⟩; exact hn w hw hw')]
      have hl : (Props.CApi.window s.ctx size offset).length = n := by
        simp [Props.CApi.window, h2, Ctx.candidateCount, Ctx.candidates]
      refine ⟨by rw [hl], fun i w hi => ?_⟩
      have hlt : i < n := by
        rw [← hl]
        exact (List.getElem?_eq_some_iff.mp hi).1
      obtain ⟨a, x, ga, gx, _, gr⟩ := h3 i hlt
      refine ⟨a, ga, ?_⟩
      have : w = x.output := by
        have hs : i < size := by omega
        simp only [Props.CApi.window, List.getElem?_map, List.getElem?_take, hs, if_true, List.getElem?_drop, gx, Option.map_some, Option.some.injEq] at hi
        exact hi.symm
      rw [this]
      exact gr
    · have hn' : ∃ w ∈ Props.CApi.window s.ctx size offset, ¬ Spec.NoNul w := by
        apply Classical.byContradiction
        intro hc
        exact hn fun w hw => Classical.byContradiction fun hx => hc ⟨w, hw, hx⟩
      obtain ⟨h', buf', n, h1, _⟩ := CApi.candidates_nul s.heap h.holds.1 s.ctx buf size offset hb hn'
      simp only [step, h1, bind, Except.bind, pure, Except.pure] at hst
      injection hst with hst
      injection hst with g1 g2
      subst g1 g2
      refine ⟨buf', -1, rfl, ?_⟩
      obtain ⟨w, hw, hw'⟩ := hn'
      rw [if_pos ⟨w, hw, Classical.not_not.mp hw'⟩]
  | reads =>
    refine ask_goes h ha rfl id ?_
    rintro s' v ⟨a, rfl, h0⟩ - hh
    have hv := Machine.reading_seen h.seat.rel
    exact ⟨a, rfl, reads_of hh (by rw [← hv]; rfl) (by rw [← hv]; exact h0)⟩
  | underline =>
    refine ask_goes h ha rfl id ?_
    rintro s' v rfl - -
    rfl
  | version =>
    refine ask_goes h ha rfl id ?_
    rintro s' v ⟨a, rfl, h0⟩ - hh
    exact ⟨a, rfl, reads_of hh rfl h0⟩
  | detail hn =>
    rename_i Z fs
    have hv := Machine.detail_seen h.seat.rel
    rw [← hv] at hn ⊢
    refine ask_goes h ha rfl ?_ ?_
    · rintro ⟨i, hi, t, ht, h0⟩
      exact hn i hi t (fragile_text ht) h0
    · rintro s' v - hst -
      obtain ⟨h', infos, h1, h2⟩ := CApi.detail_describes (Assets.env ⟨pr⟩) s.heap h.holds.1 s.ctx hn
      simp only [step, h1, bind, Except.bind, pure, Except.pure] at hst
      injection hst with hst
      injection hst with g1 g2
      subst g1 g2
      exact ⟨infos, rfl, h2⟩
  | save =>
    rename_i Z fs os
    obtain ⟨_, hd⟩ | ⟨s', v, hst, _, hv, hh⟩ := call_kept (Assets.env ⟨pr⟩) ogs s l (.save os) h.holds ha
    · exact hd.elim
    · have := call_refines _ ogs s s' _ v hst
      simp only [acts, Session.actAll, Session.act, bind, Except.bind] at this
      injection this with this
      injection this with e1 e2
      have hd : s.ctx.dicts = Z.desk.dicts := h.seat.rel.dicts
      have hf : s.fs = fs := h.files
      rw [hd, hf] at e1 e2
      refine ⟨s', v, hst, hv, ⟨?_, e2.symm, hh⟩⟩
      rw [← e1]
      exact Office.at_dicts h.seat _
  | freeString =>
    refine ask_goes h ha rfl id ?_
    rintro s' v rfl - -
    rfl
  | freeDetail =>
    refine ask_goes h ha rfl id ?_
    rintro s' v rfl - -
    rfl
  | freeCandidates =>
    refine ask_goes h ha rfl id ?_
    rintro s' v rfl - -
    rfl

theorem follows_goes {t : List (Call × Val)} {s' : CState} {l' : List (Nat × Str)} (h : Stands pr s p l) (hu : Uses (Assets.env ⟨pr⟩) ogs s l t s' l')
    (hf : Follows (Assets.env ⟨pr⟩) (shipped pr) (names pr) ogs p (t.map (·.1)) p') : Stands pr s' p' l' := by
  induction hu generalizing p with
  | done s l => cases hf; exact h
  | call ha hst _ ih =>
    cases hf with
    | call hs hf =>
      obtain ⟨s1, v1, h1, _, h2⟩ := says_goes h ha hs
      rw [hst] at h1
      injection h1 with h1
      injection h1 with e1 e2
      subst e1 e2
      exact ih h2 hf

end

theorem uses_snoc {e : Env} {ogs : List Source} {s s' s'' : CState} {l l' : List (Nat × Str)} {t : List (Call × Val)} {cl : Call} {v : Val}
    (h : Uses e ogs s l t s' l') (ha : Allowed l' cl) (hst : step e ogs s' cl = .ok (s'', v)) :
    Uses e ogs s l (t ++ [(cl, v)]) s'' (ledger e s'.ctx l' cl v) := by
  induction h with
  | done s l => exact .call ha hst (.done _ _)
  | call a b _ ih => exact .call a b (ih ha hst)

/-- **C80.** A C program which keeps the rules of the header has made any number of calls of which the machine says what they do, from a new context on; now
it makes a call of which the machine says what it does. Then the call comes back, and what it returns — the flag, the number, the mode, the text at the
address, the texts in the array — is what the machine says; dictionaries and files are the machine's; and the program can go on in this way. -/
theorem c_refines (pr azik : Bool) (g : Config) (m : InputMode) (ds : List CskkDict) (ogs : List Source) (fs : FS) (t : List (Call × Val)) (s : CState)
    (l : List (Nat × Str)) (Z Z' : Seat) (fs' fs'' : FS) (cl : Call) (r : Reply)
    (hu : Uses (Assets.env ⟨pr⟩) ogs ⟨fresh azik g m ds, fs, ⟨1, []⟩⟩ [] t s l)
    (hf : Follows (Assets.env ⟨pr⟩) (shipped pr) (names pr) ogs (start azik g m ds, fs) (t.map (·.1)) (Z, fs'))
    (ha : Allowed l cl) (hs : Says (Assets.env ⟨pr⟩) (shipped pr) (names pr) ogs (Z, fs') cl (Z', fs'') r) :
    ∃ s' v, step (Assets.env ⟨pr⟩) ogs s cl = .ok (s', v) ∧ Gives s'.heap r v ∧ s'.ctx.dicts = Z'.desk.dicts ∧ s'.fs = fs'' ∧
      Uses (Assets.env ⟨pr⟩) ogs ⟨fresh azik g m ds, fs, ⟨1, []⟩⟩ [] (t ++ [(cl, v)]) s' (ledger (Assets.env ⟨pr⟩) s.ctx l cl v) ∧
      Follows (Assets.env ⟨pr⟩) (shipped pr) (names pr) ogs (start azik g m ds, fs) ((t ++ [(cl, v)]).map (·.1)) (Z', fs'') := by
  have h0 : Stands pr ⟨fresh azik g m ds, fs, ⟨1, []⟩⟩ (start azik g m ds, fs) [] :=
    ⟨Machine.fresh_at pr azik g m ds, rfl, ⟨⟨Nat.one_pos, by simp, by simp⟩, by simp⟩⟩
  have h1 := follows_goes h0 hu hf
  obtain ⟨s', v, hst, hg, h2⟩ := says_goes h1 ha hs
  refine ⟨s', v, hst, hg, h2.seat.rel.dicts, h2.files, uses_snoc hu ha hst, ?_⟩
  rw [List.map_append]
  generalize t.map (·.1) = cs at hf
  clear h0 h1 hu hst h2
  generalize (start azik g m ds, fs) = p0 at hf
  generalize hq : (Z, fs') = q at hf hs
  clear hq
  induction hf with
  | done => exact .call hs (.done _)
  | call a _ ih => exact .call a (ih hs)

/-! ## A program -/

/-- What the machine makes of calls; beside each call the act it is, if it is not a question. -/
def follow (pr : Bool) (ogs : List Source) : Seat × FS → List (Call × Option Act) → Option ((Seat × FS) × List Str)
  | p, [] => some (p, [])
  | p, (_, some x) :: l => (p.1.act (shipped pr) x).bind fun r => (follow pr ogs (r.1, p.2) l).map fun q => (q.1, (match r.2 with | .text w => w | _ => []) :: q.2)
  | p, (.preedit, none) :: l => (follow pr ogs p l).map fun q => (q.1, (p.1.desk.view (shipped pr p.1.azik p.1.config) (names pr)).line :: q.2)
  | p, (.candidates _ size offset, none) :: l =>
    (follow pr ogs p l).map fun q => (q.1, (((p.1.desk.phase.list.1.drop offset).take size).flatMap (·.output)) :: q.2)
  | p, (.toComposite, none) :: l => (follow pr ogs p l).map fun q => (q.1, p.1.desk.phase.reads :: q.2)
  | p, (.detail, none) :: l =>
    if ∀ i ∈ p.1.desk.detail (shipped pr p.1.azik p.1.config) (names pr), ∀ t ∈ Spec.textsOf i, '\x00' ∉ t then
      (follow pr ogs p l).map fun q => (q.1, ((p.1.desk.detail (shipped pr p.1.azik p.1.config) (names pr)).flatMap Spec.textsOf).flatten :: q.2)
    else none
  | p, (.freeString _, none) :: l | p, (.freeDetail _, none) :: l | p, (.freeCandidates _ _, none) :: l => (follow pr ogs p l).map fun q => (q.1, [] :: q.2)
  | p, (.save os, none) :: l => (follow pr ogs ({ p.1 with desk := { p.1.desk with dicts := (Session.saveAll ogs p.1.desk.dicts os p.2).1 } },
      (Session.saveAll ogs p.1.desk.dicts os p.2).2) l).map fun q => (q.1, [] :: q.2)
  | _, _ => none

theorem follow_sound {pr : Bool} {ogs : List Source} (l : List (Call × Option Act)) : ∀ {p p' : Seat × FS} {ws : List Str}, follow pr ogs p l = some (p', ws) →
    (∀ q ∈ l, ∀ x, q.2 = some x → Wants q.1 x ∧ ∀ b, x ≠ .setRule b) → Follows (Assets.env ⟨pr⟩) (shipped pr) (names pr) ogs p (l.map (·.1)) p' := by
  induction l with
  | nil =>
    intro p p' ws h _
    injection h with h
    injection h with h1 _
    subst h1
    exact .done _
  | cons q l ih =>
    intro p p' ws h hw
    have hw' : ∀ q ∈ l, ∀ x, q.2 = some x → Wants q.1 x ∧ ∀ b, x ≠ .setRule b := fun q hq => hw q (List.mem_cons_of_mem _ hq)
    obtain ⟨Z, fs⟩ := p
    unfold follow at h
    split at h
    · rename_i heq; cases heq
    · rename_i heq
      injection heq with h1 h2
      subst h1 h2
      simp only [Option.bind_eq_some_iff, Option.map_eq_some_iff] at h
      obtain ⟨r, hr, q, hq, he⟩ := h
      injection he with he _
      subst he
      exact .call (.act (hw _ (List.mem_cons_self ..) _ rfl).1 hr) (ih hq hw')
    · rename_i heq
      injection heq with h1 h2
      subst h1 h2
      obtain ⟨q, hq, he⟩ := Option.map_eq_some_iff.mp h
      injection he with he _
      subst he
      exact .call .line (ih hq hw')
    · rename_i heq
      injection heq with h1 h2
      subst h1 h2
      obtain ⟨q, hq, he⟩ := Option.map_eq_some_iff.mp h
      injection he with he _
      subst he
      exact .call .words (ih hq hw')
    · rename_i heq
      injection heq with h1 h2
      subst h1 h2
      obtain ⟨q, hq, he⟩ := Option.map_eq_some_iff.mp h
      injection he with he _
      subst he
      exact .call .reads (ih hq hw')
    · rename_i heq
      injection heq with h1 h2
      subst h1 h2
      split at h
      · rename_i hn
        obtain ⟨q, hq, he⟩ := Option.map_eq_some_iff.mp h
        injection he with he _
        subst he
        exact .call (.detail hn) (ih hq hw')
      · cases h
    · rename_i heq
      injection heq with h1 h2
      subst h1 h2
      obtain ⟨q, hq, he⟩ := Option.map_eq_some_iff.mp h
      injection he with he _
      subst he
      exact .call .freeString (ih hq hw')
    · rename_i heq
      injection heq with h1 h2
      subst h1 h2
      obtain ⟨q, hq, he⟩ := Option.map_eq_some_iff.mp h
      injection he with he _
      subst he
      exact .call .freeDetail (ih hq hw')
    · rename_i heq
      injection heq with h1 h2
      subst h1 h2
      obtain ⟨q, hq, he⟩ := Option.map_eq_some_iff.mp h
      injection he with he _
      subst he
      exact .call .freeCandidates (ih hq hw')
    · rename_i heq
      injection heq with h1 h2
      subst h1 h2
      obtain ⟨q, hq, he⟩ := Option.map_eq_some_iff.mp h
      injection he with he _
      subst he
      exact .call .save (ih hq hw')
    · cases h

/-- A user dictionary and its file. -/
def files : FS := fun p => if p = c%"/d" then some (Utf8.encode c%";; okuri-ari entries.\n;; okuri-nasi entries.\nか /化/下/\n") else none

/-- Keys as a keyboard sends them. -/
def pressed (k : Key) (sym : Nat) : Call × Option Act := (.key sym 0 false, some (.key k))

/-- The program types `Ka` and two spaces, shows the line, the list and the details, asks for the reading, confirms, takes the text, gives the strings back and saves. -/
def plan : List (Call × Option Act) :=
  [pressed (.char 'K') 0x4b, pressed (.char 'a') 0x61, pressed (.char ' ') 0x20, pressed (.char ' ') 0x20, (.preedit, none), (.candidates [0, 0, 0] 3 0, none),
    (.detail, none), (.toComposite, none), (.freeDetail [.compositionSelection 4 5 0 0], none), pressed .enter 0xff0d, (.poll, some .poll), (.freeString 1, none), (.freeCandidates (some [2, 3, 0]) 2, none), (.save fun _ => .completes, none)]

/-- Where the dictionary comes from. -/
def sources : List Source := [⟨c%"/d", Props.Utf8.utf8, true, .user⟩]

/-- The dictionary as it is opened. -/
def opened : List CskkDict := (Session.openAll files sources).getD []

/-- The machine says what it reads, and what is in the file in the end. -/
theorem plan_follows : (follow true sources (start false Config.default .hiragana opened, files) plan).map (fun r => (r.2, r.1.2 c%"/d")) =
    some ([[], [], [], [], c%"▼下", c%"化下", c%"下", c%"か", [], [], c%"下", [], [], []], some (Utf8.encode c%";; okuri-ari entries.\n;; okuri-nasi entries.\nか /下/化/\n")) := by
  decide +kernel

/-- It keeps the rules; in the end it holds the reading and the text it has taken. -/
theorem plan_runs : (CSession.play (Assets.env ⟨true⟩) sources ⟨fresh false Config.default .hiragana opened, files, ⟨1, []⟩⟩ [] (plan.map (·.1))).map
      (fun r => (r.2.1, r.2.2.map (·.2))) =
    some ([(7, c%"下"), (6, c%"か")], [.bool true, .bool true, .bool true, .bool true, .ptr 1, .slots [2, 3, 0] 2, .infos [.compositionSelection 4 5 0 0], .ptr 6,
      .unit, .bool true, .ptr 7, .unit, .unit, .unit]) := by
  decide +kernel

theorem play_calls {e : Env} {ogs : List Source} (cs : List Call) : ∀ {s s' : CState} {l l' : List (Nat × Str)} {t : List (Call × Val)},
    CSession.play e ogs s l cs = some (s', l', t) → t.map (·.1) = cs := by
  induction cs with
  | nil => intro s s' l l' t h; cases h; rfl
  | cons c cs ih =>
    intro s s' l l' t h
    unfold CSession.play at h
    split at h
    · split at h
      · obtain ⟨r, hr, he⟩ := Option.map_eq_some_iff.mp h
        cases he
        simp [ih hr]
      · cases h
    · cases h

/-- So the hypotheses of the theorem are met by this program, which may now ask for the line again. -/
theorem plan_applies : ∃ t s l Z fs', Uses (Assets.env ⟨true⟩) sources ⟨fresh false Config.default .hiragana opened, files, ⟨1, []⟩⟩ [] t s l ∧
    Follows (Assets.env ⟨true⟩) (shipped true) (names true) sources (start false Config.default .hiragana opened, files) (t.map (·.1)) (Z, fs') ∧
    Allowed l .preedit ∧ (∃ r, Says (Assets.env ⟨true⟩) (shipped true) (names true) sources (Z, fs') .preedit (Z, fs') r) ∧
    fs' c%"/d" = some (Utf8.encode c%";; okuri-ari entries.\n;; okuri-nasi entries.\nか /下/化/\n") := by
  obtain ⟨⟨⟨Z, fs'⟩, ws⟩, h1, h2⟩ := Option.map_eq_some_iff.mp plan_follows
  obtain ⟨⟨s, l, t⟩, h3, h4⟩ := Option.map_eq_some_iff.mp plan_runs
  refine ⟨t, s, l, Z, fs', CSession.play_uses _ _ _ _ _ _ _ _ h3, ?_, ⟨by simp [returned], by simp [returned], trivial⟩, ⟨_, .line⟩, congrArg Prod.snd h2⟩
  rw [play_calls _ h3]
  refine follow_sound plan h1 ?_
  intro q hq x hx
  simp only [plan, List.mem_cons, List.not_mem_nil, or_false] at hq
  rcases hq with rfl | rfl | rfl | rfl | rfl | rfl | rfl | rfl | rfl | rfl | rfl | rfl | rfl | rfl <;> cases hx
  all_goals first
    | exact ⟨.poll, nofun⟩
    | exact ⟨.key _ _ _ _ (by decide +kernel), nofun⟩

end Cskk.Props.Front

import Verif.Spec.World
import Verif.Props.ContextDicts
import Verif.Props.Candidates
import Verif.Props.Convert

/-!
# C50: contexts which share dictionaries
-/

namespace Cskk.Props.World
open Spec UserDict Spec.UserDict Candidates Dicts
open Cskk.World (view written)

/-! ## The store -/

theorem written_map (ids : List Nat) (st f : Nat → CskkDict) (d : Nat) :
    written ids (ids.map f) st d = if d ∈ ids then f d else st d := by
  induction ids with
  | nil => simp [written]
  | cons a ids ih =>
    rw [List.map_cons, written, ih]
    by_cases h : d = a
    · subst h; simp
    · simp [h]

/-- One call of a context which keeps its list of dictionaries edits all of them in the same way. -/
theorem step_edits (e : Env) (c c' : Ctx) (op : Op) (hk : ContextDicts.KeepsDictionaries c op) (hs : c.step e op = .ok c') :
    ∃ es : List Edit, c'.dicts = c.dicts.map fun d => es.foldl applyEdit d :=
  ContextDicts.dictionaries_only_edited e c c' (.step .init hk hs)

/-- The store and the contexts after a call. -/
theorem call_effect (e : Env) (w w' : World) (j : Nat) (op : Op) (hk : ContextDicts.KeepsDictionaries (w.view j) op)
    (hs : w.step e (.call j op) = .ok w') :
    ∃ c es, (w.view j).step e op = .ok c ∧
      (∀ d, w'.store d = if d ∈ (w.clients j).ids then (es : List Edit).foldl applyEdit (w.store d) else w.store d) ∧
      (∀ k, (w'.clients k).ids = (w.clients k).ids) ∧
      (∀ k, k ≠ j → w'.clients k = w.clients k) ∧
      w'.view j = c := by
  simp only [Cskk.World.step, bind, Except.bind] at hs
  cases hc : (w.view j).step e op with
  | error p => rw [hc] at hs; cases hs
  | ok c =>
    rw [hc] at hs
    obtain ⟨es, he⟩ := step_edits e _ c op hk hc
    cases hs
    have hd : c.dicts = (w.clients j).ids.map fun d => es.foldl applyEdit (w.store d) := by
      rw [he]; simp [view, List.map_map, Function.comp_def]
    have hst : ∀ d, written (w.clients j).ids c.dicts w.store d =
        if d ∈ (w.clients j).ids then es.foldl applyEdit (w.store d) else w.store d := by
      intro d; rw [hd]; exact written_map _ _ _ d
    refine ⟨c, es, rfl, hst, ?_, ?_, ?_⟩
    · intro k; by_cases h : k = j <;> simp [h]
    · intro k h; simp [h]
    · simp only [view, if_true]
      have : (w.clients j).ids.map (written (w.clients j).ids c.dicts w.store) = c.dicts := by
        rw [hd]
        apply List.map_congr_left
        intro d hd'
        rw [← hd, hst, if_pos hd']
      rw [this]

/-! ## Independence -/

/-- What stays as it was for context `i` during calls of others. -/
structure Untouched (w w' : World) (i : Nat) : Prop where
  ids : (w'.clients i).ids = (w.clients i).ids
  apart : ∀ j, j ≠ i → ∀ d ∈ (w'.clients j).ids, d ∈ (w.clients i).ids → ReadOnly (w.store d)
  still : ∀ d, ReadOnly (w.store d) → w'.store d = w.store d

/-- C50: **independence**. As long as no other context uses a dictionary of context `i` which can be written, everything
context `i` does and shows is what it would do and show if the other contexts did not exist, for every way in which the calls
alternate. -/
theorem independent (e : Env) (w w' : World) (i : Nat) (ws : List WOp)
    (hd : ∀ j, j ≠ i → ∀ d ∈ (w.clients j).ids, d ∈ (w.clients i).ids → ReadOnly (w.store d))
    (hws : ∀ o ∈ ws, Apart w i o) (hrun : runAll e w ws = .ok w') :
    run e (w.view i) (callsOf i ws) = .ok (w'.view i) := by
  suffices H : ∀ (ws : List WOp) (v : World), Untouched w v i → (∀ o ∈ ws, Apart w i o) → runAll e v ws = .ok w' →
      run e (v.view i) (callsOf i ws) = .ok (w'.view i) from
    H ws w ⟨rfl, hd, fun _ _ => rfl⟩ hws hrun
  clear hrun hws ws
  intro ws
  induction ws with
  | nil => intro v _ _ h; cases h; rfl
  | cons o ws ih =>
    intro v hv hws hrun
    simp only [runAll, bind, Except.bind] at hrun
    cases hs : v.step e o with
    | error p => rw [hs] at hrun; cases hrun
    | ok u =>
      rw [hs] at hrun
      have ho := hws o (by simp)
      have hws' : ∀ o ∈ ws, Apart w i o := fun o h => hws o (by simp [h])
      cases o with
      | use j ids =>
        cases hs
        obtain ⟨h1, h3⟩ := ho
        have hu : Untouched w { v with clients := fun k => if k = j then ⟨(v.clients j).ctx, ids⟩ else v.clients k } i := by
          refine ⟨by simp [Ne.symm h1, hv.ids], ?_, hv.still⟩
          intro k hk d hd'
          by_cases hkj : k = j
          · simp only [hkj, if_true] at hd'; exact h3 d hd'
          · simp only [hkj, if_false] at hd'; exact hv.apart k hk d hd'
        have := ih _ hu hws' hrun
        simpa [callsOf, view, Ne.symm h1] using this
      | call j op =>
        have hk : ContextDicts.KeepsDictionaries (v.view j) op := by
          cases op <;> first | trivial | exact ho
        obtain ⟨c, es, hc, hst, hids, hoth, hview⟩ := call_effect e v u j op hk hs
        have hu : Untouched w u i := by
          refine ⟨by rw [hids, hv.ids], ?_, ?_⟩
          · intro k hk d hd'; rw [hids] at hd'; exact hv.apart k hk d hd'
          · intro d hr
            rw [hst, hv.still d hr]
            split
            · exact read_only_unchanged _ hr es
            · rfl
        have := ih u hu hws' hrun
        by_cases hj : j = i
        · subst hj
          simp only [callsOf, if_true, run, hc, bind, Except.bind]
          rw [← hview]; exact this
        · simp only [callsOf, hj, if_false]
          have hsame : u.view i = v.view i := by
            simp only [view, hoth i (Ne.symm hj)]
            congr 1
            apply List.map_congr_left
            intro d hd'
            rw [hst]
            split
            · rename_i hdj
              rw [hv.ids] at hd'
              have hr := hv.apart j hj d hdj hd'
              rw [hv.still d hr]
              exact read_only_unchanged _ hr es
            · rfl
          rw [← hsame]; exact this

/-! ## The history of a shared dictionary -/

/-- C50: **no lost updates**. After any calls each dictionary has been changed by the edits of all contexts which use it, in the order
of the calls, and by nothing else: no call undoes or overwrites what another context did to a shared dictionary. The edits
of a call do not depend on the dictionary. -/
theorem no_lost_updates (e : Env) (w w' : World) (ws : List WOp) (hws : ∀ o ∈ ws, KeepsList o)
    (hrun : runAll e w ws = .ok w') :
    ∃ ess : List (List Edit), ess.length = ws.length ∧
      ∀ d, w'.store d = (editsOf w d (ws.zip ess)).foldl applyEdit (w.store d) := by
  suffices H : ∀ (ws : List WOp) (v : World), (∀ k, (v.clients k).ids = (w.clients k).ids) → (∀ o ∈ ws, KeepsList o) →
      runAll e v ws = .ok w' → ∃ ess : List (List Edit), ess.length = ws.length ∧
        ∀ d, w'.store d = (editsOf w d (ws.zip ess)).foldl applyEdit (v.store d) from
    H ws w (fun _ => rfl) hws hrun
  clear hrun hws ws
  intro ws
  induction ws with
  | nil => intro v _ _ h; cases h; exact ⟨[], rfl, fun d => rfl⟩
  | cons o ws ih =>
    intro v hv hws hrun
    simp only [runAll, bind, Except.bind] at hrun
    cases hs : v.step e o with
    | error p => rw [hs] at hrun; cases hrun
    | ok u =>
      rw [hs] at hrun
      have ho := hws o (by simp)
      cases o with
      | use j ids => exact absurd ho id
      | call j op =>
        have hk : ContextDicts.KeepsDictionaries (v.view j) op := by
          cases op <;> first | trivial | exact ho
        obtain ⟨c, es, _, hst, hids, _, _⟩ := call_effect e v u j op hk hs
        obtain ⟨ess, hl, hh⟩ := ih u (fun k => by rw [hids, hv]) (fun o h => hws o (by simp [h])) hrun
        refine ⟨es :: ess, by simp [hl], fun d => ?_⟩
        rw [hh d, hst d, hv j]
        have hw : WOp.who (.call j op) = j := rfl
        simp only [editsOf, List.zip_cons_cons, List.flatMap_cons, hw, List.foldl_append]
        by_cases hd : d ∈ (w.clients j).ids <;> simp [hd]

/-- C50: read-only dictionaries shared by any number of contexts never change. -/
theorem shared_static_constant (e : Env) (w w' : World) (ws : List WOp) (hws : ∀ o ∈ ws, KeepsList o)
    (hrun : runAll e w ws = .ok w') (d : Nat) (hr : ReadOnly (w.store d)) : w'.store d = w.store d := by
  obtain ⟨ess, _, h⟩ := no_lost_updates e w w' ws hws hrun
  rw [h d]; exact read_only_unchanged _ hr _

/-- C50: a shared dictionary which is well-formed stays so, whatever the contexts do to it. -/
theorem shared_well_formed (e : Env) (w w' : World) (ws : List WOp) (hws : ∀ o ∈ ws, KeepsList o)
    (hrun : runAll e w ws = .ok w') (d : Nat) (hr : WellFormed (maps (w.store d))) : WellFormed (maps (w'.store d)) := by
  obtain ⟨ess, _, h⟩ := no_lost_updates e w w' ws hws hrun
  rw [h d]; exact wf_history _ hr _

/-- C50: a call changes nothing of the other contexts except their dictionaries: what they show, their candidates, modes,
output and settings stay. -/
theorem others_keep_state (e : Env) (w w' : World) (i j : Nat) (op : Op) (hs : w.step e (.call i op) = .ok w')
    (hj : j ≠ i) :
    w'.view j = { w.view j with dicts := (w.clients j).ids.map w'.store } := by
  simp only [Cskk.World.step, bind, Except.bind] at hs
  cases hc : (w.view i).step e op with
  | error p => rw [hc] at hs; cases hs
  | ok c =>
    rw [hc] at hs
    cases hs
    simp [view, hj]

/-! ## Words confirmed in one context and looked up in another -/

/-- The dictionaries after a call whose effect on them is that of confirming `x`. -/
theorem confirmed_store (e : Env) (w w' : World) (i : Nat) (op : Op) (x : Candidate)
    (hop : ∀ c, (w.view i).step e op = .ok c → c.dicts = (w.view i).dicts.map fun (d : CskkDict) => d.confirm x)
    (hs : w.step e (.call i op) = .ok w') (d : Nat) :
    w'.store d = if d ∈ (w.clients i).ids then (w.store d).confirm x else w.store d := by
  simp only [Cskk.World.step, bind, Except.bind] at hs
  cases hc : (w.view i).step e op with
  | error p => rw [hc] at hs; cases hs
  | ok c =>
    rw [hc] at hs
    cases hs
    have : c.dicts = (w.clients i).ids.map fun d => (w.store d).confirm x := by
      rw [hop c hc]; simp [view, List.map_map, Function.comp_def]
    show written (w.clients i).ids c.dicts w.store d = _
    rw [this]; exact written_map _ _ _ d

theorem confirmAt_dicts (e : Env) (c : Ctx) (k : Nat) (x : Candidate) (hx : c.candidates[k]? = some x) :
    ∀ c', c.step e (.confirmAt k) = .ok c' → c'.dicts = c.dicts.map fun (d : CskkDict) => d.confirm x := by
  intro c' h
  have hx' : c.top.cands.cands[k]? = some x := hx
  simp only [Ctx.step, Ctx.confirmCandidateAt, State.setPointer, CandidateList.setSelectionPointer, hx', Except.ok.injEq] at h
  rw [← h]
  simp [Ctx.confirmCurrent, CandidateList.current, hx', Ctx.mapTop]

/-- Confirming a word does not give it another annotation. -/
theorem annotation_kept (u : CskkDict) (c : Candidate) (k : CompositeKey) (key : Str)
    (hc : c.midashi = key ∧ c.okuri = k.hasOkuri)
    (h : ∀ d ∈ answers u k.okuri key, d.kouho = c.kouho → d.annotation = c.annotation) :
    ∀ d ∈ answers (u.confirm c) k.okuri key, d.kouho = c.kouho → d.annotation = c.annotation := by
  cases hu : u.kind with
  | user m b =>
    have hmaps : maps (u.confirm c) = m.select c := by simp [CskkDict.confirm, hu, maps]
    have hmaps0 : maps u = m := by simp [hu, maps]
    have hg : ∀ g, (∀ d ∈ (listed m c.okuri c.midashi g).getD [], d.kouho = c.kouho → d.annotation = c.annotation) →
        ∀ d ∈ (listed (m.select c) c.okuri c.midashi g).getD [], d.kouho = c.kouho → d.annotation = c.annotation := by
      intro g hold d hd hdk
      by_cases hr : recordedIn c.strictOkuri g
      · obtain ⟨new, h1, h2⟩ := confirm_moves_to_front m c g hr
        rw [h1] at hd
        generalize (listed m c.okuri c.midashi g).getD [] = old at h2 hold
        cases h2 with
        | known hw hd' hp => exact hold d (hp.mem_iff.mp hd) hdk
        | added hw =>
          rcases List.mem_cons.mp hd with rfl | hd
          · rfl
          · exact hold d hd hdk
      · rw [confirm_changes_nothing_else m c c.okuri c.midashi g (.inr (.inr hr))] at hd
        exact hold d hd hdk
    obtain ⟨e1, e2⟩ := hc
    unfold answers at h ⊢
    rw [hmaps]; rw [hmaps0] at h
    cases ho : k.okuri with
    | none =>
      rw [ho] at h
      have e2' : c.okuri = false := by rw [e2]; simp [CompositeKey.hasOkuri, ho]
      have := hg []
      rw [e1, e2'] at this
      exact this h
    | some o =>
      rw [ho] at h
      have e2' : c.okuri = true := by rw [e2]; simp [CompositeKey.hasOkuri, ho]
      have h1 := hg []
      have h2 := hg o
      rw [e1, e2'] at h1 h2
      intro d hd
      rcases List.mem_append.mp hd with hd | hd
      · exact h2 (fun d hd => h d (List.mem_append.mpr (.inl hd))) d hd
      · exact h1 (fun d hd => h d (List.mem_append.mpr (.inr hd))) d hd
  | static m => have : u.confirm c = u := by simp [CskkDict.confirm, hu]
                rw [this]; exact h
  | empty => have : u.confirm c = u := by simp [CskkDict.confirm, hu]
             rw [this]; exact h

/-- C50: **visibility**. The word which context `i` confirms is the first one which context `j` is offered for the same reading from
then on, if the first dictionary of `j` is a user dictionary which `i` uses too and no dictionary of `j` lists the word with a different
annotation. -/
theorem confirmed_seen_by_others (e : Env) (w w' : World) (i j k : Nat) (x : Candidate)
    (hx : (w.view i).candidates[k]? = some x) (hs : w.step e (.call i (.confirmAt k)) = .ok w')
    (key : CompositeKey) (word : Str) (hkey : key.getDictKey = .ok word)
    (hc : x.midashi = word ∧ x.okuri = key.hasOkuri ∧ x.strictOkuri = key.okuri)
    (u : Nat) (rest : List Nat) (hj : (w.clients j).ids = u :: rest) (hi : u ∈ (w.clients i).ids)
    (m : DictMaps) (b : Bool) (hu : (w.store u).kind = .user m b)
    (hann : ∀ d ∈ (w.clients j).ids, ∀ a ∈ answers (w.store d) key.okuri word, a.kouho = x.kouho →
      a.annotation = x.annotation)
    (cs : List Candidate) (hcs : getAll (w'.view j).dicts key = .ok cs) :
    ∃ first others, cs = first :: others ∧ first.output = x.kouho := by
  have hst := confirmed_store e w w' i _ x (confirmAt_dicts e _ k x hx) hs
  have hann' : ∀ d ∈ (w.clients j).ids, ∀ a ∈ answers (w'.store d) key.okuri word, a.kouho = x.kouho →
      a.annotation = x.annotation := by
    intro d hd
    rw [hst d]
    split
    · exact annotation_kept _ x key word ⟨hc.1, hc.2.1⟩ (hann d hd)
    · exact hann d hd
  have hids : (w'.clients j).ids = (w.clients j).ids := by
    obtain ⟨_, _, _, _, h, _, _⟩ := call_effect e w w' i (.confirmAt k) trivial hs
    exact h j
  have hview : (w'.view j).dicts = (w.store u).confirm x :: rest.map w'.store := by
    simp only [view, hids, hj, List.map_cons]
    rw [hst u, if_pos hi]
  rw [hj] at hann hann'
  obtain ⟨first, others, hex, hout⟩ := confirmed_offered_first (w.store u) m b hu (rest.map w'.store) key word hkey x hc
    (hann u (by simp)) (by
      intro d' hd' a ha hak
      obtain ⟨d, hd, rfl⟩ := List.mem_map.mp hd'
      have := hann' d (by simp [hd]) a ha hak
      have he : a = ⟨x.kouho, x.annotation⟩ := by cases a; simp_all
      rw [he]; exact candLt_strictTotal.irrefl _)
  rw [hview] at hcs
  simp only [getAll, hex, bind, Except.bind] at hcs
  split at hcs
  · cases hcs; exact ⟨_, _, rfl, hout⟩
  · split at hcs
    · cases hcs
    · split at hcs
      · cases hcs
      · cases hcs; exact ⟨_, _, List.cons_append .., hout⟩

/-- C50: **a list on display is not refreshed**. A word which one context purged is still in the candidate list which another context
shows (`others_keep_state`), and confirming it there puts it back in front of every user dictionary of that context. -/
theorem confirming_stale_word_restores_it (e : Env) (w w' : World) (j k : Nat) (x : Candidate)
    (hx : (w.view j).candidates[k]? = some x) (hs : w.step e (.call j (.confirmAt k)) = .ok w')
    (u : Nat) (hu : u ∈ (w.clients j).ids) (m : DictMaps) (b : Bool) (hk : (w.store u).kind = .user m b) :
    ∃ d rest, listed (maps (w'.store u)) x.okuri x.midashi [] = some (d :: rest) ∧ d.kouho = x.kouho := by
  rw [confirmed_store e w w' j _ x (confirmAt_dicts e _ k x hx) hs u, if_pos hu]
  have hmaps : maps ((w.store u).confirm x) = m.select x := by simp [CskkDict.confirm, hk, maps]
  rw [hmaps]
  exact confirmed_first m x [] (.inl rfl)

/-! ## The hypotheses are met -/

/-- Three contexts with the shipped rule: the first two use the user dictionary 0 and the static dictionary 1, the third one uses its
own user dictionary 2 and the static dictionary 1. -/
def shared : World where
  store := fun d => if d = 1 then Candidates.dictB else Candidates.dictA
  clients := fun i => ⟨Ctx.new Assets.defaultCommands Assets.defaultKana .hiragana .direct [], if i = 2 then [2, 1] else [0, 1]⟩

/-- Typing keys in context `i`. -/
def typeIn (i : Nat) (s : Str) : List WOp := (typed s).map fun k => .call i (.key k)

/-- The words which dictionary `d` lists for あい. -/
def wordsIn (w : World) (d : Nat) : List Str := (((listed (maps (w.store d)) false c%"あい" []).getD []).map (·.kouho))

/-- The outcome of calls on `shared`: the words of dictionaries 0 and 2, and those which contexts 1 and 2 offer. -/
def outcome (ws : List WOp) : Option (List Str × List Str × List Str × List Str) :=
  (runAll (Assets.env ⟨true⟩) shared ws).toOption.map fun w =>
    (wordsIn w 0, wordsIn w 2, (w.view 1).candidates.map (·.output), (w.view 2).candidates.map (·.output))

/-- Context 0 purges 哀 while contexts 1 and 2 show it: they still show it, the shared dictionary lost it, that of context 2
did not … -/
theorem purge_elsewhere : outcome (typeIn 0 c%"Ai " ++ typeIn 1 c%"Ai " ++ typeIn 2 c%"Ai " ++ typeIn 0 c%"X") =
    some ([c%"愛"], [c%"愛", c%"哀"], [c%"哀", c%"愛"], [c%"哀", c%"愛"]) := by decide +kernel

/-- … confirming it in context 1 brings it back, also for context 0. -/
theorem confirm_brings_back :
    outcome (typeIn 0 c%"Ai " ++ typeIn 1 c%"Ai " ++ typeIn 2 c%"Ai " ++ typeIn 0 c%"X" ++ [.call 1 (.confirmAt 0)]) =
    some ([c%"哀", c%"愛"], [c%"愛", c%"哀"], [], [c%"哀", c%"愛"]) := by decide +kernel

/-- Contexts 0 and 1 are independent of context 2, which shares only a read-only dictionary with them. -/
example : ∀ j, j ≠ 2 → ∀ d ∈ (shared.clients j).ids, d ∈ (shared.clients 2).ids → ReadOnly (shared.store d) := by
  intro j hj d hd h2
  simp only [shared, hj, if_false, if_true, List.mem_cons, List.not_mem_nil, or_false] at hd h2
  have : d = 1 := by omega
  subst this
  intro m b h
  simp [shared, Candidates.dictB] at h

example : ∀ o ∈ typeIn 0 c%"Ai " ++ typeIn 1 c%"Ai " ++ [WOp.call 1 (.confirmAt 0)], KeepsList o ∧ Apart shared 2 o := by
  intro o ho
  simp only [typeIn, List.mem_append, List.mem_map, List.mem_cons] at ho
  rcases ho with (⟨k, _, rfl⟩ | ⟨k, _, rfl⟩) | (rfl | h)
  · exact ⟨trivial, trivial⟩
  · exact ⟨trivial, trivial⟩
  · exact ⟨trivial, trivial⟩
  · cases h

/-- The hypotheses of `confirmed_seen_by_others`: after typing in context 0, the candidate 0 is for the key あい, which dictionary 0,
the first one of context 1, lists without annotation as does the candidate. -/
example : ((runAll (Assets.env ⟨true⟩) shared (typeIn 0 c%"Ai ")).toOption.map fun w =>
    (w.view 0).candidates[0]?) = some (some ⟨c%"あい", none, false, c%"哀", none, c%"哀"⟩) := by decide +kernel

example : ((runAll (Assets.env ⟨true⟩) shared (typeIn 0 c%"Ai ")).toOption.map fun w =>
    [0, 1].map fun d => answers (w.store d) none c%"あい") =
    some [[⟨c%"愛", none⟩, ⟨c%"哀", none⟩], [⟨c%"愛", some c%"love"⟩]] := by decide +kernel

end Cskk.Props.World

import Verif.Spec.Locks
import Verif.Props.UserDict

/-!
# C53: contexts in different threads
-/

namespace Cskk.Props.Locks
open Cskk.Locks Cskk.Spec.Locks Cskk.Dicts

variable {α : Type}

/-! ## Locks -/

theorem upd_same {β} (f : Nat → β) (i : Nat) (b : β) : upd f i b i = b := by simp [upd]
theorem upd_ne {β} (f : Nat → β) (i j : Nat) (b : β) (h : j ≠ i) : upd f i b j = f j := by simp [upd, h]

/-- Exactly the threads in a section hold a lock. -/
def LockInv (m : Proc α) : Prop := ∀ d i, m.owner d = some i ↔ Holds d (m.threads i)

theorem take_inv (m : Proc α) (i d : Nat) (t : Thread α) (m' : Proc α) (h : LockInv m) (hp : ∃ p, m.threads i = .at p)
    (ht : ∀ e, Holds e t ↔ e = d) (hf : m.take i d t = some m') : LockInv m' := by
  obtain ⟨p, hp⟩ := hp
  unfold Proc.take at hf
  split at hf
  · cases hf
  · rename_i ho
    split at hf
    · cases hf
      intro e j
      by_cases hj : j = i
      · subst hj; rw [h e j, hp]; simp [upd, Holds]
      · simp only [upd_ne _ _ _ _ hj]; exact h e j
    · cases hf
      intro e j
      by_cases hj : j = i
      · subst hj
        simp only [upd_same, ht]
        by_cases he : e = d
        · subst he; simp [upd]
        · simp only [upd_ne _ _ _ _ he, he, iff_false]; rw [h e j, hp]; simp [Holds]
      · simp only [upd_ne _ _ _ _ hj]
        by_cases he : e = d
        · subst he
          simp only [upd_same]
          rw [← h e j, ho]
          simp [Ne.symm hj]
        · simp only [upd_ne _ _ _ _ he]; exact h e j

theorem release_inv (m : Proc α) (i d : Nat) (p : Prog α) (st : Nat → CskkDict) (po : Nat → Bool) (l : List (Nat × Nat × Write))
    (h : LockInv m) (ht : ∀ e, Holds e (m.threads i) ↔ e = d) :
    LockInv { store := st, owner := upd m.owner d none, poisoned := po, threads := upd m.threads i (.at p), log := l } := by
  intro e j
  have hd : m.owner d = some i := (h d i).mpr ((ht d).mpr rfl)
  by_cases hj : j = i
  · subst hj
    simp only [upd_same, Holds, iff_false]
    by_cases he : e = d
    · subst he; simp [upd]
    · simp only [upd_ne _ _ _ _ he]; rw [h e j, ht]; exact he
  · simp only [upd_ne _ _ _ _ hj]
    by_cases he : e = d
    · subst he
      simp only [upd_same]
      rw [← h e j, hd]
      simp [Ne.symm hj]
    · simp only [upd_ne _ _ _ _ he]; exact h e j

theorem fire_inv (m m' : Proc α) (i : Nat) (h : LockInv m) (hf : m.fire i = some m') : LockInv m' := by
  unfold Proc.fire at hf
  split at hf
  · cases hf
  · cases hf
  · rename_i hp; exact take_inv m i _ _ m' h ⟨_, hp⟩ (fun e => by simp [Holds]) hf
  · rename_i hp; exact take_inv m i _ _ m' h ⟨_, hp⟩ (fun e => by simp [Holds]) hf
  · rename_i hp
    split at hf <;> cases hf <;> exact release_inv m i _ _ _ _ _ h (fun e => by rw [hp]; simp [Holds])
  · rename_i hp
    cases hf; exact release_inv m i _ _ _ _ _ h (fun e => by rw [hp]; simp [Holds])

theorem run_ind (P : Proc α → Prop) (step : ∀ m m' i, P m → m.fire i = some m' → P m') (m m' : Proc α) (s : List Nat) (h : P m)
    (hr : m.run s = some m') : P m' := by
  induction s generalizing m with
  | nil => cases hr; exact h
  | cons i s ih =>
    simp only [Proc.run] at hr
    cases hf : m.fire i with
    | none => rw [hf] at hr; cases hr
    | some m1 => rw [hf] at hr; exact ih m1 (step m m1 i h hf) hr

theorem start_inv (s : Nat → CskkDict) (ps : Nat → Prog α) : LockInv (Proc.start s ps) := by
  intro d i; simp [Proc.start, Holds]

/-- A state which some schedule reaches. -/
def Reached (s : Nat → CskkDict) (ps : Nat → Prog α) (m : Proc α) : Prop := ∃ sched, (Proc.start s ps).run sched = some m

theorem reached_inv (s : Nat → CskkDict) (ps : Nat → Prog α) (m : Proc α) (h : Reached s ps m) : LockInv m := by
  obtain ⟨sched, h⟩ := h
  exact run_ind LockInv (fun m m' i => fire_inv m m' i) _ m sched (start_inv s ps) h

theorem holder_moves (m : Proc α) (j d : Nat) (h : Holds d (m.threads j)) :
    ∃ m' p, m.fire j = some m' ∧ m'.owner = upd m.owner d none ∧ m'.threads = upd m.threads j (.at p) := by
  unfold Proc.fire
  cases ht : m.threads j with
  | «at» p => rw [ht] at h; cases h
  | reads e bad next =>
    rw [ht] at h; cases h
    cases hb : bad (m.store d) with
    | none => exact ⟨_, _, by simp only [hb]; rfl, rfl, rfl⟩
    | some p => exact ⟨_, _, by simp only [hb]; rfl, rfl, rfl⟩
  | writes e w next => rw [ht] at h; cases h; exact ⟨_, _, rfl, rfl, rfl⟩

theorem take_free (m : Proc α) (i d : Nat) (t : Thread α) (h : m.owner d = none) : ∃ m', m.take i d t = some m' := by
  unfold Proc.take; rw [h]; simp only; split <;> exact ⟨_, rfl⟩

/-- C53: **no deadlock**. Whatever the threads do and however they are scheduled: a thread which has not ended can go on at once, or
as soon as one other thread has left the one section it is in. -/
theorem no_deadlock (s : Nat → CskkDict) (ps : Nat → Prog α) (m : Proc α) (hr : Reached s ps m) (i : Nat)
    (h : ¬ Finished (m.threads i)) :
    (∃ m', m.fire i = some m') ∨ ∃ j m' m'', j ≠ i ∧ m.fire j = some m' ∧ m'.fire i = some m'' := by
  have inv := reached_inv s ps m hr
  have key : ∀ d t, (∀ m' : Proc α, m'.threads i = m.threads i → m'.fire i = m'.take i d t) → (∀ e, ¬ Holds e (m.threads i)) →
      (∃ m', m.fire i = some m') ∨ ∃ j m' m'', j ≠ i ∧ m.fire j = some m' ∧ m'.fire i = some m'' := by
    intro d t ht hn
    cases ho : m.owner d with
    | none => left; rw [ht m rfl]; exact take_free m i d t ho
    | some j =>
      right
      have hj : j ≠ i := by rintro rfl; exact hn d ((inv d j).mp ho)
      obtain ⟨m', p, h1, h2, h3⟩ := holder_moves m j d ((inv d j).mp ho)
      have h4 : m'.threads i = m.threads i := by rw [h3, upd_ne _ _ _ _ (Ne.symm hj)]
      obtain ⟨m'', h5⟩ := take_free m' i d t (by rw [h2, upd_same])
      exact ⟨j, m', m'', hj, h1, by rw [ht m' h4]; exact h5⟩
  cases ht : m.threads i with
  | reads d bad next => left; obtain ⟨m', _, h1, _⟩ := holder_moves m i d (by rw [ht]; rfl); exact ⟨m', h1⟩
  | writes d w next => left; obtain ⟨m', _, h1, _⟩ := holder_moves m i d (by rw [ht]; rfl); exact ⟨m', h1⟩
  | «at» p =>
    cases p with
    | ret a => rw [ht] at h; exact absurd trivial h
    | panic a => rw [ht] at h; exact absurd trivial h
    | look d bad next =>
      exact key d (.reads d bad next) (fun m' h' => by unfold Proc.fire; rw [h', ht]) (fun e => by rw [ht]; exact id)
    | write d w next =>
      exact key d (.writes d w next) (fun m' h' => by unfold Proc.fire; rw [h', ht]) (fun e => by rw [ht]; exact id)

/-- C53: … so an execution which cannot go on is one in which every thread has ended. -/
theorem stuck_is_finished (s : Nat → CskkDict) (ps : Nat → Prog α) (m : Proc α) (hr : Reached s ps m)
    (h : ∀ i, m.fire i = none) (i : Nat) : Finished (m.threads i) := by
  refine Classical.byContradiction fun hn => ?_
  rcases no_deadlock s ps m hr i hn with ⟨m', h'⟩ | ⟨j, m', m'', _, h', _⟩
  · rw [h] at h'; cases h'
  · rw [h] at h'; cases h'

/-! ## Every execution ends -/

/-- One step of a thread: to a state nearer to its end. -/
inductive Nearer : Thread α → Thread α → Prop
  | panic (p d bad next) : Nearer (.at (.panic p)) (.at (.look d bad next))
  | panicW (p d w next) : Nearer (.at (.panic p)) (.at (.write d w next))
  | lock (d bad next) : Nearer (.reads d bad next) (.at (.look d bad next))
  | lockW (d w next) : Nearer (.writes d w next) (.at (.write d w next))
  | fail (p d bad next) : Nearer (.at (.panic p)) (.reads d bad next)
  | read (d bad next x) : Nearer (.at (next x)) (.reads d bad next)
  | wrote (d w next) : Nearer (.at next) (.writes d w next)

theorem nearer_at (p : Prog α) : Acc Nearer (.at p) := by
  induction p with
  | ret a => exact ⟨_, fun y h => by cases h⟩
  | panic a => exact ⟨_, fun y h => by cases h⟩
  | look d bad next ih =>
    have hp : ∀ p, Acc (Nearer (α := α)) (.at (.panic p)) := fun p => ⟨_, fun y h => by cases h⟩
    refine ⟨_, fun y h => ?_⟩
    cases h with
    | panic => exact hp _
    | lock =>
      refine ⟨_, fun y h => ?_⟩
      cases h with
      | fail => exact hp _
      | read _ _ _ x => exact ih x
  | write d w next ih =>
    have hp : ∀ p, Acc (Nearer (α := α)) (.at (.panic p)) := fun p => ⟨_, fun y h => by cases h⟩
    refine ⟨_, fun y h => ?_⟩
    cases h with
    | panicW => exact hp _
    | lockW =>
      refine ⟨_, fun y h => ?_⟩
      cases h with
      | wrote => exact ih

theorem nearer_acc (t : Thread α) : Acc Nearer t := by
  cases t with
  | «at» p => exact nearer_at p
  | reads d bad next => exact (nearer_at (.look d bad next)).inv (Nearer.lock ..)
  | writes d w next => exact (nearer_at (.write d w next)).inv (Nearer.lockW ..)

theorem fire_nearer (m m' : Proc α) (i : Nat) (h : m.fire i = some m') :
    ∃ t, m'.threads = upd m.threads i t ∧ Nearer t (m.threads i) := by
  unfold Proc.fire at h
  split at h
  · cases h
  · cases h
  · rename_i hp
    rw [hp]
    unfold Proc.take at h
    split at h
    · cases h
    · split at h <;> cases h
      · exact ⟨_, rfl, Nearer.panic ..⟩
      · exact ⟨_, rfl, Nearer.lock ..⟩
  · rename_i hp
    rw [hp]
    unfold Proc.take at h
    split at h
    · cases h
    · split at h <;> cases h
      · exact ⟨_, rfl, Nearer.panicW ..⟩
      · exact ⟨_, rfl, Nearer.lockW ..⟩
  · rename_i hp
    rw [hp]
    split at h <;> cases h
    · exact ⟨_, rfl, Nearer.read ..⟩
    · exact ⟨_, rfl, Nearer.fail ..⟩
  · rename_i hp
    rw [hp]
    cases h; exact ⟨_, rfl, Nearer.wrote ..⟩

/-- One of the first `n` components gets nearer to its end, the others stay. -/
def OneNearer (n : Nat) (g f : Nat → Thread α) : Prop := ∃ i < n, ∃ t, g = upd f i t ∧ Nearer t (f i)

theorem one_nearer_acc (n : Nat) (f : Nat → Thread α) : Acc (OneNearer n) f := by
  induction n generalizing f with
  | zero => exact ⟨_, fun g ⟨i, hi, _⟩ => absurd hi (Nat.not_lt_zero i)⟩
  | succ n ih =>
    have H : ∀ t : Thread α, Acc Nearer t → ∀ f : Nat → Thread α, f n = t → Acc (OneNearer (n + 1)) f := by
      intro t ht
      induction ht with
      | intro t _ iht =>
        intro f hft
        have hf := ih f
        induction hf with
        | intro f _ ihf =>
          refine ⟨_, fun g hg => ?_⟩
          obtain ⟨i, hi, u, rfl, hu⟩ := hg
          by_cases hin : i = n
          · subst hin
            exact iht u (hft ▸ hu) _ (upd_same ..)
          · exact ihf _ ⟨i, by omega, u, rfl, hu⟩ (by rw [upd_ne _ _ _ _ (Ne.symm hin)]; exact hft)
    exact H (f n) (nearer_acc _) f rfl

/-- C53: **every execution ends**: finitely many threads cannot go on for ever, under any schedule (in particular waiting for locks
is not a loop). -/
theorem no_endless_execution (n : Nat) (ms : Nat → Proc α) (sched : Nat → Nat) (hn : ∀ k, sched k < n)
    (h : ∀ k, (ms k).fire (sched k) = some (ms (k + 1))) : False := by
  have H : ∀ f : Nat → Thread α, Acc (OneNearer n) f → ∀ k, (ms k).threads = f → False := by
    intro f hf
    induction hf with
    | intro f _ ih =>
      intro k hk
      obtain ⟨t, h1, h2⟩ := fire_nearer _ _ _ (h k)
      exact ih _ ⟨sched k, hn k, t, by rw [← hk]; exact h1, by rw [← hk]; exact h2⟩ (k + 1) rfl
  exact H _ (one_nearer_acc n _) 0 rfl

/-! ## What the threads see and leave -/

/-- The program which a thread has still to execute; a thread in a section has done nothing of it yet. -/
def rest : Thread α → Prog α
  | .at p => p
  | .reads d bad next => .look d bad next
  | .writes d w next => .write d w next

/-- No thread panics in a section, and none did. -/
def CalmProc (m : Proc α) : Prop := (∀ d, m.poisoned d = false) ∧ ∀ i, Calm (rest (m.threads i))

/-- The three kinds of steps. -/
theorem fire_calm (m m' : Proc α) (i : Nat) (hc : CalmProc m) (h : m.fire i = some m') :
    (m'.store = m.store ∧ m'.log = m.log ∧ m'.poisoned = m.poisoned ∧
      ∃ t, m'.threads = upd m.threads i t ∧ rest t = rest (m.threads i)) ∨
    (m'.store = m.store ∧ m'.log = m.log ∧ m'.poisoned = m.poisoned ∧
      ∃ d bad next, rest (m.threads i) = .look d bad next ∧ m'.threads = upd m.threads i (.at (next (m.store d)))) ∨
    (m'.poisoned = m.poisoned ∧ ∃ d w next, rest (m.threads i) = .write d w next ∧ m'.threads = upd m.threads i (.at next) ∧
      m'.store = upd m.store d (w.apply (m.store d)) ∧ m'.log = m.log ++ [(i, d, w)]) := by
  unfold Proc.fire at h
  split at h
  · cases h
  · cases h
  · rename_i hp
    left
    unfold Proc.take at h
    split at h
    · cases h
    · rw [if_neg (by rw [hc.1]; exact Bool.false_ne_true)] at h
      cases h
      exact ⟨rfl, rfl, rfl, _, rfl, by rw [hp]; rfl⟩
  · rename_i hp
    left
    unfold Proc.take at h
    split at h
    · cases h
    · rw [if_neg (by rw [hc.1]; exact Bool.false_ne_true)] at h
      cases h
      exact ⟨rfl, rfl, rfl, _, rfl, by rw [hp]; rfl⟩
  · rename_i d bad next hp
    right; left
    have hb : bad (m.store d) = none := by
      have := hc.2 i; rw [hp] at this; exact (this (m.store d)).1
    rw [hb] at h; cases h
    exact ⟨rfl, rfl, rfl, d, bad, next, by rw [hp]; rfl, rfl⟩
  · rename_i d w next hp
    right; right
    cases h
    exact ⟨rfl, d, w, next, by rw [hp]; rfl, rfl, rfl, rfl⟩

theorem fire_keeps_calm (m m' : Proc α) (i : Nat) (hc : CalmProc m) (h : m.fire i = some m') : CalmProc m' := by
  rcases fire_calm m m' i hc h with ⟨_, _, hp, t, ht, hr⟩ | ⟨_, _, hp, d, bad, next, hr, ht⟩ | ⟨hp, d, w, next, hr, ht, _⟩
  · refine ⟨fun d => by rw [hp]; exact hc.1 d, fun j => ?_⟩
    rw [ht]
    by_cases hj : j = i
    · subst hj; rw [upd_same, hr]; exact hc.2 j
    · rw [upd_ne _ _ _ _ hj]; exact hc.2 j
  · refine ⟨fun d => by rw [hp]; exact hc.1 d, fun j => ?_⟩
    rw [ht]
    by_cases hj : j = i
    · subst hj; rw [upd_same]
      have := hc.2 j; rw [hr] at this; exact (this _).2
    · rw [upd_ne _ _ _ _ hj]; exact hc.2 j
  · refine ⟨fun d => by rw [hp]; exact hc.1 d, fun j => ?_⟩
    rw [ht]
    by_cases hj : j = i
    · subst hj; rw [upd_same]
      have := hc.2 j; rw [hr] at this; exact this
    · rw [upd_ne _ _ _ _ hj]; exact hc.2 j

theorem start_calm (s : Nat → CskkDict) (ps : Nat → Prog α) (h : ∀ i, Calm (ps i)) : CalmProc (Proc.start s ps) :=
  ⟨fun _ => rfl, h⟩

/-- Induction over the executions of programs which do not panic in a section. -/
theorem calm_ind (s : Nat → CskkDict) (ps : Nat → Prog α) (hc : ∀ i, Calm (ps i)) (P : Proc α → Prop) (h0 : P (Proc.start s ps))
    (step : ∀ m m' i, CalmProc m → P m → m.fire i = some m' → P m') (m : Proc α) (hr : Reached s ps m) : P m := by
  obtain ⟨sched, hr⟩ := hr
  exact (run_ind (fun m => CalmProc m ∧ P m)
    (fun m m' i h hf => ⟨fire_keeps_calm m m' i h.1 hf, step m m' i h.1 h.2 hf⟩) _ m sched ⟨start_calm s ps hc, h0⟩ hr).2

/-- C53: if no thread panics while it works on a dictionary, no dictionary ever becomes unusable: a thread which
panics elsewhere leaves all locks usable for the others. -/
theorem never_poisoned (s : Nat → CskkDict) (ps : Nat → Prog α) (hc : ∀ i, Calm (ps i)) (m : Proc α) (hr : Reached s ps m)
    (d : Nat) : m.poisoned d = false :=
  calm_ind s ps hc (fun m => ∀ d, m.poisoned d = false) (fun _ => rfl)
    (fun m m' i h _ hf => (fire_keeps_calm m m' i h hf).1) m hr d

theorem content_snoc (s : Nat → CskkDict) (l : List (Nat × Nat × Write)) (i d : Nat) (w : Write) :
    content s (l ++ [(i, d, w)]) = upd (content s l) d (w.apply (content s l d)) := by
  funext e
  by_cases h : e = d
  · subst h; simp [content, upd]
  · simp [content, upd, h, Ne.symm h]

/-- C53: **no change is lost**: at every moment each dictionary is what all changes made so far, by whichever thread, make of it, in the
order in which they were made. -/
theorem dictionary_is_log (s : Nat → CskkDict) (ps : Nat → Prog α) (hc : ∀ i, Calm (ps i)) (m : Proc α) (hr : Reached s ps m) :
    m.store = content s m.log := by
  refine calm_ind s ps hc (fun m => m.store = content s m.log) (by funext d; rfl) ?_ m hr
  intro m m' i h hm hf
  rcases fire_calm m m' i h hf with ⟨h1, h2, _⟩ | ⟨h1, h2, _⟩ | ⟨_, d, w, next, _, _, h1, h2⟩
  · rw [h1, h2, hm]
  · rw [h1, h2, hm]
  · rw [h1, h2, content_snoc, hm]

theorem path_trans (p q r : Prog α) (ws vs : List (Nat × Write)) (h : Path p ws q) (h' : Path q vs r) : Path p (ws ++ vs) r := by
  induction h with
  | here p => exact h'
  | look d bad next x ws q _ ih => exact .look _ _ _ _ _ _ (ih h')
  | write d w next ws q _ ih => exact .write _ _ _ _ _ (ih h')

theorem byThread_snoc (i j d : Nat) (w : Write) (l : List (Nat × Nat × Write)) :
    byThread j (l ++ [(i, d, w)]) = if j = i then byThread j l ++ [(d, w)] else byThread j l := by
  by_cases h : j = i
  · subst h; simp [byThread]
  · simp [byThread, h, Ne.symm h]

/-- C53: … and the changes of each thread are exactly the ones its program makes, each once, in the order of the program. -/
theorem changes_are_programs (s : Nat → CskkDict) (ps : Nat → Prog α) (hc : ∀ i, Calm (ps i)) (m : Proc α) (hr : Reached s ps m)
    (i : Nat) : Path (ps i) (byThread i m.log) (rest (m.threads i)) := by
  refine calm_ind s ps hc (fun m => ∀ i, Path (ps i) (byThread i m.log) (rest (m.threads i))) (fun i => .here _) ?_ m hr i
  intro m m' i h hm hf j
  rcases fire_calm m m' i h hf with ⟨_, h2, _, t, ht, hr⟩ | ⟨_, h2, _, d, bad, next, hr, ht⟩ | ⟨_, d, w, next, hr, ht, _, h2⟩
  · rw [h2, ht]
    by_cases hj : j = i
    · subst hj; rw [upd_same, hr]; exact hm j
    · rw [upd_ne _ _ _ _ hj]; exact hm j
  · rw [h2, ht]
    by_cases hj : j = i
    · subst hj; rw [upd_same]
      have := path_trans _ _ _ _ _ (hm j) (by rw [hr]; exact .look d bad next (m.store d) [] _ (.here _))
      rw [List.append_nil] at this; exact this
    · rw [upd_ne _ _ _ _ hj]; exact hm j
  · rw [h2, ht, byThread_snoc]
    by_cases hj : j = i
    · subst hj; rw [upd_same, if_pos rfl]
      exact path_trans _ _ _ _ _ (hm j) (by rw [hr]; exact .write d w next [] _ (.here _))
    · rw [upd_ne _ _ _ _ hj, if_neg hj]; exact hm j

theorem timed_grows (s : Nat → CskkDict) (l : List (Nat × Nat × Write)) (x : Nat × Nat × Write) (i t t' : Nat) (p q : Prog α)
    (h : Timed s l i t p t' q) : Timed s (l ++ [x]) i t p t' q := by
  induction h with
  | here t p => exact .here t p
  | look t t' t'' d bad next q h1 h2 _ ih =>
    refine .look t t' t'' d bad next q h1 (by simp; omega) ?_
    rw [List.take_append_of_le_length h2]; exact ih
  | write t t' t'' d w next q h1 h2 _ ih =>
    refine .write t t' t'' d w next q h1 ?_ ih
    rw [List.getElem?_append_left (List.getElem?_eq_some_iff.mp h2).1]; exact h2

theorem timed_trans (s : Nat → CskkDict) (l : List (Nat × Nat × Write)) (i t t' t'' : Nat) (p q r : Prog α)
    (h : Timed s l i t p t' q) (h' : Timed s l i t' q t'' r) : Timed s l i t p t'' r := by
  induction h with
  | here t p => exact h'
  | look t t' u d bad next q h1 h2 _ ih => exact .look _ _ _ _ _ _ _ h1 h2 (ih h')
  | write t t' u d w next q h1 h2 _ ih => exact .write _ _ _ _ _ _ _ h1 h2 (ih h')

/-- C53: **every execution is one of sections in sequence**: there is an order of all changes (the log) such that each read of each thread saw the
dictionary exactly as the changes before it in that order had left it, and each thread's reads and changes are in that order as in
its program. -/
theorem reads_are_consistent (s : Nat → CskkDict) (ps : Nat → Prog α) (hc : ∀ i, Calm (ps i)) (m : Proc α) (hr : Reached s ps m)
    (i : Nat) : ∃ t, t ≤ m.log.length ∧ Timed s m.log i 0 (ps i) t (rest (m.threads i)) := by
  have := calm_ind s ps hc
    (fun m => m.store = content s m.log ∧ ∀ i, ∃ t, t ≤ m.log.length ∧ Timed s m.log i 0 (ps i) t (rest (m.threads i)))
    ⟨by funext d; rfl, fun i => ⟨0, by simp, .here _ _⟩⟩ ?_ m hr
  · exact this.2 i
  intro m m' i h hm hf
  obtain ⟨hst, hm⟩ := hm
  rcases fire_calm m m' i h hf with ⟨h1, h2, _, t, ht, hr⟩ | ⟨h1, h2, _, d, bad, next, hr, ht⟩ | ⟨_, d, w, next, hr, ht, h1, h2⟩
  · refine ⟨by rw [h1, h2, hst], fun j => ?_⟩
    rw [h2, ht]
    by_cases hj : j = i
    · subst hj; rw [upd_same, hr]; exact hm j
    · rw [upd_ne _ _ _ _ hj]; exact hm j
  · refine ⟨by rw [h1, h2, hst], fun j => ?_⟩
    rw [h2, ht]
    by_cases hj : j = i
    · subst hj; rw [upd_same]
      obtain ⟨t, hl, h'⟩ := hm j
      rw [hr] at h'
      refine ⟨m.log.length, Nat.le_refl _, timed_trans _ _ _ _ _ _ _ _ _ h' ?_⟩
      refine .look _ m.log.length _ _ _ _ _ hl (Nat.le_refl _) ?_
      rw [List.take_length, ← hst]; exact .here _ _
    · rw [upd_ne _ _ _ _ hj]; exact hm j
  · refine ⟨by rw [h1, h2, content_snoc, hst], fun j => ?_⟩
    rw [h2, ht]
    by_cases hj : j = i
    · subst hj; rw [upd_same]
      obtain ⟨t, hl, h'⟩ := hm j
      rw [hr] at h'
      refine ⟨m.log.length + 1, by simp, timed_trans _ _ _ _ _ _ _ _ _ (timed_grows _ _ _ _ _ _ _ _ h') ?_⟩
      exact .write _ m.log.length _ _ _ _ _ hl (by simp) (.here _ _)
    · rw [upd_ne _ _ _ _ hj]
      obtain ⟨t, hl, h'⟩ := hm j
      exact ⟨t, by simp; omega, timed_grows _ _ _ _ _ _ _ _ h'⟩

/-! ## Isolation -/

theorem alone_write (s : Nat → CskkDict) (d : Nat) (w : Write) (next : Prog α) :
    alone s (.write d w next) = alone (upd s d (w.apply (s d))) next := by
  have : (fun e => if e = d then w.apply (s d) else s e) = upd s d (w.apply (s d)) := by funext e; rfl
  rw [alone, this]

/-- A program depends on the dictionaries it uses only. -/
theorem alone_congr (S : Nat → Prop) (p : Prog α) (s s' : Nat → CskkDict) (hS : ∀ d, Uses d p → S d) (h : ∀ d, S d → s d = s' d) :
    (alone s p).1 = (alone s' p).1 ∧ ∀ d, S d → (alone s p).2 d = (alone s' p).2 d := by
  induction p generalizing s s' with
  | ret a => exact ⟨rfl, h⟩
  | panic a => exact ⟨rfl, h⟩
  | look d bad next ih =>
    have hd := h d (hS d (.look _ _))
    simp only [alone, hd]
    cases bad (s' d) with
    | none => exact ih _ s s' (fun e he => hS e (.lookNext _ _ _ _ he)) h
    | some p => exact ⟨rfl, h⟩
  | write d w next ih =>
    have hd := h d (hS d (.write _ _))
    simp only [alone_write]
    refine ih _ _ (fun e he => hS e (.writeNext _ _ _ he)) fun e he => ?_
    rw [hd]
    by_cases hx : e = d
    · subst hx; simp [upd]
    · simp only [upd_ne _ _ _ _ hx]; exact h e he

/-- C53: **isolation**. A thread whose dictionaries no other thread changes gets exactly the results which it gets when it runs
alone, and leaves its dictionaries as when alone, whatever the others do. -/
theorem isolated (s : Nat → CskkDict) (ps : Nat → Prog α) (hc : ∀ i, Calm (ps i)) (i : Nat)
    (hi : ∀ j, j ≠ i → ∀ d, Uses d (ps i) → ¬ Changes d (ps j)) (m : Proc α) (hr : Reached s ps m) :
    (∀ a, m.threads i = .at (.ret a) → (alone s (ps i)).1 = .ok a ∧ ∀ d, Uses d (ps i) → m.store d = (alone s (ps i)).2 d) ∧
    (∀ p, m.threads i = .at (.panic p) → (alone s (ps i)).1 = .error p) := by
  have key := calm_ind s ps hc (fun m =>
      (∀ j d, Uses d (rest (m.threads j)) → Uses d (ps j)) ∧ (∀ j d, Changes d (rest (m.threads j)) → Changes d (ps j)) ∧
      (alone m.store (rest (m.threads i))).1 = (alone s (ps i)).1 ∧
      ∀ d, Uses d (ps i) → (alone m.store (rest (m.threads i))).2 d = (alone s (ps i)).2 d)
    ⟨fun _ _ h => h, fun _ _ h => h, rfl, fun _ _ => rfl⟩ ?_ m hr
  · obtain ⟨_, _, h1, h2⟩ := key
    constructor
    · intro a ha
      rw [ha] at h1 h2
      exact ⟨h1.symm, h2⟩
    · intro p hp
      rw [hp] at h1
      exact h1.symm
  intro m m' j h hm hf
  obtain ⟨hu, hch, h1, h2⟩ := hm
  rcases fire_calm m m' j h hf with ⟨e1, _, _, t, ht, hr⟩ | ⟨e1, _, _, d, bad, next, hr, ht⟩ | ⟨_, d, w, next, hr, ht, e1, _⟩
  · have hrest : ∀ k, rest (m'.threads k) = rest (m.threads k) := by
      intro k; rw [ht]
      by_cases hk : k = j
      · subst hk; rw [upd_same, hr]
      · rw [upd_ne _ _ _ _ hk]
    simp only [hrest, e1]
    exact ⟨hu, hch, h1, h2⟩
  · have hsub : ∀ k, (k = j ∧ rest (m'.threads k) = next (m.store d)) ∨ (k ≠ j ∧ rest (m'.threads k) = rest (m.threads k)) := by
      intro k; rw [ht]
      by_cases hk : k = j
      · subst hk; left; rw [upd_same]; exact ⟨rfl, rfl⟩
      · right; rw [upd_ne _ _ _ _ hk]; exact ⟨hk, rfl⟩
    refine ⟨fun k e he => ?_, fun k e he => ?_, ?_⟩
    · rcases hsub k with ⟨rfl, hk⟩ | ⟨_, hk⟩ <;> rw [hk] at he
      · exact hu k e (by rw [hr]; exact .lookNext _ _ _ _ he)
      · exact hu k e he
    · rcases hsub k with ⟨rfl, hk⟩ | ⟨_, hk⟩ <;> rw [hk] at he
      · exact hch k e (by rw [hr]; exact .lookNext _ _ _ _ he)
      · exact hch k e he
    · rw [e1]
      rcases hsub i with ⟨rfl, hk⟩ | ⟨_, hk⟩ <;> rw [hk]
      · have hb : bad (m.store d) = none := by
          have := h.2 i; rw [hr] at this; exact (this _).1
        rw [hr] at h1 h2
        simp only [alone, hb] at h1 h2
        exact ⟨h1, h2⟩
      · exact ⟨h1, h2⟩
  · have hsub : ∀ k, (k = j ∧ rest (m'.threads k) = next) ∨ (k ≠ j ∧ rest (m'.threads k) = rest (m.threads k)) := by
      intro k; rw [ht]
      by_cases hk : k = j
      · subst hk; left; rw [upd_same]; exact ⟨rfl, rfl⟩
      · right; rw [upd_ne _ _ _ _ hk]; exact ⟨hk, rfl⟩
    refine ⟨fun k e he => ?_, fun k e he => ?_, ?_⟩
    · rcases hsub k with ⟨rfl, hk⟩ | ⟨_, hk⟩ <;> rw [hk] at he
      · exact hu k e (by rw [hr]; exact .writeNext _ _ _ he)
      · exact hu k e he
    · rcases hsub k with ⟨rfl, hk⟩ | ⟨_, hk⟩ <;> rw [hk] at he
      · exact hch k e (by rw [hr]; exact .writeNext _ _ _ he)
      · exact hch k e he
    · rcases hsub i with ⟨rfl, hk⟩ | ⟨hne, hk⟩
      · rw [hk, e1]
        rw [hr, alone_write] at h1 h2
        exact ⟨h1, h2⟩
      · rw [hk]
        have hd : ¬ Uses d (ps i) := fun hx => hi j (Ne.symm hne) d hx (hch j d (by rw [hr]; exact .write _ _))
        have := alone_congr (fun e => Uses e (ps i)) (rest (m.threads i)) m'.store m.store (hu i) (by
          intro e he
          rw [e1, upd_ne]
          rintro rfl; exact hd he)
        rw [this.1]
        exact ⟨h1, fun e he => by rw [this.2 e he]; exact h2 e he⟩

/-! ## The functions of the dictionaries -/

theorem alone_bind {β : Type} (s : Nat → CskkDict) (p : Prog α) (f : α → Prog β) :
    alone s (p.bind f) = match alone s p with
      | (.ok a, s') => alone s' (f a)
      | (.error e, s') => (.error e, s') := by
  induction p generalizing s with
  | ret a => rfl
  | panic a => rfl
  | look d bad next ih =>
    simp only [Prog.bind, alone]
    cases bad (s d) with
    | none => exact ih _ s
    | some p => rfl
  | write d w next ih => simp only [Prog.bind, alone]; exact ih _

theorem alone_reading {β : Type} (s : Nat → CskkDict) (d : Nat) (f : CskkDict → R β) (next : β → Prog α) :
    alone s (Prog.reading d f next) = match f (s d) with
      | .ok b => alone s (next b)
      | .error p => (.error p, s) := by
  unfold Prog.reading
  simp only [alone]
  cases f (s d) <;> rfl

theorem alone_ofR (s : Nat → CskkDict) (x : R α) : alone s (Prog.ofR x) = (x, s) := by cases x <;> rfl

theorem alone_inOrder (s : Nat → CskkDict) (k : CompositeKey) (ids : List Nat) :
    alone s (inOrderP k ids) = (inOrder (ids.map s) k, s) := by
  induction ids with
  | nil => rfl
  | cons a ids ih =>
    simp only [inOrderP, alone_reading, List.map_cons, inOrder, bind, Except.bind]
    cases (s a).lookup k with
    | error p => rfl
    | ok e =>
      simp only [alone_bind, ih]
      cases inOrder (ids.map s) k <;> rfl

theorem alone_exact (s : Nat → CskkDict) (ids : List Nat) (k : CompositeKey) :
    alone s (exactP ids k) = (exact (ids.map s) k, s) := by
  simp only [exactP, alone_bind, alone_inOrder, exact, bind, Except.bind]
  cases inOrder (ids.map s) k with
  | error p => rfl
  | ok cs => simp only [alone_ofR]

theorem lookup_ok (d : CskkDict) (k : CompositeKey) (hk : k.okuri ≠ some []) : ∃ e, d.lookup k = .ok e := by
  have hkey : ∃ t, k.getDictKey = .ok t := by
    unfold CompositeKey.getDictKey
    cases h : k.okuri with
    | none => exact ⟨_, rfl⟩
    | some o =>
      cases o with
      | nil => exact absurd h hk
      | cons c o => simp only; cases KanaFormChanger.okuriPrefix c <;> exact ⟨_, rfl⟩
  obtain ⟨t, ht⟩ := hkey
  unfold CskkDict.lookup
  cases d.kind with
  | static m => exact ⟨_, by simp only [DictMaps.lookup, ht, bind, Except.bind, pure, Except.pure]; rfl⟩
  | user m b => exact ⟨_, by simp only [DictMaps.lookup, ht, bind, Except.bind, pure, Except.pure]; rfl⟩
  | empty => exact ⟨_, rfl⟩

theorem complete_ok (d : CskkDict) (k : CompositeKey) (hk : k.okuri ≠ some []) : ∃ e, d.complete k = .ok e := by
  have hkey : ∃ t, k.getDictKey = .ok t := by
    unfold CompositeKey.getDictKey
    cases h : k.okuri with
    | none => exact ⟨_, rfl⟩
    | some o =>
      cases o with
      | nil => exact absurd h hk
      | cons c o => simp only; cases KanaFormChanger.okuriPrefix c <;> exact ⟨_, rfl⟩
  obtain ⟨t, ht⟩ := hkey
  have hm : ∀ m : DictMaps, ∃ e, m.complete k = .ok e := by
    intro m
    unfold DictMaps.complete
    split
    · exact ⟨_, rfl⟩
    · exact ⟨_, by simp only [ht, bind, Except.bind, pure, Except.pure]; rfl⟩
  unfold CskkDict.complete
  cases d.kind with
  | static m => exact hm m
  | user m b => exact hm m
  | empty => exact ⟨_, rfl⟩

theorem inOrder_ok (ds : List CskkDict) (k : CompositeKey) (hk : k.okuri ≠ some []) : ∃ l, inOrder ds k = .ok l := by
  induction ds with
  | nil => exact ⟨_, rfl⟩
  | cons d ds ih =>
    obtain ⟨e, he⟩ := lookup_ok d k hk
    obtain ⟨l, hl⟩ := ih
    exact ⟨_, by simp only [inOrder, he, hl, bind, Except.bind, pure, Except.pure]; rfl⟩

theorem exact_number (ds : List CskkDict) (n : Str) : ∃ l, exact ds ⟨n, none⟩ = .ok l := by
  obtain ⟨l, hl⟩ := inOrder_ok ds ⟨n, none⟩ (by simp)
  have : ∀ cs : List DictCand, ∃ l, cs.mapM (Candidate.fromDictionaryCandidate ⟨n, none⟩) = .ok l := by
    intro cs
    induction cs with
    | nil => exact ⟨[], rfl⟩
    | cons c cs ih =>
      obtain ⟨l, hl⟩ := ih
      refine ⟨⟨n, none, false, c.kouho, c.annotation, c.kouho⟩ :: l, ?_⟩
      rw [List.mapM_cons, hl]
      rfl
  obtain ⟨l', hl'⟩ := this (dedup candLt (·.kouho) l)
  exact ⟨l', by simp only [exact, hl, bind, Except.bind]; exact hl'⟩

theorem alone_relookup (s : Nat → CskkDict) (ids : List Nat) (n : Str) :
    alone s (relookupP ids n) = (.ok (relookup (ids.map s) n), s) := by
  obtain ⟨l, hl⟩ := exact_number (ids.map s) n
  simp only [relookupP, alone_bind, alone_exact, relookup, hl, alone]

theorem alone_marker (s : Nat → CskkDict) (ids : List Nat) (d : Char) (n : Str) :
    alone s (markerTextsP ids d n) = (Numeric.markerTexts (relookup (ids.map s)) d n, s) := by
  unfold markerTextsP
  by_cases h : d = '4'
  · subst h; rw [if_pos rfl, alone_relookup]; rfl
  · rw [if_neg h, alone_ofR]
    unfold Numeric.markerTexts
    simp only [if_neg h]

theorem alone_replaceLoop (s : Nat → CskkDict) (ids : List Nat) (ds : List Char) (ns texts : List Str) :
    alone s (replaceLoopP ids ds ns texts) = (Numeric.replaceLoop (relookup (ids.map s)) ds ns texts, s) := by
  induction ds generalizing ns texts with
  | nil => cases ns <;> rfl
  | cons d ds ih =>
    cases ns with
    | nil => rfl
    | cons n ns =>
      simp only [replaceLoopP, Numeric.replaceLoop]
      by_cases ht : texts.isEmpty = true
      · rw [if_pos ht, if_pos ht]
        by_cases h4 : d = '4'
        · rw [if_pos h4, alone_bind, alone_relookup]; exact ih ns []
        · rw [if_neg h4]; exact ih ns []
      · rw [if_neg ht, if_neg ht, alone_bind, alone_marker]
        simp only [bind, Except.bind]
        cases Numeric.markerTexts (relookup (ids.map s)) d n with
        | error p => rfl
        | ok reps => exact ih ns _

theorem alone_numericMatch (s : Nat → CskkDict) (ids : List Nat) (ns : List Str) (c : Candidate) :
    alone s (replaceNumericMatchP ids ns c) = (replaceNumericMatch (ids.map s) ns c, s) := by
  simp only [replaceNumericMatchP, alone_bind, alone_replaceLoop, replaceNumericMatch, Numeric.replaceNumericString, bind,
    Except.bind]
  cases Numeric.replaceLoop (relookup (ids.map s)) (Numeric.markers c.kouho) ns [c.kouho] <;> rfl

theorem alone_all {β : Type} (s : Nat → CskkDict) (f : α → Prog β) (g : α → R β) (h : ∀ a, alone s (f a) = (g a, s)) (l : List α) :
    alone s (Prog.all f l) = (l.mapM g, s) := by
  induction l with
  | nil => rfl
  | cons a l ih =>
    simp only [Prog.all, alone_bind, h, List.mapM_cons, bind, Except.bind]
    cases g a with
    | error p => rfl
    | ok b =>
      simp only [ih]
      cases l.mapM g <;> rfl

/-- C53: the lookup of a reading, executed alone, gives the candidates of the sequential model, and changes nothing. -/
theorem lookup_alone (s : Nat → CskkDict) (ids : List Nat) (k : CompositeKey) :
    alone s (getAllP ids k) = (getAll (ids.map s) k, s) := by
  simp only [getAllP, alone_bind, alone_exact, getAll, bind, Except.bind]
  cases exact (ids.map s) k with
  | error p => rfl
  | ok ex =>
    simp only
    by_cases h : (⟨(Numeric.numericKey k.toComposite).1, k.okuri⟩ : CompositeKey) = k
    · simp only [if_pos h]; rfl
    · simp only [if_neg h, alone_bind, alone_exact]
      cases exact (ids.map s) ⟨(Numeric.numericKey k.toComposite).1, k.okuri⟩ with
      | error p => rfl
      | ok num =>
        simp only [alone_all s _ _ (alone_numericMatch s ids _)]
        cases List.mapM (replaceNumericMatch (ids.map s) (Numeric.numericKey k.toComposite).2) num <;> rfl

/-- C53: likewise the completion of a prefix. -/
theorem complete_alone (s : Nat → CskkDict) (ids : List Nat) (k : CompositeKey) :
    alone s (getAllCompleteP (fun a => (s a).completable) ids k) = (getAllComplete (ids.map s) k, s) := by
  have h : ∀ ids, alone s (completeInnerP (fun a => (s a).completable) k ids) = (completeInner (ids.map s) k, s) := by
    intro ids
    induction ids with
    | nil => rfl
    | cons a ids ih =>
      simp only [completeInnerP, List.map_cons, completeInner]
      by_cases hc : (s a).completable = true
      · rw [if_pos hc, if_pos hc]
        simp only [alone_reading, bind, Except.bind]
        cases (s a).complete k with
        | error p => rfl
        | ok es =>
          simp only [alone_bind, ih]
          cases completeInner (ids.map s) k <;> rfl
      · rw [if_neg hc, if_neg hc, ih]
        simp only [bind, Except.bind]
        cases completeInner (ids.map s) k with
        | error p => rfl
        | ok l => simp [completionsOf, pure, Except.pure]
  simp only [getAllCompleteP, alone_bind, h, getAllComplete, bind, Except.bind]
  cases completeInner (ids.map s) k <;> rfl

/-- C53: confirming or purging a word, executed alone, changes every dictionary of the list, once for each time it is listed. -/
theorem write_alone (s : Nat → CskkDict) (w : Write) (ids : List Nat) :
    alone s (writeAllP w ids) = (.ok (), fun d => (List.replicate (ids.count d) w).foldl Write.apply (s d)) := by
  induction ids generalizing s with
  | nil => rfl
  | cons a ids ih =>
    rw [writeAllP, alone_write, ih]
    refine Prod.ext rfl (funext fun d => ?_)
    by_cases h : d = a
    · subst h; simp [upd, List.count_cons_self, List.replicate_succ]
    · simp only [upd_ne _ _ _ _ h, List.count_cons_of_ne (Ne.symm h)]

/-- C53: in particular a confirmation. -/
theorem confirm_alone (s : Nat → CskkDict) (c : Candidate) (ids : List Nat) (hn : ids.Nodup) :
    alone s (writeAllP (.confirm c) ids) = (.ok (), fun d => if d ∈ ids then (s d).confirm c else s d) := by
  rw [write_alone]
  refine Prod.ext rfl (funext fun d => ?_)
  by_cases h : d ∈ ids
  · have hc : ids.count d = 1 := by rw [hn.count]; simp [h]
    simp only [hc, if_pos h]
    rfl
  · simp only [List.count_eq_zero_of_not_mem h, if_neg h]
    rfl

/-- C53: and a purge. -/
theorem purge_alone (s : Nat → CskkDict) (k : CompositeKey) (c : Candidate) (ids : List Nat) (hn : ids.Nodup) :
    alone s (writeAllP (.purge k c) ids) = (.ok (), fun d => if d ∈ ids then (s d).purge k c else s d) := by
  rw [write_alone]
  refine Prod.ext rfl (funext fun d => ?_)
  by_cases h : d ∈ ids
  · have hc : ids.count d = 1 := by rw [hn.count]; simp [h]
    simp only [hc, if_pos h]
    rfl
  · simp only [List.count_eq_zero_of_not_mem h, if_neg h]
    rfl

/-! ### They are calm, and use the dictionaries listed only -/

/-- The program reads dictionaries of the list only, changes none, and does not panic while it holds a lock. -/
def Reader (ids : List Nat) (p : Prog α) : Prop := Calm p ∧ (∀ d, Uses d p → d ∈ ids) ∧ ∀ d, ¬ Changes d p

theorem reader_ret (ids : List Nat) (a : α) : Reader ids (.ret a) := ⟨trivial, fun d h => (by cases h), fun d h => (by cases h)⟩
theorem reader_panic (ids : List Nat) (p : Panic) : Reader (α := α) ids (.panic p) :=
  ⟨trivial, fun d h => (by cases h), fun d h => (by cases h)⟩
theorem reader_ofR (ids : List Nat) (x : R α) : Reader ids (Prog.ofR x) := by
  cases x with
  | ok a => exact reader_ret ids a
  | error p => exact reader_panic ids p

theorem reader_look (ids : List Nat) (d : Nat) (bad : CskkDict → Option Panic) (next : CskkDict → Prog α) (hd : d ∈ ids)
    (hb : ∀ x, bad x = none) (h : ∀ x, Reader ids (next x)) : Reader ids (.look d bad next) := by
  refine ⟨fun x => ⟨hb x, (h x).1⟩, fun e he => ?_, fun e he => ?_⟩
  · cases he with
    | look => exact hd
    | lookNext _ _ _ x hx => exact (h x).2.1 e hx
  · cases he with
    | lookNext _ _ _ x hx => exact (h x).2.2 e hx

theorem look_reader (ids : List Nat) (d : Nat) (bad : CskkDict → Option Panic) (next : CskkDict → Prog α)
    (h : Reader ids (.look d bad next)) : d ∈ ids ∧ (∀ x, bad x = none) ∧ ∀ x, Reader ids (next x) :=
  ⟨h.2.1 d (.look _ _), fun x => (h.1 x).1,
    fun x => ⟨(h.1 x).2, fun e he => h.2.1 e (.lookNext _ _ _ x he), fun e he => h.2.2 e (.lookNext _ _ _ x he)⟩⟩

theorem reader_bind {β : Type} (ids : List Nat) (p : Prog α) (f : α → Prog β) (hp : Reader ids p) (hf : ∀ a, Reader ids (f a)) :
    Reader ids (p.bind f) := by
  induction p with
  | ret a => exact hf a
  | panic a => exact reader_panic ids a
  | look d bad next ih =>
    obtain ⟨h1, h2, h3⟩ := look_reader ids d bad next hp
    exact reader_look ids d bad _ h1 h2 fun x => ih x (h3 x)
  | write d w next ih => exact absurd (Changes.write w next) (hp.2.2 d)

theorem reader_reading {β : Type} (ids : List Nat) (d : Nat) (f : CskkDict → R β) (next : β → Prog α) (hd : d ∈ ids)
    (hf : ∀ x, ∃ b, f x = .ok b) (h : ∀ b, Reader ids (next b)) : Reader ids (Prog.reading d f next) := by
  refine reader_look ids d _ _ hd (fun x => ?_) fun x => ?_
  · obtain ⟨b, hb⟩ := hf x; rw [hb]; rfl
  · obtain ⟨b, hb⟩ := hf x; simp only [hb]; exact h b

theorem reader_inOrder (all : List Nat) (k : CompositeKey) (hk : k.okuri ≠ some []) (ids : List Nat) (hs : ∀ a ∈ ids, a ∈ all) :
    Reader all (inOrderP k ids) := by
  induction ids with
  | nil => exact reader_ret _ _
  | cons a ids ih =>
    refine reader_reading _ _ _ _ (hs a (by simp)) (fun x => lookup_ok x k hk) fun b => ?_
    exact reader_bind _ _ _ (ih fun x hx => hs x (by simp [hx])) fun _ => reader_ret _ _

theorem reader_exact (ids : List Nat) (k : CompositeKey) (hk : k.okuri ≠ some []) : Reader ids (exactP ids k) :=
  reader_bind _ _ _ (reader_inOrder ids k hk ids fun _ h => h) fun _ => reader_ofR _ _

theorem reader_relookup (ids : List Nat) (n : Str) : Reader ids (relookupP ids n) :=
  reader_bind _ _ _ (reader_exact ids _ (by simp)) fun _ => reader_ret _ _

theorem reader_replaceLoop (ids : List Nat) (ds : List Char) (ns texts : List Str) : Reader ids (replaceLoopP ids ds ns texts) := by
  induction ds generalizing ns texts with
  | nil => cases ns <;> exact reader_ret _ _
  | cons d ds ih =>
    cases ns with
    | nil => exact reader_ret _ _
    | cons n ns =>
      simp only [replaceLoopP]
      split
      · split
        · exact reader_bind _ _ _ (reader_relookup ids n) fun _ => ih _ _
        · exact ih _ _
      · refine reader_bind _ _ _ ?_ fun _ => ih _ _
        unfold markerTextsP
        split
        · exact reader_relookup ids n
        · exact reader_ofR _ _

theorem reader_all {β : Type} (ids : List Nat) (f : α → Prog β) (h : ∀ a, Reader ids (f a)) (l : List α) : Reader ids (Prog.all f l) := by
  induction l with
  | nil => exact reader_ret _ _
  | cons a l ih => exact reader_bind _ _ _ (h a) fun _ => reader_bind _ _ _ ih fun _ => reader_ret _ _

/-- C53: looking up a reading takes the locks of the listed dictionaries only, changes none of them, and cannot panic while it holds one — a
panic of the number conversions (C22) happens when no lock is held. -/
theorem lookup_is_reader (ids : List Nat) (k : CompositeKey) (hk : k.okuri ≠ some []) : Reader ids (getAllP ids k) := by
  refine reader_bind _ _ _ (reader_exact ids k hk) fun ex => ?_
  simp only
  split
  · exact reader_ret _ _
  · refine reader_bind _ _ _ (reader_exact ids _ hk) fun num => reader_bind _ _ _ (reader_all _ _ (fun c => ?_) _) fun _ => reader_ret _ _
    exact reader_bind _ _ _ (reader_replaceLoop _ _ _ _) fun _ => reader_ret _ _

/-- C53: likewise completing a prefix. -/
theorem complete_is_reader (comp : Nat → Bool) (ids : List Nat) (k : CompositeKey) (hk : k.okuri ≠ some []) :
    Reader ids (getAllCompleteP comp ids k) := by
  refine reader_bind _ _ _ ?_ fun _ => reader_ret _ _
  suffices h : ∀ l, (∀ a ∈ l, a ∈ ids) → Reader ids (completeInnerP comp k l) from h ids fun _ h => h
  intro l
  induction l with
  | nil => intro _; exact reader_ret _ _
  | cons a l ih =>
    intro hs
    simp only [completeInnerP]
    split
    · refine reader_reading _ _ _ _ (hs a (by simp)) (fun x => complete_ok x k hk) fun b => ?_
      exact reader_bind _ _ _ (ih fun x hx => hs x (by simp [hx])) fun _ => reader_ret _ _
    · exact ih fun x hx => hs x (by simp [hx])

theorem write_calm (w : Write) (ids : List Nat) : Calm (writeAllP w ids) := by
  induction ids with
  | nil => trivial
  | cons a ids ih => exact ih

/-- C53: **lookups among threads**. If no other thread changes the dictionaries of a context, its lookup gives the candidates of the sequential
model, whatever the other threads do and however they are scheduled. -/
theorem concurrent_lookup (s : Nat → CskkDict) (ps : Nat → Prog (List Candidate)) (hc : ∀ j, Calm (ps j)) (i : Nat) (ids : List Nat)
    (k : CompositeKey) (hk : k.okuri ≠ some []) (hi : ps i = getAllP ids k) (hj : ∀ j, j ≠ i → ∀ d ∈ ids, ¬ Changes d (ps j))
    (m : Proc (List Candidate)) (hr : Reached s ps m) (cs : List Candidate) (hm : m.threads i = .at (.ret cs)) :
    getAll (ids.map s) k = .ok cs := by
  have h := (isolated s ps hc i (fun j hne d hu => hj j hne d ((lookup_is_reader ids k hk).2.1 d (hi ▸ hu))) m hr).1 cs hm
  rw [hi, lookup_alone] at h
  exact h.1

/-! ## Executions -/

/-- A user dictionary with one word for あい. -/
def oneWord (w : Str) : CskkDict := ⟨true, .user ⟨[], [(c%"あい", ⟨c%"あい", false, [([], [⟨w, none⟩])]⟩)]⟩ false⟩

/-- Thread 0 confirms 藍 for あい in the dictionaries 0 and 1; thread 1 looks あい up in both. -/
def confirmAndLook : Nat → Prog (List Candidate)
  | 0 => (writeAllP (.confirm ⟨c%"あい", none, false, c%"藍", none, c%"藍"⟩) [0, 1]).bind fun _ => .ret []
  | 1 => getAllP [0, 1] ⟨c%"あい", none⟩
  | _ => .ret []

/-- What thread 1 got under a schedule. -/
def seen (sched : List Nat) : Option (List Str) :=
  ((Proc.start (fun d => if d = 0 then oneWord c%"愛" else oneWord c%"哀") confirmAndLook).run sched).bind fun m =>
    match m.threads 1 with
    | .at (.ret cs) => some (cs.map (·.kouho))
    | _ => none

/-- C53, limit: only the access to **one** dictionary is atomic. A lookup which overlaps with a confirmation may find the new word in
the second dictionary but not yet in the first: the candidates are then in an order which the lookup gives neither before nor after the
confirmation. -/
theorem torn_lookup :
    seen [1, 1, 1, 1] = some [c%"愛", c%"哀"] ∧
    seen [0, 0, 0, 0, 1, 1, 1, 1] = some [c%"藍", c%"愛", c%"哀"] ∧
    seen [1, 1, 0, 0, 0, 0, 1, 1] = some [c%"愛", c%"藍", c%"哀"] := by decide +kernel

/-- A thread has to wait for a lock: the second thread cannot take the lock of dictionary 0 while the first one is in its section. -/
example : ((Proc.start (fun _ => oneWord c%"愛") confirmAndLook).run [0, 1]).isNone = true ∧
    ((Proc.start (fun _ => oneWord c%"愛") confirmAndLook).run [0, 0, 1]).isNone = false := by decide +kernel

/-- The programs meet the hypotheses of the theorems. -/
example (i : Nat) : Calm (confirmAndLook i) := by
  match i with
  | 0 => trivial
  | 1 => exact (lookup_is_reader [0, 1] _ (by simp)).1
  | _ + 2 => trivial

theorem poisoned_step (s : Nat → CskkDict) (d : Nat) (b b' : CskkDict → Option Panic) (n n' : CskkDict → Prog α) (p : Panic)
    (ps : Nat → Prog α) (h0 : ps 0 = .look d b n) (h1 : ps 1 = .look d b' n') (hb : b (s d) = some p) :
    ∃ m, (Proc.start s ps).run [0, 0, 1] = some m ∧ m.threads 0 = .at (.panic p) ∧ m.threads 1 = .at (.panic .unwrap) := by
  simp [Proc.run, Proc.fire, Proc.start, h0, h1, Proc.take, upd, hb]

/-- The limit of `never_poisoned`: a panic under a lock makes the dictionary unusable for all threads. (Looking up a key whose okurigana is
the empty text would be such a panic.) -/
theorem poisoned_for_all (s : Nat → CskkDict) (d : Nat) (hd : (s d).kind ≠ .empty) (t : Str) (ps : Nat → Prog (List Candidate))
    (h0 : ps 0 = getAllP [d] ⟨t, some []⟩) (h1 : ps 1 = getAllP [d] ⟨t, none⟩) :
    ∃ m, (Proc.start s ps).run [0, 0, 1] = some m ∧ m.threads 0 = .at (.panic .unwrap) ∧ m.threads 1 = .at (.panic .unwrap) := by
  have hb : (s d).lookup ⟨t, some []⟩ = .error .unwrap := by
    unfold CskkDict.lookup
    cases hk : (s d).kind with
    | empty => exact absurd hk hd
    | static m => rfl
    | user m b => rfl
  refine poisoned_step s d _ _ _ _ _ ps h0 h1 ?_
  simp only [hb, Prog.panicOf]

end Cskk.Props.Locks

import Verif.Spec.Disk
import Verif.Props.Session
import Verif.Props.EucJp

/-!
# C78: several threads change, save and reload shared dictionaries
-/

namespace Cskk.Props.Disk
open Cskk.Disk Cskk.DictFile Spec.Disk Cskk.Session
open Cskk.Locks (upd)

theorem upd_same {β} (f : Nat → β) (i : Nat) (b : β) : upd f i b i = b := by simp [upd]
theorem upd_ne {β} (f : Nat → β) {i j : Nat} (b : β) (h : j ≠ i) : upd f i b j = f j := by simp [upd, h]

/-! ## Locks -/

/-- The thread holds the lock of `e`. -/
def Holds (e : Nat) : Thread → Prop
  | .at _ => False
  | .holds d _ _ => e = d
  | .renamed d _ => e = d
  | .writing d _ _ _ => e = d

/-- The owner of a lock is the thread which holds it. -/
def LockInv (m : Proc) : Prop := ∀ d i, m.owner d = some i ↔ Holds d (m.threads i)

theorem lock_taken {m : Proc} {i d : Nat} {l : List (Nat × Job)} {t : Thread} (h : LockInv m) (hi : m.threads i = .at l) (hd : m.owner d = none)
    (ht : ∀ e, Holds e t ↔ e = d) (ds : Nat → CskkDict) (fs : FS) (log : List (Nat × Nat × Job)) :
    LockInv ⟨ds, fs, upd m.owner d (some i), upd m.threads i t, log⟩ := by
  intro e j
  show upd m.owner d (some i) e = some j ↔ Holds e (upd m.threads i t j)
  by_cases he : e = d
  · subst he
    rw [upd_same]
    by_cases hj : j = i
    · subst hj
      rw [upd_same]
      simp [(ht e).mpr rfl]
    · rw [upd_ne _ _ hj]
      constructor
      · intro hx; injection hx with hx; exact absurd hx.symm hj
      · intro hx
        rw [← h e j, hd] at hx
        cases hx
  · rw [upd_ne _ _ he]
    by_cases hj : j = i
    · subst hj
      rw [upd_same, h e j, hi, ht]
      simp [Holds, he]
    · rw [upd_ne _ _ hj]
      exact h e j

theorem lock_kept {m : Proc} {i d : Nat} {t : Thread} (h : LockInv m) (hi : ∀ e, Holds e (m.threads i) ↔ e = d)
    (ht : ∀ e, Holds e t ↔ e = d) (ds : Nat → CskkDict) (fs : FS) (log : List (Nat × Nat × Job)) :
    LockInv ⟨ds, fs, m.owner, upd m.threads i t, log⟩ := by
  intro e j
  show m.owner e = some j ↔ Holds e (upd m.threads i t j)
  by_cases hj : j = i
  · subst hj
    rw [upd_same, h e j, hi, ht]
  · rw [upd_ne _ _ hj]
    exact h e j

theorem lock_done {m : Proc} {i d : Nat} (h : LockInv m) (hi : ∀ e, Holds e (m.threads i) ↔ e = d) (j : Job) (rest : List (Nat × Job)) (x : CskkDict)
    (fs : FS) : LockInv (m.done i d j rest x fs) := by
  intro e k
  show upd m.owner d none e = some k ↔ Holds e (upd m.threads i (.at rest) k)
  have hd : m.owner d = some i := (h d i).mpr ((hi d).mpr rfl)
  by_cases he : e = d
  · subst he
    rw [upd_same]
    constructor
    · intro hx; cases hx
    · intro hx
      by_cases hk : k = i
      · subst hk; rw [upd_same] at hx; exact hx.elim
      · rw [upd_ne _ _ hk, ← h e k, hd] at hx
        injection hx with hx
        exact absurd hx.symm hk
  · rw [upd_ne _ _ he]
    by_cases hk : k = i
    · subst hk
      rw [upd_same, h e k, hi]
      simp [Holds, he]
    · rw [upd_ne _ _ hk]
      exact h e k

/-! ## Every step -/

/-- Why a save fails. -/
inductive Cause (S : Nat → Source) (m : Proc) (i : Nat) (a : Answer) (d : Nat) : Prop
  | os (h : a = .bad)
  | fixed (h : ¬ Writable (m.dicts d)) (h' : ∀ r, m.threads i ≠ .holds d .save r)
  | gone (h : m.fs (S d).path = none) (hk : Writable (m.dicts d)) (h' : ∀ r, m.threads i ≠ .renamed d r)
  | code (mp : DictMaps) (b : Bool) (hk : (m.dicts d).kind = .user mp b) (h : saveBytes (S d).cd mp = none)

/-- The kinds of step: the lock is taken; a step of a save; the end of a job. -/
inductive Move (S : Nat → Source) (m : Proc) (i : Nat) (a : Answer) : Proc → Prop
  | lock (d j rest) (ht : m.threads i = .at ((d, j) :: rest)) (ho : m.owner d = none) :
    Move S m i a { m with owner := upd m.owner d (some i), threads := upd m.threads i (.holds d j rest) }
  | job (d j rest x) (ht : m.threads i = .holds d j rest) (hx : x = match j with
      | .look | .save => m.dicts d
      | .confirm c => (m.dicts d).confirm c
      | .purge k c => (m.dicts d).purge k c
      | .reload => reloadDict m.fs (S d) (m.dicts d)) (hs : j ≠ .save) :
    Move S m i a (m.done i d j rest x m.fs)
  /-- a save which is not needed -/
  | idle (d rest) (ht : m.threads i = .holds d .save rest) (hc : Clean (m.dicts d)) : Move S m i a (m.done i d .save rest (m.dicts d) m.fs)
  | rename (d rest mp bs fs) (ht : m.threads i = .holds d .save rest) (hk : (m.dicts d).kind = .user mp true) (hb : m.fs (S d).path = some bs)
      (hfs : fs = fun p => if p = bak (S d).path then some bs else if p = (S d).path then none else m.fs p) :
    Move S m i a { m with fs := fs, threads := upd m.threads i (.renamed d rest) }
  | create (d rest mp b bs) (ht : m.threads i = .renamed d rest) (hk : (m.dicts d).kind = .user mp b) (hb : saveBytes (S d).cd mp = some bs) :
    Move S m i a { m with fs := (fun p => if p = (S d).path then some [] else m.fs p), threads := upd m.threads i (.writing d bs 0 rest) }
  | write (d rest bs n k c mp b) (ht : m.threads i = .writing d bs n rest) (hk : (m.dicts d).kind = .user mp b) (hn : n < bs.length) (hf : m.fs (S d).path = some c) :
    Move S m i a { m with fs := (fun p => if p = (S d).path then some (c ++ (bs.drop n).take (k + 1)) else m.fs p), threads := upd m.threads i (.writing d bs (n + (k + 1)) rest) }
  | saved (d rest bs n mp b) (ht : m.threads i = .writing d bs n rest) (hk : (m.dicts d).kind = .user mp b) (hn : bs.length ≤ n) :
    Move S m i a (m.done i d .save rest { m.dicts d with kind := .user mp false } m.fs)
  /-- a save which fails -/
  | fails (d rest fs) (ht : Holds d (m.threads i)) (hl : left (m.threads i) = (d, .save) :: rest)
      (hw : Cause S m i a d)
      (hfs : fs = m.fs ∨ ((∀ p, p ≠ (S d).path → fs p = m.fs p) ∧ Writable (m.dicts d) ∧ ∃ r, m.threads i = .renamed d r)) :
    Move S m i a (m.done i d .save rest (m.dicts d) fs)

theorem fire_moves {S : Nat → Source} {m m' : Proc} {i : Nat} {a : Answer} (h : m.fire S i a = some m') : Move S m i a m' := by
  unfold Proc.fire at h
  split at h
  · cases h
  · rename_i d j rest ht
    split at h
    · rename_i ho
      injection h with h
      subst h
      exact .lock d j rest ht ho
    · cases h
  · rename_i d rest ht
    injection h with h
    subst h
    exact .job d _ rest _ ht rfl (by simp)
  · rename_i d c rest ht
    injection h with h
    subst h
    exact .job d _ rest _ ht rfl (by simp)
  · rename_i d k c rest ht
    injection h with h
    subst h
    exact .job d _ rest _ ht rfl (by simp)
  · rename_i d rest ht
    injection h with h
    subst h
    exact .job d _ rest _ ht rfl (by simp)
  · rename_i d rest ht
    have fail : ∀ fs, Cause S m i a d → fs = m.fs →
        Move S m i a (m.done i d .save rest (m.dicts d) fs) :=
      fun fs hw hfs => .fails d rest fs (by rw [ht]; rfl) (by rw [ht]; rfl) hw (.inl hfs)
    cases hk : (m.dicts d).kind with
    | static mp =>
      simp only [hk] at h
      injection h with h
      subst h
      exact .idle d rest ht (fun x hx => by rw [hk] at hx; cases hx)
    | empty =>
      simp only [hk] at h
      injection h with h
      subst h
      exact .idle d rest ht (fun x hx => by rw [hk] at hx; cases hx)
    | user mp b =>
      cases b with
      | false =>
        simp only [hk] at h
        injection h with h
        subst h
        exact .idle d rest ht (fun x hx => by rw [hk] at hx; cases hx)
      | true =>
        cases a with
        | bad =>
          simp only [hk] at h
          injection h with h
          subst h
          exact fail _ (.os rfl) rfl
        | good n =>
          simp only [hk, FsOp.run] at h
          cases hb : m.fs (S d).path with
          | none =>
            simp only [hb] at h
            injection h with h
            subst h
            exact fail _ (.gone hb ⟨mp, true, hk⟩ (fun r hr => by rw [ht] at hr; cases hr)) rfl
          | some bs =>
            simp only [hb] at h
            injection h with h
            subst h
            exact .rename d rest mp bs _ ht hk hb rfl
  · rename_i d rest ht
    have fail : ∀ fs, Cause S m i a d →
        (fs = m.fs ∨ ((∀ p, p ≠ (S d).path → fs p = m.fs p) ∧ Writable (m.dicts d) ∧ ∃ r, m.threads i = .renamed d r)) →
        Move S m i a (m.done i d .save rest (m.dicts d) fs) :=
      fun fs hw hfs => .fails d rest fs (by rw [ht]; rfl) (by rw [ht]; rfl) hw hfs
    cases hk : (m.dicts d).kind with
    | static mp =>
      simp only [hk] at h
      injection h with h
      subst h
      exact fail _ (.fixed (fun ⟨x, b, hx⟩ => by rw [hk] at hx; cases hx) (fun r hr => by rw [ht] at hr; cases hr)) (.inl rfl)
    | empty =>
      simp only [hk] at h
      injection h with h
      subst h
      exact fail _ (.fixed (fun ⟨x, b, hx⟩ => by rw [hk] at hx; cases hx) (fun r hr => by rw [ht] at hr; cases hr)) (.inl rfl)
    | user mp b =>
      cases a with
      | bad =>
        simp only [hk] at h
        injection h with h
        subst h
        exact fail _ (.os rfl) (.inl rfl)
      | good n =>
        simp only [hk, FsOp.run] at h
        cases hb : saveBytes (S d).cd mp with
        | none =>
          simp only [hb] at h
          injection h with h
          subst h
          exact fail _ (.code mp b hk hb) (.inr ⟨fun p hp => by simp [hp], ⟨mp, b, hk⟩, rest, ht⟩)
        | some bs =>
          simp only [hb] at h
          injection h with h
          subst h
          exact .create d rest mp b bs ht hk hb
  · rename_i d bs n rest ht
    have fail : Cause S m i a d →
        Move S m i a (m.done i d .save rest (m.dicts d) m.fs) :=
      fun hw => .fails d rest m.fs (by rw [ht]; rfl) (by rw [ht]; rfl) hw (.inl rfl)
    cases hk : (m.dicts d).kind with
    | static mp =>
      simp only [hk] at h
      injection h with h
      subst h
      exact fail (.fixed (fun ⟨x, b, hx⟩ => by rw [hk] at hx; cases hx) (fun r hr => by rw [ht] at hr; cases hr))
    | empty =>
      simp only [hk] at h
      injection h with h
      subst h
      exact fail (.fixed (fun ⟨x, b, hx⟩ => by rw [hk] at hx; cases hx) (fun r hr => by rw [ht] at hr; cases hr))
    | user mp b =>
      cases a with
      | bad =>
        simp only [hk] at h
        injection h with h
        subst h
        exact fail (.os rfl)
      | good k =>
        simp only [hk] at h
        split at h
        · rename_i hn
          simp only [FsOp.run] at h
          cases hf : m.fs (S d).path with
          | none =>
            simp only [hf] at h
            injection h with h
            subst h
            exact fail (.gone hf ⟨mp, b, hk⟩ (fun r hr => by rw [ht] at hr; cases hr))
          | some c =>
            simp only [hf] at h
            injection h with h
            subst h
            exact .write d rest bs n k c mp b ht hk hn hf
        · rename_i hn
          injection h with h
          subst h
          exact .saved d rest bs n mp b ht hk (by omega)

theorem run_ind {S : Nat → Source} (P : Proc → Prop) (step : ∀ m m' i a, P m → m.fire S i a = some m' → P m') (s : List (Nat × Answer)) :
    ∀ (m m' : Proc), P m → m.run S s = some m' → P m' := by
  induction s with
  | nil =>
    intro m m' h hr
    injection hr with hr
    rw [← hr]; exact h
  | cons x s ih =>
    intro m m' h hr
    simp only [Proc.run] at hr
    cases hf : m.fire S x.1 x.2 with
    | none => rw [hf] at hr; cases hr
    | some m1 =>
      rw [hf] at hr
      exact ih m1 m' (step m m1 x.1 x.2 h hf) hr

theorem holds_only {d : Nat} {t : Thread} (ht : Holds d t) (e : Nat) : Holds e t ↔ e = d := by
  cases t with
  | «at» l => exact ht.elim
  | holds d' j l => have ht : d = d' := ht; subst ht; exact Iff.rfl
  | renamed d' l => have ht : d = d' := ht; subst ht; exact Iff.rfl
  | writing d' bs n l => have ht : d = d' := ht; subst ht; exact Iff.rfl

theorem move_lock {S : Nat → Source} {m m' : Proc} {i : Nat} {a : Answer} (h : LockInv m) (hm : Move S m i a m') : LockInv m' := by
  cases hm with
  | lock d j rest ht ho => exact lock_taken (t := .holds d j rest) h ht ho (fun e => Iff.rfl) _ _ _
  | job d j rest x ht hx hs => exact lock_done h (fun e => by rw [ht]; exact Iff.rfl) _ _ _ _
  | idle d rest ht hc => exact lock_done h (fun e => by rw [ht]; exact Iff.rfl) _ _ _ _
  | rename d rest mp bs fs ht hk hb hfs => exact lock_kept (t := .renamed d rest) h (fun e => by rw [ht]; exact Iff.rfl) (fun e => Iff.rfl) _ _ _
  | create d rest mp b bs ht hk hb => exact lock_kept (t := .writing d bs 0 rest) h (fun e => by rw [ht]; exact Iff.rfl) (fun e => Iff.rfl) _ _ _
  | write d rest bs n k c mp b ht hk hn hf =>
    exact lock_kept (t := .writing d bs (n + (k + 1)) rest) h (fun e => by rw [ht]; exact Iff.rfl) (fun e => Iff.rfl) _ _ _
  | saved d rest bs n mp b ht hk hn => exact lock_done h (fun e => by rw [ht]; exact Iff.rfl) _ _ _ _
  | fails d rest fs ht hl hw hfs => exact lock_done h (holds_only ht) _ _ _ _

/-! ## Threads which are saving -/

/-- What is being saved is a changed user dictionary, and what is being written is its words. -/
def Work (S : Nat → Source) (ds : Nat → CskkDict) : Thread → Prop
  | .renamed d _ => ∃ mp, (ds d).kind = .user mp true
  | .writing d bs _ _ => ∃ mp, (ds d).kind = .user mp true ∧ saveBytes (S d).cd mp = some bs
  | _ => True

theorem work_congr {S : Nat → Source} {ds ds' : Nat → CskkDict} {t : Thread} (h : ∀ e, Holds e t → ds' e = ds e) (hw : Work S ds t) : Work S ds' t := by
  cases t with
  | «at» l => trivial
  | holds d j l => trivial
  | renamed d l => obtain ⟨mp, hw⟩ := hw; exact ⟨mp, by rw [h d rfl]; exact hw⟩
  | writing d bs n l => obtain ⟨mp, hw, hb⟩ := hw; exact ⟨mp, by rw [h d rfl]; exact hw, hb⟩

/-- Threads other than `i` are not affected by a change of the dictionary of `i`. -/
theorem work_other {S : Nat → Source} {m : Proc} {i d k : Nat} (hl : LockInv m) (hi : Holds d (m.threads i)) (hk : k ≠ i) {x : CskkDict} (hw : Work S m.dicts (m.threads k)) :
    Work S (upd m.dicts d x) (m.threads k) := by
  refine work_congr (fun e he => ?_) hw
  refine upd_ne _ _ (fun hx => ?_)
  subst hx
  have h1 := (hl e i).mpr hi
  have h2 := (hl e k).mpr he
  rw [h1] at h2
  injection h2 with h2
  exact hk h2.symm

theorem work_done {S : Nat → Source} {m : Proc} {i d : Nat} (hl : LockInv m) (hi : Holds d (m.threads i)) (h : ∀ k, Work S m.dicts (m.threads k)) (j : Job)
    (rest : List (Nat × Job)) (x : CskkDict) (fs : FS) (k : Nat) : Work S (m.done i d j rest x fs).dicts ((m.done i d j rest x fs).threads k) := by
  show Work S (upd m.dicts d x) (upd m.threads i (.at rest) k)
  by_cases hk : k = i
  · subst hk; rw [upd_same]; trivial
  · rw [upd_ne _ _ hk]; exact work_other hl hi hk (h k)

theorem work_kept {S : Nat → Source} {m : Proc} {i : Nat} {t : Thread} (h : ∀ k, Work S m.dicts (m.threads k)) (ht : Work S m.dicts t) (k : Nat) :
    Work S m.dicts (upd m.threads i t k) := by
  by_cases hk : k = i
  · subst hk; rw [upd_same]; exact ht
  · rw [upd_ne _ _ hk]; exact h k

theorem move_work {S : Nat → Source} {m m' : Proc} {i : Nat} {a : Answer} (hl : LockInv m) (h : ∀ k, Work S m.dicts (m.threads k)) (hm : Move S m i a m') (k : Nat) :
    Work S m'.dicts (m'.threads k) := by
  cases hm with
  | lock d j rest ht ho => exact work_kept h (t := .holds d j rest) trivial k
  | job d j rest x ht hx hs => exact work_done hl (by rw [ht]; rfl) h _ _ _ _ k
  | idle d rest ht hc => exact work_done hl (by rw [ht]; rfl) h _ _ _ _ k
  | rename d rest mp bs fs ht hk hb hfs => exact work_kept h (t := .renamed d rest) ⟨mp, hk⟩ k
  | create d rest mp b bs ht hk hb =>
    refine work_kept h (t := .writing d bs 0 rest) ⟨mp, ?_, hb⟩ k
    have := h i
    rw [ht] at this
    obtain ⟨mp', h'⟩ := this
    rw [hk] at h' ⊢
    injection h' with _ hb
    rw [hb]
  | write d rest bs n k' c mp b ht hk hn hf =>
    refine work_kept h (t := .writing d bs (n + (k' + 1)) rest) ?_ k
    have := h i
    rw [ht] at this
    exact this
  | saved d rest bs n mp b ht hk hn => exact work_done hl (by rw [ht]; rfl) h _ _ _ _ k
  | fails d rest fs ht hl' hw hfs => exact work_done hl ht h _ _ _ _ k

/-! ## The dictionaries stay what they are -/

/-- The same kind of dictionary. -/
def SameKind (x y : CskkDict) : Prop := (Writable x ↔ Writable y) ∧ (Stored x ↔ Stored y)

theorem sameKind_user {x y : CskkDict} {m m' : DictMaps} {b b' : Bool} (hx : x.kind = .user m b) (hy : y.kind = .user m' b') : SameKind x y :=
  ⟨⟨fun _ => ⟨m', b', hy⟩, fun _ => ⟨m, b, hx⟩⟩, ⟨fun _ h => (by rw [hy] at h; cases h), fun _ h => (by rw [hx] at h; cases h)⟩⟩

theorem sameKind_static {x y : CskkDict} {m m' : DictMaps} (hx : x.kind = .static m) (hy : y.kind = .static m') : SameKind x y :=
  ⟨⟨fun ⟨_, _, h⟩ => (by rw [hx] at h; cases h), fun ⟨_, _, h⟩ => (by rw [hy] at h; cases h)⟩,
    ⟨fun _ h => (by rw [hy] at h; cases h), fun _ h => (by rw [hx] at h; cases h)⟩⟩

theorem sameKind_refl (x : CskkDict) : SameKind x x := ⟨Iff.rfl, Iff.rfl⟩
theorem sameKind_trans {x y z : CskkDict} (h : SameKind x y) (h' : SameKind y z) : SameKind x z := ⟨h.1.trans h'.1, h.2.trans h'.2⟩

theorem confirm_kind (x : CskkDict) (c : Candidate) : SameKind (x.confirm c) x := by
  unfold CskkDict.confirm
  cases hk : x.kind with
  | user m b => exact sameKind_user rfl hk
  | static m => exact sameKind_refl x
  | empty => exact sameKind_refl x

theorem purge_kind (x : CskkDict) (k : CompositeKey) (c : Candidate) : SameKind (x.purge k c) x := by
  unfold CskkDict.purge
  cases hk : x.kind with
  | user m b => exact sameKind_user rfl hk
  | static m => exact sameKind_refl x
  | empty => exact sameKind_refl x

theorem reload_kind (fs : FS) (og : Source) (x : CskkDict) : SameKind (reloadDict fs og x) x := by
  unfold reloadDict
  cases hk : x.kind with
  | user m b => exact sameKind_user rfl hk
  | static m => exact sameKind_static rfl hk
  | empty => exact sameKind_refl x

theorem upd_kind {ds : Nat → CskkDict} {d : Nat} {x : CskkDict} (h : SameKind x (ds d)) (e : Nat) : SameKind (upd ds d x e) (ds e) := by
  by_cases he : e = d
  · subst he; rw [upd_same]; exact h
  · rw [upd_ne _ _ he]; exact sameKind_refl _

theorem move_kind {S : Nat → Source} {m m' : Proc} {i : Nat} {a : Answer} (hm : Move S m i a m') (e : Nat) : SameKind (m'.dicts e) (m.dicts e) := by
  cases hm with
  | job d j rest x ht hx hs =>
    refine upd_kind ?_ e
    subst hx
    cases j with
    | look => exact sameKind_refl _
    | save => exact sameKind_refl _
    | confirm c => exact confirm_kind _ c
    | purge k c => exact purge_kind _ k c
    | reload => exact reload_kind ..
  | idle d rest ht hc => exact upd_kind (sameKind_refl _) e
  | saved d rest bs n mp b ht hk hn => exact upd_kind (sameKind_user rfl hk) e
  | fails d rest fs ht hl hw hfs => exact upd_kind (sameKind_refl _) e
  | _ => exact sameKind_refl _

theorem apart_kind {S : Nat → Source} {ds ds' : Nat → CskkDict} (h : Apart S ds) (hk : ∀ e, SameKind (ds' e) (ds e)) : Apart S ds' :=
  fun d e hne hw hs => h d e hne ((hk d).1.mp hw) ((hk e).2.mp hs)

/-! ## What a save does not touch -/

/-- The files of `e`: its file, and its backup if it is writable. -/
def SameFiles (S : Nat → Source) (x : CskkDict) (e : Nat) (fs fs' : FS) : Prop :=
  fs' (S e).path = fs (S e).path ∧ (Writable x → fs' (bak (S e).path) = fs (bak (S e).path))

theorem untouched {S : Nat → Source} {ds : Nat → CskkDict} {d e : Nat} (hap : Apart S ds) (hne : e ≠ d) (hw : Writable (ds d)) (hs : Stored (ds e)) {fs fs' : FS}
    (h : ∀ p, p ≠ (S d).path → p ≠ bak (S d).path → fs' p = fs p) : SameFiles S (ds e) e fs fs' := by
  obtain ⟨h1, h2⟩ := hap d e (Ne.symm hne) hw hs
  refine ⟨h _ h1 h2, fun hwe => ?_⟩
  obtain ⟨mp, b, hk⟩ := hw
  obtain ⟨h3, h4⟩ := hap e d hne hwe (by unfold Stored; rw [hk]; simp)
  exact h _ (Ne.symm h4) (fun hx => h1 (Props.Session.bak_inj hx))

/-! ## If nothing fails -/

theorem oneByOne_snoc (S : Nat → Source) (d : Nat) (l : List (Nat × Nat × Job)) : ∀ (x : CskkDict × Bytes) (i e : Nat) (j : Job),
    oneByOne S d x (l ++ [(i, e, j)]) = if e = d then after (S d) (oneByOne S d x l) j else oneByOne S d x l := by
  induction l with
  | nil => intro x i e j; rfl
  | cons y l ih => intro x i e j; exact ih ..

/-- Where the contents `x.2` are, depending on what the owner of the lock does. -/
def FileAt (og : Source) (fs : FS) (x : CskkDict × Bytes) : Option Thread → Prop
  | some (.renamed _ _) => fs og.path = none ∧ fs (bak og.path) = some x.2 ∧ ∃ m, x.1.kind = .user m true
  | some (.writing _ bs n _) =>
    fs og.path = some (bs.take n) ∧ fs (bak og.path) = some x.2 ∧ ∃ m, x.1.kind = .user m true ∧ saveBytes og.cd m = some bs
  | _ => fs og.path = some x.2

/-- Everything is as if the finished jobs had been done one after the other. -/
structure Smoothly (S : Nat → Source) (start : Nat → CskkDict × Bytes) (m : Proc) : Prop where
  lock : LockInv m
  apart : Apart S m.dicts
  work : ∀ k, Work S m.dicts (m.threads k)
  dicts : ∀ d, m.dicts d = (oneByOne S d (start d) m.log).1
  files : ∀ d, Stored (m.dicts d) → FileAt (S d) m.fs (oneByOne S d (start d) m.log) ((m.owner d).map m.threads)

theorem fileAt_same {S : Nat → Source} {e : Nat} {fs fs' : FS} {x : CskkDict × Bytes} {t : Option Thread} (h : SameFiles S x.1 e fs fs')
    (hf : FileAt (S e) fs x t) : FileAt (S e) fs' x t := by
  unfold FileAt at hf ⊢
  cases t with
  | none => exact h.1.trans hf
  | some t =>
    cases t with
    | «at» l => exact h.1.trans hf
    | holds d j l => exact h.1.trans hf
    | renamed d l =>
      obtain ⟨h1, h2, mp, h3⟩ := hf
      exact ⟨h.1.trans h1, (h.2 ⟨mp, true, h3⟩).trans h2, mp, h3⟩
    | writing d bs n l =>
      obtain ⟨h1, h2, mp, h3, h4⟩ := hf
      exact ⟨h.1.trans h1, (h.2 ⟨mp, true, h3⟩).trans h2, mp, h3, h4⟩

/-- What thread `i` does leaves the locks of others with their owners. -/
theorem owner_elsewhere {m : Proc} {i d e : Nat} (h : LockInv m) (hi : ∀ e, Holds e (m.threads i) → e = d) (he : e ≠ d) (t : Thread) :
    (m.owner e).map (upd m.threads i t) = (m.owner e).map m.threads := by
  cases ho : m.owner e with
  | none => rfl
  | some k =>
    have hk : k ≠ i := by
      intro hx
      rw [hx] at ho
      exact he (hi e ((h e i).mp ho))
    simp [upd_ne _ _ hk]

theorem owner_of {m : Proc} {i d : Nat} (h : LockInv m) (hi : Holds d (m.threads i)) : (m.owner d).map m.threads = some (m.threads i) := by
  rw [(h d i).mpr hi]; rfl

theorem smooth_done {S : Nat → Source} {st : Nat → CskkDict × Bytes} {m : Proc} {i d : Nat} (h : Smoothly S st m) (hi : Holds d (m.threads i)) {j : Job}
    {rest : List (Nat × Job)} {x : CskkDict} (hx : (after (S d) (oneByOne S d (st d) m.log) j).1 = x)
    (hf : Stored x → m.fs (S d).path = some (after (S d) (oneByOne S d (st d) m.log) j).2) (hk : SameKind x (m.dicts d)) :
    Smoothly S st (m.done i d j rest x m.fs) := by
  have hlog : (m.done i d j rest x m.fs).log = m.log ++ [(i, d, j)] := rfl
  refine ⟨lock_done h.lock (holds_only hi) _ _ _ _, apart_kind h.apart (upd_kind hk), work_done h.lock hi h.work _ _ _ _, fun e => ?_, fun e hs => ?_⟩
  · rw [hlog, oneByOne_snoc]
    show upd m.dicts d x e = _
    by_cases he : e = d
    · subst he
      rw [upd_same, if_pos rfl, hx]
    · rw [upd_ne _ _ he, if_neg (Ne.symm he)]
      exact h.dicts e
  · rw [hlog, oneByOne_snoc]
    have hs : Stored (upd m.dicts d x e) := hs
    show FileAt (S e) m.fs _ ((upd m.owner d none e).map (upd m.threads i (.at rest)))
    by_cases he : e = d
    · subst he
      rw [upd_same] at hs
      rw [upd_same, if_pos rfl]
      exact hf hs
    · rw [upd_ne _ _ he] at hs
      rw [upd_ne _ _ he, if_neg (Ne.symm he), owner_elsewhere h.lock (fun e => (holds_only hi e).mp) he]
      exact h.files e hs

theorem smooth_kept {S : Nat → Source} {st : Nat → CskkDict × Bytes} {m : Proc} {i d : Nat} (h : Smoothly S st m) (hi : Holds d (m.threads i)) {t : Thread}
    (ht : Holds d t) (hw : Writable (m.dicts d)) (hwk : Work S m.dicts t) {fs : FS} (hfs : ∀ p, p ≠ (S d).path → p ≠ bak (S d).path → fs p = m.fs p)
    (hf : FileAt (S d) fs (oneByOne S d (st d) m.log) (some t)) :
    Smoothly S st { m with fs := fs, threads := upd m.threads i t } := by
  refine ⟨lock_kept h.lock (holds_only hi) (holds_only ht) _ _ _, h.apart, work_kept h.work hwk, h.dicts, fun e hs => ?_⟩
  show FileAt (S e) fs (oneByOne S e (st e) m.log) ((m.owner e).map (upd m.threads i t))
  have hs : Stored (m.dicts e) := hs
  by_cases he : e = d
  · subst he
    rw [(h.lock e i).mpr hi]
    show FileAt (S e) fs _ (some (upd m.threads i t i))
    rw [upd_same]
    exact hf
  · rw [owner_elsewhere h.lock (fun e => (holds_only hi e).mp) he]
    have hsame := untouched h.apart he hw hs hfs
    rw [h.dicts e] at hsame
    exact fileAt_same hsame (h.files e hs)

/-- Every step whose call of the operating system succeeds. -/
theorem smooth_step {S : Nat → Source} {st : Nat → CskkDict × Bytes} (henc : Encodes S) {m m' : Proc} {i n : Nat} (h : Smoothly S st m)
    (hm : Move S m i (.good n) m') : Smoothly S st m' := by
  have hlock := h.lock
  have file : ∀ {d t}, m.threads i = t → Holds d t → Stored (m.dicts d) → FileAt (S d) m.fs (oneByOne S d (st d) m.log) (some t) := fun {d t} ht hh hs => by
    have := h.files d hs
    rw [owner_of hlock (by rw [ht]; exact hh), ht] at this
    exact this
  have stored : ∀ {d mp b}, (m.dicts d).kind = .user mp b → Stored (m.dicts d) := fun hk hx => by rw [hk] at hx; cases hx
  have hb : ∀ p, bak p ≠ p := DictSave.bak_ne
  cases hm with
  | lock d j rest ht ho =>
    refine ⟨move_lock hlock (.lock (S := S) (a := .bad) d j rest ht ho), h.apart, work_kept h.work (t := .holds d j rest) trivial, h.dicts, fun e hs => ?_⟩
    show FileAt (S e) m.fs (oneByOne S e (st e) m.log) ((upd m.owner d (some i) e).map (upd m.threads i (.holds d j rest)))
    by_cases he : e = d
    · subst he
      rw [upd_same]
      show FileAt (S e) m.fs _ (some (upd m.threads i (.holds e j rest) i))
      rw [upd_same]
      have := h.files e hs
      rw [ho] at this
      exact this
    · rw [upd_ne _ _ he, owner_elsewhere (d := d) hlock (fun e hx => by rw [ht] at hx; exact hx.elim) he]
      exact h.files e hs
  | job d j rest x ht hx hs =>
    have hi : Holds d (m.threads i) := by rw [ht]; rfl
    have hkind : SameKind x (m.dicts d) := by
      have := move_kind (.job (S := S) (a := .bad) d j rest x ht hx hs) d
      rwa [show (m.done i d j rest x m.fs).dicts d = x from upd_same ..] at this
    have hd := h.dicts d
    cases j with
    | look =>
      refine smooth_done h hi ?_ ?_ hkind
      · rw [hx, hd]; rfl
      · intro hst
        exact file ht rfl (by rw [hx] at hst; exact hst)
    | save => exact absurd rfl hs
    | confirm c =>
      refine smooth_done h hi ?_ ?_ hkind
      · rw [hx, hd]; rfl
      · intro hst
        exact file ht rfl (hkind.2.mp hst)
    | purge k c =>
      refine smooth_done h hi ?_ ?_ hkind
      · rw [hx, hd]; rfl
      · intro hst
        exact file ht rfl (hkind.2.mp hst)
    | reload =>
      have hff : Stored (m.dicts d) → m.fs (S d).path = some (oneByOne S d (st d) m.log).2 := fun hst => file ht rfl hst
      generalize hX : oneByOne S d (st d) m.log = X at *
      refine smooth_done h hi ?_ ?_ hkind
      · rw [hX]
        show (after (S d) X .reload).1 = x
        rw [hx]
        show _ = reloadDict m.fs (S d) (m.dicts d)
        unfold after reloadDict
        rw [hd]
        cases hk : X.1.kind with
        | user mp b =>
          have hfX := hff (by unfold Stored; rw [hd, hk]; simp)
          simp [reload, hfX]
        | static mp =>
          have hfX := hff (by unfold Stored; rw [hd, hk]; simp)
          simp [reload, hfX]
        | empty => rfl
      · intro hst
        rw [hX, hff (hkind.2.mp hst)]
        unfold after
        cases hk : X.1.kind <;> rfl
  | idle d rest ht hc =>
    have hi : Holds d (m.threads i) := by rw [ht]; rfl
    have hd := h.dicts d
    have ha : after (S d) (oneByOne S d (st d) m.log) .save = oneByOne S d (st d) m.log := by
      unfold after
      cases hk : (oneByOne S d (st d) m.log).1.kind with
      | user mp b =>
        cases b with
        | false => rfl
        | true => exact absurd (by rw [hd]; exact hk) (hc mp)
      | static mp => rfl
      | empty => rfl
    refine smooth_done h hi ?_ ?_ (sameKind_refl _)
    · rw [ha, hd]
    · intro hst
      rw [ha]
      exact file ht rfl hst
  | rename d rest mp bs fs ht hk hb' hfs =>
    have hi : Holds d (m.threads i) := by rw [ht]; rfl
    have hff := file ht rfl (stored hk)
    have hff : m.fs (S d).path = some (oneByOne S d (st d) m.log).2 := hff
    refine smooth_kept (t := .renamed d rest) h hi rfl ⟨mp, true, hk⟩ ⟨mp, hk⟩ ?_ ?_
    · intro p h1 h2
      rw [hfs]; simp [h1, h2]
    · refine ⟨?_, ?_, mp, ?_⟩
      · rw [hfs]; simp [Ne.symm (hb (S d).path)]
      · rw [hfs, ← hff, hb']; simp
      · rw [← h.dicts d]; exact hk
  | create d rest mp b bs ht hk hb' =>
    have hi : Holds d (m.threads i) := by rw [ht]; rfl
    obtain ⟨h1, h2, mp', h3⟩ := file ht rfl (stored hk)
    have h4 : saveBytes (S d).cd mp' = some bs := by
      have h5 := h3
      rw [← h.dicts d, hk] at h5
      injection h5 with h5
      rw [← h5]; exact hb'
    refine smooth_kept (t := .writing d bs 0 rest) h hi rfl ⟨mp, b, hk⟩ ⟨mp', by rw [h.dicts d]; exact h3, h4⟩ ?_ ?_
    · intro p h1 h2
      simp [h1]
    · refine ⟨?_, ?_, mp', h3, h4⟩
      · simp
      · simp [hb, h2]
  | write d rest bs k' k c mp b ht hk hn hf =>
    have hi : Holds d (m.threads i) := by rw [ht]; rfl
    obtain ⟨h1, h2, mp', h3, h4⟩ := file ht rfl (stored hk)
    refine smooth_kept (t := .writing d bs (k' + (k + 1)) rest) h hi rfl ⟨mp, b, hk⟩ ⟨mp', by rw [h.dicts d]; exact h3, h4⟩ ?_ ?_
    · intro p h1 h2
      simp [h1]
    · refine ⟨?_, ?_, mp', h3, h4⟩
      · rw [hf] at h1
        injection h1 with h1
        simp [h1, List.take_add]
      · simp [hb, h2]
  | saved d rest bs k' mp b ht hk hn =>
    have hi : Holds d (m.threads i) := by rw [ht]; rfl
    obtain ⟨h1, h2, mp', h3, h4⟩ := file ht rfl (stored hk)
    have hd := h.dicts d
    have hmp : mp = mp' ∧ b = true := by
      rw [← hd, hk] at h3
      injection h3 with h5 h6
      exact ⟨h5, h6⟩
    obtain ⟨rfl, rfl⟩ := hmp
    have ha : after (S d) (oneByOne S d (st d) m.log) .save = ({ m.dicts d with kind := .user mp false }, bs) := by
      unfold after
      simp [h3, h4, hd]
    refine smooth_done h hi ?_ ?_ (sameKind_user rfl hk)
    · rw [ha]
    · intro hst
      rw [ha, h1, List.take_of_length_le hn]
  | fails d rest fs ht hl hw hfs =>
    exfalso
    have held : (∃ j r, m.threads i = .holds d j r ∧ j = .save) ∨ (∃ r, m.threads i = .renamed d r) ∨ ∃ bs k r, m.threads i = .writing d bs k r := by
      revert ht hl
      cases m.threads i with
      | «at» l => exact fun ht => ht.elim
      | holds d' j l =>
        intro ht hl
        have ht : d = d' := ht
        injection hl with hl _
        injection hl with _ hl
        exact .inl ⟨j, l, by rw [ht], hl⟩
      | renamed d' l => intro ht; have ht : d = d' := ht; exact fun _ => .inr (.inl ⟨l, by rw [ht]⟩)
      | writing d' bs k l => intro ht; have ht : d = d' := ht; exact fun _ => .inr (.inr ⟨bs, k, l, by rw [ht]⟩)
    cases hw with
    | os hw => cases hw
    | fixed hw h' =>
      have hwk := h.work i
      rcases held with ⟨j, r, hh, rfl⟩ | ⟨r, hh⟩ | ⟨bs, k, r, hh⟩
      · exact h' r hh
      · rw [hh] at hwk
        obtain ⟨mp, hk⟩ := hwk
        exact hw ⟨mp, true, hk⟩
      · rw [hh] at hwk
        obtain ⟨mp, hk, _⟩ := hwk
        exact hw ⟨mp, true, hk⟩
    | gone hw hk h' =>
      obtain ⟨mp, b, hk⟩ := hk
      rcases held with ⟨j, r, hh, rfl⟩ | ⟨r, hh⟩ | ⟨bs, k, r, hh⟩
      · have : m.fs (S d).path = some _ := file hh rfl (stored hk)
        rw [hw] at this
        cases this
      · exact h' r hh
      · obtain ⟨h1, _⟩ := file hh rfl (stored hk)
        rw [hw] at h1
        cases h1
    | code mp b hk hw =>
      have := henc d mp
      rw [hw] at this
      cases this

theorem run_smooth {S : Nat → Source} (P : Proc → Prop) (step : ∀ m m' i n, P m → m.fire S i (.good n) = some m' → P m') (s : List (Nat × Answer)) :
    ∀ (m m' : Proc), Smooth s → P m → m.run S s = some m' → P m' := by
  induction s with
  | nil =>
    intro m m' _ h hr
    injection hr with hr
    rw [← hr]; exact h
  | cons x s ih =>
    intro m m' hs h hr
    simp only [Proc.run] at hr
    obtain ⟨n, hx⟩ := hs x (by simp)
    cases hf : m.fire S x.1 x.2 with
    | none => rw [hf] at hr; cases hr
    | some m1 =>
      rw [hf] at hr
      rw [hx] at hf
      exact ih m1 m' (fun y hy => hs y (by simp [hy])) (step m m1 x.1 n h hf) hr

theorem start_lock (ds : Nat → CskkDict) (fs : FS) (ts : Nat → List (Nat × Job)) : LockInv (Proc.start ds fs ts) :=
  fun _ _ => ⟨fun h => (by cases h), fun h => False.elim h⟩

theorem smooth_run {S : Nat → Source} {ds : Nat → CskkDict} {fs : FS} {ts : Nat → List (Nat × Job)} {bs : Nat → Bytes} {s : List (Nat × Answer)} {m : Proc}
    (hap : Apart S ds) (henc : Encodes S) (hf : ∀ d, Stored (ds d) → fs (S d).path = some (bs d)) (hs : Smooth s)
    (hr : (Proc.start ds fs ts).run S s = some m) : Smoothly S (fun d => (ds d, bs d)) m :=
  run_smooth (Smoothly S fun d => (ds d, bs d)) (fun _ _ _ _ h hm => smooth_step henc h (fire_moves hm)) s _ _ hs
    ⟨start_lock _ _ _, hap, fun _ => trivial, fun _ => rfl, fun d h => hf d h⟩ hr

theorem after_kind (og : Source) (x : CskkDict × Bytes) (j : Job) : SameKind (after og x j).1 x.1 := by
  cases j with
  | look => exact sameKind_refl _
  | confirm c => exact confirm_kind _ c
  | purge k c => exact purge_kind _ k c
  | save =>
    unfold after
    cases hk : x.1.kind with
    | user m b =>
      cases b with
      | true => exact sameKind_user rfl hk
      | false => exact sameKind_refl _
    | static m => exact sameKind_refl _
    | empty => exact sameKind_refl _
  | reload =>
    unfold after
    cases hk : x.1.kind with
    | user m b => exact sameKind_user rfl hk
    | static m => exact sameKind_static rfl hk
    | empty => exact sameKind_refl _

theorem oneByOne_kind (S : Nat → Source) (d : Nat) (l : List (Nat × Nat × Job)) : ∀ x, SameKind (oneByOne S d x l).1 x.1 := by
  induction l with
  | nil => intro x; exact sameKind_refl _
  | cons y l ih =>
    intro x
    unfold oneByOne
    refine sameKind_trans (ih _) ?_
    split
    · exact after_kind ..
    · exact sameKind_refl _

/-- C78: if no call of the operating system fails, then under every schedule, and at every moment, every dictionary is what it is after the finished jobs, done one
after the other; its file has what such an execution leaves in it as long as nobody holds the lock, and otherwise (a crash then included) the file or the
backup has it. -/
theorem as_if_one_by_one {S : Nat → Source} {ds : Nat → CskkDict} {fs : FS} {ts : Nat → List (Nat × Job)} {bs : Nat → Bytes} {s : List (Nat × Answer)} {m : Proc}
    (hap : Apart S ds) (henc : Encodes S) (hf : ∀ d, Stored (ds d) → fs (S d).path = some (bs d)) (hs : Smooth s)
    (hr : (Proc.start ds fs ts).run S s = some m) (d : Nat) :
    m.dicts d = (oneByOne S d (ds d, bs d) m.log).1 ∧
      (Stored (ds d) → (m.owner d = none → m.fs (S d).path = some (oneByOne S d (ds d, bs d) m.log).2) ∧
        (m.fs (S d).path = some (oneByOne S d (ds d, bs d) m.log).2 ∨ m.fs (bak (S d).path) = some (oneByOne S d (ds d, bs d) m.log).2)) := by
  have h := smooth_run hap henc hf hs hr
  refine ⟨h.dicts d, fun hst => ?_⟩
  have hst : Stored (m.dicts d) := by
    rw [h.dicts d]
    exact (oneByOne_kind S d m.log (ds d, bs d)).2.mpr hst
  have hfa := h.files d hst
  refine ⟨fun ho => ?_, ?_⟩
  · rw [ho] at hfa
    exact hfa
  · cases ht : (m.owner d).map m.threads with
    | none => rw [ht] at hfa; exact .inl hfa
    | some t =>
      rw [ht] at hfa
      cases t with
      | «at» l => exact .inl hfa
      | holds e j l => exact .inl hfa
      | renamed e l => exact .inr hfa.2.1
      | writing e b n l => exact .inr hfa.2.1

/-! ## The order of the jobs -/

/-- The jobs of a thread, of those done. -/
def mine (i : Nat) (l : List (Nat × Nat × Job)) : List (Nat × Job) := (l.filter (·.1 == i)).map (·.2)

theorem mine_snoc (i k : Nat) (l : List (Nat × Nat × Job)) (x : Nat × Job) :
    mine k (l ++ [(i, x)]) = if k = i then mine k l ++ [x] else mine k l := by
  unfold mine
  by_cases h : k = i
  · subst h; simp
  · simp [h, Ne.symm h]

theorem order_done {ts : Nat → List (Nat × Job)} {m : Proc} {i d : Nat} {j : Job} {rest : List (Nat × Job)} (h : ∀ k, mine k m.log ++ left (m.threads k) = ts k)
    (hl : left (m.threads i) = (d, j) :: rest) (x : CskkDict) (fs : FS) (k : Nat) :
    mine k (m.done i d j rest x fs).log ++ left ((m.done i d j rest x fs).threads k) = ts k := by
  show mine k (m.log ++ [(i, d, j)]) ++ left (upd m.threads i (.at rest) k) = ts k
  rw [mine_snoc]
  by_cases hk : k = i
  · subst hk
    rw [upd_same, if_pos rfl, ← h k, hl]
    simp [left]
  · rw [upd_ne _ _ hk, if_neg hk]
    exact h k

theorem order_kept' {ts : Nat → List (Nat × Job)} {m : Proc} {i : Nat} {t : Thread} (h : ∀ k, mine k m.log ++ left (m.threads k) = ts k) (hl : left t = left (m.threads i)) (k : Nat) :
    mine k m.log ++ left (upd m.threads i t k) = ts k := by
  by_cases hk : k = i
  · subst hk; rw [upd_same, hl]; exact h k
  · rw [upd_ne _ _ hk]; exact h k

theorem move_order {S : Nat → Source} {m m' : Proc} {i : Nat} {a : Answer} {ts : Nat → List (Nat × Job)} (h : ∀ k, mine k m.log ++ left (m.threads k) = ts k)
    (hm : Move S m i a m') (k : Nat) : mine k m'.log ++ left (m'.threads k) = ts k := by
  cases hm with
  | lock d j rest ht ho => exact order_kept' h (t := .holds d j rest) (by rw [ht]; rfl) k
  | job d j rest x ht hx hs => exact order_done h (by rw [ht]; rfl) _ _ k
  | idle d rest ht hc => exact order_done h (by rw [ht]; rfl) _ _ k
  | rename d rest mp bs fs ht hk hb hfs => exact order_kept' h (t := .renamed d rest) (by rw [ht]; rfl) k
  | create d rest mp b bs ht hk hb => exact order_kept' h (t := .writing d bs 0 rest) (by rw [ht]; rfl) k
  | write d rest bs n k' c mp b ht hk hn hf => exact order_kept' h (t := .writing d bs (n + (k' + 1)) rest) (by rw [ht]; rfl) k
  | saved d rest bs n mp b ht hk hn => exact order_done h (by rw [ht]; rfl) _ _ k
  | fails d rest fs ht hl hw hfs => exact order_done h hl _ _ k

/-- C78: whatever the schedule and the answers, the jobs of every thread are done in its order, each one time: those which are done, followed by those which are
left, are its program. -/
theorem order_kept {S : Nat → Source} {ds : Nat → CskkDict} {fs : FS} {ts : Nat → List (Nat × Job)} {s : List (Nat × Answer)} {m : Proc}
    (hr : (Proc.start ds fs ts).run S s = some m) (i : Nat) : ((m.log.filter (·.1 == i)).map (·.2)) ++ left (m.threads i) = ts i :=
  run_ind (fun m => ∀ k, mine k m.log ++ left (m.threads k) = ts k) (fun _ _ _ _ h hm => move_order h (fire_moves hm)) s _ _ (fun _ => rfl) hr i

/-! ## Files and words -/

/-- What is known however calls of the operating system end. -/
structure Steady (S : Nat → Source) (m : Proc) : Prop where
  lock : LockInv m
  apart : Apart S m.dicts
  work : ∀ k, Work S m.dicts (m.threads k)
  tip : ∀ i d bs n r, m.threads i = .writing d bs n r → m.fs (S d).path = some (bs.take n)
  step : ∀ d, Clean (m.dicts d) → InStep (S d) m.fs (m.dicts d)

theorem inStep_congr {og : Source} {fs fs' : FS} {x : CskkDict} (h : Stored x → fs' og.path = fs og.path) (hi : InStep og fs x) : InStep og fs' x := by
  unfold InStep at hi ⊢
  unfold Stored at h
  cases hk : x.kind with
  | user m b => rw [hk] at h hi; rw [h (by simp)]; exact hi
  | static m => rw [hk] at h hi; rw [h (by simp)]; exact hi
  | empty => trivial

theorem steady_of {S : Nat → Source} {m m' : Proc} {i d : Nat} {a : Answer} (h : Steady S m) (hm : Move S m i a m') (hh : ∀ k, k ≠ i → ¬ Holds d (m.threads k))
    (hd : ∀ e, e ≠ d → m'.dicts e = m.dicts e) (ht : ∀ k, k ≠ i → m'.threads k = m.threads k)
    (hfs : m'.fs = m.fs ∨ (Writable (m.dicts d) ∧ ∀ p, p ≠ (S d).path → p ≠ bak (S d).path → m'.fs p = m.fs p))
    (htip : ∀ e bs n r, m'.threads i = .writing e bs n r → m'.fs (S e).path = some (bs.take n))
    (hstep : Clean (m'.dicts d) → InStep (S d) m'.fs (m'.dicts d)) : Steady S m' := by
  have hsame : ∀ e, e ≠ d → Stored (m.dicts e) → m'.fs (S e).path = m.fs (S e).path := fun e he hs => by
    rcases hfs with hfs | ⟨hw, hfs⟩
    · rw [hfs]
    · exact (untouched h.apart he hw hs hfs).1
  refine ⟨move_lock h.lock hm, apart_kind h.apart (move_kind hm), move_work h.lock h.work hm, fun k e bs n r hk => ?_, fun e he => ?_⟩
  · by_cases hki : k = i
    · subst hki; exact htip e bs n r hk
    · rw [ht k hki] at hk
      have hne : e ≠ d := fun hx => hh k hki (by rw [hk, hx]; rfl)
      have hw := h.work k
      rw [hk] at hw
      obtain ⟨mp, hw, _⟩ := hw
      rw [hsame e hne (fun hx => by rw [hw] at hx; cases hx)]
      exact h.tip k e bs n r hk
  · by_cases hed : e = d
    · subst hed; exact hstep he
    · rw [hd e hed] at he ⊢
      exact inStep_congr (hsame e hed) (h.step e he)

theorem alone {m : Proc} {i d : Nat} (hl : LockInv m) (hi : Holds d (m.threads i)) (k : Nat) (hk : k ≠ i) : ¬ Holds d (m.threads k) := fun hx => by
  have h1 := (hl d i).mpr hi
  rw [(hl d k).mpr hx] at h1
  injection h1 with h1
  exact hk h1

theorem steady_step {S : Nat → Source} {m m' : Proc} {i : Nat} {a : Answer} (h : Steady S m) (hfire : m.fire S i a = some m') : Steady S m' := by
  have hm := fire_moves hfire
  have hm' := hm
  have hb : ∀ p, bak p ≠ p := DictSave.bak_ne
  have notw : ∀ {l : List (Nat × Job)} {e : Nat} {bs : Bytes} {n : Nat} {r : List (Nat × Job)}, upd m.threads i (.at l) i = .writing e bs n r → False :=
    fun hx => by rw [upd_same] at hx; cases hx
  cases hm with
  | lock d j rest ht ho =>
    refine steady_of h hm' (d := d) (fun k hk hx => ?_) (fun _ _ => rfl) (fun k hk => upd_ne _ _ hk) (.inl rfl) (fun e bs n r hx => ?_) (h.step d)
    · rw [← h.lock d k, ho] at hx; cases hx
    · have hx : upd m.threads i _ i = Thread.writing e bs n r := hx
      rw [upd_same] at hx; cases hx
  | job d j rest x ht hx hs =>
    have hi : Holds d (m.threads i) := by rw [ht]; rfl
    refine steady_of h hm' (d := d) (alone h.lock hi) (fun e he => upd_ne _ _ he) (fun k hk => upd_ne _ _ hk) (.inl rfl) (fun e bs n r hx => (notw hx).elim) ?_
    show Clean (upd m.dicts d x d) → InStep (S d) m.fs (upd m.dicts d x d)
    rw [upd_same]
    have hd := h.step d
    cases j with
    | look => rw [hx]; exact hd
    | save => exact absurd rfl hs
    | confirm c =>
      rw [hx]
      show Clean ((m.dicts d).confirm c) → InStep (S d) m.fs ((m.dicts d).confirm c)
      unfold CskkDict.confirm
      cases hk : (m.dicts d).kind with
      | user mp b => exact fun hc => absurd rfl (hc (mp.select c))
      | static mp => exact hd
      | empty => exact hd
    | purge k c =>
      rw [hx]
      show Clean ((m.dicts d).purge k c) → InStep (S d) m.fs ((m.dicts d).purge k c)
      unfold CskkDict.purge
      cases hk : (m.dicts d).kind with
      | user mp b => exact fun hc => absurd rfl (hc (mp.purge k c))
      | static mp => exact hd
      | empty => exact hd
    | reload =>
      rw [hx]
      show Clean (reloadDict m.fs (S d) (m.dicts d)) → InStep (S d) m.fs (reloadDict m.fs (S d) (m.dicts d))
      unfold reloadDict
      cases hk : (m.dicts d).kind with
      | user mp b =>
        cases b with
        | true =>
          intro hc
          refine absurd ?_ (hc (reload (S d).cd (S d).path m.fs ⟨mp, true⟩).maps)
          simp only [reload]
          cases m.fs (S d).path <;> rfl
        | false =>
          intro _
          have := hd (fun x hx => by rw [hk] at hx; cases hx)
          unfold InStep at this
          rw [hk] at this
          obtain ⟨bs, hbs, _⟩ := this
          exact ⟨bs, hbs, .inr (by simp [reload, hbs])⟩
      | static mp =>
        intro _
        have := hd (fun x hx => by rw [hk] at hx; cases hx)
        unfold InStep at this
        rw [hk] at this
        obtain ⟨bs, hbs, _⟩ := this
        exact ⟨bs, hbs, by simp [reload, hbs]⟩
      | empty => intro _; unfold InStep; simp only [hk]
  | idle d rest ht hc =>
    have hi : Holds d (m.threads i) := by rw [ht]; rfl
    refine steady_of h hm' (d := d) (alone h.lock hi) (fun e he => upd_ne _ _ he) (fun k hk => upd_ne _ _ hk) (.inl rfl) (fun e bs n r hx => (notw hx).elim) ?_
    show Clean (upd m.dicts d _ d) → InStep (S d) m.fs (upd m.dicts d _ d)
    rw [upd_same]
    exact h.step d
  | rename d rest mp bs fs ht hk hb' hfs =>
    have hi : Holds d (m.threads i) := by rw [ht]; rfl
    refine steady_of h hm' (d := d) (alone h.lock hi) (fun _ _ => rfl) (fun k hk => upd_ne _ _ hk) (.inr ⟨⟨mp, true, hk⟩, fun p h1 h2 => ?_⟩) (fun e bs n r hx => ?_)
      (fun hc => absurd hk (hc mp))
    · show fs p = m.fs p
      rw [hfs]; simp [h1, h2]
    · have hx : upd m.threads i (.renamed d rest) i = Thread.writing e bs n r := hx
      rw [upd_same] at hx; cases hx
  | create d rest mp b bs ht hk hb' =>
    have hi : Holds d (m.threads i) := by rw [ht]; rfl
    have hw := h.work i
    rw [ht] at hw
    obtain ⟨mp', hw⟩ := hw
    refine steady_of h hm' (d := d) (alone h.lock hi) (fun _ _ => rfl) (fun k hk => upd_ne _ _ hk) (.inr ⟨⟨mp, b, hk⟩, fun p h1 h2 => ?_⟩) (fun e bs' n r hx => ?_)
      (fun hc => absurd hw (hc mp'))
    · simp [h1]
    · have hx : upd m.threads i (.writing d bs 0 rest) i = Thread.writing e bs' n r := hx
      rw [upd_same] at hx
      injection hx with h1 h2 h3
      subst h1 h3
      simp
  | write d rest bs n k c mp b ht hk hn hf =>
    have hi : Holds d (m.threads i) := by rw [ht]; rfl
    have hw := h.work i
    rw [ht] at hw
    obtain ⟨mp', hw, _⟩ := hw
    refine steady_of h hm' (d := d) (alone h.lock hi) (fun _ _ => rfl) (fun k hk => upd_ne _ _ hk) (.inr ⟨⟨mp, b, hk⟩, fun p h1 h2 => ?_⟩) (fun e bs' n' r hx => ?_)
      (fun hc => absurd hw (hc mp'))
    · simp [h1]
    · have hx : upd m.threads i (.writing d bs (n + (k + 1)) rest) i = Thread.writing e bs' n' r := hx
      rw [upd_same] at hx
      injection hx with h1 h2 h3
      subst h1 h2 h3
      have h1 := h.tip i d bs n rest ht
      rw [hf] at h1
      injection h1 with h1
      simp [h1, List.take_add]
  | saved d rest bs n mp b ht hk hn =>
    have hi : Holds d (m.threads i) := by rw [ht]; rfl
    have hw := h.work i
    rw [ht] at hw
    obtain ⟨mp', hw, hwb⟩ := hw
    rw [hk] at hw
    injection hw with hw
    subst hw
    refine steady_of h hm' (d := d) (alone h.lock hi) (fun e he => upd_ne _ _ he) (fun k hk => upd_ne _ _ hk) (.inl rfl) (fun e bs n r hx => (notw hx).elim) ?_
    show Clean (upd m.dicts d _ d) → InStep (S d) m.fs (upd m.dicts d _ d)
    rw [upd_same]
    intro _
    have h1 := h.tip i d bs n rest ht
    rw [List.take_of_length_le hn] at h1
    exact ⟨bs, h1, .inl hwb⟩
  | fails d rest fs ht hl hw hfs =>
    refine steady_of h hm' (d := d) (alone h.lock ht) (fun e he => upd_ne _ _ he) (fun k hk => upd_ne _ _ hk) ?_ (fun e bs n r hx => (notw hx).elim) ?_
    · rcases hfs with hfs | ⟨h1, h2, _⟩
      · exact .inl hfs
      · exact .inr ⟨h2, fun p hp _ => h1 p hp⟩
    · show Clean (upd m.dicts d _ d) → InStep (S d) fs (upd m.dicts d _ d)
      rw [upd_same]
      rcases hfs with hfs | ⟨h1, h2, r, hr⟩
      · rw [hfs]; exact h.step d
      · intro hc
        have hw := h.work i
        rw [hr] at hw
        obtain ⟨mp, hw⟩ := hw
        exact absurd hw (hc mp)

/-- C78: whatever the schedule, and however the calls of the operating system end, at every moment a dictionary without unsaved changes has a complete file: what
was written for its words, or what its words were read from. -/
theorem in_step {S : Nat → Source} {ds : Nat → CskkDict} {fs : FS} {ts : Nat → List (Nat × Job)} {s : List (Nat × Answer)} {m : Proc}
    (hap : Apart S ds) (hst : ∀ d, Clean (ds d) → InStep (S d) fs (ds d)) (hr : (Proc.start ds fs ts).run S s = some m) (d : Nat) (hc : Clean (m.dicts d)) :
    InStep (S d) m.fs (m.dicts d) :=
  (run_ind (Steady S) (fun _ _ _ _ h hf => steady_step h hf) s _ _ ⟨start_lock _ _ _, hap, fun _ => trivial, fun _ _ _ _ _ h => (by cases h), hst⟩ hr).step d hc

/-! ## After the last save -/

theorem mine_cons (i k : Nat) (l : List (Nat × Nat × Job)) (x : Nat × Job) : mine k ((i, x) :: l) = if k = i then x :: mine k l else mine k l := by
  unfold mine
  by_cases h : k = i
  · subst h; simp
  · simp [h, Ne.symm h]

theorem clean_after {S : Nat → Source} {d : Nat} (l : List (Nat × Nat × Job)) : ∀ x : CskkDict × Bytes, (∀ i, Saves d (mine i l)) →
    (Clean x.1 ∨ ∃ i, (d, Job.save) ∈ mine i l) → Clean (oneByOne S d x l).1 := by
  induction l with
  | nil =>
    intro x _ h
    rcases h with h | ⟨i, h⟩
    · exact h
    · cases h
  | cons y l ih =>
    obtain ⟨k, e, j⟩ := y
    intro x hs h
    have hs' : ∀ i, Saves d (mine i l) := fun i => by
      have := hs i
      rw [mine_cons] at this
      split at this
      · exact this.2
      · exact this
    have later : j ≠ .save ∨ e ≠ d → (∃ i, (d, Job.save) ∈ mine i ((k, e, j) :: l)) → ∃ i, (d, Job.save) ∈ mine i l := fun hj ⟨i, hi⟩ => by
      refine ⟨i, ?_⟩
      rw [mine_cons] at hi
      split at hi
      · rcases List.mem_cons.mp hi with hi | hi
        · injection hi with h1 h2
          rcases hj with hj | hj
          · exact absurd h2.symm hj
          · exact absurd h1.symm hj
        · exact hi
      · exact hi
    show Clean (oneByOne S d (if e = d then after (S d) x j else x) l).1
    by_cases he : e = d
    · subst he
      rw [if_pos rfl]
      have change : Changes j → ∃ i, (e, Job.save) ∈ mine i l := fun hc => ⟨k, by
        have := hs k
        rw [mine_cons, if_pos rfl] at this
        exact this.1 rfl hc⟩
      refine ih _ hs' ?_
      cases j with
      | look => exact h.imp id (later (.inl (by simp)))
      | confirm c => exact .inr (change trivial)
      | purge k' c => exact .inr (change trivial)
      | reload =>
        refine h.imp (fun hc => ?_) (later (.inl (by simp)))
        unfold after
        cases hk : x.1.kind with
        | user mp b =>
          cases b with
          | true => exact absurd hk (hc mp)
          | false => exact fun mp' hx => (by cases hx)
        | static mp => exact fun mp' hx => (by cases hx)
        | empty => exact hc
      | save =>
        refine .inl ?_
        unfold after
        cases hk : x.1.kind with
        | user mp b =>
          cases b with
          | true => exact fun mp' hx => (by cases hx)
          | false => exact fun mp' hx => (by rw [hk] at hx; cases hx)
        | static mp => exact fun mp' hx => (by rw [hk] at hx; cases hx)
        | empty => exact fun mp' hx => (by rw [hk] at hx; cases hx)
    · rw [if_neg he]
      exact ih _ hs' (h.imp id (later (.inr he)))

/-- C78: if every thread saves after its changes, then when all have finished nothing is unsaved, whatever the schedule. -/
theorem all_saved {S : Nat → Source} {ds : Nat → CskkDict} {fs : FS} {ts : Nat → List (Nat × Job)} {bs : Nat → Bytes} {s : List (Nat × Answer)} {m : Proc}
    (hap : Apart S ds) (henc : Encodes S) (hf : ∀ d, Stored (ds d) → fs (S d).path = some (bs d)) (hs : Smooth s)
    (hr : (Proc.start ds fs ts).run S s = some m) (hst : ∀ d, Clean (ds d) → InStep (S d) fs (ds d)) (hend : ∀ i, left (m.threads i) = []) (d : Nat)
    (hsv : ∀ i, Saves d (ts i)) (hc : Clean (ds d)) : Clean (m.dicts d) ∧ InStep (S d) m.fs (m.dicts d) := by
  have hcl : Clean (m.dicts d) := by
    rw [(as_if_one_by_one hap henc hf hs hr d).1]
    refine clean_after _ _ (fun i => ?_) (.inl hc)
    have := order_kept hr i
    rw [hend i, List.append_nil] at this
    show Saves d ((m.log.filter (·.1 == i)).map (·.2))
    rw [this]
    exact hsv i
  exact ⟨hcl, in_step hap hst hr d hcl⟩

/-! ## No deadlock -/

theorem holder_moves {S : Nat → Source} {m : Proc} {i d : Nat} (h : Holds d (m.threads i)) (a : Answer) : (m.fire S i a).isSome := by
  unfold Proc.fire
  revert h
  cases m.threads i with
  | «at» l => exact fun h => h.elim
  | holds d' j l =>
    intro _
    cases j with
    | save => simp only; split <;> rfl
    | _ => rfl
  | renamed d' l =>
    intro _
    simp only
    split
    · split <;> rfl
    · rfl
  | writing d' bs n l =>
    intro _
    simp only
    split
    · split
      · split <;> rfl
      · rfl
    · rfl

/-- C78: a thread which has not finished can go on, or waits for a lock whose owner can go on. -/
theorem no_deadlock {S : Nat → Source} {ds : Nat → CskkDict} {fs : FS} {ts : Nat → List (Nat × Job)} {s : List (Nat × Answer)} {m : Proc}
    (hr : (Proc.start ds fs ts).run S s = some m) (i : Nat) (hl : left (m.threads i) ≠ []) (a : Answer) :
    (m.fire S i a).isSome ∨ ∃ d j rest k, left (m.threads i) = (d, j) :: rest ∧ m.owner d = some k ∧ (m.fire S k a).isSome := by
  have hlock : LockInv m := run_ind LockInv (fun _ _ _ _ h hm => move_lock h (fire_moves hm)) s _ _ (start_lock _ _ _) hr
  cases ht : m.threads i with
  | «at» l =>
    cases l with
    | nil => rw [ht] at hl; exact absurd rfl hl
    | cons x rest =>
      obtain ⟨d, j⟩ := x
      cases ho : m.owner d with
      | none => exact .inl (by unfold Proc.fire; simp [ht, ho])
      | some k => exact .inr ⟨d, j, rest, k, rfl, ho, holder_moves ((hlock d k).mp ho) a⟩
  | holds d j l => exact .inl (holder_moves (d := d) (by rw [ht]; rfl) a)
  | renamed d l => exact .inl (holder_moves (d := d) (by rw [ht]; rfl) a)
  | writing d bs n l => exact .inl (holder_moves (d := d) (by rw [ht]; rfl) a)

theorem run_append {S : Nat → Source} (s t : List (Nat × Answer)) : ∀ m : Proc, m.run S (s ++ t) = (m.run S s).bind fun m' => m'.run S t := by
  induction s with
  | nil => intro m; rfl
  | cons x s ih =>
    intro m
    simp only [List.cons_append, Proc.run]
    cases m.fire S x.1 x.2 with
    | none => rfl
    | some m1 => exact ih m1

/-- What a job in progress does until it ends: `i` has one job less to do, and lets the lock go. -/
structure Ended (m : Proc) (i d : Nat) (m' : Proc) : Prop where
  at_rest : m'.threads i = .at (left (m.threads i)).tail
  others : ∀ k, k ≠ i → m'.threads k = m.threads k

theorem ended_done (m : Proc) (i d : Nat) (j : Job) {rest : List (Nat × Job)} (x : CskkDict) (fs : FS) (h : left (m.threads i) = (d, j) :: rest) :
    Ended m i d (m.done i d j rest x fs) :=
  ⟨by rw [h]; exact upd_same _ _ _, fun k hk => upd_ne _ _ hk⟩

theorem ended_trans {m m1 m2 : Proc} {i d : Nat} (hl : left (m1.threads i) = left (m.threads i)) (ho : ∀ k, k ≠ i → m1.threads k = m.threads k) (h : Ended m1 i d m2) :
    Ended m i d m2 := ⟨by rw [h.at_rest, hl], fun k hk => by rw [h.others k hk, ho k hk]⟩

theorem step_then {S : Nat → Source} {m m1 : Proc} {i d : Nat} (hf : m.fire S i (.good 0) = some m1) (hl : left (m1.threads i) = left (m.threads i))
    (ho : ∀ k, k ≠ i → m1.threads k = m.threads k) (h : ∃ s m', Smooth s ∧ m1.run S s = some m' ∧ Ended m1 i d m') :
    ∃ s m', Smooth s ∧ m.run S s = some m' ∧ Ended m i d m' := by
  obtain ⟨s, m2, hs, hr, he⟩ := h
  refine ⟨(i, .good 0) :: s, m2, ?_, by simp only [Proc.run, hf, Option.bind_some]; exact hr, ended_trans hl ho he⟩
  intro x hx
  rcases List.mem_cons.mp hx with hx | hx
  · exact ⟨0, by rw [hx]⟩
  · exact hs x hx

theorem step_ends {S : Nat → Source} {m m1 : Proc} {i d : Nat} (hf : m.fire S i (.good 0) = some m1) (h : Ended m i d m1) :
    ∃ s m', Smooth s ∧ m.run S s = some m' ∧ Ended m i d m' := ⟨[(i, .good 0)], m1, by simp [Smooth], by simp [Proc.run, hf], h⟩

theorem finish_writing {S : Nat → Source} (n : Nat) : ∀ (m : Proc) (i d : Nat) (bs : Bytes) (k : Nat) (rest : List (Nat × Job)), m.threads i = .writing d bs k rest → bs.length - k ≤ n →
    ∃ s m', Smooth s ∧ m.run S s = some m' ∧ Ended m i d m' := by
  induction n with
  | zero =>
    intro m i d bs k rest ht hn
    obtain ⟨m', hf⟩ := Option.isSome_iff_exists.mp (holder_moves (S := S) (d := d) (by rw [ht]; rfl : Holds d (m.threads i)) (.good 0))
    refine ⟨[(i, .good 0)], m', by simp [Smooth], by simp [Proc.run, hf], ?_⟩
    cases fire_moves hf with
    | write d' rest' bs' k' c' c mp b ht' hk hn' hf =>
      rw [ht] at ht'
      injection ht' with h1 h2 h3 h4
      subst h1 h2 h3 h4
      omega
    | saved d' rest' bs' k' mp b ht' hk hn' =>
      rw [ht] at ht'
      injection ht' with h1 h2 h3 h4
      subst h1 h2 h3 h4
      exact ended_done m i d _ _ _ (by rw [ht]; rfl)
    | fails d' rest' fs ht' hl hw hfs =>
      have hl' := hl
      rw [ht] at hl'
      injection hl' with h1 h2
      injection h1 with h1 _
      subst h1
      exact ended_done m i d _ _ _ hl
    | lock d' j' rest' ht' ho => rw [ht] at ht'; cases ht'
    | job d' j' rest' x ht' hx hs => rw [ht] at ht'; cases ht'
    | idle d' rest' ht' hc => rw [ht] at ht'; cases ht'
    | rename d' rest' mp bs' fs ht' hk hb hfs => rw [ht] at ht'; cases ht'
    | create d' rest' mp b bs' ht' hk hb => rw [ht] at ht'; cases ht'
  | succ n ih =>
    intro m i d bs k rest ht hn
    obtain ⟨m', hf⟩ := Option.isSome_iff_exists.mp (holder_moves (S := S) (d := d) (by rw [ht]; rfl : Holds d (m.threads i)) (.good 0))
    have once : Ended m i d m' → ∃ s m', Smooth s ∧ m.run S s = some m' ∧ Ended m i d m' :=
      fun h => ⟨[(i, .good 0)], m', by simp [Smooth], by simp [Proc.run, hf], h⟩
    have hm := fire_moves hf
    cases hm with
    | write d' rest' bs' k' c' c mp b ht' hk hn' hf' =>
      rw [ht] at ht'
      injection ht' with h1 h2 h3 h4
      subst h1 h2 h3 h4
      refine step_then hf ?_ (fun k hk => upd_ne _ _ hk) (ih _ i d bs (k + (c' + 1)) rest (upd_same _ _ _) (by omega))
      show left (upd m.threads i _ i) = _
      rw [upd_same, ht]; rfl
    | saved d' rest' bs' k' mp b ht' hk hn' =>
      rw [ht] at ht'
      injection ht' with h1 h2 h3 h4
      subst h1 h2 h3 h4
      exact once (ended_done m i d _ _ _ (by rw [ht]; rfl))
    | fails d' rest' fs ht' hl hw hfs =>
      have hl' := hl
      rw [ht] at hl'
      injection hl' with h1 h2
      injection h1 with h1 _
      subst h1
      exact once (ended_done m i d _ _ _ hl)
    | lock d' j' rest' ht' ho => rw [ht] at ht'; cases ht'
    | job d' j' rest' x ht' hx hs => rw [ht] at ht'; cases ht'
    | idle d' rest' ht' hc => rw [ht] at ht'; cases ht'
    | rename d' rest' mp bs' fs ht' hk hb hfs => rw [ht] at ht'; cases ht'
    | create d' rest' mp b bs' ht' hk hb => rw [ht] at ht'; cases ht'

theorem finish_renamed {S : Nat → Source} {m : Proc} {i d : Nat} {rest : List (Nat × Job)} (ht : m.threads i = .renamed d rest) :
    ∃ s m', Smooth s ∧ m.run S s = some m' ∧ Ended m i d m' := by
  obtain ⟨m', hf⟩ := Option.isSome_iff_exists.mp (holder_moves (S := S) (d := d) (by rw [ht]; rfl : Holds d (m.threads i)) (.good 0))
  have hm := fire_moves hf
  cases hm with
  | create d' rest' mp b bs' ht' hk hb =>
    rw [ht] at ht'
    injection ht' with h1 h2
    subst h1 h2
    refine step_then hf ?_ (fun k hk => upd_ne _ _ hk) (finish_writing _ _ i d bs' 0 rest (upd_same _ _ _) (Nat.le_refl _))
    show left (upd m.threads i _ i) = _
    rw [upd_same, ht]; rfl
  | fails d' rest' fs ht' hl hw hfs =>
    have hl' := hl
    rw [ht] at hl'
    injection hl' with h1 h2
    injection h1 with h1 _
    subst h1
    exact step_ends hf (ended_done m i d _ _ _ hl)
  | write d' rest' bs' k' c' c mp b ht' hk hn' hf' => rw [ht] at ht'; cases ht'
  | saved d' rest' bs' k' mp b ht' hk hn' => rw [ht] at ht'; cases ht'
  | lock d' j' rest' ht' ho => rw [ht] at ht'; cases ht'
  | job d' j' rest' x ht' hx hs => rw [ht] at ht'; cases ht'
  | idle d' rest' ht' hc => rw [ht] at ht'; cases ht'
  | rename d' rest' mp bs' fs ht' hk hb hfs => rw [ht] at ht'; cases ht'

theorem finish_holds {S : Nat → Source} {m : Proc} {i d : Nat} {j : Job} {rest : List (Nat × Job)} (ht : m.threads i = .holds d j rest) :
    ∃ s m', Smooth s ∧ m.run S s = some m' ∧ Ended m i d m' := by
  obtain ⟨m', hf⟩ := Option.isSome_iff_exists.mp (holder_moves (S := S) (d := d) (by rw [ht]; rfl : Holds d (m.threads i)) (.good 0))
  have hm := fire_moves hf
  cases hm with
  | job d' j' rest' x ht' hx hs =>
    rw [ht] at ht'
    injection ht' with h1 h2 h3
    subst h1 h2 h3
    exact step_ends hf (ended_done m i d _ _ _ (by rw [ht]; rfl))
  | idle d' rest' ht' hc =>
    rw [ht] at ht'
    injection ht' with h1 h2 h3
    subst h1 h2 h3
    exact step_ends hf (ended_done m i d _ _ _ (by rw [ht]; rfl))
  | rename d' rest' mp bs' fs ht' hk hb hfs =>
    rw [ht] at ht'
    injection ht' with h1 h2 h3
    subst h1 h2 h3
    refine step_then hf ?_ (fun k hk => upd_ne _ _ hk) (finish_renamed (rest := rest) (upd_same _ _ _))
    show left (upd m.threads i _ i) = _
    rw [upd_same, ht]; rfl
  | fails d' rest' fs ht' hl hw hfs =>
    have hl' := hl
    rw [ht] at hl'
    injection hl' with h1 h2
    injection h1 with h1 _
    subst h1
    exact step_ends hf (ended_done m i d _ _ _ hl)
  | create d' rest' mp b bs' ht' hk hb => rw [ht] at ht'; cases ht'
  | write d' rest' bs' k' c' c mp b ht' hk hn' hf' => rw [ht] at ht'; cases ht'
  | saved d' rest' bs' k' mp b ht' hk hn' => rw [ht] at ht'; cases ht'
  | lock d' j' rest' ht' ho => rw [ht] at ht'; cases ht'

/-- The jobs left to the first `n` threads. -/
def total (m : Proc) : Nat → Nat
  | 0 => 0
  | n + 1 => total m n + (left (m.threads n)).length

theorem total_ended {m m' : Proc} {i d : Nat} (h : Ended m i d m') : ∀ n, total m' n + (if i < n then (left (m.threads i)).length - (left (m.threads i)).tail.length else 0) = total m n := by
  intro n
  induction n with
  | zero => rfl
  | succ n ih =>
    unfold total
    by_cases hn : n = i
    · subst hn
      rw [if_neg (by omega)] at ih
      rw [if_pos (by omega), h.at_rest]
      show _ + (left (m.threads n)).tail.length + _ = _
      have : (left (m.threads n)).tail.length ≤ (left (m.threads n)).length := by simp
      omega
    · rw [h.others n hn]
      by_cases hlt : i < n
      · rw [if_pos hlt] at ih
        rw [if_pos (by omega)]
        omega
      · rw [if_neg hlt] at ih
        rw [if_neg (by omega)]
        omega

theorem finish_all {S : Nat → Source} (N : Nat) (n : Nat) : ∀ m : Proc, total m N = n → LockInv m → (∀ i, N ≤ i → m.threads i = .at []) →
    ∃ s m', Smooth s ∧ m.run S s = some m' ∧ ∀ i, left (m'.threads i) = [] := by
  induction n using Nat.strongRecOn with
  | ind n ih =>
    intro m hn hl hN
    -- one job can be ended
    have go : ∀ i d m1 s1, Smooth s1 → m.run S s1 = some m1 → left (m1.threads i) = left (m.threads i) → (∀ k, k ≠ i → m1.threads k = m.threads k) →
        Holds d (m1.threads i) → (∃ s m', Smooth s ∧ m1.run S s = some m' ∧ Ended m1 i d m') →
        ∃ s m', Smooth s ∧ m.run S s = some m' ∧ ∀ i, left (m'.threads i) = [] := by
      intro i d m1 s1 hs1 hr1 hl1 ho1 hh ⟨s2, m2, hs2, hr2, he⟩
      have hne : left (m.threads i) ≠ [] := by
        rw [← hl1]
        revert hh
        cases m1.threads i with
        | «at» l => exact fun h => h.elim
        | holds d' j l => intro _ h; cases h
        | renamed d' l => intro _ h; cases h
        | writing d' bs k l => intro _ h; cases h
      have hi : i < N := by
        refine Nat.lt_of_not_le (fun hx => hne ?_)
        rw [hN i hx]; rfl
      have he' : Ended m i d m2 := ended_trans hl1 ho1 he
      have hr : m.run S (s1 ++ s2) = some m2 := by rw [run_append, hr1]; exact hr2
      have ht := total_ended he' N
      rw [if_pos hi] at ht
      have hlen : 0 < (left (m.threads i)).length := List.length_pos_iff.mpr hne
      have htl : (left (m.threads i)).tail.length = (left (m.threads i)).length - 1 := by simp
      obtain ⟨s3, m3, hs3, hr3, hfin⟩ := ih (total m2 N) (by omega) m2 rfl
        (run_ind LockInv (fun _ _ _ _ h hm => move_lock h (fire_moves hm)) _ _ _ hl hr) (fun k hk => by rw [he'.others k (by omega), hN k hk])
      refine ⟨(s1 ++ s2) ++ s3, m3, ?_, by rw [run_append, hr]; exact hr3, hfin⟩
      intro x hx
      rcases List.mem_append.mp hx with hx | hx
      · rcases List.mem_append.mp hx with hx | hx
        · exact hs1 x hx
        · exact hs2 x hx
      · exact hs3 x hx
    by_cases hall : ∀ i, left (m.threads i) = []
    · exact ⟨[], m, fun x hx => (by cases hx), rfl, hall⟩
    by_cases hh : ∃ i d, Holds d (m.threads i)
    · obtain ⟨i, d, hh⟩ := hh
      refine go i d m [] (fun x hx => by cases hx) rfl rfl (fun _ _ => rfl) hh ?_
      cases ht : m.threads i with
      | «at» l => rw [ht] at hh; exact hh.elim
      | holds d' j l =>
        rw [ht] at hh
        have hh : d = d' := hh
        subst hh
        exact finish_holds ht
      | renamed d' l =>
        rw [ht] at hh
        have hh : d = d' := hh
        subst hh
        exact finish_renamed ht
      | writing d' bs k l =>
        rw [ht] at hh
        have hh : d = d' := hh
        subst hh
        exact finish_writing _ m i d bs k l ht (Nat.le_refl _)
    · obtain ⟨i, hi⟩ := Classical.not_forall.mp hall
      cases ht : m.threads i with
      | «at» l =>
        cases l with
        | nil => rw [ht] at hi; exact absurd rfl hi
        | cons x rest =>
          obtain ⟨d, j⟩ := x
          have ho : m.owner d = none := by
            cases ho : m.owner d with
            | none => rfl
            | some k => exact absurd ⟨k, d, (hl d k).mp ho⟩ hh
          have hf : m.fire S i (.good 0) = some { m with owner := upd m.owner d (some i), threads := upd m.threads i (.holds d j rest) } := by
            unfold Proc.fire; simp [ht, ho]
          refine go i d _ [(i, .good 0)] (by simp [Smooth]) (by simp only [Proc.run, hf]; rfl) ?_ (fun k hk => upd_ne _ _ hk) ?_ (finish_holds (j := j) (rest := rest) (upd_same _ _ _))
          · show left (upd m.threads i _ i) = _
            rw [upd_same, ht]; rfl
          · show Holds d (upd m.threads i _ i)
            rw [upd_same]; rfl
      | holds d' j l => exact absurd ⟨i, d', by rw [ht]; rfl⟩ hh
      | renamed d' l => exact absurd ⟨i, d', by rw [ht]; rfl⟩ hh
      | writing d' bs k l => exact absurd ⟨i, d', by rw [ht]; rfl⟩ hh

/-- C78: from every state which is reached (by any number of threads), all threads can end. -/
theorem can_finish {S : Nat → Source} {ds : Nat → CskkDict} {fs : FS} {ts : Nat → List (Nat × Job)} {s : List (Nat × Answer)} {m : Proc} (N : Nat)
    (hN : ∀ i, N ≤ i → ts i = []) (hr : (Proc.start ds fs ts).run S s = some m) :
    ∃ s' m', Smooth s' ∧ m.run S s' = some m' ∧ ∀ i, left (m'.threads i) = [] := by
  have hlock : LockInv m := run_ind LockInv (fun _ _ _ _ h hm => move_lock h (fire_moves hm)) s _ _ (start_lock _ _ _) hr
  refine finish_all N _ m rfl hlock (fun i hi => ?_)
  have h := order_kept hr i
  rw [hN i hi] at h
  have h := (List.append_eq_nil_iff.mp h).2
  revert h
  cases m.threads i with
  | «at» l => intro h; have h : l = [] := h; rw [h]
  | holds d j l => intro h; cases h
  | renamed d l => intro h; cases h
  | writing d bs n l => intro h; cases h

/-! ## The reference is the save and the reload of a single thread -/

/-- C78: `after` on `save` is the save of `Model/Session.lean`, if nothing fails. -/
theorem after_save {og : Source} {fs : FS} {x : CskkDict} {c : Bytes} (hf : fs og.path = some c) (henc : ∀ m, (saveBytes og.cd m).isSome) :
    (saveDict og fs x .completes).1 = (after og (x, c) .save).1 ∧ (Stored x → (saveDict og fs x .completes).2 og.path = some (after og (x, c) .save).2) := by
  unfold saveDict after
  have hb : bak og.path ≠ og.path := DictSave.bak_ne _
  cases hk : x.kind with
  | user m b =>
    cases b with
    | false =>
      refine ⟨?_, fun _ => ?_⟩
      · show ({ x with kind := .user m false } : CskkDict) = x
        rw [← hk]
      · exact hf
    | true =>
      obtain ⟨bs, hbs⟩ := Option.isSome_iff_exists.mp (henc m)
      simp [saveWith, FsOp.run, hf, hbs]
  | static m => exact ⟨rfl, fun _ => hf⟩
  | empty => exact ⟨rfl, fun _ => hf⟩

/-- C78: `after` on `reload` is the reload of `Model/Session.lean`. -/
theorem after_reload {og : Source} {fs : FS} {x : CskkDict} {c : Bytes} (hf : fs og.path = some c) : reloadDict fs og x = (after og (x, c) .reload).1 := by
  unfold reloadDict after
  cases hk : x.kind <;> simp [reload, hf]

/-- C78: UTF-8 can write everything. -/
theorem encodes_utf8 {S : Nat → Source} (h : ∀ d, (S d).cd = Utf8.utf8) : Encodes S := fun d m => by
  obtain ⟨bs, hbs⟩ := Persist.saveBytes_total Persist.total_utf8 m
  rw [h d, hbs]; rfl

/-- C78: an encoding which has the ASCII characters can write everything (words it cannot write are left out). -/
theorem encodes_ascii {S : Nat → Source} (h : ∀ d, ((S d).cd.enc c%";; okuri-ari entries.\n").isSome ∧ ((S d).cd.enc c%";; okuri-nasi entries.\n").isSome) : Encodes S := fun d m => by
  obtain ⟨bs, hbs⟩ := EucJp.saved_total (S d).cd m (h d).1 (h d).2
  rw [hbs]; rfl

/-! ## The same file twice -/

/-- Two user dictionaries on the file `d`, both changed. -/
def twice : Proc := .start (fun _ => Session.unsaved Persist.ai2) (fun p => if p = c%"d" then saveBytes Utf8.utf8 ((⟨[], []⟩ : DictMaps).select Persist.ai) else none)
  (fun i => [(i, .save)])

/-- C78, the boundary: two user dictionaries on the same file have different locks. Two threads which save them at the same time leave, if the program ends then, an
empty file and one byte in the backup: words which both files had are gone, although no call failed. -/
theorem torn : ((twice.run (fun _ => Session.userFile c%"d") [(0, .good 0), (0, .good 0), (0, .good 0), (0, .good 0), (1, .good 0), (1, .good 0), (1, .good 0)]).map fun m =>
    (m.fs c%"d", m.fs c%"d.BAK")) = some (some [], some [59]) ∧ (twice.fs c%"d").map (load Utf8.utf8) = some ((⟨[], []⟩ : DictMaps).select Persist.ai) := by
  decide +kernel

/-! ## An example -/

/-- A user dictionary `d` and a read-only one `j`. -/
def exampleSources : Nat → Source
  | 0 => Session.userFile c%"d"
  | 1 => ⟨c%"j", Utf8.utf8, true, .static⟩
  | _ => ⟨[], Utf8.utf8, true, .empty⟩

def exampleDicts : Nat → CskkDict
  | 0 => ⟨true, .user ⟨[], []⟩ false⟩
  | 1 => ⟨true, .static ⟨[], []⟩⟩
  | _ => ⟨true, .empty⟩

/-- Two threads learn a word each, and save. -/
def exampleThreads : Nat → List (Nat × Job)
  | 0 => [(1, .look), (0, .confirm Persist.ai), (0, .save)]
  | 1 => [(0, .confirm SameWords.umi), (0, .save), (0, .reload)]
  | _ => []

def exampleFiles : FS := fun p => if p = c%"d" then some [] else if p = c%"j" then some [] else none

theorem example_apart : Apart exampleSources exampleDicts := by
  intro d e hne hw hs
  obtain ⟨m, b, hw⟩ := hw
  match d with
  | 0 =>
    match e with
    | 0 => exact absurd rfl hne
    | 1 => decide
    | e + 2 => exact absurd rfl hs
  | 1 => cases hw
  | d + 2 => cases hw

theorem example_encodes : Encodes exampleSources := encodes_utf8 fun d => by
  match d with
  | 0 => rfl
  | 1 => rfl
  | d + 2 => rfl

theorem example_files (d : Nat) (h : Stored (exampleDicts d)) : exampleFiles (exampleSources d).path = some [] := by
  match d with
  | 0 => decide +kernel
  | 1 => decide +kernel
  | d + 2 => exact absurd rfl h

theorem example_inStep (d : Nat) (_ : Clean (exampleDicts d)) : InStep (exampleSources d) exampleFiles (exampleDicts d) := by
  match d with
  | 0 => exact ⟨[], by decide +kernel, .inr (by decide +kernel)⟩
  | 1 => exact ⟨[], by decide +kernel, by decide +kernel⟩
  | d + 2 => trivial

theorem example_saves (i : Nat) : Saves 0 (exampleThreads i) := by
  match i with
  | 0 => simp [exampleThreads, Saves, Changes]
  | 1 => simp [exampleThreads, Saves, Changes]
  | i + 2 => trivial

/-- The second thread locks the dictionary while the first looks into the other one, and waits for the first while that saves. -/
def exampleSchedule : List (Nat × Answer) :=
  [(0, .good 0), (1, .good 0), (0, .good 0), (1, .good 0), (0, .good 0), (0, .good 0), (0, .good 0), (0, .good 0), (0, .good 0), (0, .good 5), (0, .good 9),
    (0, .good 999), (0, .good 0), (1, .good 0), (1, .good 0), (1, .good 0), (1, .good 0)]

theorem example_smooth : Smooth exampleSchedule := by
  simp [Smooth, exampleSchedule]

/-- The end of the example: one word from each thread is in the dictionary and in the file; the save of the second thread was not needed. -/
theorem example_run : ((Proc.start exampleDicts exampleFiles exampleThreads).run exampleSources exampleSchedule).map (fun m =>
    (m.log.map (fun x => (x.1, x.2.1)), (m.dicts 0).kind, (m.fs c%"d").map (load Utf8.utf8), left (m.threads 0) |>.length, left (m.threads 1) |>.length)) =
    some ([(0, 1), (1, 0), (0, 0), (0, 0), (1, 0), (1, 0)], .user (((⟨[], []⟩ : DictMaps).select Persist.ai).select SameWords.umi) false,
      some (((⟨[], []⟩ : DictMaps).select Persist.ai).select SameWords.umi), 0, 0) := by
  decide +kernel

/-- In the middle of it, the file is torn, but the backup is complete. -/
example : ((Proc.start exampleDicts exampleFiles exampleThreads).run exampleSources (exampleSchedule.take 10)).map (fun m =>
    ((m.fs c%"d").map List.length, m.fs c%"d.BAK", m.owner 0)) = some (some 6, some [], some 0) := by
  decide +kernel

/-- The theorems apply to it. -/
example {m : Proc} (hr : (Proc.start exampleDicts exampleFiles exampleThreads).run exampleSources exampleSchedule = some m) (hend : ∀ i, left (m.threads i) = []) :
    Clean (m.dicts 0) ∧ InStep (exampleSources 0) m.fs (m.dicts 0) :=
  all_saved example_apart example_encodes (bs := fun _ => []) example_files example_smooth hr example_inStep hend 0
    example_saves (fun m hm => by cases hm)

end Cskk.Props.Disk

import Verif.Model.LruMap
import Verif.Spec.Recency

/-!
# Refinement of the pointer-based LRU map to a recency list: helper lemmas
-/

theorem List.mem_of_mem_dropLast' {α} {l : List α} {x : α} (h : x ∈ l.dropLast) : x ∈ l :=
  (List.dropLast_sublist l).mem h

theorem List.inj_of_nodup_map {α β} {f : α → β} {l : List α} (h : (l.map f).Nodup) {a b : α}
    (ha : a ∈ l) (hb : b ∈ l) (hab : f a = f b) : a = b := by
  induction l with
  | nil => cases ha
  | cons x xs ih =>
    simp only [List.map_cons, List.nodup_cons] at h
    rcases List.mem_cons.mp ha with h1 | h1 <;> rcases List.mem_cons.mp hb with h2 | h2
    · rw [h1, h2]
    · subst h1; exact absurd (hab ▸ List.mem_map_of_mem h2) h.1
    · subst h2; exact absurd (hab ▸ List.mem_map_of_mem h1) h.1
    · exact ih h.2 h1 h2

namespace Cskk.LruMap
open Cskk.Spec
variable {V : Type}

def nxt (h : LruHeap V) (p : Nat) : Option Nat := (h p).map (·.next)
def prv (h : LruHeap V) (p : Nat) : Option Nat := (h p).map (·.prev)
def kv (h : LruHeap V) (p : Nat) : Option (Option Str × Option V) := (h p).map fun n => (n.key, n.val)

/-- `xs` is a doubly linked segment of `h`. -/
def DLL (h : LruHeap V) : List Nat → Prop
  | x :: y :: r => nxt h x = some y ∧ prv h y = some x ∧ DLL h (y :: r)
  | _ => True

theorem dll_frame {h h' : LruHeap V} {xs : List Nat} (hd : DLL h xs)
    (hn : ∀ x ∈ xs.dropLast, nxt h' x = nxt h x) (hp : ∀ x ∈ xs.tail, prv h' x = prv h x) : DLL h' xs := by
  induction xs with
  | nil => trivial
  | cons x xs ih =>
    cases xs with
    | nil => trivial
    | cons y r =>
      obtain ⟨h1, h2, h3⟩ := hd
      refine ⟨by rw [hn x (by simp)]; exact h1, by rw [hp y (by simp)]; exact h2, ih h3 ?_ ?_⟩
      · intro z hz; exact hn z (by simp [hz])
      · intro z hz; exact hp z (by simp at hz ⊢; exact Or.inr hz)

theorem dll_append {h : LruHeap V} (l1 : List Nat) (x : Nat) (l2 : List Nat) :
    DLL h (l1 ++ x :: l2) ↔ DLL h (l1 ++ [x]) ∧ DLL h (x :: l2) := by
  induction l1 with
  | nil => simp [DLL]
  | cons a l1 ih =>
    cases l1 with
    | nil => simp [DLL, and_assoc]
    | cons b l1 =>
      simp only [List.cons_append, DLL] at ih ⊢
      rw [ih]; simp [and_assoc]

theorem modify_eq {h : LruHeap V} {p : Nat} {n : LruNode V} (f : LruNode V → LruNode V) (hp : h p = some n) :
    h.modify p f = some (fun q => if q = p then some (f n) else h q) := by
  simp [LruHeap.modify, hp]

/-- Effect of `detach` on three distinct consecutive nodes. -/
theorem detach_spec {h : LruHeap V} {a p b : Nat} (hap : a ≠ p) (hpb : p ≠ b)
    (h1 : nxt h p = some b) (h2 : prv h p = some a) (h3 : (h a).isSome) (h4 : (h b).isSome) :
    ∃ h', detach h p = some h' ∧
      (∀ q, nxt h' q = if q = a then some b else nxt h q) ∧
      (∀ q, prv h' q = if q = b then some a else prv h q) ∧
      (∀ q, kv h' q = kv h q) := by
  obtain ⟨na, hna⟩ := Option.isSome_iff_exists.mp h3
  obtain ⟨nb, hnb⟩ := Option.isSome_iff_exists.mp h4
  simp only [nxt, prv, Option.map_eq_some_iff] at h1 h2
  obtain ⟨n, hn, rfl⟩ := h1
  obtain ⟨n', hn', rfl⟩ := h2
  rw [hn] at hn'; cases hn'
  simp only [detach, hn, bind, Option.bind, modify_eq _ hna]
  have e1 : ¬ p = n.prev := fun e => hap e.symm
  simp only [e1, if_false]
  by_cases hab : n.next = n.prev
  · rw [modify_eq (n := { na with next := n.next })]
    · refine ⟨_, rfl, ?_, ?_, ?_⟩ <;> intro q <;> simp only [nxt, prv, kv] <;> by_cases hq : q = n.prev <;>
        simp [hq, hab, hna]
    · simp [hab]
  · rw [modify_eq (n := nb)]
    · refine ⟨_, rfl, ?_, ?_, ?_⟩ <;> intro q <;> simp only [nxt, prv, kv] <;> by_cases hq : q = n.prev <;>
        by_cases hq' : q = n.next <;> simp [*] <;> simp_all
    · simp [hab, hnb]

/-- Effect of `attach` of an allocated node `p` right after the head. -/
theorem attach_spec {h : LruHeap V} {hd r p : Nat} (hp : p ≠ hd) (hpr : p ≠ r)
    (h1 : nxt h hd = some r) (h2 : (h p).isSome) (h3 : (h r).isSome) :
    ∃ h', attach h hd p = some h' ∧
      (∀ q, nxt h' q = if q = hd then some p else if q = p then some r else nxt h q) ∧
      (∀ q, prv h' q = if q = r then some p else if q = p then some hd else prv h q) ∧
      (∀ q, kv h' q = kv h q) := by
  obtain ⟨np, hnp⟩ := Option.isSome_iff_exists.mp h2
  obtain ⟨nr, hnr⟩ := Option.isSome_iff_exists.mp h3
  simp only [nxt, Option.map_eq_some_iff] at h1
  obtain ⟨nh, hnh, rfl⟩ := h1
  simp only [attach, hnh, bind, Option.bind, modify_eq _ hnp]
  rw [modify_eq (n := { np with next := nh.next }) _ (by simp)]
  simp only
  have e : ¬ hd = p := fun e => hp e.symm
  rw [modify_eq (n := nh) _ (by simp [e, hnh])]
  simp only [hp, if_false, if_true]
  by_cases hrh : nh.next = hd
  · rw [modify_eq (n := { nh with next := p }) _ (by simp [hrh])]
    refine ⟨_, rfl, ?_, ?_, ?_⟩ <;> intro q <;> simp only [nxt, prv, kv] <;> by_cases hq : q = hd <;>
      by_cases hq' : q = p <;> simp [*] <;> simp_all
  · rw [modify_eq (n := nr) _ (by simp [hrh, hnr, Ne.symm hpr])]
    refine ⟨_, rfl, ?_, ?_, ?_⟩ <;> intro q <;> simp only [nxt, prv, kv] <;> by_cases hq : q = hd <;>
      by_cases hq' : q = p <;> by_cases hq'' : q = nh.next <;> simp [*] <;> simp_all

/-! ## The representation invariant -/

/-- `m` represents the list `L` of (address, key, value), most recent first. -/
structure Rep (m : LruMap V) (L : List (Nat × Str × V)) : Prop where
  nodup : (m.head :: (L.map (·.1) ++ [m.tail])).Nodup
  dll : DLL m.heap (m.head :: (L.map (·.1) ++ [m.tail]))
  node : ∀ e ∈ L, kv m.heap e.1 = some (some e.2.1, some e.2.2)
  alloc : ∀ q, (m.heap q).isSome ↔ q ∈ m.head :: (L.map (·.1) ++ [m.tail])
  fresh : ∀ q, (m.heap q).isSome → q < m.fresh
  keysNodup : (L.map (·.2.1)).Nodup
  map : ∀ k p, m.map k = some p ↔ ∃ v, (p, k, v) ∈ L
  keys : ∀ k, k ∈ m.keys ↔ ∃ e ∈ L, e.2.1 = k
  sorted : m.keys.Pairwise (fun a b => strLt a b = true)

theorem rep_new : Rep (new : LruMap V) [] where
  nodup := by simp [new]
  dll := by simp [new, DLL, nxt, prv]
  node := by simp
  alloc := by
    intro q; simp only [new, List.map_nil, List.nil_append, List.mem_cons, List.not_mem_nil, or_false]
    by_cases h1 : q = 1 <;> by_cases h2 : q = 2 <;> simp [h1, h2]
  fresh := by
    intro q; simp only [new]
    by_cases h1 : q = 1 <;> by_cases h2 : q = 2 <;> simp [h1, h2]
  keysNodup := by simp
  map := by simp [new]
  keys := by simp [new]
  sorted := by simp [new]

/-- A nodup list splits uniquely; facts about a linked middle element. -/
theorem dll_mid {h : LruHeap V} {A B : List Nat} {a p b : Nat} (hd : DLL h (A ++ a :: p :: b :: B)) :
    nxt h a = some p ∧ prv h p = some a ∧ nxt h p = some b ∧ prv h b = some p := by
  rw [dll_append] at hd
  obtain ⟨_, h1, h2, h3, h4, _⟩ := hd
  exact ⟨h1, h2, h3, h4⟩

/-- Unlinking the middle element. -/
theorem dll_unlink {h h' : LruHeap V} {A B : List Nat} {a p b : Nat}
    (hnd : (A ++ a :: p :: b :: B).Nodup) (hd : DLL h (A ++ a :: p :: b :: B))
    (hn : ∀ q, nxt h' q = if q = a then some b else nxt h q)
    (hp : ∀ q, prv h' q = if q = b then some a else prv h q) : DLL h' (A ++ a :: b :: B) := by
  rw [dll_append] at hd ⊢
  have hd2 := hd.2.2.2.2.2
  simp only [List.nodup_append, List.nodup_cons, List.mem_cons, not_or] at hnd
  obtain ⟨hA, ⟨⟨hap, hab, haB⟩, ⟨hpb, hpB⟩, hbB, hB⟩, hdis⟩ := hnd
  constructor
  · apply dll_frame hd.1
    · intro x hx
      have hxA : x ∈ A := by simpa using hx
      rw [hn, if_neg (hdis x hxA a (by simp))]
    · intro x hx
      rw [hp, if_neg]
      intro e; subst e
      have : x ∈ A ++ [a] := List.mem_of_mem_tail hx
      rcases List.mem_append.mp this with h1 | h1
      · exact hdis x h1 x (by simp) rfl
      · simp at h1; exact hab h1.symm
  · refine ⟨by rw [hn, if_pos rfl], by rw [hp, if_pos rfl], ?_⟩
    apply dll_frame hd2
    · intro x hx
      rw [hn, if_neg]
      intro e; subst e
      have := List.mem_of_mem_dropLast' hx
      rcases List.mem_cons.mp this with h1 | h1
      · exact hab h1
      · exact haB h1
    · intro x hx
      rw [hp, if_neg]
      intro e; subst e
      simp at hx; exact hbB hx

/-- Linking a new element after the head. -/
theorem dll_link {h h' : LruHeap V} {B : List Nat} {hd p r : Nat}
    (hnd : (hd :: r :: B).Nodup) (hpn : p ∉ hd :: r :: B) (hdl : DLL h (hd :: r :: B))
    (hn : ∀ q, nxt h' q = if q = hd then some p else if q = p then some r else nxt h q)
    (hp : ∀ q, prv h' q = if q = r then some p else if q = p then some hd else prv h q) :
    DLL h' (hd :: p :: r :: B) := by
  simp only [List.nodup_cons, List.mem_cons, not_or] at hnd hpn
  refine ⟨by rw [hn, if_pos rfl], by rw [hp, if_neg hpn.2.1, if_pos rfl],
    by rw [hn, if_neg hpn.1, if_pos rfl], by rw [hp, if_pos rfl], ?_⟩
  apply dll_frame hdl.2.2
  · intro x hx
    have hx' := List.mem_of_mem_dropLast' hx
    rw [hn, if_neg, if_neg]
    · intro e; subst e; rcases List.mem_cons.mp hx' with h1 | h1
      · exact hpn.2.1 h1
      · exact hpn.2.2 h1
    · intro e; subst e; rcases List.mem_cons.mp hx' with h1 | h1
      · exact hnd.1.1 h1
      · exact hnd.1.2 h1
  · intro x hx
    simp at hx
    rw [hp, if_neg, if_neg]
    · intro e; subst e; exact hpn.2.2 hx
    · intro e; subst e; exact hnd.2.1 hx

theorem isSome_of_nxt {h : LruHeap V} {p q : Nat} (e : nxt h p = some q) : (h p).isSome := by
  simp only [nxt, Option.map_eq_some_iff] at e; obtain ⟨n, hn, _⟩ := e; simp [hn]

theorem isSome_of_kv {h h' : LruHeap V} {q : Nat} (e : kv h' q = kv h q) : (h' q).isSome = (h q).isSome := by
  simp only [kv] at e
  cases h1 : h' q <;> cases h2 : h q <;> simp_all

/-- Detaching an element of a represented list. -/
theorem rep_detach {m : LruMap V} {L1 L2 : List (Nat × Str × V)} {e : Nat × Str × V}
    (r : Rep m (L1 ++ e :: L2)) :
    ∃ h', detach m.heap e.1 = some h' ∧ DLL h' (m.head :: ((L1 ++ L2).map (·.1) ++ [m.tail])) ∧
      (∀ q, kv h' q = kv m.heap q) := by
  -- the neighbours
  obtain ⟨A, a, hA⟩ : ∃ A a, m.head :: L1.map (·.1) = A ++ [a] := by
    rcases List.eq_nil_or_concat (m.head :: L1.map (·.1)) with h | ⟨A, a, h⟩
    · cases h
    · exact ⟨A, a, by simpa using h⟩
  obtain ⟨b, B, hB⟩ : ∃ b B, L2.map (·.1) ++ [m.tail] = b :: B := by
    cases L2 with
    | nil => exact ⟨_, _, rfl⟩
    | cons x xs => exact ⟨_, _, rfl⟩
  have hall : m.head :: ((L1 ++ e :: L2).map (·.1) ++ [m.tail]) = A ++ a :: e.1 :: b :: B := by
    calc _ = (m.head :: L1.map (·.1)) ++ e.1 :: (L2.map (·.1) ++ [m.tail]) := by simp
      _ = _ := by rw [hA, hB]; simp
  have hall' : m.head :: ((L1 ++ L2).map (·.1) ++ [m.tail]) = A ++ a :: b :: B := by
    calc _ = (m.head :: L1.map (·.1)) ++ (L2.map (·.1) ++ [m.tail]) := by simp
      _ = _ := by rw [hA, hB]; simp
  have hnd := r.nodup; have hdl := r.dll
  rw [hall] at hnd hdl
  obtain ⟨h1, h2, h3, h4⟩ := dll_mid hdl
  have hnd' := hnd
  simp only [List.nodup_append, List.nodup_cons, List.mem_cons, not_or] at hnd'
  have hsa : (m.heap a).isSome := isSome_of_nxt h1
  have hsb : (m.heap b).isSome := by
    rw [r.alloc, hall]; simp
  obtain ⟨h', e1, e2, e3, e4⟩ := detach_spec hnd'.2.1.1.1 hnd'.2.1.2.1.1 h3 h2 hsa hsb
  exact ⟨h', e1, by rw [hall']; exact dll_unlink hnd hdl e2 e3, e4⟩

/-- Attaching an allocated, unlinked node. -/
theorem dll_attach {h : LruHeap V} {hd tl p : Nat} {ps : List Nat}
    (hnd : (hd :: (ps ++ [tl])).Nodup) (hdl : DLL h (hd :: (ps ++ [tl])))
    (hp : p ∉ hd :: (ps ++ [tl])) (hsp : (h p).isSome) (hal : ∀ q ∈ hd :: (ps ++ [tl]), (h q).isSome) :
    ∃ h', attach h hd p = some h' ∧ DLL h' (hd :: p :: (ps ++ [tl])) ∧ (∀ q, kv h' q = kv h q) := by
  obtain ⟨r, B, hB⟩ : ∃ r B, ps ++ [tl] = r :: B := by
    cases ps with
    | nil => exact ⟨_, _, rfl⟩
    | cons x xs => exact ⟨_, _, rfl⟩
  rw [hB] at hnd hdl hp hal ⊢
  have hp' := hp
  simp only [List.mem_cons, not_or] at hp'
  obtain ⟨h', e1, e2, e3, e4⟩ := attach_spec hp'.1 hp'.2.1 hdl.1 hsp (hal r (by simp))
  exact ⟨h', e1, dll_link hnd hp hdl e2 e3, e4⟩

theorem isSome_kv {h : LruHeap V} {q : Nat} : (h q).isSome = (kv h q).isSome := by
  simp [kv]

/-- Moving an existing element to the front. -/
theorem rep_touch {m : LruMap V} {L1 L2 : List (Nat × Str × V)} {e : Nat × Str × V}
    (r : Rep m (L1 ++ e :: L2)) :
    ∃ h1 h2, detach m.heap e.1 = some h1 ∧ attach h1 m.head e.1 = some h2 ∧
      Rep { m with heap := h2 } (e :: (L1 ++ L2)) := by
  obtain ⟨h1, e1, d1, k1⟩ := rep_detach r
  have hperm : (m.head :: ((L1 ++ e :: L2).map (·.1) ++ [m.tail])).Perm
      (e.1 :: (m.head :: ((L1 ++ L2).map (·.1) ++ [m.tail]))) := by
    simp only [List.map_append, List.map_cons, List.append_assoc, List.cons_append]
    exact (List.Perm.cons _ List.perm_middle).trans (List.Perm.swap _ _ _)
  have hnd := hperm.nodup_iff.mp r.nodup
  obtain ⟨hnin, hnd'⟩ := List.nodup_cons.mp hnd
  have hs : ∀ q, (h1 q).isSome = (m.heap q).isSome := fun q => by rw [isSome_kv, isSome_kv, k1]
  obtain ⟨h2, e2, d2, k2⟩ := dll_attach hnd' d1 hnin
    (by rw [hs, r.alloc]; simp) (by intro q hq; rw [hs, r.alloc]; exact hperm.mem_iff.mpr (List.mem_cons_of_mem _ hq))
  have hkv : ∀ q, kv h2 q = kv m.heap q := fun q => by rw [k2, k1]
  have hLp : (L1 ++ e :: L2).Perm (e :: (L1 ++ L2)) := List.perm_middle
  refine ⟨h1, h2, e1, e2, ?_⟩
  exact {
    nodup := by
      refine (List.Perm.nodup_iff ?_).mp hnd
      simp only [List.map_cons, List.cons_append]; exact List.Perm.swap _ _ _
    dll := by simpa using d2
    node := by intro x hx; simp only; rw [hkv]; exact r.node x (hLp.mem_iff.mpr hx)
    alloc := by
      intro q; simp only [isSome_kv, hkv]; rw [← isSome_kv, r.alloc, hperm.mem_iff]
      simp only [List.map_cons, List.cons_append, List.mem_cons]; constructor <;> rintro (h | h | h) <;> first | exact Or.inl h | exact Or.inr (Or.inl h) | exact Or.inr (Or.inr h)
    fresh := by intro q; simp only [isSome_kv, hkv]; rw [← isSome_kv]; exact r.fresh q
    keysNodup := (hLp.map _).nodup_iff.mp r.keysNodup
    map := by intro k p; rw [r.map]; simp only [hLp.mem_iff]
    keys := by intro k; rw [r.keys]; simp only [hLp.mem_iff]
    sorted := r.sorted }

/-- Overwriting the value of the front element. -/
theorem rep_setval {m : LruMap V} {L : List (Nat × Str × V)} {p : Nat} {k : Str} {v v' : V}
    (r : Rep m ((p, k, v) :: L)) :
    ∃ h', m.heap.modify p (fun n => { n with val := some v' }) = some h' ∧
      Rep { m with heap := h' } ((p, k, v') :: L) := by
  have hs : (m.heap p).isSome := by rw [r.alloc]; simp
  obtain ⟨n, hn⟩ := Option.isSome_iff_exists.mp hs
  have hk : n.key = some k ∧ n.val = some v := by
    have := r.node (p, k, v) (by simp); simpa [kv, hn] using this
  refine ⟨_, modify_eq _ hn, ?_⟩
  have hnx : ∀ q, nxt (fun q => if q = p then some { n with val := some v' } else m.heap q) q = nxt m.heap q := by
    intro q; by_cases h : q = p <;> simp [nxt, h, hn]
  have hpx : ∀ q, prv (fun q => if q = p then some { n with val := some v' } else m.heap q) q = prv m.heap q := by
    intro q; by_cases h : q = p <;> simp [prv, h, hn]
  have hsx : ∀ q, ((fun q => if q = p then some { n with val := some v' } else m.heap q) q).isSome
      = (m.heap q).isSome := by
    intro q; by_cases h : q = p <;> simp [h, hn]
  have hnd := r.nodup
  exact {
    nodup := r.nodup
    dll := dll_frame r.dll (fun x _ => hnx x) (fun x _ => hpx x)
    node := by
      intro e he
      rcases List.mem_cons.mp he with h | h
      · subst h; simp [kv, hk.1]
      · have : e.1 ≠ p := by
          intro e'
          simp only [List.map_cons, List.cons_append, List.nodup_cons] at hnd
          exact hnd.2.1 (by simp; left; exact ⟨e.2.1, e.2.2, by rw [← e']; exact h⟩)
        simp only [kv, if_neg this]
        exact r.node e (List.mem_cons_of_mem _ h)
    alloc := by intro q; simp only; rw [hsx]; simpa using r.alloc q
    fresh := by intro q; simp only; rw [hsx]; exact r.fresh q
    keysNodup := by simpa using r.keysNodup
    map := by
      intro k' p'; rw [r.map]
      simp only [List.mem_cons, Prod.mk.injEq]
      constructor
      · rintro ⟨w, h | h⟩
        · exact ⟨v', Or.inl ⟨h.1, h.2.1, rfl⟩⟩
        · exact ⟨w, Or.inr h⟩
      · rintro ⟨w, h | h⟩
        · exact ⟨v, Or.inl ⟨h.1, h.2.1, rfl⟩⟩
        · exact ⟨w, Or.inr h⟩
    keys := by intro k'; rw [r.keys]; simp
    sorted := r.sorted }

/-! ## Sorted insertion -/

theorem insertKey_mem (k x : Str) (ks : List Str) : x ∈ insertKey k ks ↔ x = k ∨ x ∈ ks := by
  unfold insertKey
  have := List.takeWhile_append_dropWhile (p := fun x => strLt x k) (l := ks)
  conv => rhs; rw [← this]
  simp only [List.mem_append, List.mem_cons]
  grind

theorem dropWhile_ge (k : Str) (ks : List Str) (hs : ks.Pairwise (fun a b => strLt a b = true)) (hk : k ∉ ks) :
    ∀ x ∈ ks.dropWhile (fun x => strLt x k), strLt k x = true := by
  induction ks with
  | nil => simp
  | cons y ys ih =>
    rw [List.pairwise_cons] at hs
    simp only [List.mem_cons, not_or] at hk
    intro x hx
    by_cases h : strLt y k = true
    · rw [List.dropWhile_cons_of_pos (p := fun x => strLt x k) h] at hx
      exact ih hs.2 hk.2 x hx
    · rw [List.dropWhile_cons_of_neg (p := fun x => strLt x k) h] at hx
      have hky : strLt k y = true := by
        rcases strLt_total k y with h1 | h1 | h1
        · exact h1
        · exact absurd h1 hk.1
        · exact absurd h1 h
      rcases List.mem_cons.mp hx with h1 | h1
      · rw [h1]; exact hky
      · exact strLt_trans hky (hs.1 x h1)

theorem takeWhile_all {α} (p : α → Bool) (l : List α) : ∀ x ∈ l.takeWhile p, p x = true := by
  induction l with
  | nil => simp
  | cons y ys ih =>
    simp only [List.takeWhile_cons]
    split
    · intro x hx; rcases List.mem_cons.mp hx with h | h
      · rw [h]; assumption
      · exact ih x h
    · simp

theorem insertKey_sorted (k : Str) (ks : List Str) (hs : ks.Pairwise (fun a b => strLt a b = true)) (hk : k ∉ ks) :
    (insertKey k ks).Pairwise (fun a b => strLt a b = true) := by
  unfold insertKey
  rw [List.pairwise_append, List.pairwise_cons]
  refine ⟨hs.sublist (List.takeWhile_sublist _), ⟨dropWhile_ge k ks hs hk, hs.sublist (List.dropWhile_sublist _)⟩, ?_⟩
  intro a ha b hb
  have h1 : strLt a k = true := takeWhile_all _ _ a ha
  rcases List.mem_cons.mp hb with h | h
  · rw [h]; exact h1
  · exact strLt_trans h1 (dropWhile_ge k ks hs hk b h)

/-! ## The abstraction function and the operations -/

/-- The recency list represented by a pointer-annotated list. -/
def absL (L : List (Nat × Str × V)) : Recency V := L.map (·.2)

theorem find_absL_none {L : List (Nat × Str × V)} {k : Str} (h : ¬ ∃ e ∈ L, e.2.1 = k) :
    (absL L).find k = none ∧ (absL L).erase k = absL L := by
  constructor
  · simp only [Recency.find, absL, Option.map_eq_none_iff, List.find?_eq_none, List.mem_map]
    rintro x ⟨e, he, rfl⟩ hx
    exact h ⟨e, he, by simpa using hx⟩
  · simp only [Recency.erase, absL, List.filter_eq_self, List.mem_map]
    rintro x ⟨e, he, rfl⟩
    simp only [ne_eq, decide_eq_true_eq]
    exact fun e' => h ⟨e, he, e'⟩

theorem find_absL_some {L1 L2 : List (Nat × Str × V)} {p : Nat} {k : Str} {v : V}
    (h : ((L1 ++ (p, k, v) :: L2).map (·.2.1)).Nodup) :
    (absL (L1 ++ (p, k, v) :: L2)).find k = some v ∧
    (absL (L1 ++ (p, k, v) :: L2)).erase k = absL (L1 ++ L2) := by
  simp only [List.map_append, List.map_cons, List.nodup_append, List.nodup_cons] at h
  obtain ⟨_, ⟨h1, _⟩, h2⟩ := h
  have n1 : ¬ ∃ e ∈ L1, e.2.1 = k := by
    rintro ⟨e, he, rfl⟩
    exact h2 e.2.1 (List.mem_map.mpr ⟨e, he, rfl⟩) _ List.mem_cons_self rfl
  have n2 : ¬ ∃ e ∈ L2, e.2.1 = k := by
    rintro ⟨e, he, rfl⟩
    exact h1 (List.mem_map.mpr ⟨e, he, rfl⟩)
  have a1 := find_absL_none n1
  have a2 := find_absL_none n2
  constructor
  · simp only [Recency.find, absL, List.map_append, List.map_cons, List.find?_append]
    have : List.find? (fun e : Str × V => decide (e.1 = k)) (L1.map (·.2)) = none := by
      have := a1.1; simpa [Recency.find, absL] using this
    rw [this]; simp
  · have e1 := a1.2; have e2 := a2.2
    simp only [Recency.erase, absL] at e1 e2 ⊢
    simp only [List.map_append, List.map_cons, List.filter_append, List.filter_cons, e1, e2]
    simp

theorem rep_push {m : LruMap V} {L : List (Nat × Str × V)} (r : Rep m L) (k : Str) (v : V) :
    ∃ m' L', m.push k v = some m' ∧ Rep m' L' ∧ absL L' = (absL L).push k v := by
  unfold push
  cases hm : m.map k with
  | some p =>
    obtain ⟨v0, hv0⟩ := (r.map k p).mp hm
    obtain ⟨L1, L2, rfl⟩ := List.append_of_mem hv0
    -- first the value is overwritten, then the node is moved
    have hs : (m.heap p).isSome := by rw [r.alloc]; simp
    obtain ⟨n, hn⟩ := Option.isSome_iff_exists.mp hs
    have hset : m.heap.modify p (fun n => { n with val := some v }) =
      some (fun q => if q = p then some { n with val := some v } else m.heap q) := modify_eq _ hn
    have hk : n.key = some k := by
      have := r.node (p, k, v0) (by simp); simp [kv, hn] at this; exact this.1
    have r' : Rep { m with heap := fun q => if q = p then some { n with val := some v } else m.heap q }
        (L1 ++ (p, k, v) :: L2) := by
      have hnd := r.nodup
      exact {
        nodup := by simpa using r.nodup
        dll := by
          have := r.dll
          simp only [List.map_append, List.map_cons] at this ⊢
          apply dll_frame this
          · intro q _; by_cases h : q = p <;> simp [nxt, h, hn]
          · intro q _; by_cases h : q = p <;> simp [prv, h, hn]
        node := by
          intro e he
          by_cases hep : e = (p, k, v)
          · subst hep; simp [kv, hk]
          · have he' : e ∈ L1 ∨ e ∈ L2 := by
              simp only [List.mem_append, List.mem_cons] at he
              rcases he with h | h | h
              · exact Or.inl h
              · exact absurd h hep
              · exact Or.inr h
            have hne : e.1 ≠ p := by
              intro h
              simp only [List.map_append, List.map_cons, List.append_assoc, List.cons_append, List.nodup_cons,
                List.nodup_append] at hnd
              rcases he' with h' | h'
              · exact hnd.2.2.2 e.1 (List.mem_map_of_mem h') p (by simp) h
              · apply hnd.2.2.1.1; rw [← h]; simp; left; exact ⟨e.2.1, e.2.2, h'⟩
            simp only [kv, if_neg hne]
            refine r.node e ?_
            rcases he' with h | h <;> simp [h]
        alloc := by
          intro q
          have := r.alloc q
          by_cases h : q = p
          · subst h; simp
          · simp only [if_neg h]; simpa using this
        fresh := by
          intro q hq
          by_cases h : q = p
          · subst h; exact r.fresh q hs
          · simp only [if_neg h] at hq; exact r.fresh q hq
        keysNodup := by simpa using r.keysNodup
        map := by
          intro k' p'; rw [r.map]
          simp only [List.mem_append, List.mem_cons, Prod.mk.injEq]
          constructor
          · rintro ⟨w, h | h | h⟩
            · exact ⟨w, Or.inl h⟩
            · exact ⟨v, Or.inr (Or.inl ⟨h.1, h.2.1, rfl⟩)⟩
            · exact ⟨w, Or.inr (Or.inr h)⟩
          · rintro ⟨w, h | h | h⟩
            · exact ⟨w, Or.inl h⟩
            · exact ⟨v0, Or.inr (Or.inl ⟨h.1, h.2.1, rfl⟩)⟩
            · exact ⟨w, Or.inr (Or.inr h)⟩
        keys := by
          intro k'; rw [r.keys]
          simp only [List.mem_append, List.mem_cons]
          constructor
          · rintro ⟨e, h | h | h, he⟩
            · exact ⟨e, Or.inl h, he⟩
            · subst h; exact ⟨_, Or.inr (Or.inl rfl), he⟩
            · exact ⟨e, Or.inr (Or.inr h), he⟩
          · rintro ⟨e, h | h | h, he⟩
            · exact ⟨e, Or.inl h, he⟩
            · subst h; exact ⟨_, Or.inr (Or.inl rfl), he⟩
            · exact ⟨e, Or.inr (Or.inr h), he⟩
        sorted := r.sorted }
    obtain ⟨h1, h2, e1, e2, r2⟩ := rep_touch r'
    refine ⟨{ m with heap := h2 }, _, ?_, r2, ?_⟩
    · simp only [hset, bind, Option.bind]
      simp only at e1 e2
      simp only [e1, e2, pure]
    · have := find_absL_some r.keysNodup
      simp only [Recency.push, this.2]; simp [absL]
  | none =>
    have hnk : ¬ ∃ e ∈ L, e.2.1 = k := by
      rintro ⟨e, he, rfl⟩
      have := (r.map e.2.1 e.1).mpr ⟨e.2.2, he⟩
      rw [hm] at this; cases this
    have hkk : k ∉ m.keys := by rw [r.keys]; exact hnk
    have hpf : m.heap m.fresh = none := by
      cases h : m.heap m.fresh with
      | none => rfl
      | some n => exact absurd (r.fresh m.fresh (by simp [h])) (Nat.lt_irrefl _)
    have hpn : m.fresh ∉ m.head :: (L.map (·.1) ++ [m.tail]) := by
      intro h; have := (r.alloc m.fresh).mpr h; simp [hpf] at this
    have hfr : ∀ q, q ∈ m.head :: (L.map (·.1) ++ [m.tail]) → q ≠ m.fresh := fun q hq e => hpn (e ▸ hq)
    let h0 : LruHeap V := fun q => if q = m.fresh then some ⟨some k, some v, 0, 0⟩ else m.heap q
    have d0 : DLL h0 (m.head :: (L.map (·.1) ++ [m.tail])) := by
      apply dll_frame r.dll
      · intro x hx; simp only [nxt, h0, if_neg (hfr x (List.mem_of_mem_dropLast' hx))]
      · intro x hx; simp only [prv, h0, if_neg (hfr x (List.mem_of_mem_tail hx))]
    obtain ⟨h', e', d', k'⟩ := dll_attach r.nodup d0 hpn (by simp [h0])
      (by intro q hq; simp only [h0, if_neg (hfr q hq)]; exact (r.alloc q).mpr hq)
    refine ⟨{ m with heap := h', fresh := m.fresh + 1, keys := insertKey k m.keys,
                     map := fun k' => if k' = k then some m.fresh else m.map k' },
      (m.fresh, k, v) :: L, ?_, ?_, ?_⟩
    · simp only [bind, Option.bind]
      rw [show attach (fun q => if q = m.fresh then some ⟨some k, some v, 0, 0⟩ else m.heap q) m.head m.fresh
        = some h' from e']
      rfl
    · exact {
        nodup := by
          simp only [List.map_cons, List.cons_append]
          have := List.nodup_cons.mpr ⟨hpn, r.nodup⟩
          exact (List.Perm.swap _ _ _).nodup_iff.mp this
        dll := by simpa using d'
        node := by
          intro e he
          rw [k']
          rcases List.mem_cons.mp he with h | h
          · subst h; simp [kv, h0]
          · have : e.1 ≠ m.fresh := hfr e.1 (by simp; right; left; exact ⟨e.2.1, e.2.2, h⟩)
            simp only [kv, h0, if_neg this]; exact r.node e h
        alloc := by
          intro q
          simp only
          rw [isSome_kv, k', ← isSome_kv]
          by_cases hq : q = m.fresh
          · simp [h0, hq]
          · simp only [h0, if_neg hq]
            rw [r.alloc]; simp only [List.map_cons, List.cons_append, List.mem_cons]
            simp [hq]
        fresh := by
          intro q
          simp only
          rw [isSome_kv, k', ← isSome_kv]
          by_cases hq : q = m.fresh
          · intro _; omega
          · simp only [h0, if_neg hq]; intro h; have := r.fresh q h; omega
        keysNodup := by
          simp only [List.map_cons, List.nodup_cons]
          refine ⟨?_, r.keysNodup⟩
          intro h; obtain ⟨e, he, h'⟩ := List.mem_map.mp h; exact hnk ⟨e, he, h'⟩
        map := by
          intro k1 p1
          simp only
          split
          · rename_i h; subst h
            simp only [List.mem_cons, Prod.mk.injEq, Option.some.injEq]
            constructor
            · intro h; exact ⟨v, Or.inl ⟨h.symm, by simp⟩⟩
            · rintro ⟨w, h | h⟩
              · exact h.1.symm
              · exact absurd ⟨_, h, rfl⟩ hnk
          · rename_i h
            rw [r.map]
            simp only [List.mem_cons, Prod.mk.injEq, h, false_and, and_false, false_or]
        keys := by
          intro k1
          simp only
          rw [insertKey_mem, r.keys]
          simp only [List.mem_cons]
          constructor
          · rintro (h | ⟨e, he, h⟩)
            · subst h; exact ⟨_, Or.inl rfl, rfl⟩
            · exact ⟨e, Or.inr he, h⟩
          · rintro ⟨e, h | h, he⟩
            · subst h; exact Or.inl he.symm
            · exact Or.inr ⟨e, h, he⟩
        sorted := insertKey_sorted k m.keys r.sorted hkk }
    · simp only [Recency.push, (find_absL_none hnk).2]; simp [absL]

theorem rep_getMut {m : LruMap V} {L : List (Nat × Str × V)} (r : Rep m L) (k : Str) (f : V → V) :
    ∃ m' L', m.getMut k f = some (m', (absL L).find k) ∧ Rep m' L' ∧ absL L' = (absL L).touch k f := by
  unfold getMut
  cases hm : m.map k with
  | none =>
    have hnk : ¬ ∃ e ∈ L, e.2.1 = k := by
      rintro ⟨e, he, rfl⟩
      have := (r.map e.2.1 e.1).mpr ⟨e.2.2, he⟩
      rw [hm] at this; cases this
    have := find_absL_none hnk
    exact ⟨m, L, by simp [this.1], r, by simp [Recency.touch, this.1]⟩
  | some p =>
    obtain ⟨v, hv⟩ := (r.map k p).mp hm
    obtain ⟨L1, L2, rfl⟩ := List.append_of_mem hv
    have hf := find_absL_some r.keysNodup
    obtain ⟨h1, h2, e1, e2, r2⟩ := rep_touch r
    obtain ⟨h3, e3, r3⟩ := rep_setval (v' := f v) r2
    simp only at e1 e2 e3
    refine ⟨{ m with heap := h3 }, _, ?_, r3, ?_⟩
    · have hs := r2.node (p, k, v) (by simp)
      simp only [kv, Option.map_eq_some_iff] at hs
      obtain ⟨n, hn, hnv⟩ := hs
      have hnv' : n.val = some v := by simp at hnv; exact hnv.2
      simp only [e1, e2, bind, Option.bind, hn, hnv', e3, hf.1]; rfl
    · simp only [Recency.touch, hf.1, hf.2]; simp [absL]

theorem rep_peek {m : LruMap V} {L : List (Nat × Str × V)} (r : Rep m L) (k : Str) :
    m.peek k = some ((absL L).find k) := by
  unfold peek
  cases hm : m.map k with
  | none =>
    have hnk : ¬ ∃ e ∈ L, e.2.1 = k := by
      rintro ⟨e, he, rfl⟩
      have := (r.map e.2.1 e.1).mpr ⟨e.2.2, he⟩
      rw [hm] at this; cases this
    simp [(find_absL_none hnk).1]
  | some p =>
    obtain ⟨v, hv⟩ := (r.map k p).mp hm
    have hn := r.node _ hv
    obtain ⟨L1, L2, rfl⟩ := List.append_of_mem hv
    have hf := find_absL_some r.keysNodup
    simp only [kv, Option.map_eq_some_iff] at hn
    obtain ⟨n, hn, hnv⟩ := hn
    have hnv' : n.val = some v := by simp at hnv; exact hnv.2
    simp [hn, hnv', hf.1]

theorem rep_remove {m : LruMap V} {L : List (Nat × Str × V)} (r : Rep m L) (k : Str) :
    ∃ m' L', m.remove k = some (m', (absL L).find k) ∧ Rep m' L' ∧ absL L' = (absL L).erase k := by
  unfold remove
  cases hm : m.map k with
  | none =>
    have hnk : ¬ ∃ e ∈ L, e.2.1 = k := by
      rintro ⟨e, he, rfl⟩
      have := (r.map e.2.1 e.1).mpr ⟨e.2.2, he⟩
      rw [hm] at this; cases this
    have := find_absL_none hnk
    exact ⟨m, L, by simp [this.1], r, by simp [this.2]⟩
  | some p =>
    obtain ⟨v, hv⟩ := (r.map k p).mp hm
    obtain ⟨L1, L2, rfl⟩ := List.append_of_mem hv
    have hf := find_absL_some r.keysNodup
    obtain ⟨h1, e1, d1, k1⟩ := rep_detach r
    have hperm : (m.head :: ((L1 ++ (p, k, v) :: L2).map (·.1) ++ [m.tail])).Perm
        (p :: (m.head :: ((L1 ++ L2).map (·.1) ++ [m.tail]))) := by
      simp only [List.map_append, List.map_cons, List.append_assoc, List.cons_append]
      exact (List.Perm.cons _ List.perm_middle).trans (List.Perm.swap _ _ _)
    have hnd := hperm.nodup_iff.mp r.nodup
    obtain ⟨hnin, hnd'⟩ := List.nodup_cons.mp hnd
    have hne : ∀ q ∈ m.head :: ((L1 ++ L2).map (·.1) ++ [m.tail]), q ≠ p := fun q hq e => hnin (e ▸ hq)
    have hkn := r.keysNodup
    have hLp : (L1 ++ (p, k, v) :: L2).Perm ((p, k, v) :: (L1 ++ L2)) := List.perm_middle
    have hkn' := (hLp.map (·.2.1)).nodup_iff.mp hkn
    simp only [List.map_cons, List.nodup_cons] at hkn'
    have hnp := r.node (p, k, v) (by simp)
    rw [← k1] at hnp
    simp only [kv, Option.map_eq_some_iff] at hnp
    obtain ⟨n, hn, hnv⟩ := hnp
    have hnv' : n.val = some v := by simp at hnv; exact hnv.2
    have hks : m.keys.Nodup := r.sorted.imp (fun h => strLt_ne h)
    refine ⟨{ m with heap := fun q => if q = p then none else h1 q, keys := m.keys.erase k,
                     map := fun k' => if k' = k then none else m.map k' }, L1 ++ L2, ?_, ?_, hf.2.symm⟩
    · simp only at e1
      simp only [e1, bind, Option.bind, hn, hnv', hf.1]; rfl
    · exact {
        nodup := hnd'
        dll := by
          apply dll_frame d1
          · intro x hx; simp only [nxt, if_neg (hne x (List.mem_of_mem_dropLast' hx))]
          · intro x hx; simp only [prv, if_neg (hne x (List.mem_of_mem_tail hx))]
        node := by
          intro e he
          have : e.1 ≠ p := hne e.1 (by simp at he ⊢; rcases he with h | h <;> grind)
          simp only [kv, if_neg this]
          have := k1 e.1
          simp only [kv] at this
          rw [this]
          exact r.node e (hLp.mem_iff.mpr (List.mem_cons_of_mem _ he))
        alloc := by
          intro q
          by_cases hq : q = p
          · subst hq; simp only [if_true]; constructor
            · intro h; cases h
            · intro h; exact absurd h hnin
          · simp only [if_neg hq]
            rw [isSome_kv, k1, ← isSome_kv, r.alloc, hperm.mem_iff]
            simp [hq]
        fresh := by
          intro q
          by_cases hq : q = p
          · simp [hq]
          · simp only [if_neg hq]; rw [isSome_kv, k1, ← isSome_kv]; exact r.fresh q
        keysNodup := hkn'.2
        map := by
          intro k1 p1
          simp only
          split
          · rename_i h; subst h
            constructor
            · intro h; cases h
            · rintro ⟨w, h⟩; exact absurd (List.mem_map.mpr ⟨_, h, rfl⟩) hkn'.1
          · rename_i h
            rw [r.map]
            simp only [hLp.mem_iff, List.mem_cons, Prod.mk.injEq, h, false_and, and_false, false_or]
        keys := by
          intro k1
          simp only
          rw [hks.mem_erase_iff, r.keys]
          simp only [hLp.mem_iff, List.mem_cons]
          constructor
          · rintro ⟨h, e, h1 | h1, he⟩
            · subst h1; exact absurd he.symm h
            · exact ⟨e, h1, he⟩
          · rintro ⟨e, h1, he⟩
            refine ⟨?_, e, Or.inr h1, he⟩
            intro h; subst h; exact hkn'.1 (List.mem_map.mpr ⟨e, h1, he⟩)
        sorted := r.sorted.sublist (List.erase_sublist) }

theorem walk_dll {h : LruHeap V} {L : List (Nat × Str × V)} {x t : Nat}
    (hd : DLL h (x :: (L.map (·.1) ++ [t]))) (hn : ∀ e ∈ L, kv h e.1 = some (some e.2.1, some e.2.2)) :
    ∃ y, nxt h x = some y ∧ walk h L.length y = some (L.map fun e => (some e.2.1, some e.2.2)) := by
  induction L generalizing x with
  | nil => exact ⟨t, hd.1, rfl⟩
  | cons e L ih =>
    refine ⟨e.1, hd.1, ?_⟩
    obtain ⟨y, h1, h2⟩ := ih (x := e.1) (by simpa using hd.2.2) (fun e' he => hn e' (by simp [he]))
    have h3 := hn e (by simp)
    simp only [nxt, kv, Option.map_eq_some_iff] at h1 h3
    obtain ⟨n, hn1, hn2⟩ := h1
    obtain ⟨n', hn1', hn3⟩ := h3
    rw [hn1] at hn1'; cases hn1'
    simp only [Prod.mk.injEq] at hn3
    simp only [List.length_cons, walk, hn1, bind, Option.bind, hn2, h2]
    simp [hn3.1, hn3.2]

theorem nodup_keys {m : LruMap V} {L : List (Nat × Str × V)} (r : Rep m L) : m.keys.Nodup :=
  r.sorted.imp (fun h => strLt_ne h)

theorem keys_perm {m : LruMap V} {L : List (Nat × Str × V)} (r : Rep m L) :
    m.keys.Perm (L.map (·.2.1)) := by
  rw [List.perm_ext_iff_of_nodup (nodup_keys r) r.keysNodup]
  intro k; rw [r.keys]; simp

theorem rep_iterLru {m : LruMap V} {L : List (Nat × Str × V)} (r : Rep m L) :
    m.iterLru = some ((absL L).map fun e => (some e.1, some e.2)) := by
  obtain ⟨y, h1, h2⟩ := walk_dll r.dll r.node
  simp only [nxt, Option.map_eq_some_iff] at h1
  obtain ⟨n, hn, hy⟩ := h1
  have hlen : m.keys.length = L.length := by rw [(keys_perm r).length_eq]; simp
  simp [iterLru, hn, hlen, hy, h2, absL, Function.comp_def]

theorem rep_iterSorted {m : LruMap V} {L : List (Nat × Str × V)} (r : Rep m L) :
    ∃ s, m.iterSorted = some (s.map fun e => (some e.1, some e.2)) ∧ (absL L).IsSortedView s ∧ s.map (·.1) = m.keys := by
  have key : ∀ ks : List Str, (∀ k ∈ ks, k ∈ m.keys) →
      ∃ s : List (Str × V), iterSorted.go m ks = some (s.map fun e => (some e.1, some e.2)) ∧
        s.map (·.1) = ks ∧ ∀ x ∈ s, x ∈ absL L := by
    intro ks
    induction ks with
    | nil => intro _; exact ⟨[], rfl, rfl, by simp⟩
    | cons k ks ih =>
      intro hk
      obtain ⟨s, e1, e2, e3⟩ := ih (fun k' h => hk k' (by simp [h]))
      obtain ⟨e, he, rfl⟩ := (r.keys k).mp (hk k (by simp))
      have hm := (r.map e.2.1 e.1).mpr ⟨e.2.2, he⟩
      have hn := r.node e he
      simp only [kv, Option.map_eq_some_iff] at hn
      obtain ⟨n, hn, hnv⟩ := hn
      simp only [Prod.mk.injEq] at hnv
      refine ⟨e.2 :: s, ?_, by simp [e2], ?_⟩
      · simp [iterSorted.go, hm, hn, e1, hnv.1, hnv.2]
      · intro x hx; rcases List.mem_cons.mp hx with h | h
        · subst h; exact List.mem_map.mpr ⟨e, he, rfl⟩
        · exact e3 x h
  obtain ⟨s, e1, e2, e3⟩ := key m.keys (fun _ h => h)
  refine ⟨s, e1, ⟨?_, ?_⟩, e2⟩
  · -- same entries
    have hsn : s.Nodup := by
      have := nodup_keys r
      rw [← e2] at this
      exact List.Pairwise.of_map (·.1) (fun a b h => fun e => h (by rw [e])) this
    have hLn : (absL L).Nodup := by
      have := r.keysNodup
      have e : L.map (·.2.1) = (absL L).map (·.1) := by simp [absL]
      rw [e] at this
      exact List.Pairwise.of_map (·.1) (fun a b h => fun e => h (by rw [e])) this
    rw [List.perm_ext_iff_of_nodup hsn hLn]
    intro x
    refine ⟨e3 x, fun hx => ?_⟩
    obtain ⟨e, he, rfl⟩ := List.mem_map.mp hx
    have hk : e.2.1 ∈ m.keys := (r.keys _).mpr ⟨e, he, rfl⟩
    rw [← e2] at hk
    obtain ⟨y, hy, hye⟩ := List.mem_map.mp hk
    have hyL := e3 y hy
    obtain ⟨e', he', rfl⟩ := List.mem_map.mp hyL
    -- keys are distinct, so the entries are equal
    have hkd := r.keysNodup
    have : e' = e := by
      exact List.inj_of_nodup_map hkd he' he hye
    subst this; exact hy
  · have := r.sorted
    rw [← e2] at this
    exact List.pairwise_map.mp this

end Cskk.LruMap

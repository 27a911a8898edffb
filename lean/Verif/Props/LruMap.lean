import Verif.Lemmas.LruMap

/-!
# C11 — the dictionary container is a map with a sorted view and a recency view
-/

namespace Cskk.Props.Lru
open Cskk Cskk.Spec LruMap
variable {V : Type}

/-- One container operation; the outer `none` is an access through a dangling pointer. -/
def step (m : LruMap V) : Recency.Op V → Option (LruMap V)
  | .push k v => m.push k v
  | .getMut k f => (m.getMut k f).map (·.1)
  | .remove k => (m.remove k).map (·.1)

def run (m : LruMap V) : List (Recency.Op V) → Option (LruMap V)
  | [] => some m
  | o :: os => (step m o).bind fun m' => run m' os

/-- What can be observed of a container: lookups and the two iterators. -/
structure Observes (m : LruMap V) (l : Recency V) : Prop where
  lookup : ∀ k, m.peek k = some (l.find k)
  recency : m.iterLru = some (l.map fun e => (some e.1, some e.2))
  sorted : ∃ s, m.iterSorted = some (s.map fun e => (some e.1, some e.2)) ∧ l.IsSortedView s
  distinct : (l.map (·.1)).Nodup

theorem observes_of_rep {m : LruMap V} {L} (r : Rep m L) : Observes m (absL L) where
  lookup := rep_peek r
  recency := rep_iterLru r
  sorted := by obtain ⟨s, h1, h2, _⟩ := rep_iterSorted r; exact ⟨s, h1, h2⟩
  distinct := by simpa [absL, Function.comp_def] using r.keysNodup

theorem step_rep {m : LruMap V} {L} (r : Rep m L) (o : Recency.Op V) :
    ∃ m' L', step m o = some m' ∧ Rep m' L' ∧ absL L' = (absL L).step o := by
  cases o with
  | push k v => exact rep_push r k v
  | getMut k f =>
    obtain ⟨m', L', h1, h2, h3⟩ := rep_getMut r k f
    exact ⟨m', L', by simp [step, h1], h2, h3⟩
  | remove k =>
    obtain ⟨m', L', h1, h2, h3⟩ := rep_remove r k
    exact ⟨m', L', by simp [step, h1], h2, h3⟩

theorem run_rep {m : LruMap V} {L} (r : Rep m L) (os : List (Recency.Op V)) :
    ∃ m' L', run m os = some m' ∧ Rep m' L' ∧ absL L' = os.foldl Recency.step (absL L) := by
  induction os generalizing m L with
  | nil => exact ⟨m, L, rfl, r, rfl⟩
  | cons o os ih =>
    obtain ⟨m1, L1, h1, r1, a1⟩ := step_rep r o
    obtain ⟨m2, L2, h2, r2, a2⟩ := ih r1
    exact ⟨m2, L2, by simp [run, h1, h2], r2, by rw [a2, a1]; rfl⟩

/-- **C11.** Every sequence of container operations runs without touching a dangling pointer, and afterwards the
container is observationally the recency list computed by the specification: lookups, the recency iterator
(most recent first) and the sorted iterator (ascending keys) all agree with it, keys are distinct. -/
theorem container_refines (os : List (Recency.Op V)) :
    ∃ m, run (LruMap.new : LruMap V) os = some m ∧ Observes m (os.foldl Recency.step []) := by
  obtain ⟨m, L, h1, r, h2⟩ := run_rep (rep_new (V := V)) os
  refine ⟨m, h1, ?_⟩
  have := observes_of_rep r
  rw [h2] at this; exact this

/-- **C11 (results).** The values returned by `get_mut` and `remove` after any history are the specified ones. -/
theorem container_results (os : List (Recency.Op V)) (k : Str) (f : V → V) :
    ∃ m, run (LruMap.new : LruMap V) os = some m ∧
      (∃ m', m.getMut k f = some (m', Recency.find (os.foldl Recency.step []) k)) ∧
      (∃ m', m.remove k = some (m', Recency.find (os.foldl Recency.step []) k)) := by
  obtain ⟨m, L, h1, r, h2⟩ := run_rep (rep_new (V := V)) os
  rw [show absL ([] : List (Nat × Str × V)) = [] from rfl] at h2
  obtain ⟨m', _, h3, _⟩ := rep_getMut r k f
  obtain ⟨m'', _, h4, _⟩ := rep_remove r k
  rw [h2] at h3 h4
  exact ⟨m, h1, ⟨m', h3⟩, ⟨m'', h4⟩⟩

/-- A non-trivial run: re-pushing and touching reorders, removal unlinks. -/
example : (run (LruMap.new : LruMap Nat)
    [.push c%"b" 1, .push c%"a" 2, .push c%"c" 3, .getMut c%"b" (· + 10), .remove c%"a"]).bind iterLru
    = some [(some c%"b", some 11), (some c%"c", some 3)] := by decide
example : (run (LruMap.new : LruMap Nat)
    [.push c%"b" 1, .push c%"a" 2, .push c%"c" 3, .getMut c%"b" (· + 10)]).bind iterSorted
    = some [(some c%"a", some 2), (some c%"b", some 11), (some c%"c", some 3)] := by decide

/-- **Violation (unused code).** The reverse recency iterator does not yield the reverse of the forward one: it
repeats the most recent entry. -/
theorem iter_rev_wrong : ∃ m, run (LruMap.new : LruMap Nat) [.push c%"a" 1, .push c%"b" 2] = some m ∧
    m.iterLru = some [(some c%"b", some 2), (some c%"a", some 1)] ∧
    m.iterLruRev = some [(some c%"b", some 2), (some c%"b", some 2)] :=
  ⟨_, rfl, by decide, by decide⟩

/-- In general: the reverse iterator yields `n` copies of the most recent entry. -/
theorem walkBack_const {h : LruHeap V} {n : Nat} {p e : Nat} {l} (hw : LruMap.walkBack h n p e = some l) :
    ∀ x ∈ l, ∃ nd, h p = some nd ∧ x = (nd.key, nd.val) := by
  induction n generalizing e l with
  | zero => simp [LruMap.walkBack] at hw; subst hw; simp
  | succ n ih =>
    simp only [LruMap.walkBack, bind, Option.bind_eq_some_iff] at hw
    obtain ⟨nd, hnd, en, _, rest, hrest, hl⟩ := hw
    cases hl
    intro x hx
    rcases List.mem_cons.mp hx with h1 | h1
    · exact ⟨nd, hnd, h1⟩
    · exact ih hrest x h1

/-! ## Iterating from both ends -/

/-- One call on an iterator: `next` or `next_back`. -/
inductive Pull where
  | front
  | back
  deriving DecidableEq

/-- What an iterator over `l` which can be pulled from both ends should answer. -/
def ideal {α} : List α → List Pull → List (Option α)
  | _, [] => []
  | l, .front :: cs => l.head? :: ideal l.tail cs
  | l, .back :: cs => l.getLast? :: ideal l.dropLast cs

/-- The answers of the recency iterator to a series of calls. -/
def pulls (h : LruHeap V) : LruMap.ListIter → List Pull → Option (List (Option (Option Str × Option V)))
  | _, [] => some []
  | i, .front :: cs => do
    let (i, x) ← i.next h
    let xs ← pulls h i cs
    return x :: xs
  | i, .back :: cs => do
    let (i, x) ← i.nextBack h
    let xs ← pulls h i cs
    return x :: xs

/-- What it does answer: `next_back` counts, but gives the entry `next` would give. `n` calls are still to be answered, the rest of the entries from
the one `next` would give is `l`. -/
def actual {α} : Nat → List α → List Pull → List (Option α)
  | _, _, [] => []
  | 0, l, _ :: cs => none :: actual 0 l cs
  | n + 1, l, .front :: cs => l.head? :: actual n l.tail cs
  | n + 1, l, .back :: cs => l.head? :: actual n l cs

theorem dll_at {h : LruHeap V} {xs : List Nat} (hd : DLL h xs) {i a b : Nat} (ha : xs[i]? = some a) (hb : xs[i + 1]? = some b) :
    nxt h a = some b ∧ prv h b = some a := by
  induction xs generalizing i with
  | nil => cases ha
  | cons x xs ih =>
    cases xs with
    | nil => simp at hb
    | cons y r =>
      obtain ⟨h1, h2, h3⟩ := hd
      cases i with
      | zero => simp at ha hb; subst ha hb; exact ⟨h1, h2⟩
      | succ i => exact ih h3 (by simpa using ha) (by simpa using hb)

theorem pulls_from {m : LruMap V} {L} (r : Rep m L) (cs : List Pull) :
    ∀ (f b p e : Nat), f + b ≤ L.length → (m.head :: (L.map (·.1) ++ [m.tail]))[f + 1]? = some p →
      (m.head :: (L.map (·.1) ++ [m.tail]))[L.length - b]? = some e →
      pulls m.heap ⟨L.length - (f + b), p, e⟩ cs =
        some (actual (L.length - (f + b)) (((absL L).map fun x => (some x.1, some x.2)).drop f) cs) := by
  induction cs with
  | nil => intro f b p e _ _ _; cases hn : L.length - (f + b) <;> rfl
  | cons c cs ih =>
    intro f b p e hle hp he
    cases hn : L.length - (f + b) with
    | zero =>
      have := ih f b p e hle hp he
      rw [hn] at this
      cases c <;> simp [pulls, actual, ListIter.next, ListIter.nextBack, this]
    | succ n =>
      have hf : f < L.length := by omega
      have hpe : p = (L[f]).1 := by
        rw [List.getElem?_cons_succ, List.getElem?_append_left (by simpa using hf), List.getElem?_map, List.getElem?_eq_getElem hf] at hp
        simpa using hp.symm
      have hk := r.node L[f] (List.getElem_mem hf)
      rw [← hpe] at hk
      simp only [kv, Option.map_eq_some_iff] at hk
      obtain ⟨nd, hnd, hkv⟩ := hk
      have hhead : ((((absL L).map fun x => (some x.1, some x.2)).drop f).head? : Option (Option Str × Option V)) = some (nd.key, nd.val) := by
        rw [List.head?_drop, List.getElem?_map, absL, List.getElem?_map, List.getElem?_eq_getElem hf, hkv]; rfl
      cases c with
      | front =>
        have hlt : f + 2 < (m.head :: (L.map (·.1) ++ [m.tail])).length := by simp; omega
        obtain ⟨h1, _⟩ := dll_at r.dll hp (List.getElem?_eq_getElem hlt)
        simp only [nxt, hnd, Option.map_some, Option.some.injEq] at h1
        have := ih (f + 1) b nd.next e (by omega) (by rw [h1]; exact List.getElem?_eq_getElem hlt) he
        rw [show L.length - (f + 1 + b) = n by omega] at this
        simp only [pulls, ListIter.next, actual, hnd, hhead, bind, Option.bind, pure, Nat.add_one_sub_one]
        simp only [Nat.succ_ne_zero, if_false, this, List.tail_drop]
      | back =>
        have hprev : (m.head :: (L.map (·.1) ++ [m.tail]))[L.length - (b + 1)]? =
            some ((m.head :: (L.map (·.1) ++ [m.tail]))[L.length - (b + 1)]'(by simp; omega)) := List.getElem?_eq_getElem _
        obtain ⟨_, h1⟩ := dll_at r.dll hprev (b := e) (by rw [show L.length - (b + 1) + 1 = L.length - b by omega]; exact he)
        simp only [prv, Option.map_eq_some_iff] at h1
        obtain ⟨en, hen, hen1⟩ := h1
        have := ih f (b + 1) p en.prev (by omega) hp (by rw [hen1]; exact hprev)
        rw [show L.length - (f + (b + 1)) = n by omega] at this
        simp only [pulls, ListIter.nextBack, actual, hnd, hen, hhead, bind, Option.bind, pure, Nat.add_one_sub_one]
        simp only [Nat.succ_ne_zero, if_false, this]

/-- **C11 (both ends).** After any history, any series of `next` and `next_back` calls on the recency iterator reads only list nodes in use and gives one
answer per entry, then none; `next_back` answers with the entry `next` would give. -/
theorem both_ends (os : List (Recency.Op V)) (cs : List Pull) :
    ∃ m i, run (LruMap.new : LruMap V) os = some m ∧ m.listIter = some i ∧ i.sizeHint = (os.foldl Recency.step []).length ∧
      pulls m.heap i cs = some (actual (os.foldl Recency.step []).length
        ((os.foldl Recency.step []).map fun e => (some e.1, some e.2)) cs) := by
  obtain ⟨m, L, h1, r, h2⟩ := run_rep (rep_new (V := V)) os
  have hlen : m.keys.length = L.length := by rw [(keys_perm r).length_eq]; simp
  have hlt : 1 < (m.head :: (L.map (·.1) ++ [m.tail])).length := by simp
  obtain ⟨e1, _⟩ := dll_at r.dll (i := 0) (a := m.head) rfl (List.getElem?_eq_getElem hlt)
  have htl : (m.head :: (L.map (·.1) ++ [m.tail]))[L.length + 1]? = some m.tail := by simp
  have hlast : L.length < (m.head :: (L.map (·.1) ++ [m.tail])).length := by simp; omega
  obtain ⟨_, e2⟩ := dll_at r.dll (List.getElem?_eq_getElem hlast) htl
  simp only [nxt, prv, Option.map_eq_some_iff] at e1 e2
  obtain ⟨hd, hhd, e1⟩ := e1
  obtain ⟨tl, htl', e2⟩ := e2
  have ha : os.foldl Recency.step [] = absL L := h2.symm
  refine ⟨m, ⟨m.keys.length, hd.next, tl.prev⟩, h1, by simp [listIter, hhd, htl'], ?_, ?_⟩
  · rw [ha]; simp [ListIter.sizeHint, hlen, absL]
  · have := pulls_from r cs 0 0 hd.next tl.prev (by omega) (by rw [e1]; exact List.getElem?_eq_getElem hlt)
      (by rw [e2]; exact List.getElem?_eq_getElem hlast)
    rw [ha, hlen]
    simpa [absL] using this

/-- So it answers as it should to any series of `next` calls, … -/
theorem fronts_ideal {α} (l : List α) (n : Nat) : actual l.length l (List.replicate n .front) = ideal l (List.replicate n .front) := by
  induction n generalizing l with
  | zero => cases l <;> rfl
  | succ n ih =>
    cases l with
    | nil => have := ih []; simp only [List.length_nil] at this; simp [List.replicate_succ, actual, ideal, this]
    | cons x l => simpa [List.replicate_succ, actual, ideal] using ih l

/-- … but wrong to the first `next_back` whenever more than one entry is left: it gives the first of them, not the last, and a later `next` gives it
again. -/
theorem back_wrong {α} (l : List α) (x : α) (h : l ≠ []) :
    actual (l.length + 1) (x :: l) [.back] = [some x] ∧ ideal (x :: l) [.back] = [l.getLast?] ∧
    actual (l.length + 1) (x :: l) [.back, .front] = [some x, some x] := by
  obtain ⟨y, l, rfl⟩ := List.exists_cons_of_ne_nil h
  refine ⟨?_, ?_, ?_⟩
  · rfl
  · simp [ideal, List.getLast?_cons_cons]
  · rfl

/-- **C11 (both ends, sorted).** The sorted iterator gives the ascending view to `next` calls; the first `next_back` before it is used up panics, in every
build: it looks up the key at index `end`. -/
theorem sorted_back_panics (os : List (Recency.Op V)) :
    ∃ m, run (LruMap.new : LruMap V) os = some m ∧ ∀ (debug : Bool) (n : Nat),
      (n < (os.foldl Recency.step []).length →
        (∃ k v, m.keys[n]? = some k ∧ Recency.find (os.foldl Recency.step []) k = some v ∧
          SortedIter.next m debug { m.sortedIter with start := n } = .ok (some ({ m.sortedIter with start := n + 1 }, some (some k, some v)))) ∧
        SortedIter.nextBack m debug { m.sortedIter with start := n } = .error .unwrap) ∧
      ((os.foldl Recency.step []).length ≤ n →
        SortedIter.next m debug { m.sortedIter with start := n } = .ok (some ({ m.sortedIter with start := n }, none)) ∧
        SortedIter.nextBack m debug { m.sortedIter with start := n } = .ok (some ({ m.sortedIter with start := n }, none))) := by
  obtain ⟨m, L, h1, r, h2⟩ := run_rep (rep_new (V := V)) os
  have ha : os.foldl Recency.step [] = absL L := h2.symm
  have hlen : m.keys.length = (absL L).length := by rw [(keys_perm r).length_eq]; simp [absL]
  refine ⟨m, h1, fun debug n => ?_⟩
  rw [ha, ← hlen]
  refine ⟨fun hn => ⟨?_, ?_⟩, fun hn => ⟨?_, ?_⟩⟩
  · have hk : m.keys[n]? = some m.keys[n] := List.getElem?_eq_getElem hn
    obtain ⟨e, he, hek⟩ := (r.keys m.keys[n]).mp (List.getElem_mem hn)
    have hm := (r.map e.2.1 e.1).mpr ⟨e.2.2, he⟩
    have hnode := r.node e he
    simp only [kv, Option.map_eq_some_iff, Prod.mk.injEq] at hnode
    obtain ⟨nd, hnd, hkv⟩ := hnode
    refine ⟨m.keys[n], e.2.2, hk, ?_, ?_⟩
    · have := rep_peek r e.2.1
      simp only [peek, hm, hnd, hkv.2, bind, Option.bind, pure, Option.some.injEq] at this
      rw [← hek, ← this]
    · unfold SortedIter.next SortedIter.entryAt
      simp only [sortedIter, hn, if_true, hk]
      rw [← hek]
      simp [hm, hnd, hkv.1, hkv.2]
  · unfold SortedIter.nextBack SortedIter.entryAt
    simp [sortedIter, hn]
  · unfold SortedIter.next
    simp [sortedIter, Nat.not_lt.mpr hn]
  · unfold SortedIter.nextBack
    simp [sortedIter, Nat.not_lt.mpr hn]

/-- A history with three entries and a mixed series of calls. -/
example : ideal [1, 2, 3] [.front, .back, .front, .back] = [some 1, some 3, some 2, none] ∧
    actual 3 [1, 2, 3] [.front, .back, .front, .back] = [some 1, some 2, some 2, none] := by decide

end Cskk.Props.Lru

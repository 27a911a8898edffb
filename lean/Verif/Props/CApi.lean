import Verif.Spec.CDetail
import Verif.Props.Output
import Verif.Model.Assets

/-!
# C33, C42: what the C API hands out, and memory
-/

namespace Cskk.Props.CApi
open Spec Cskk.CApi

/-! ## The heap -/

theorem cstring_ok {s : Str} (h : NoNul s) : cstring s = some s := if_neg h
theorem cstring_bad {s : Str} (h : ¬ NoNul s) : cstring s = none := if_pos (Classical.not_not.mp h)

/-- Making the strings `ws` one after the other. -/
def allocs (h : CHeap) (ws : List Str) : CHeap :=
  ⟨h.next + ws.length, ((List.range' h.next ws.length).zip ws).reverse ++ h.live⟩

theorem allocs_cons (h : CHeap) (w : Str) (ws : List Str) : allocs (h.alloc w).1 ws = allocs h (w :: ws) := by
  simp [allocs, CHeap.alloc, List.range'_succ]; omega

theorem map_zip_range (a : Nat) (ws : List Str) : ((List.range' a ws.length).zip ws).map (·.1) = List.range' a ws.length := by
  rw [List.map_fst_zip]; simp

theorem allocs_keys (h : CHeap) (ws : List Str) :
    (allocs h ws).live.map (·.1) = (List.range' h.next ws.length).reverse ++ h.live.map (·.1) := by
  simp [allocs, map_zip_range]

theorem allocs_ok {h : CHeap} (hh : HeapOk h) (ws : List Str) : HeapOk (allocs h ws) := by
  obtain ⟨h1, h2, h3⟩ := hh
  refine ⟨by simp [allocs]; omega, ?_, ?_⟩
  · intro p hp
    have hk : p.1 ∈ (allocs h ws).live.map (·.1) := List.mem_map_of_mem hp
    rw [allocs_keys] at hk
    rcases List.mem_append.mp hk with hk | hk
    · have := List.mem_range'.mp (List.mem_reverse.mp hk)
      obtain ⟨i, hi, he⟩ := this
      simp only [allocs]; omega
    · obtain ⟨q, hq, he⟩ := List.mem_map.mp hk
      have := h2 q hq
      simp only [allocs]; omega
  · rw [allocs_keys, List.nodup_append]
    refine ⟨(List.pairwise_reverse.mpr ((List.nodup_range' (s := h.next) (n := ws.length)).imp fun h => Ne.symm h)), h3, ?_⟩
    intro a ha b hb
    have := List.mem_range'.mp (List.mem_reverse.mp ha)
    obtain ⟨q, hq, he⟩ := List.mem_map.mp hb
    have := h2 q hq
    omega

/-- Reading a new string. -/
theorem read_new {h : CHeap} (ws : List Str) (i : Nat) (w : Str) (hw : ws[i]? = some w) :
    (allocs h ws).read (h.next + i) = some w := by
  induction ws generalizing h i with
  | nil => simp at hw
  | cons x ws ih =>
    cases i with
    | zero =>
      simp at hw; subst hw
      have : ∀ p ∈ ((List.range' (h.next + 1) ws.length).zip ws).reverse, ¬ (p.1 = h.next) := by
        intro p hp
        have hk : p.1 ∈ ((List.range' (h.next + 1) ws.length).zip ws).map (·.1) := List.mem_map_of_mem (List.mem_reverse.mp hp)
        rw [map_zip_range] at hk
        have := List.mem_range'.mp hk
        omega
      unfold CHeap.read allocs
      simp only [List.length_cons, List.range'_succ, List.zip_cons_cons, List.reverse_cons, List.append_assoc,
        List.find?_append]
      rw [List.find?_eq_none.mpr (by intro p hp; simpa using this p hp)]
      simp
    | succ i =>
      rw [← allocs_cons]
      have := ih (h := (h.alloc x).1) i (by simpa using hw)
      have he : h.next + (i + 1) = (h.alloc x).1.next + i := by simp only [CHeap.alloc]; omega
      rw [he]; exact this

/-- The old strings are still there. -/
theorem read_old {h : CHeap} (hh : HeapOk h) (ws : List Str) (a : Nat) (s : Str) (ha : h.read a = some s) :
    (allocs h ws).read a = some s := by
  have hlt : a < h.next := by
    unfold CHeap.read at ha
    cases hf : h.live.find? (fun p => decide (p.1 = a)) with
    | none => rw [hf] at ha; cases ha
    | some p =>
      have h1 := List.mem_of_find?_eq_some hf
      have h2 := List.find?_some hf
      have := (hh.2.1 p h1).2
      simp at h2; omega
  unfold CHeap.read allocs
  rw [List.find?_append, List.find?_eq_none.mpr]
  · simpa [CHeap.read] using ha
  · intro p hp
    have hk : p.1 ∈ ((List.range' h.next ws.length).zip ws).map (·.1) := List.mem_map_of_mem (List.mem_reverse.mp hp)
    rw [map_zip_range] at hk
    have := List.mem_range'.mp hk
    simp; omega

theorem freeAll_eq (h : CHeap) (as : List Nat) (hn : as.Nodup) (hm : ∀ a ∈ as, a ∈ h.live.map (·.1)) :
    freeAll h as = .ok { h with live := h.live.filter fun p => decide (p.1 ∉ as) } := by
  induction as generalizing h with
  | nil =>
    have : (h.live.filter fun p => decide (p.1 ∉ ([] : List Nat))) = h.live := List.filter_eq_self.mpr (by simp)
    rw [this]; rfl
  | cons a as ih =>
    obtain ⟨hna, hnd⟩ := List.nodup_cons.mp hn
    have hfree : h.free a = .ok { h with live := h.live.filter fun p => decide (p.1 ≠ a) } := by
      unfold CHeap.free
      rw [if_pos]
      obtain ⟨p, hp, he⟩ := List.mem_map.mp (hm a List.mem_cons_self)
      simp only [List.any_eq_true, decide_eq_true_eq]
      exact ⟨p, hp, he⟩
    unfold freeAll
    rw [hfree]
    simp only [bind, Except.bind]
    rw [ih _ hnd]
    · simp only [List.filter_filter, List.mem_cons, not_or]
      congr 2
      apply List.filter_congr
      intro p _
      simp [Bool.and_comm, Bool.decide_and]
    · intro b hb
      obtain ⟨p, hp, he⟩ := List.mem_map.mp (hm b (List.mem_cons_of_mem _ hb))
      refine List.mem_map.mpr ⟨p, List.mem_filter.mpr ⟨hp, ?_⟩, he⟩
      simp only [ne_eq, decide_eq_true_eq]
      intro h'
      exact hna (by rw [← h', he]; exact hb)

/-- Giving back all the new strings leaves the old ones. -/
theorem freeAll_allocs {h : CHeap} (hh : HeapOk h) (ws : List Str) :
    freeAll (allocs h ws) (List.range' h.next ws.length) = .ok ⟨h.next + ws.length, h.live⟩ := by
  rw [freeAll_eq _ _ List.nodup_range']
  · congr 2
    simp only [allocs, List.filter_append]
    rw [List.filter_eq_nil_iff.mpr, List.filter_eq_self.mpr, List.nil_append]
    · intro p hp
      have := hh.2.1 p hp
      simp only [decide_eq_true_eq]
      intro hc
      have := List.mem_range'.mp hc
      omega
    · intro p hp
      have hk : p.1 ∈ ((List.range' h.next ws.length).zip ws).map (·.1) := List.mem_map_of_mem (List.mem_reverse.mp hp)
      rw [map_zip_range] at hk
      simpa using hk
  · intro a ha
    rw [allocs_keys]
    exact List.mem_append.mpr (.inl (List.mem_reverse.mpr ha))

/-! ## The candidate window -/

theorem copyLoop_ok (h : CHeap) (buf : List Nat) (size i : Nat) (ws rest : List Str) (hn : ∀ w ∈ ws, NoNul w)
    (hs : i + ws.length ≤ size) (hb : size ≤ buf.length) :
    copyLoop h buf size i (ws ++ rest) =
      copyLoop (allocs h ws) (buf.take i ++ List.range' h.next ws.length ++ buf.drop (i + ws.length)) size (i + ws.length) rest := by
  induction ws generalizing h buf i with
  | nil => simp [allocs]
  | cons w ws ih =>
    simp only [List.length_cons] at hs
    have hi : i < size := by omega
    rw [List.cons_append]
    conv => lhs; unfold copyLoop
    simp only [cstring_ok (hn w List.mem_cons_self), hi, if_true]
    rw [ih _ _ (i + 1) (fun w hw => hn w (List.mem_cons_of_mem _ hw)) (by omega) (by simpa using hb), allocs_cons]
    have hil : i < buf.length := by omega
    congr 1
    · simp only [CHeap.alloc, List.length_cons, List.range'_succ]
      rw [List.take_set, List.drop_set]
      have h1 : ¬ (i + 1 + ws.length ≤ i) := by omega
      rw [if_pos (by omega)]
      have : (buf.take (i + 1)).set i h.next = buf.take i ++ [h.next] := by
        rw [List.take_add_one, List.getElem?_eq_getElem hil, List.set_append]
        rw [if_neg (by simp; omega)]
        simp [Nat.min_eq_left (Nat.le_of_lt hil)]
      rw [this]
      simp [Nat.add_comm, Nat.add_left_comm, Nat.add_assoc]
    · simp; omega

/-- The part of the list which the caller asks for. -/
def window (c : Ctx) (size offset : Nat) : List Str := ((c.candidates.drop offset).take size).map (·.output)

/-- **C33.** If no candidate of the requested part holds a NUL, the call returns their number, which is the buffer size or
the number of candidates from the offset on, whichever is smaller; slot `i` then points to a new C string with the output
of candidate `offset + i`, the slots behind are as before, and the strings handed out earlier are still there. -/
theorem candidates_copied (h : CHeap) (hh : HeapOk h) (c : Ctx) (buf : List Nat) (size offset : Nat) (hb : size ≤ buf.length)
    (hsize : size < 2 ^ 31) (hn : ∀ w ∈ window c size offset, NoNul w) :
    ∃ (h' : CHeap) (buf' : List Nat) (n : Nat), getCandidates h c buf size offset = .ok (h', buf', (n : Int)) ∧ n = min size (c.candidateCount - offset) ∧
      HeapOk h' ∧ buf'.length = buf.length ∧
      (∀ i, i < n → ∃ a x, buf'[i]? = some a ∧ c.candidates[offset + i]? = some x ∧ h.read a = none ∧ h'.read a = some x.output) ∧
      (buf'.take n).Nodup ∧ (∀ i, n ≤ i → buf'[i]? = buf[i]?) ∧ (∀ a s, h.read a = some s → h'.read a = some s) := by
  have hl : (window c size offset).length = min size (c.candidateCount - offset) := by
    simp [window, Ctx.candidateCount, Ctx.candidates]
  have hle : (window c size offset).length ≤ size := by omega
  have hcopy := copyLoop_ok h buf size 0 (window c size offset) [] hn (by omega) hb
  simp only [List.append_nil, Nat.zero_add, List.take_zero, List.nil_append] at hcopy
  refine ⟨allocs h (window c size offset), List.range' h.next (window c size offset).length ++
    buf.drop (window c size offset).length, (window c size offset).length, ?_, hl, allocs_ok hh _, ?_, ?_, ?_, ?_,
    fun a s => read_old hh _ a s⟩
  · unfold getCandidates
    rw [if_neg (by omega)]
    have hmap : (((c.candidates.drop offset).take size).map (·.output)) = window c size offset := rfl
    simp only [hmap, hcopy, copyLoop, bind, Except.bind, pure, Except.pure]
    have hlen : ((c.candidates.drop offset).take size).length = (window c size offset).length := by simp [window]
    simp only [if_true, hlen, asCInt]
    have h1 : (window c size offset).length % 2 ^ 32 = (window c size offset).length := Nat.mod_eq_of_lt (by omega)
    rw [h1, if_pos (by omega)]
  · simp; omega
  · intro i hi
    have hw : (window c size offset)[i]? = some ((window c size offset)[i]) := List.getElem?_eq_getElem hi
    have hx : ((c.candidates.drop offset).take size)[i]? = c.candidates[offset + i]? := by
      rw [List.getElem?_take_of_lt (by omega), List.getElem?_drop]
    have hw2 : (window c size offset)[i]? = (c.candidates[offset + i]?).map (·.output) := by
      simp only [window, List.getElem?_map, hx]
    cases hcx : c.candidates[offset + i]? with
    | none => rw [hcx, hw] at hw2; cases hw2
    | some x =>
      rw [hcx] at hw2
      refine ⟨h.next + i, x, ?_, rfl, ?_, read_new _ i x.output (by rw [hw2]; rfl)⟩
      · rw [List.getElem?_append_left (by simpa using hi), List.getElem?_range' hi, Nat.one_mul]
      · unfold CHeap.read
        rw [List.find?_eq_none.mpr]
        · rfl
        · intro p hp
          have := hh.2.1 p hp
          simp; omega
  · rw [List.take_left' (by simp)]
    exact List.nodup_range'
  · intro i hi
    rw [List.getElem?_append_right (by simpa using hi)]
    simp [List.getElem?_drop]
    congr 1; omega

/-- **C33.** Passing the filled array and the returned number to `skk_free_candidate_list` gives back exactly the strings
that were made. -/
theorem candidates_freed (h : CHeap) (hh : HeapOk h) (c : Ctx) (buf : List Nat) (size offset : Nat) (hb : size ≤ buf.length)
    (hsize : size < 2 ^ 31) (hn : ∀ w ∈ window c size offset, NoNul w) :
    ∃ (h' : CHeap) (buf' : List Nat) (n : Nat) (h'' : CHeap), getCandidates h c buf size offset = .ok (h', buf', (n : Int)) ∧
      freeCandidateList h' (some buf') n = .ok h'' ∧ h''.live = h.live := by
  have hl : (window c size offset).length = min size (c.candidateCount - offset) := by
    simp [window, Ctx.candidateCount, Ctx.candidates]
  have hle : (window c size offset).length ≤ size := by omega
  have hcopy := copyLoop_ok h buf size 0 (window c size offset) [] hn (by omega) hb
  simp only [List.append_nil, Nat.zero_add, List.take_zero, List.nil_append] at hcopy
  refine ⟨allocs h (window c size offset), List.range' h.next (window c size offset).length ++
    buf.drop (window c size offset).length, (window c size offset).length, ⟨h.next + (window c size offset).length, h.live⟩, ?_, ?_, rfl⟩
  · unfold getCandidates
    rw [if_neg (by omega)]
    have hmap : (((c.candidates.drop offset).take size).map (·.output)) = window c size offset := rfl
    simp only [hmap, hcopy, copyLoop, bind, Except.bind, pure, Except.pure]
    have hlen : ((c.candidates.drop offset).take size).length = (window c size offset).length := by simp [window]
    simp only [if_true, hlen, asCInt]
    have h1 : (window c size offset).length % 2 ^ 32 = (window c size offset).length := Nat.mod_eq_of_lt (by omega)
    rw [h1, if_pos (by omega)]
  · unfold freeCandidateList
    dsimp only
    rw [if_neg (by simp), List.take_left' (by simp)]
    exact freeAll_allocs hh _

/-- **C33.** If a candidate of the requested part holds a NUL the call returns -1, and no string is left behind; only the
slots of the candidates before it were written. -/
theorem candidates_nul (h : CHeap) (hh : HeapOk h) (c : Ctx) (buf : List Nat) (size offset : Nat) (hb : size ≤ buf.length)
    (hn : ∃ w ∈ window c size offset, ¬ NoNul w) :
    ∃ h' buf' n, getCandidates h c buf size offset = .ok (h', buf', -1) ∧ h'.live = h.live ∧ HeapOk h' ∧ n < size ∧
      buf'.length = buf.length ∧ ∀ i, n ≤ i → buf'[i]? = buf[i]? := by
  have hsplit : ∃ good bad rest, window c size offset = good ++ bad :: rest ∧ (∀ w ∈ good, NoNul w) ∧ ¬ NoNul bad := by
    generalize window c size offset = l at hn
    induction l with
    | nil => obtain ⟨w, hw, _⟩ := hn; cases hw
    | cons x l ih =>
      by_cases hx : NoNul x
      · have : ∃ w ∈ l, ¬ NoNul w := by
          obtain ⟨w, hw, hb⟩ := hn
          rcases List.mem_cons.mp hw with h | h
          · subst h; exact absurd hx hb
          · exact ⟨w, h, hb⟩
        obtain ⟨g, b, r, he, hg, hb⟩ := ih this
        refine ⟨x :: g, b, r, by rw [he]; rfl, ?_, hb⟩
        intro w hw
        rcases List.mem_cons.mp hw with h | h
        · subst h; exact hx
        · exact hg w h
      · exact ⟨[], x, l, rfl, by simp, hx⟩
  obtain ⟨good, bad, rest, he, hg, hbad⟩ := hsplit
  have hl : (window c size offset).length = min size (c.candidateCount - offset) := by
    simp [window, Ctx.candidateCount, Ctx.candidates]
  rw [he] at hl
  simp only [List.length_append, List.length_cons] at hl
  have hcopy := copyLoop_ok h buf size 0 good (bad :: rest) hg (by omega) hb
  simp only [Nat.zero_add, List.take_zero, List.nil_append] at hcopy
  refine ⟨⟨h.next + good.length, h.live⟩, List.range' h.next good.length ++ buf.drop good.length, good.length, ?_, rfl,
    ⟨Nat.lt_of_lt_of_le hh.1 (Nat.le_add_right ..), fun p hp => ⟨(hh.2.1 p hp).1, Nat.lt_of_lt_of_le (hh.2.1 p hp).2 (Nat.le_add_right ..)⟩, hh.2.2⟩,
    by omega, by simp; omega, ?_⟩
  · unfold getCandidates
    rw [if_neg (by omega)]
    have hmap : (((c.candidates.drop offset).take size).map (·.output)) = good ++ bad :: rest := he
    simp only [hmap, hcopy, copyLoop, cstring_bad hbad, bind, Except.bind, pure, Except.pure]
    rw [List.take_left' (by simp), freeAll_allocs hh]
    rfl
  · intro i hi
    rw [List.getElem?_append_right (by simpa using hi)]
    simp [List.getElem?_drop]
    congr 1; omega

/-- Paging: fetching page after page of `size` candidates gives the whole list, each candidate once and in order. -/
theorem pages_cover (c : Ctx) (size pages : Nat) (h : c.candidateCount ≤ pages * size) :
    ((List.range pages).flatMap fun p => window c size (p * size)) = c.candidates.map (·.output) := by
  have : ∀ n, ((List.range n).flatMap fun p => window c size (p * size)) = (c.candidates.take (n * size)).map (·.output) := by
    intro n
    induction n with
    | zero => simp
    | succ n ih =>
      rw [List.range_succ, List.flatMap_append, ih, List.flatMap_singleton, window, ← List.map_append]
      congr 1
      rw [Nat.succ_mul, List.take_add]
  rw [this pages, List.take_of_length_le (l := c.candidates) h]

/-! ## The preedit in detail -/

theorem allocs_append (h : CHeap) (a b : List Str) : allocs (allocs h a) b = allocs h (a ++ b) := by
  induction a generalizing h with
  | nil => simp [allocs]
  | cons x a ih => rw [← allocs_cons, ih, List.cons_append, ← allocs_cons]

theorem alloc_eq (h : CHeap) (s : Str) : h.alloc s = (allocs h [s], h.next) := by simp [allocs, CHeap.alloc]

/-- What a C string made of `s` without checking holds. -/
def clean (s : Str) : Str := (cstring s).getD []

theorem clean_ok {s : Str} (h : NoNul s) : clean s = s := by simp [clean, cstring_ok h]

/-- The addresses from `n` on of the strings that will be released. -/
def addrs (n : Nat) : List (Str × Bool) → List Nat
  | [] => []
  | (_, b) :: l => (if b then [n] else []) ++ addrs (n + 1) l

theorem addrs_append (n : Nat) (a b : List (Str × Bool)) : addrs n (a ++ b) = addrs n a ++ addrs (n + a.length) b := by
  induction a generalizing n with
  | nil => simp [addrs]
  | cons x a ih =>
    simp only [List.cons_append, addrs, ih, List.length_cons, List.append_assoc]
    congr 3; omega

/-- The strings made for a level, and whether they are released again. -/
def fieldsOf : StateInfo → List (Str × Bool)
  | .direct c u => (clean c, true) :: u.toList.map fun s => (s, true)
  | .preComposition c k o u => [(clean c, true), (clean k, true)] ++ (o.toList.map fun s => (clean s, true)) ++ u.toList.map fun s => (s, true)
  | .preCompositionOkurigana c k o u =>
    [(clean c, true), (clean k, true)] ++ (o.toList.map fun s => (clean s, true)) ++ u.toList.map fun s => (s, true)
  | .compositionSelection c x o a =>
    [(c, true), (x, true)] ++ (o.toList.map fun s => (clean s, true)) ++ a.toList.map fun s => (clean s, true)
  | .register c k o x => [(clean c, true), (clean k, true)] ++ (o.toList.map fun s => (clean s, true)) ++ x.toList.map fun s => (s, true)
  | .complete c o m d _ a => [(c, true), (o, true), (m, false), (d, true)] ++ a.toList.map fun s => (s, true)

theorem orEmpty_eq (h : CHeap) (s : Str) : orEmpty h s = (allocs h [clean s], h.next) := alloc_eq h _

theorem orPanic_ok {h : CHeap} {s : Str} {r : CHeap × Nat} (hr : orPanic h s = .ok r) : r = (allocs h [s], h.next) := by
  unfold orPanic cstring at hr
  split at hr
  · rename_i t ht
    split at ht
    · cases ht
    · cases ht; cases hr; exact alloc_eq h _
  · cases hr

theorem optOrPanic_ok {h : CHeap} {s : Option Str} {r : CHeap × Nat} (hr : optOrPanic h s = .ok r) :
    r = (allocs h s.toList, if s.isSome then h.next else 0) := by
  cases s with
  | none => cases hr; simp [allocs]
  | some s => have := orPanic_ok (h := h) (s := s) hr; simpa using this

theorem optOrEmpty_eq (h : CHeap) (s : Option Str) :
    optOrEmpty h s = (allocs h (s.toList.map clean), if s.isSome then h.next else 0) := by
  cases s with
  | none => simp [optOrEmpty, allocs]
  | some s => simp [optOrEmpty, orEmpty_eq]

theorem allocs_next (h : CHeap) (ws : List Str) : (allocs h ws).next = h.next + ws.length := rfl

/-- The pieces of a level are made in the order of `fieldsOf`, and those with the flag are released. -/
theorem convert_spec {h h' : CHeap} {i : StateInfo} {f : StateInfoFfi} (hh : 0 < h.next) (hc : convert h i = .ok (h', f)) :
    h' = allocs h ((fieldsOf i).map (·.1)) ∧
    ((dropFields f).filter fun a => decide (a ≠ 0)) = addrs h.next (fieldsOf i) := by
  have hne : h.next ≠ 0 := by omega
  cases i with
  | direct c u =>
    simp only [convert, orEmpty_eq, bind, Except.bind] at hc
    cases hu : optOrPanic (allocs h [clean c]) u with
    | error p => rw [hu] at hc; cases hc
    | ok r =>
      rw [hu] at hc
      obtain rfl := optOrPanic_ok hu
      cases hc
      cases u <;> simp [fieldsOf, allocs_append, dropFields, addrs, allocs_next, hne]
  | preComposition c k o u =>
    simp only [convert, convertPre, orEmpty_eq, optOrEmpty_eq, bind, Except.bind] at hc
    split at hc
    · cases hc
    · rename_i v hv
      split at hv
      · cases hv
      · rename_i w hw
        obtain rfl := optOrPanic_ok hw
        cases hv; cases hc
        cases u <;> cases o <;> simp [fieldsOf, allocs_append, dropFields, addrs, allocs_next, hne]
  | preCompositionOkurigana c k o u =>
    simp only [convert, convertPre, orEmpty_eq, optOrEmpty_eq, bind, Except.bind] at hc
    split at hc
    · cases hc
    · rename_i v hv
      split at hv
      · cases hv
      · rename_i w hw
        obtain rfl := optOrPanic_ok hw
        cases hv; cases hc
        cases u <;> cases o <;> simp [fieldsOf, allocs_append, dropFields, addrs, allocs_next, hne]
  | register c k o u =>
    simp only [convert, orEmpty_eq, optOrEmpty_eq, bind, Except.bind] at hc
    split at hc
    · cases hc
    · rename_i w hw
      obtain rfl := optOrPanic_ok hw
      cases hc
      cases u <;> cases o <;> simp [fieldsOf, allocs_append, dropFields, addrs, allocs_next, hne]
  | compositionSelection c x o a =>
    simp only [convert, optOrEmpty_eq, bind, Except.bind] at hc
    split at hc
    · cases hc
    · rename_i w hw
      obtain rfl := orPanic_ok hw
      split at hc
      · cases hc
      · rename_i w hw
        obtain rfl := orPanic_ok hw
        cases hc
        cases a <;> cases o <;> simp [fieldsOf, allocs_append, dropFields, addrs, allocs_next, hne]
  | complete c o m d k a =>
    simp only [convert, bind, Except.bind] at hc
    split at hc
    · cases hc
    · rename_i w hw
      obtain rfl := orPanic_ok hw
      split at hc
      · cases hc
      · rename_i w hw
        obtain rfl := orPanic_ok hw
        split at hc
        · cases hc
        · rename_i w hw
          obtain rfl := orPanic_ok hw
          split at hc
          · cases hc
          · rename_i w hw
            obtain rfl := orPanic_ok hw
            split at hc
            · cases hc
            · rename_i w hw
              obtain rfl := optOrPanic_ok hw
              cases hc
              cases a <;> simp [fieldsOf, allocs_append, dropFields, addrs, allocs_next, hne]

theorem convertAll_spec {h h' : CHeap} {is : List StateInfo} {fs : List StateInfoFfi} (hh : 0 < h.next)
    (hc : convertAll h is = .ok (h', fs)) :
    h' = allocs h ((is.flatMap fieldsOf).map (·.1)) ∧
    (fs.flatMap fun f => (dropFields f).filter fun a => decide (a ≠ 0)) = addrs h.next (is.flatMap fieldsOf) := by
  induction is generalizing h fs with
  | nil => cases hc; simp [allocs, addrs]
  | cons i is ih =>
    simp only [convertAll, bind, Except.bind] at hc
    split at hc
    · cases hc
    · rename_i v hv
      obtain ⟨h1, h2⟩ := convert_spec (h := h) (h' := v.1) (f := v.2) hh hv
      split at hc
      · cases hc
      · rename_i w hw
        cases hc
        obtain ⟨h3, h4⟩ := ih (h := v.1) (by rw [h1, allocs_next]; omega) hw
        refine ⟨?_, ?_⟩
        · rw [h3, h1, allocs_append]; simp
        · simp only [List.flatMap_cons, addrs_append, h2, h4, h1, allocs_next, List.length_map]

theorem freeAll_append (h : CHeap) (a b : List Nat) : freeAll h (a ++ b) = (do let h ← freeAll h a; freeAll h b) := by
  induction a generalizing h with
  | nil => rfl
  | cons x a ih =>
    simp only [List.cons_append, freeAll, bind, Except.bind]
    cases h.free x with
    | error p => rfl
    | ok h => exact ih h

theorem freePreeditDetail_eq (h : CHeap) (fs : List StateInfoFfi) :
    freePreeditDetail h fs = freeAll h (fs.flatMap fun f => (dropFields f).filter fun a => decide (a ≠ 0)) := by
  induction fs generalizing h with
  | nil => rfl
  | cons f fs ih =>
    rw [List.flatMap_cons, freeAll_append]
    simp only [freePreeditDetail, dropOne, bind, Except.bind]
    cases freeAll h ((dropFields f).filter fun a => decide (a ≠ 0)) with
    | error p => rfl
    | ok h => exact ih h

theorem mem_addrs {n a : Nat} {l : List (Str × Bool)} (h : a ∈ addrs n l) : n ≤ a ∧ a < n + l.length := by
  induction l generalizing n with
  | nil => cases h
  | cons x l ih =>
    simp only [addrs, List.mem_append] at h
    rcases h with h | h
    · split at h
      · simp at h; subst h; simp
      · cases h
    · have := ih h
      simp only [List.length_cons]; omega

theorem nodup_addrs (n : Nat) (l : List (Str × Bool)) : (addrs n l).Nodup := by
  induction l generalizing n with
  | nil => exact List.nodup_nil
  | cons x l ih =>
    simp only [addrs]
    rw [List.nodup_append]
    refine ⟨by split <;> simp, ih _, ?_⟩
    intro a ha b hb
    have := mem_addrs hb
    split at ha
    · simp at ha; omega
    · cases ha

/-- The strings that stay. -/
def kept (n : Nat) : List (Str × Bool) → List (Nat × Str)
  | [] => []
  | (s, b) :: l => (if b then [] else [(n, s)]) ++ kept (n + 1) l

theorem filter_addrs (n : Nat) (l : List (Str × Bool)) :
    (((List.range' n l.length).zip (l.map (·.1))).filter fun p => decide (p.1 ∉ addrs n l)) = kept n l := by
  induction l generalizing n with
  | nil => rfl
  | cons x l ih =>
    simp only [List.length_cons, List.range'_succ, List.map_cons, List.zip_cons_cons, kept]
    have hrest : (((List.range' (n + 1) l.length).zip (l.map (·.1))).filter fun p => decide (p.1 ∉ addrs n (x :: l)))
        = kept (n + 1) l := by
      rw [← ih (n + 1)]
      apply List.filter_congr
      intro p hp
      have hk : p.1 ∈ List.range' (n + 1) l.length := by
        have : p.1 ∈ ((List.range' (n + 1) l.length).zip (l.map (·.1))).map (·.1) := List.mem_map_of_mem hp
        rwa [List.map_fst_zip (by simp)] at this
      have hge := List.mem_range'.mp hk
      simp only [addrs, List.mem_append, decide_eq_decide, not_or]
      constructor
      · exact fun h => h.2
      · refine fun h => ⟨?_, h⟩
        split
        · simp; omega
        · simp
    by_cases hb : x.2 = true
    · rw [List.filter_cons_of_neg, hrest, hb]
      · simp
      · simp [addrs, hb]
    · have hb' : x.2 = false := by simpa using hb
      rw [List.filter_cons_of_pos, hrest, hb']
      · simp
      · simp only [addrs, hb', decide_eq_true_eq]
        intro hc
        have := mem_addrs (by simpa using hc)
        omega

theorem kept_texts (n : Nat) (l : List (Str × Bool)) : (kept n l).map (·.2) = (l.filter fun p => !p.2).map (·.1) := by
  induction l generalizing n with
  | nil => rfl
  | cons x l ih => obtain ⟨s, b⟩ := x; cases b <;> simp [kept, ih]

/-- The heading of the current word of a level in completion. -/
def midashiOf : StateInfo → Option Str
  | .complete _ _ m _ _ _ => some m
  | _ => none

theorem fields_kept (i : StateInfo) : ((fieldsOf i).filter fun p => !p.2).map (·.1) = (midashiOf i).toList := by
  cases i <;> simp [fieldsOf, midashiOf, List.filter_append, Function.comp_def, List.filter_map]

/-- **C42.** Releasing a preedit detail with `skk_free_preedit_detail` releases each of its strings once and nothing else,
except that of every level in completion the string with the heading stays allocated for ever. -/
theorem detail_freed (e : Env) (h h' : CHeap) (hh : HeapOk h) (c : Ctx) (fs : List StateInfoFfi)
    (hc : preeditDetail e h c = .ok (h', fs)) :
    ∃ h'' leak, freePreeditDetail h' fs = .ok h'' ∧ h''.live = leak ++ h.live ∧
      leak.map (·.2) = ((c.preeditDetail e).filterMap midashiOf).reverse := by
  obtain ⟨h1, h2⟩ := convertAll_spec hh.1 hc
  rw [freePreeditDetail_eq, h2, h1]
  generalize hl : (c.preeditDetail e).flatMap fieldsOf = l
  refine ⟨_, (kept h.next l).reverse, freeAll_eq _ _ (nodup_addrs _ _) ?_, ?_, ?_⟩
  · intro a ha
    rw [allocs_keys]
    have := mem_addrs ha
    refine List.mem_append.mpr (.inl (List.mem_reverse.mpr (List.mem_range'.mpr ⟨a - h.next, ?_, ?_⟩)))
    · simp; omega
    · omega
  · simp only [allocs, List.filter_append, List.filter_reverse, List.length_map]
    rw [filter_addrs]
    congr 1
    apply List.filter_eq_self.mpr
    intro p hp
    have := hh.2.1 p hp
    simp only [decide_eq_true_eq]
    intro hm
    have := mem_addrs hm
    omega
  · rw [List.map_reverse, kept_texts, ← hl]
    congr 1
    induction c.preeditDetail e with
    | nil => rfl
    | cons i is ih =>
      simp only [List.flatMap_cons, List.filter_append, List.map_append, ih, fields_kept, List.filterMap_cons]
      cases midashiOf i <;> simp

/-- Without completion everything is given back. -/
theorem detail_freed_all (e : Env) (h h' : CHeap) (hh : HeapOk h) (c : Ctx) (fs : List StateInfoFfi)
    (hc : preeditDetail e h c = .ok (h', fs)) (hm : ∀ s ∈ c.states, s.mode ≠ .completion) :
    ∃ h'', freePreeditDetail h' fs = .ok h'' ∧ h''.live = h.live := by
  obtain ⟨h'', leak, h1, h2, h3⟩ := detail_freed e h h' hh c fs hc
  refine ⟨h'', h1, ?_⟩
  have : (c.preeditDetail e).filterMap midashiOf = [] := by
    apply List.filterMap_eq_nil_iff.mpr
    intro i hi
    obtain ⟨s, hs, rfl⟩ := List.mem_map.mp hi
    have := hm s hs
    unfold State.preeditDetail
    dsimp only
    split <;> first | rfl | contradiction
  rw [this] at h3
  cases leak with
  | nil => simpa using h2
  | cons x l => simp at h3

theorem points_new (h : CHeap) (pre : List Str) (s : Str) (post : List Str) :
    (allocs h (pre ++ s :: post)).read (h.next + pre.length) = some s :=
  read_new _ _ _ (by simp)

theorem describes_mono {h : CHeap} (hh : HeapOk h) (ws : List Str) (i : StateInfo) (f : StateInfoFfi)
    (hd : Describes h i f) : Describes (allocs h ws) i f := by
  have h1 : ∀ {a s}, Points h a s → Points (allocs h ws) a s := fun h => read_old hh ws _ _ h
  have h2 : ∀ {a s}, PointsOpt h a s → PointsOpt (allocs h ws) a s := by
    intro a s h
    cases s with
    | none => exact h
    | some s => exact ⟨h.1, h1 h.2⟩
  cases i <;> cases f <;> simp only [Describes] at hd ⊢
  · exact ⟨h1 hd.1, h2 hd.2⟩
  · exact ⟨h1 hd.1, h1 hd.2.1, h2 hd.2.2.1, h2 hd.2.2.2⟩
  · exact ⟨h1 hd.1, h1 hd.2.1, h2 hd.2.2.1, h2 hd.2.2.2⟩
  · exact ⟨h1 hd.1, h1 hd.2.1, h2 hd.2.2.1, h2 hd.2.2.2⟩
  · exact ⟨h1 hd.1, h1 hd.2.1, h2 hd.2.2.1, h2 hd.2.2.2⟩
  · exact ⟨h1 hd.1, h1 hd.2.1, hd.2.2.1, h1 hd.2.2.2.1, h1 hd.2.2.2.2.1, hd.2.2.2.2.2.1, h2 hd.2.2.2.2.2.2⟩

theorem orPanic_eq {h : CHeap} {s : Str} (hn : NoNul s) : orPanic h s = .ok (allocs h [s], h.next) := by
  simp [orPanic, cstring_ok hn, alloc_eq]

theorem optOrPanic_eq {h : CHeap} {s : Option Str} (hn : ∀ t ∈ s.toList, NoNul t) :
    optOrPanic h s = .ok (allocs h s.toList, if s.isSome then h.next else 0) := by
  cases s with
  | none => simp [optOrPanic, allocs]
  | some s => simp [optOrPanic, orPanic_eq (hn s (by simp))]

theorem convert_describes {h : CHeap} (hh : HeapOk h) (i : StateInfo) (hn : ∀ t ∈ textsOf i, NoNul t) :
    ∃ h' f, convert h i = .ok (h', f) ∧ HeapOk h' ∧ Describes h' i f ∧ ∃ ws, h' = allocs h ws := by
  have hne : h.next ≠ 0 := by have := hh.1; omega
  have r0 : ∀ s post, (allocs h (s :: post)).read h.next = some s := fun s post => points_new h [] s post
  have r1 : ∀ a s post, (allocs h (a :: s :: post)).read (h.next + 1) = some s := fun a s post => points_new h [a] s post
  have r2 : ∀ a b s post, (allocs h (a :: b :: s :: post)).read (h.next + 2) = some s := fun a b s post => points_new h [a, b] s post
  have r3 : ∀ a b c s post, (allocs h (a :: b :: c :: s :: post)).read (h.next + 3) = some s :=
    fun a b c s post => points_new h [a, b, c] s post
  have r4 : ∀ a b c d s post, (allocs h (a :: b :: c :: d :: s :: post)).read (h.next + 4) = some s :=
    fun a b c d s post => points_new h [a, b, c, d] s post
  cases i with
  | direct c u =>
    simp only [textsOf, List.mem_cons] at hn
    have hc := clean_ok (hn c (.inl rfl))
    simp only [convert, orEmpty_eq, hc, optOrPanic_eq fun t ht => hn t (.inr ht), bind, Except.bind, allocs_append, pure, Except.pure]
    refine ⟨_, _, rfl, allocs_ok hh _, ?_, _, rfl⟩
    cases u <;> simp [Describes, Points, PointsOpt, r0, r1, allocs_next]
  | preComposition c k o u =>
    simp only [textsOf, List.mem_append, List.mem_cons] at hn
    have hc := clean_ok (hn c (by simp))
    have hk := clean_ok (hn k (by simp))
    have ho : o.toList.map clean = o.toList := by
      cases o with
      | none => rfl
      | some o => simp [clean_ok (hn o (by simp))]
    simp only [convert, convertPre, orEmpty_eq, optOrEmpty_eq, hc, hk, ho, optOrPanic_eq fun t ht => hn t (.inr ht), bind,
      Except.bind, allocs_append, pure, Except.pure]
    refine ⟨_, _, rfl, allocs_ok hh _, ?_, _, rfl⟩
    cases u <;> cases o <;> simp [Describes, Points, PointsOpt, r0, r1, r2, r3, allocs_next]
  | preCompositionOkurigana c k o u =>
    simp only [textsOf, List.mem_append, List.mem_cons] at hn
    have hc := clean_ok (hn c (by simp))
    have hk := clean_ok (hn k (by simp))
    have ho : o.toList.map clean = o.toList := by
      cases o with
      | none => rfl
      | some o => simp [clean_ok (hn o (by simp))]
    simp only [convert, convertPre, orEmpty_eq, optOrEmpty_eq, hc, hk, ho, optOrPanic_eq fun t ht => hn t (.inr ht), bind,
      Except.bind, allocs_append, pure, Except.pure]
    refine ⟨_, _, rfl, allocs_ok hh _, ?_, _, rfl⟩
    cases u <;> cases o <;> simp [Describes, Points, PointsOpt, r0, r1, r2, r3, allocs_next]
  | register c k o u =>
    simp only [textsOf, List.mem_append, List.mem_cons] at hn
    have hc := clean_ok (hn c (by simp))
    have hk := clean_ok (hn k (by simp))
    have ho : o.toList.map clean = o.toList := by
      cases o with
      | none => rfl
      | some o => simp [clean_ok (hn o (by simp))]
    simp only [convert, orEmpty_eq, optOrEmpty_eq, hc, hk, ho, optOrPanic_eq fun t ht => hn t (.inr ht), bind,
      Except.bind, allocs_append, pure, Except.pure]
    refine ⟨_, _, rfl, allocs_ok hh _, ?_, _, rfl⟩
    cases u <;> cases o <;> simp [Describes, Points, PointsOpt, r0, r1, r2, r3, allocs_next]
  | compositionSelection c x o a =>
    simp only [textsOf, List.mem_append, List.mem_cons] at hn
    have ho : o.toList.map clean = o.toList := by
      cases o with
      | none => rfl
      | some o => simp [clean_ok (hn o (by simp))]
    have ha : a.toList.map clean = a.toList := by
      cases a with
      | none => rfl
      | some a => simp [clean_ok (hn a (by simp))]
    simp only [convert, orPanic_eq (hn c (by simp)), orPanic_eq (hn x (by simp)), optOrEmpty_eq, ho, ha, bind,
      Except.bind, allocs_append, pure, Except.pure]
    refine ⟨_, _, rfl, allocs_ok hh _, ?_, _, rfl⟩
    cases a <;> cases o <;> simp [Describes, Points, PointsOpt, r0, r1, r2, r3, allocs_next]
  | complete c o m d k a =>
    simp only [textsOf, List.mem_append, List.mem_cons] at hn
    simp only [convert, orPanic_eq (hn c (by simp)), orPanic_eq (hn o (by simp)), orPanic_eq (hn m (by simp)),
      orPanic_eq (hn d (by simp)), optOrPanic_eq fun t ht => hn t (.inr ht), bind, Except.bind, allocs_append, pure, Except.pure]
    refine ⟨_, _, rfl, allocs_ok hh _, ?_, _, rfl⟩
    cases a <;> simp [Describes, Points, PointsOpt, r0, r1, r2, r3, r4, allocs_next]

/-- **C42.** If no text of the preedit holds a NUL, `skk_context_get_preedit_detail` succeeds and describes level by level
exactly what the Rust API describes. -/
theorem detail_describes (e : Env) (h : CHeap) (hh : HeapOk h) (c : Ctx)
    (hn : ∀ i ∈ c.preeditDetail e, ∀ t ∈ textsOf i, NoNul t) :
    ∃ h' fs, preeditDetail e h c = .ok (h', fs) ∧ All2 (Describes h') (c.preeditDetail e) fs := by
  unfold preeditDetail
  suffices ∀ (is : List StateInfo) (h : CHeap), HeapOk h → (∀ i ∈ is, ∀ t ∈ textsOf i, NoNul t) →
      ∃ h' fs, convertAll h is = .ok (h', fs) ∧ All2 (Describes h') is fs ∧ ∃ ws, h' = allocs h ws by
    obtain ⟨h', fs, h1, h2, -⟩ := this _ h hh hn
    exact ⟨h', fs, h1, h2⟩
  intro is
  induction is with
  | nil => intro h hh _; exact ⟨h, [], rfl, .nil, [], by simp [allocs]⟩
  | cons i is ih =>
    intro h hh hn
    obtain ⟨h1, f, e1, ok1, d1, ws, rfl⟩ := convert_describes hh i (hn i List.mem_cons_self)
    obtain ⟨h2, fs, e2, d2, vs, rfl⟩ := ih _ ok1 fun i hi => hn i (List.mem_cons_of_mem _ hi)
    refine ⟨_, f :: fs, ?_, .cons (describes_mono ok1 vs i f d1) d2, ws ++ vs, allocs_append _ _ _⟩
    simp only [convertAll, e1, e2, bind, Except.bind, pure, Except.pure]

/-! ## Single strings -/

/-- **C42.** A string returned by poll_output, get_preedit or get_current_to_composite is NULL iff the text holds a NUL, else
a new C string with the text; `skk_free_string` gives it back (and accepts NULL). -/
theorem string_returned (h : CHeap) (hh : HeapOk h) (s : Str) :
    let r := orNull h s
    (NoNul s → r.2 ≠ 0 ∧ r.1.read r.2 = some s ∧ ∀ a t, h.read a = some t → r.1.read a = some t) ∧
    (¬ NoNul s → r = (h, 0)) ∧ ∃ h', freeString r.1 r.2 = .ok h' ∧ h'.live = h.live := by
  by_cases hn : NoNul s
  · have he : orNull h s = (allocs h [s], h.next) := by simp [orNull, cstring_ok hn, alloc_eq]
    have hne : h.next ≠ 0 := by have := hh.1; omega
    simp only [he]
    refine ⟨fun _ => ⟨hne, points_new h [] s [], fun a t => read_old hh _ a t⟩, fun h => absurd hn h, ?_⟩
    refine ⟨⟨h.next + 1, h.live⟩, ?_, rfl⟩
    have := freeAll_allocs hh [s]
    simp only [List.length_cons, List.length_nil, List.range'_succ, List.range'_zero, freeAll, bind, Except.bind] at this
    unfold freeString
    rw [if_neg hne]
    cases hf : (allocs h [s]).free h.next with
    | error p => rw [hf] at this; cases this
    | ok x => rw [hf] at this; exact this
  · have he : orNull h s = (h, 0) := by simp [orNull, cstring_bad hn]
    simp only [he]
    exact ⟨fun h => absurd h hn, fun _ => trivial, h, rfl, rfl⟩

/-- The text polled over C is the one polled in Rust; with a NUL in it, it is lost: NULL is returned and the pending output
is gone. -/
theorem c_poll (h : CHeap) (hh : HeapOk h) (c : Ctx) :
    (pollOutput h c).1 = c.pollOutput.1 ∧
    (NoNul (c.pollOutput.2.getD []) → (pollOutput h c).2.1.read (pollOutput h c).2.2 = some (c.pollOutput.2.getD [])) ∧
    (¬ NoNul (c.pollOutput.2.getD []) → (pollOutput h c).2.2 = 0 ∧ c.pollOutput.1.pollOutput.2 = none) := by
  refine ⟨rfl, fun hn => ((string_returned h hh _).1 hn).2.1, fun hn => ⟨?_, by rw [Output.second_poll_returns_nothing c]⟩⟩
  have := (string_returned h hh _).2.1 hn
  exact congrArg Prod.snd this

/-- **C42.** The preedit over C: the preedit of the levels as they are rendered (C04), NULL if there is a NUL in it. The context is not changed, the string
is the caller's to free. -/
theorem c_preedit (e : Env) (h : CHeap) (hh : HeapOk h) (c : Ctx) :
    (NoNul (c.preedit e) → (getPreedit e h c).2 ≠ 0 ∧ (getPreedit e h c).1.read (getPreedit e h c).2 = some (c.preedit e)) ∧
    (¬ NoNul (c.preedit e) → getPreedit e h c = (h, 0)) ∧
    ∃ h', freeString (getPreedit e h c).1 (getPreedit e h c).2 = .ok h' ∧ h'.live = h.live := by
  obtain ⟨h1, h2, h3⟩ := string_returned h hh (c.preedit e)
  exact ⟨fun hn => ⟨(h1 hn).1, (h1 hn).2.1⟩, h2, h3⟩

/-- **C42.** The string to be converted over C is the reading typed on the innermost level. -/
theorem c_to_composite (h : CHeap) (hh : HeapOk h) (c : Ctx) :
    (NoNul c.top.raw → (getToComposite h c).2 ≠ 0 ∧ (getToComposite h c).1.read (getToComposite h c).2 = some c.top.raw) ∧
    (¬ NoNul c.top.raw → getToComposite h c = (h, 0)) ∧
    ∃ h', freeString (getToComposite h c).1 (getToComposite h c).2 = .ok h' ∧ h'.live = h.live := by
  have hr : c.top.compositeKey.toComposite = c.top.raw := by
    unfold State.compositeKey
    split <;> rfl
  have he : getToComposite h c = orNull h c.top.raw := by unfold getToComposite; rw [hr]
  rw [he]
  obtain ⟨h1, h2, h3⟩ := string_returned h hh c.top.raw
  exact ⟨fun hn => ⟨(h1 hn).1, (h1 hn).2.1⟩, h2, h3⟩

/-- A number as a C `int`: in range, and the same modulo 2³²; the number itself if it is below 2³¹. -/
theorem asCInt_spec (n : Nat) : -(2 ^ 31) ≤ asCInt n ∧ asCInt n < 2 ^ 31 ∧ (asCInt n - n) % 2 ^ 32 = 0 ∧ (n < 2 ^ 31 → asCInt n = n) := by
  unfold asCInt
  split <;> omega

/-- **C33.** The count over C is the number of candidates, modulo 2³². -/
theorem c_count (c : Ctx) : CApi.candidateCount c < 2 ^ 32 ∧ (c.candidates.length : Int) % 2 ^ 32 = CApi.candidateCount c ∧
    (c.candidates.length < 2 ^ 32 → CApi.candidateCount c = c.candidates.length) := by
  unfold CApi.candidateCount Ctx.candidateCount Ctx.candidates
  omega

/-- The cursor position over C: -1 without candidates, else the position, provided it fits. -/
theorem c_cursor (c : Ctx) (h : c.candidateCount < 2 ^ 31) (hc : c.candidateCount = 0 ∨ c.top.cands.cursor < c.candidateCount) :
    (CApi.cursorPosition c = -1 ↔ c.candidateCount = 0) ∧
    (c.candidateCount ≠ 0 → CApi.cursorPosition c = (c.top.cands.cursor : Int) ∧ CApi.cursorPosition c < c.candidateCount) := by
  unfold CApi.cursorPosition Ctx.cursorPosition Ctx.candidateCount at *
  cases hl : c.top.cands.cands with
  | nil => simp
  | cons x l =>
    rw [hl] at hc h
    simp only [List.length_cons, Nat.add_one_ne_zero, false_or] at hc
    have h1 : ¬ (c.top.cands.cursor > 2 ^ 31 - 1) := by simp only [List.length_cons] at h; omega
    simp only [List.isEmpty_cons, Bool.false_eq_true, if_false, h1, List.length_cons, Nat.add_one_ne_zero, iff_false, ne_eq,
      not_false_eq_true, forall_const, true_and]
    omega

/-! ## Examples -/

/-- The heap before the first call. -/
def heap0 : CHeap := ⟨1, []⟩

example : HeapOk heap0 := ⟨by decide, by simp [heap0], by simp [heap0]⟩

/-- A level which shows three candidates. -/
def sample : Ctx :=
  { Ctx.new Assets.defaultCommands Assets.defaultKana .hiragana .direct [] with
    top := { State.new .hiragana .direct with
      mode := .compositionSelection
      kana := c%"あい"
      cands := ⟨⟨c%"あい", none⟩, 0, [⟨c%"あい", none, false, c%"愛", none, c%"愛"⟩, ⟨c%"あい", none, false, c%"哀", none, c%"哀"⟩,
        ⟨c%"あい", none, false, c%"相", none, c%"相"⟩]⟩ } }

/-- Two slots from offset 1; three slots from offset 2 return one; an offset behind the end returns none. -/
example : getCandidates heap0 sample [0, 0, 7] 2 1 = .ok (⟨3, [(2, c%"相"), (1, c%"哀")]⟩, [1, 2, 7], 2) := by decide +kernel
example : getCandidates heap0 sample [0, 0, 7] 3 2 = .ok (⟨2, [(1, c%"相")]⟩, [1, 0, 7], 1) := by decide +kernel
example : getCandidates heap0 sample [0, 0, 7] 3 9 = .ok (heap0, [0, 0, 7], 0) := by decide +kernel

/-- The leak: a level in completion, its detail fetched and released, leaves the heading behind. -/
theorem completion_detail_leaks :
    (do let r ← preeditDetail (Assets.env ⟨true⟩) heap0 { sample with top := { sample.top with mode := .completion } }
        freePreeditDetail r.1 r.2) = .ok ⟨5, [(3, c%"あい")]⟩ := by decide +kernel

/-- A NUL among the texts: the process is aborted in selection, a level in Direct mode reports an empty text instead. -/
theorem detail_nul :
    preeditDetail (Assets.env ⟨true⟩) heap0 { sample with top := { sample.top with confirmed := ['\x00'] } } = .error .panic ∧
    preeditDetail (Assets.env ⟨true⟩) heap0 { sample with top := { State.new .hiragana .direct with confirmed := ['\x00'] } }
      = .ok (⟨2, [(1, [])]⟩, [.direct 1 0]) := by decide +kernel

end Cskk.Props.CApi

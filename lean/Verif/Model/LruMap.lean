import Verif.Model.Basic

/-!
# Model of `src/dictionary/lru_ordered_map.rs`

The raw-pointer doubly linked list is modelled over an explicit heap: an address is a `Nat`, a heap is a
partial map from addresses to nodes. Reading or writing an address that is not allocated is the value `none`
(undefined behaviour in Rust). Keys are strings (`LruOrderedMap<String, DictEntry>` is the only instance).
`HashMap<Rc<K>, Box<LruEntry>>` is a finite map from keys to the address of the owned box.
-/

namespace Cskk

/-- `src/dictionary/lru_ordered_map.rs:9-16` `struct LruEntry`. Null pointers are address `0`. -/
structure LruNode (V : Type) where
  key : Option Str
  val : Option V
  prev : Nat
  next : Nat

/-- Heap of list nodes. -/
abbrev LruHeap (V : Type) := Nat → Option (LruNode V)

/-- Write through a pointer; `none` when the pointer is dangling. -/
def LruHeap.modify {V} (h : LruHeap V) (p : Nat) (f : LruNode V → LruNode V) : Option (LruHeap V) :=
  match h p with
  | none => none
  | some n => some fun q => if q = p then some (f n) else h q

/-- `src/dictionary/lru_ordered_map.rs:225-235` `struct LruOrderedMap`; `fresh` is the allocator. -/
structure LruMap (V : Type) where
  heap : LruHeap V
  fresh : Nat
  keys : List Str
  head : Nat
  tail : Nat
  map : Str → Option Nat

namespace LruMap
variable {V : Type}

/-- `src/dictionary/lru_ordered_map.rs:241-254` `new`: two marker nodes linked to each other. -/
def new : LruMap V where
  heap := fun q =>
    if q = 1 then some ⟨none, none, 0, 2⟩
    else if q = 2 then some ⟨none, none, 1, 0⟩ else none
  fresh := 3
  keys := []
  head := 1
  tail := 2
  map := fun _ => none

/-- `src/dictionary/lru_ordered_map.rs:369-374` `detach`, with the reads in program order. -/
def detach (h : LruHeap V) (p : Nat) : Option (LruHeap V) := do
  let n ← h p
  let h ← h.modify n.prev (fun m => { m with next := n.next })
  let n ← h p
  h.modify n.next (fun m => { m with prev := n.prev })

/-- `src/dictionary/lru_ordered_map.rs:376-383` `attach`, with the reads in program order. -/
def attach (h : LruHeap V) (head p : Nat) : Option (LruHeap V) := do
  let hd ← h head
  let h ← h.modify p (fun m => { m with next := hd.next })
  let h ← h.modify p (fun m => { m with prev := head })
  let h ← h.modify head (fun m => { m with next := p })
  let n ← h p
  h.modify n.next (fun m => { m with prev := p })

/-- `Vec::partition_point(|x| x < k)` followed by `Vec::insert` (`lru_ordered_map.rs:276-277`). The keys are
sorted, so the binary search finds the end of the `< k` prefix; the model scans for it. -/
def insertKey (k : Str) (ks : List Str) : List Str :=
  ks.takeWhile (fun x => strLt x k) ++ k :: ks.dropWhile (fun x => strLt x k)

/-- `src/dictionary/lru_ordered_map.rs:257-281` `push`. -/
def push (m : LruMap V) (k : Str) (v : V) : Option (LruMap V) :=
  match m.map k with
  | some p => do
    let h ← m.heap.modify p (fun n => { n with val := some v })
    let h ← detach h p
    let h ← attach h m.head p
    return { m with heap := h }
  | none => do
    let p := m.fresh
    let h : LruHeap V := fun q => if q = p then some ⟨some k, some v, 0, 0⟩ else m.heap q
    let h ← attach h m.head p
    return { m with
      heap := h
      fresh := p + 1
      keys := insertKey k m.keys
      map := fun k' => if k' = k then some p else m.map k' }

/-- `src/dictionary/lru_ordered_map.rs:285-301` `get_mut` together with the caller's update `f` of the
returned `&mut V` (`f = id` is `get`, lines 306-318). The outer `Option` is undefined behaviour, the inner
one is the returned `Option<&mut V>` (its old value). -/
def getMut (m : LruMap V) (k : Str) (f : V → V) : Option (LruMap V × Option V) :=
  match m.map k with
  | none => some (m, none)
  | some p => do
    let h ← detach m.heap p
    let h ← attach h m.head p
    let n ← h p
    match n.val with
    | none => return ({ m with heap := h }, none)
    | some v =>
      let h ← h.modify p (fun n => { n with val := some (f v) })
      return ({ m with heap := h }, some v)

/-- `src/dictionary/lru_ordered_map.rs:322-328` `peek`. -/
def peek (m : LruMap V) (k : Str) : Option (Option V) :=
  match m.map k with
  | none => some none
  | some p => do let n ← m.heap p; return n.val

/-- `src/dictionary/lru_ordered_map.rs:333-346` `remove`; the removed box is freed at the end. Keys are
sorted and distinct, so `binary_search` + `Vec::remove` erases the one occurrence. -/
def remove (m : LruMap V) (k : Str) : Option (LruMap V × Option V) :=
  match m.map k with
  | none => some (m, none)
  | some p => do
    let h ← detach m.heap p
    let n ← h p
    return ({ m with
      heap := fun q => if q = p then none else h q
      keys := m.keys.erase k
      map := fun k' => if k' = k then none else m.map k' }, n.val)

/-- `src/dictionary/lru_ordered_map.rs:52-76` `LinkedListIter::next`, iterated `len` times. -/
def walk (h : LruHeap V) : Nat → Nat → Option (List (Option Str × Option V))
  | 0, _ => some []
  | len + 1, p => do
    let n ← h p
    let rest ← walk h len n.next
    return (n.key, n.val) :: rest

/-- `src/dictionary/lru_ordered_map.rs:360-367` `iter_lru`, collected. -/
def iterLru (m : LruMap V) : Option (List (Option Str × Option V)) := do
  let hd ← m.heap m.head
  walk m.heap m.keys.length hd.next

/-- `src/dictionary/lru_ordered_map.rs:351-358` `iter_sorted` with `SliceIter::next` (166-186), collected.
`SliceIter::next` ends the iteration when the map has no entry for a key. -/
def iterSorted (m : LruMap V) : Option (List (Option Str × Option V)) :=
  go m.keys
where
  go : List Str → Option (List (Option Str × Option V))
    | [] => some []
    | k :: ks =>
      match m.map k with
      | none => some []
      | some p => do
        let n ← m.heap p
        let rest ← go ks
        return (n.key, n.val) :: rest

/-- `src/dictionary/lru_ordered_map.rs:78-92` `LinkedListIter::next_back`, iterated `len` times from the state
`(ptr, end)`: the item is read at `ptr`, only `end` moves. -/
def walkBack (h : LruHeap V) : Nat → Nat → Nat → Option (List (Option Str × Option V))
  | 0, _, _ => some []
  | len + 1, p, e => do
    let n ← h p
    let en ← h e
    let rest ← walkBack h len p en.prev
    return (n.key, n.val) :: rest

/-- `iter_lru().rev()` collected. -/
def iterLruRev (m : LruMap V) : Option (List (Option Str × Option V)) := do
  let hd ← m.heap m.head
  let tl ← m.heap m.tail
  walkBack m.heap m.keys.length hd.next tl.prev

/-- `src/dictionary/lru_ordered_map.rs:43-50` `struct LinkedListIter`; `LinkedListIterMut` (101-108) has the same fields. -/
structure ListIter where
  len : Nat
  ptr : Nat
  stop : Nat

/-- `src/dictionary/lru_ordered_map.rs:360-367` `iter_lru`. -/
def listIter (m : LruMap V) : Option ListIter := do
  let hd ← m.heap m.head
  let tl ← m.heap m.tail
  return ⟨m.keys.length, hd.next, tl.prev⟩

/-- `src/dictionary/lru_ordered_map.rs:55-67` (and 113-125) `next`. The outer `none` is a dangling pointer. -/
def ListIter.next (h : LruHeap V) (i : ListIter) : Option (ListIter × Option (Option Str × Option V)) :=
  if i.len = 0 then some (i, none)
  else do
    let n ← h i.ptr
    return ({ i with len := i.len - 1, ptr := n.next }, some (n.key, n.val))

/-- `src/dictionary/lru_ordered_map.rs:79-91` (and 137-149) `next_back`: the entry is read at `ptr`, `end` moves. -/
def ListIter.nextBack (h : LruHeap V) (i : ListIter) : Option (ListIter × Option (Option Str × Option V)) :=
  if i.len = 0 then some (i, none)
  else do
    let n ← h i.ptr
    let en ← h i.stop
    return ({ i with len := i.len - 1, stop := en.prev }, some (n.key, n.val))

/-- `src/dictionary/lru_ordered_map.rs:69-75` (and 127-133) `size_hint` and `count`: all three numbers are `len`. -/
def ListIter.sizeHint (i : ListIter) : Nat := i.len

/-- `src/dictionary/lru_ordered_map.rs:158-166` `struct SliceIter`; the key vector and the map are those of the container. -/
structure SortedIter where
  start : Nat
  stop : Nat

/-- `src/dictionary/lru_ordered_map.rs:351-358` `iter_sorted`. -/
def sortedIter (m : LruMap V) : SortedIter := ⟨0, m.keys.length⟩

/-- `src/dictionary/lru_ordered_map.rs:175-186` `next` and 201-212 `next_back`, which differ in the index read and moved: `error` is the
panic of `unwrap` (no such key) and, with `debug`, of `debug_assert!` (no such entry). `next_back` reads `key_vec[end]`. -/
def SortedIter.entryAt (m : LruMap V) (debug : Bool) (idx : Nat) (i : SortedIter) :
    R (Option (SortedIter × Option (Option Str × Option V))) :=
  match m.keys[idx]? with
  | none => .error .unwrap
  | some k =>
    match m.map k with
    | none => if debug then .error .debugAssert else .ok (some (i, none))
    | some p => .ok do
      let n ← m.heap p
      return (i, some (n.key, n.val))

/-- `src/dictionary/lru_ordered_map.rs:175-186` `SliceIter::next`. -/
def SortedIter.next (m : LruMap V) (debug : Bool) (i : SortedIter) : R (Option (SortedIter × Option (Option Str × Option V))) :=
  if i.start < i.stop then SortedIter.entryAt m debug i.start { i with start := i.start + 1 } else .ok (some (i, none))

/-- `src/dictionary/lru_ordered_map.rs:201-212` `SliceIter::next_back`. -/
def SortedIter.nextBack (m : LruMap V) (debug : Bool) (i : SortedIter) : R (Option (SortedIter × Option (Option Str × Option V))) :=
  if i.start < i.stop then SortedIter.entryAt m debug i.stop { i with stop := i.stop - 1 } else .ok (some (i, none))

end LruMap
end Cskk

import Verif.Model.CApi

/-!
# Dictionaries, contexts and key events as C objects (`src/capi.rs`)

The pointers which C gets for dictionaries (`CskkDictionaryFfi`, a box around an `Arc`), contexts (`CskkContext`, which owns a list of
`Arc`s) and key events. A dictionary is destroyed when its reference count becomes 0. The contents of the objects are the matter of
`Verif.Model.Context`; here only their lifetimes are of interest. Using or releasing memory which is not in use is undefined behaviour in
the code and the fault `badFree` here. Fresh addresses are never reused (the allocator is not modelled). A dictionary is named by the address of
the handle it was made with.
-/

namespace Cskk
namespace Handles

/-- The objects in use: handles with the dictionary they refer to, contexts with the dictionaries they use, key events, and the reference count
of each dictionary (0: destroyed, or never made). -/
structure Mem where
  next : Nat
  handles : List (Nat × Nat)
  contexts : List (Nat × List Nat)
  events : List Nat
  strong : Nat → Nat

/-- Nothing in use; address 0 is NULL. -/
def Mem.empty : Mem := ⟨1, [], [], [], fun _ => 0⟩

/-- The dictionary of a handle (`CskkDictionaryFfi`, capi.rs:23-25). -/
def Mem.handle (m : Mem) (a : Nat) : Option Nat := (m.handles.find? fun p => decide (p.1 = a)).map (·.2)

/-- The dictionaries of a context (`CskkContext::dictionaries`, lib.rs). -/
def Mem.context (m : Mem) (a : Nat) : Option (List Nat) := (m.contexts.find? fun p => decide (p.1 = a)).map (·.2)

/-- `Arc::clone`. -/
def clone (m : Mem) (d : Nat) : C Mem :=
  if m.strong d = 0 then .error .badFree else .ok { m with strong := fun x => if x = d then m.strong d + 1 else m.strong x }

/-- Dropping an `Arc`. -/
def dropArc (m : Mem) (d : Nat) : C Mem :=
  if m.strong d = 0 then .error .badFree else .ok { m with strong := fun x => if x = d then m.strong d - 1 else m.strong x }

/-- Dropping a `Vec<Arc<CskkDictionary>>`. -/
def dropAll (m : Mem) : List Nat → C Mem
  | [] => .ok m
  | d :: ds => do dropAll (← dropArc m d) ds

/-- `Vec<Arc<CskkDictionary>>::clone`. -/
def cloneAll (m : Mem) : List Nat → C Mem
  | [] => .ok m
  | d :: ds => do cloneAll (← clone m d) ds

/-- The loop of capi.rs:1104-1109. -/
def cloneHandles (m : Mem) : List Nat → C (Mem × List Nat)
  | [] => .ok (m, [])
  | a :: as =>
    match m.handle a with
    | none => .error .badFree
    | some d => do
      let m ← clone m d
      let (m, ds) ← cloneHandles m as
      return (m, d :: ds)

/-- capi.rs:1095-1111 `dictionaries_from_c_repr`; `as` is the array of handles. `dictionary_array.is_null()` looks through the reference, so it
asks for the first element. -/
def fromCRepr (m : Mem) (as : List Nat) : C (Mem × List Nat) :=
  match as with
  | [] => .ok (m, [])
  | a :: _ => if a = 0 then .ok (m, []) else cloneHandles m as

/-- capi.rs:305-379 `skk_file_dict_new`, `skk_user_dict_new`, `skk_empty_dict_new`; `ok`: the dictionary could be loaded. -/
def newDict (m : Mem) (ok : Bool) : Mem × Nat :=
  if ok then
    ({ m with next := m.next + 1, handles := (m.next, m.next) :: m.handles, strong := fun x => if x = m.next then 1 else m.strong x }, m.next)
  else (m, 0)

/-- capi.rs:252-265 `skk_context_new`; `ok`: the rules could be loaded (lib.rs:1489-1510). -/
def newContext (m : Mem) (ok : Bool) (as : List Nat) : C (Mem × Nat) := do
  let (m, ds) ← fromCRepr m as
  if ok then return ({ m with next := m.next + 1, contexts := (m.next, ds) :: m.contexts }, m.next)
  else return (← dropAll m ds, 0)

/-- capi.rs:280-292 `skk_context_new_with_empty_fallback` (lib.rs:1515-1525): the list is cloned for the first attempt and dropped
with it, or dropped after its success. -/
def newContextFallback (m : Mem) (_ok : Bool) (as : List Nat) : C (Mem × Nat) := do
  let (m, ds) ← fromCRepr m as
  let m ← cloneAll m ds
  let m ← dropAll m ds
  return ({ m with next := m.next + 1, contexts := (m.next, ds) :: m.contexts }, m.next)

/-- capi.rs:809-816 `skk_context_set_dictionaries` (lib.rs:767-769): the new list is made, then the old one is dropped. -/
def setDictionaries (m : Mem) (c : Nat) (as : List Nat) : C Mem :=
  match m.context c with
  | none => .error .badFree
  | some old => do
    let (m, ds) ← fromCRepr m as
    let m := { m with contexts := m.contexts.map fun p => if p.1 = c then (c, ds) else p }
    dropAll m old

/-- Any call which works with a context and its dictionaries (`skk_context_save_dictionaries`, capi.rs:733-735, and so on). -/
def useContext (m : Mem) (c : Nat) : C Mem :=
  match m.context c with
  | none => .error .badFree
  | some ds => if ds.all fun d => decide (m.strong d ≠ 0) then .ok m else .error .badFree

/-- capi.rs:745-750 `skk_free_context`. -/
def freeContext (m : Mem) (c : Nat) : C Mem :=
  if c = 0 then .ok m
  else match m.context c with
    | none => .error .badFree
    | some ds => dropAll { m with contexts := m.contexts.filter fun p => decide (p.1 ≠ c) } ds

/-- capi.rs:760-765 `skk_free_dictionary`. -/
def freeDict (m : Mem) (a : Nat) : C Mem :=
  if a = 0 then .ok m
  else match m.handle a with
    | none => .error .badFree
    | some d => dropArc { m with handles := m.handles.filter fun p => decide (p.1 ≠ a) } d

/-- capi.rs:828-836 `skk_key_event_new_from_fcitx_keyevent`. -/
def newEvent (m : Mem) : Mem × Nat := ({ m with next := m.next + 1, events := m.next :: m.events }, m.next)

/-- capi.rs:463-469 `skk_context_process_key_event`: the key event is released. -/
def processEvent (m : Mem) (c ev : Nat) : C Mem :=
  if ev ∈ m.events then do
    let m ← useContext m c
    return { m with events := m.events.filter fun a => decide (a ≠ ev) }
  else .error .badFree

/-- The calls of the C API which make, use or release these objects. -/
inductive Call where
  | newDict (ok : Bool)
  | newContext (ok : Bool) (handles : List Nat)
  | newContextFallback (ok : Bool) (handles : List Nat)
  | setDictionaries (context : Nat) (handles : List Nat)
  | useContext (context : Nat)
  | freeContext (context : Nat)
  | freeDict (handle : Nat)
  | newEvent
  | processEvent (context event : Nat)
  deriving Repr, DecidableEq

/-- One call, with the pointer it returns (0 if it returns none). -/
def step (m : Mem) : Call → C (Mem × Nat)
  | .newDict ok => .ok (newDict m ok)
  | .newContext ok as => newContext m ok as
  | .newContextFallback ok as => newContextFallback m ok as
  | .setDictionaries c as => do return (← setDictionaries m c as, 0)
  | .useContext c => do return (← useContext m c, 0)
  | .freeContext c => do return (← freeContext m c, 0)
  | .freeDict a => do return (← freeDict m a, 0)
  | .newEvent => .ok (newEvent m)
  | .processEvent c ev => do return (← processEvent m c ev, 0)

end Handles
end Cskk

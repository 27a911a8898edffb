import Verif.Model.CApi

/-!
# The list of rules in the C API (`src/capi.rs`: `skk_get_rules`, `skk_free_rules`)

The array handed to C is the buffer of a `Vec`, which Rust allocates with a capacity; releasing it with another capacity
is undefined behaviour (documentation of `Vec::from_raw_parts`), here the fault `badLayout`.
-/

namespace Cskk
namespace CRules
open CApi

/-- capi.rs:28-32 `CskkRulesFfi`. -/
structure RuleFfi where
  id : Nat
  name : Nat
  description : Nat
  deriving Repr, DecidableEq

/-- The strings and the arrays of rules in use: address, allocated capacity and elements. -/
structure CMem where
  strings : CHeap
  arrays : List (Nat × Nat × List RuleFfi)
  deriving Repr, DecidableEq

/-- The array at an address. -/
def CMem.array (m : CMem) (a : Nat) : Option (Nat × List RuleFfi) := (m.arrays.find? fun p => decide (p.1 = a)).map (·.2)

/-- The capacity of an empty `Vec` after `n` calls of `push` (library/alloc/src/raw_vec.rs `grow_amortized`: a full buffer is
doubled, and has room for four elements at least when, as here, an element has at most 1024 bytes). -/
def capAfter : Nat → Nat
  | 0 => 0
  | n + 1 => if n = capAfter n then max (2 * capAfter n) 4 else capAfter n

/-- capi.rs:36-45 `CskkRulesFfi::new`: the three `CString`s are made before any of them is turned into a pointer. -/
def newRule (h : CHeap) (r : Str × Str × Str) : Option (CHeap × RuleFfi) := do
  let id ← cstring r.1
  let name ← cstring r.2.1
  let description ← cstring r.2.2
  let (h, a) := h.alloc id
  let (h, b) := h.alloc name
  let (h, c) := h.alloc description
  return (h, ⟨a, b, c⟩)

/-- The loop of capi.rs:1065-1068; the last component tells whether it ended without an error. -/
def fill (h : CHeap) : List (Str × Str × Str) → CHeap × List RuleFfi × Bool
  | [] => (h, [], true)
  | r :: rs =>
    match newRule h r with
    | none => (h, [], false)
    | some (h, f) =>
      let (h, fs, ok) := fill h rs
      (h, f :: fs, ok)

/-- capi.rs:48-56 `Drop for CskkRulesFfi`: the pointers it releases. -/
def fields (f : RuleFfi) : List Nat := [f.id, f.name, f.description]

/-- capi.rs:1058-1089 `skk_get_rules`: `rules` is the result of `get_available_rules` (lib.rs:330-333; identifier, name and description
in the order of the identifiers), `len` what `*length` holds before. Returns the pointer and what `*length` holds
afterwards. `set_len` (capi.rs:1070) does not change the capacity. -/
def getRules (m : CMem) (rules : Option (List (Str × Str × Str))) (len : Nat) : C (CMem × Nat × Nat) :=
  match rules with
  | none => .ok (m, 0, len)
  | some rs => do
    let (h, fs, ok) := fill m.strings rs
    if ok = true ∧ rs.length < 2 ^ 32 then
      if rs.length > 0 then
        return (⟨{ h with next := h.next + 1 }, (h.next, capAfter fs.length, fs) :: m.arrays⟩, h.next, rs.length)
      else return (⟨h, m.arrays⟩, 0, 0)
    else do
      let h ← freeAll h (fs.flatMap fields)
      return (⟨h, m.arrays⟩, 0, len)

/-- capi.rs:774-777 `skk_free_rules`: `drop(Vec::from_raw_parts(rules_ptr, length, length))`, without a test for NULL. -/
def freeRules (m : CMem) (ptr len : Nat) : C CMem :=
  match m.array ptr with
  | none => .error .badFree
  | some (cap, fs) =>
    if fs.length < len then .error .outOfBounds
    else do
      let h ← freeAll m.strings ((fs.take len).flatMap fields)
      if cap = len then return ⟨h, m.arrays.filter fun p => decide (p.1 ≠ ptr)⟩
      else .error .badLayout

end CRules
end Cskk

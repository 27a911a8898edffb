import Verif.Model.Context

/-!
# The C API (`src/capi.rs`)

Only what happens to memory is of interest here: strings handed to C are heap cells made by `CString::into_raw` and given
back by `CString::from_raw`.  A `CHeap` holds the strings that are in use; freeing an address which is not in use is
undefined behaviour in the code and a `CFault` in the model.  Addresses are natural numbers, 0 is NULL, fresh addresses
are never reused (the allocator is not modelled).  The array returned by `skk_context_get_preedit_detail` is a value; the
reconstruction of its `Vec` with a capacity which may differ from the allocated one (capi.rs:546-550, 708) is not modelled (the
capacity chosen by `collect` is up to the standard library); for `skk_get_rules` see `Verif.Model.CRules`.  A panic of an `extern "C"` function aborts the process.
-/

namespace Cskk

/-- What can go wrong: a panic, the release of memory that is not in use, access outside of the caller's array, or the release of
an array with another size than the one it was allocated with. -/
inductive CFault where
  | panic
  | badFree
  | outOfBounds
  | badLayout
  deriving Repr, DecidableEq

/-- Computations that may fail so. -/
abbrev C := Except CFault

instance {α} [DecidableEq α] : DecidableEq (C α) := fun a b =>
  match a, b with
  | .ok a, .ok b => if h : a = b then isTrue (by rw [h]) else isFalse (by intro h'; cases h'; exact h rfl)
  | .error a, .error b => if h : a = b then isTrue (by rw [h]) else isFalse (by intro h'; cases h'; exact h rfl)
  | .ok _, .error _ => isFalse (by intro h; cases h)
  | .error _, .ok _ => isFalse (by intro h; cases h)

/-- The C strings in use. -/
structure CHeap where
  next : Nat
  live : List (Nat × Str)
  deriving Repr, DecidableEq

namespace CHeap

/-- The string at an address. -/
def read (h : CHeap) (a : Nat) : Option Str := (h.live.find? fun p => decide (p.1 = a)).map (·.2)

/-- `CString::into_raw`. -/
def alloc (h : CHeap) (s : Str) : CHeap × Nat := (⟨h.next + 1, (h.next, s) :: h.live⟩, h.next)

/-- `drop(CString::from_raw(_))`. -/
def free (h : CHeap) (a : Nat) : C CHeap :=
  if h.live.any (fun p => decide (p.1 = a)) then .ok { h with live := h.live.filter fun p => decide (p.1 ≠ a) }
  else .error .badFree

end CHeap

namespace CApi

/-- `CString::new(_)`: fails iff there is a NUL inside (U+0000 is the only character with a zero byte in UTF-8). -/
def cstring (s : Str) : Option Str := if '\x00' ∈ s then none else some s

/-- `CString::new(_)` then `into_raw` or `ptr::null_mut()` (capi.rs:482-494, 507-523, 854-864). -/
def orNull (h : CHeap) (s : Str) : CHeap × Nat :=
  match cstring s with
  | some t => h.alloc t
  | none => (h, 0)

/-- capi.rs:482-494 `skk_context_poll_output`; `skk_context_poll_output_rs` is `poll_output().unwrap_or_default()`. -/
def pollOutput (h : CHeap) (c : Ctx) : Ctx × CHeap × Nat :=
  let r := c.pollOutput
  (r.1, orNull h (r.2.getD []))

/-- capi.rs:507-523 `skk_context_get_preedit`; `get_preedit` never returns `None` (lib.rs:364-378). -/
def getPreedit (e : Env) (h : CHeap) (c : Ctx) : CHeap × Nat := orNull h (c.preedit e)

/-- capi.rs:854-864 `skk_context_get_current_to_composite`, lib.rs:202-208. -/
def getToComposite (h : CHeap) (c : Ctx) : CHeap × Nat := orNull h c.top.compositeKey.toComposite

/-- capi.rs:721-727 `skk_free_string`. -/
def freeString (h : CHeap) (a : Nat) : C CHeap := if a = 0 then .ok h else h.free a

/-- `as c_int` for a 32-bit pattern: the value modulo 2³², as a signed number. -/
def asCInt (n : Nat) : Int := if n % 2 ^ 32 < 2 ^ 31 then (n % 2 ^ 32 : Nat) else ((n % 2 ^ 32 : Nat) : Int) - 2 ^ 32

/-- capi.rs:870-872 `skk_context_get_current_candidate_count`. -/
def candidateCount (c : Ctx) : Nat := c.candidateCount % 2 ^ 32

/-- capi.rs:908-914: `for j in 0..i { drop(CString::from_raw(buffer[j])) }`. -/
def freeAll (h : CHeap) : List Nat → C CHeap
  | [] => .ok h
  | a :: as => do
    let h ← h.free a
    freeAll h as

/-- The loop of capi.rs:903-915 from slot `i` on; `buffer[i]` is an index into a slice of `size` slots. -/
def copyLoop (h : CHeap) (buf : List Nat) (size i : Nat) : List Str → C (CHeap × List Nat × Bool)
  | [] => .ok (h, buf, true)
  | w :: ws =>
    match cstring w with
    | some t =>
      if i < size then copyLoop (h.alloc t).1 (buf.set i (h.alloc t).2) size (i + 1) ws
      else .error .panic
    | none => do
      let h ← freeAll h (buf.take i)
      return (h, buf, false)

/-- capi.rs:890-918 `skk_context_get_current_candidates`: `buf` is the caller's array. -/
def getCandidates (h : CHeap) (c : Ctx) (buf : List Nat) (bufSize offset : Nat) : C (CHeap × List Nat × Int) :=
  if buf.length < bufSize then .error .outOfBounds
  else do
    let list := (c.candidates.drop offset).take bufSize
    let (h, buf, ok) ← copyLoop h buf bufSize 0 (list.map (·.output))
    return (h, buf, if ok then asCInt list.length else -1)

/-- capi.rs:930-941 `skk_free_candidate_list`; `none` is the NULL array. -/
def freeCandidateList (h : CHeap) (buf : Option (List Nat)) (size : Nat) : C CHeap :=
  match buf with
  | none => .ok h
  | some buf => if buf.length < size then .error .outOfBounds else freeAll h (buf.take size)

/-- capi.rs:946-958 `skk_context_get_current_candidate_cursor_position`. -/
def cursorPosition (c : Ctx) : Int :=
  match c.cursorPosition with
  | some p => if p > 2 ^ 31 - 1 then -2 else p
  | none => -1

/-! ## The preedit in detail -/

/-- capi.rs:64-216 `CskkStateInfoFfi` and its parts: every field is a pointer to a C string or NULL. -/
inductive StateInfoFfi where
  | direct (confirmed unconverted : Nat)
  | preComposition (confirmed kana okuri unconverted : Nat)
  | preCompositionOkurigana (confirmed kana okuri unconverted : Nat)
  | compositionSelection (confirmed composited okuri annotation : Nat)
  | register (confirmed kana okuri postfx : Nat)
  | complete (confirmed origin originOkuri midashi completed okuri annotation : Nat)
  deriving Repr, DecidableEq

/-- `CString::new(_).unwrap_or_default().into_raw()`. -/
def orEmpty (h : CHeap) (s : Str) : CHeap × Nat := h.alloc ((cstring s).getD [])

/-- `CString::new(_).unwrap().into_raw()`. -/
def orPanic (h : CHeap) (s : Str) : C (CHeap × Nat) :=
  match cstring s with
  | some t => .ok (h.alloc t)
  | none => .error .panic

/-- `if let Some(s) = _ { CString::new(s).unwrap_or_default().into_raw() } else { ptr::null_mut() }`. -/
def optOrEmpty (h : CHeap) : Option Str → CHeap × Nat
  | some s => orEmpty h s
  | none => (h, 0)

/-- `if let Some(s) = _ { CString::new(s).unwrap().into_raw() } else { ptr::null_mut() }`. -/
def optOrPanic (h : CHeap) : Option Str → C (CHeap × Nat)
  | some s => orPanic h s
  | none => .ok (h, 0)

/-- capi.rs:670-694 `convert_precomposition_data`: confirmed, kana, okuri, unconverted. -/
def convertPre (h : CHeap) (confirmed kana : Str) (okuri unconverted : Option Str) : C (CHeap × Nat × Nat × Nat × Nat) := do
  let (h, a) := orEmpty h confirmed
  let (h, b) := orEmpty h kana
  let (h, c) := optOrEmpty h okuri
  let (h, d) ← optOrPanic h unconverted
  return (h, a, b, c, d)

/-- capi.rs:562-668 `convert_state_info`. -/
def convert (h : CHeap) : StateInfo → C (CHeap × StateInfoFfi)
  | .direct confirmed unconverted => do
    let (h, a) := orEmpty h confirmed
    let (h, b) ← optOrPanic h unconverted
    return (h, .direct a b)
  | .preComposition confirmed kana okuri unconverted => do
    let (h, a, b, c, d) ← convertPre h confirmed kana okuri unconverted
    return (h, .preComposition a b c d)
  | .preCompositionOkurigana confirmed kana okuri unconverted => do
    let (h, a, b, c, d) ← convertPre h confirmed kana okuri unconverted
    return (h, .preCompositionOkurigana a b c d)
  | .register confirmed kana okuri postfx => do
    let (h, a) := orEmpty h confirmed
    let (h, b) := orEmpty h kana
    let (h, c) := optOrEmpty h okuri
    let (h, d) ← optOrPanic h postfx
    return (h, .register a b c d)
  | .compositionSelection confirmed composited okuri annotation => do
    let (h, a) ← orPanic h confirmed
    let (h, b) ← orPanic h composited
    let (h, c) := optOrEmpty h okuri
    let (h, d) := optOrEmpty h annotation
    return (h, .compositionSelection a b c d)
  | .complete confirmed origin midashi completed _ annotation => do
    let (h, a) ← orPanic h confirmed
    let (h, b) ← orPanic h origin
    let (h, c) ← orPanic h midashi
    let (h, d) ← orPanic h completed
    let (h, f) ← optOrPanic h annotation
    return (h, .complete a b 0 c d 0 f)

/-- `into_iter().map(convert_state_info).collect()` (capi.rs:542-545). -/
def convertAll (h : CHeap) : List StateInfo → C (CHeap × List StateInfoFfi)
  | [] => .ok (h, [])
  | i :: is => do
    let (h, f) ← convert h i
    let (h, fs) ← convertAll h is
    return (h, f :: fs)

/-- capi.rs:537-559 `skk_context_get_preedit_detail`. -/
def preeditDetail (e : Env) (h : CHeap) (c : Ctx) : C (CHeap × List StateInfoFfi) := convertAll h (c.preeditDetail e)

/-- The fields which the `Drop` implementations release, in order (capi.rs:84-95, 109-126, 148-165, 181-198, 218-241); the
last one has no line for `completed_midashi`. -/
def dropFields : StateInfoFfi → List Nat
  | .direct a b => [a, b]
  | .preComposition a b c d => [a, b, c, d]
  | .preCompositionOkurigana a b c d => [a, b, c, d]
  | .compositionSelection a b c d => [a, b, c, d]
  | .register a b c d => [a, b, c, d]
  | .complete a b c _ d f g => [a, b, c, d, f, g]

/-- The `Drop` implementations: every released field is tested for NULL first. -/
def dropOne (h : CHeap) (f : StateInfoFfi) : C CHeap := freeAll h ((dropFields f).filter fun a => decide (a ≠ 0))

/-- capi.rs:703-709 `skk_free_preedit_detail` with the array and length returned by `skk_context_get_preedit_detail`. -/
def freePreeditDetail (h : CHeap) : List StateInfoFfi → C CHeap
  | [] => .ok h
  | f :: fs => do
    let h ← dropOne h f
    freePreeditDetail h fs

end CApi
end Cskk

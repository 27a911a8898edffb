import Verif.Model.CApi
import Verif.Model.Session
import Verif.Model.Label
import Verif.Model.RuleLoad

/-!
# A C program with a context (`src/capi.rs`)

All functions of the C API which take a context, and those which give strings back, as calls on a context, its files and the
strings in the hands of the program.  Making and releasing contexts, dictionaries, key events and rule lists is in
`Verif.Model.Handles` and `Verif.Model.CRules`.

Simplifications: values of C enums are those of the Rust enums (another number is undefined behaviour); a pointer argument which must not
be NULL is not NULL; the output parameters of `skk_context_get_preedit_underline` and `skk_context_get_preedit_detail` are results.
-/

namespace Cskk
open DictFile

/-- The context, the files, and the C strings in use. -/
structure CState where
  ctx : Ctx
  fs : FS
  heap : CHeap

namespace CSession

/-- The calls. Texts are the bytes at the pointer, up to and without the first NUL where there is one. -/
inductive Call where
  /-- capi.rs:828-836 `skk_key_event_new_from_fcitx_keyevent`, then 463-469 `skk_context_process_key_event` -/
  | key (keysym : Keysym) (modifier : BitVec 32) (isRelease : Bool)
  /-- capi.rs:436-450 `skk_context_process_key_events` -/
  | keys (text : Bytes)
  /-- capi.rs:482 `skk_context_poll_output` -/
  | poll
  /-- capi.rs:507 `skk_context_get_preedit` -/
  | preedit
  /-- capi.rs:537 `skk_context_get_preedit_detail` -/
  | detail
  /-- capi.rs:793 `skk_context_get_preedit_underline` -/
  | underline
  /-- capi.rs:854 `skk_context_get_current_to_composite` -/
  | toComposite
  /-- capi.rs:870 `skk_context_get_current_candidate_count` -/
  | count
  /-- capi.rs:890 `skk_context_get_current_candidates` -/
  | candidates (buf : List Nat) (size offset : Nat)
  /-- capi.rs:946 `skk_context_get_current_candidate_cursor_position` -/
  | cursor
  /-- capi.rs:966 `skk_context_select_candidate_at` -/
  | selectAt (i : Int)
  /-- capi.rs:975 `skk_context_confirm_candidate_at` -/
  | confirmAt (i : Nat)
  /-- capi.rs:385 `skk_context_set_input_mode` -/
  | setInputMode (m : InputMode)
  /-- capi.rs:393 `skk_context_get_input_mode` -/
  | getInputMode
  /-- capi.rs:401 `skk_context_get_composition_mode` -/
  | getCompositionMode
  /-- capi.rs:413 `skk_context_set_rule`; `files`, `dir`: what is installed at that time -/
  | setRule (name : Bytes) (files : RuleLoad.Files) (dir : Option Str)
  /-- capi.rs:985 `skk_context_set_auto_start_henkan_keywords`; `none`: a NULL pointer in the array -/
  | setKeywords (array : List (Option Bytes))
  /-- capi.rs:1009 `skk_context_set_period_style` -/
  | setPeriod (p : PeriodStyle)
  /-- capi.rs:1020 `skk_context_set_comma_style` -/
  | setComma (p : CommaStyle)
  /-- capi.rs:842 `skk_context_reset` -/
  | reset
  /-- capi.rs:733 `skk_context_save_dictionaries`; `os`: the answers of the operating system -/
  | save (os : Nat → Outcome)
  /-- capi.rs:1033 `skk_library_get_version` -/
  | version
  /-- capi.rs:721 `skk_free_string` -/
  | freeString (a : Nat)
  /-- capi.rs:703 `skk_free_preedit_detail` -/
  | freeDetail (fs : List CApi.StateInfoFfi)
  /-- capi.rs:930 `skk_free_candidate_list` -/
  | freeCandidates (buf : Option (List Nat)) (size : Nat)

/-- What a call returns. -/
inductive Val where
  | unit
  | bool (b : Bool)
  | ptr (a : Nat)
  | int (i : Int)
  | ints (i j : Int)
  | inputMode (m : InputMode)
  | compositionMode (m : CompositionMode)
  | infos (fs : List CApi.StateInfoFfi)
  | slots (buf : List Nat) (n : Int)
  deriving Repr, DecidableEq

/-- A panic leaves an `extern "C"` function by aborting the process. -/
def lift {α} : R α → C α
  | .ok a => .ok a
  | .error _ => .error .panic

/-- `CStr::from_ptr(_).to_str()` (capi.rs:418-419, 441-442, 998-999): `none` is the error, for bytes which are not UTF-8. -/
def cstr (bs : Bytes) : Option Str := Label.strict (bs.takeWhile fun b => b ≠ 0)

/-- lib.rs:1444-1446 `process_key_events_string`: `unwrap` of a parse error panics. -/
def processKeyEventsString (e : Env) (c : Ctx) (s : Str) : R Ctx := do
  match ← KeyEvent.deserializeSeq e.xkb s with
  | some evs => c.processKeyEvents e evs
  | none => .error .unwrap

/-- lib.rs:403-405 `get_preedit_underline`. -/
def preeditUnderline (_ : Ctx) : Int × Int := (0, 0)

/-- `c_int::try_from(_).unwrap_or(0)` (capi.rs:799-800). -/
def cInt (i : Int) : Int := if -2 ^ 31 ≤ i ∧ i < 2 ^ 31 then i else 0

/-- The loop of capi.rs:996-1001; `CStr::from_ptr` of NULL is an invalid access. -/
def keywordLoop : List (Option Bytes) → C (List Str)
  | [] => .ok []
  | none :: _ => .error .outOfBounds
  | some b :: l => do
    let rest ← keywordLoop l
    return (cstr b).toList ++ rest

/-- capi.rs:990-1001: `keywords_array.is_null()` looks through the reference, so it asks for the first element. -/
def keywords (array : List (Option Bytes)) : C (List Str) :=
  match array with
  | [] => .ok []
  | none :: _ => .ok []
  | some b :: l => keywordLoop (some b :: l)

/-- lib.rs:433-435 `get_version`, Cargo.toml:4. -/
def versionText : Str := c%"3.1.2"

/-- One call of the program. `ogs` says where the dictionaries of the context come from. -/
def step (e : Env) (ogs : List Source) (s : CState) : Call → C (CState × Val)
  -- capi.rs:828-836, 463-469
  | .key k m r => do
    let p ← lift (s.ctx.processKeyEvent e (KeyEvent.fromFcitx k m r))
    return ({ s with ctx := p.1 }, .bool p.2)
  -- capi.rs:436-450
  | .keys text =>
    match cstr text with
    | none => .ok (s, .bool false)
    | some t => do
      let c ← lift (processKeyEventsString e s.ctx t)
      return ({ s with ctx := c }, .bool true)
  -- capi.rs:482-494
  | .poll => let r := CApi.pollOutput s.heap s.ctx; .ok ({ s with ctx := r.1, heap := r.2.1 }, .ptr r.2.2)
  -- capi.rs:507-523
  | .preedit => let r := CApi.getPreedit e s.heap s.ctx; .ok ({ s with heap := r.1 }, .ptr r.2)
  -- capi.rs:537-559
  | .detail => do
    let r ← CApi.preeditDetail e s.heap s.ctx
    return ({ s with heap := r.1 }, .infos r.2)
  -- capi.rs:793-801
  | .underline => .ok (s, .ints (cInt (preeditUnderline s.ctx).1) (cInt (preeditUnderline s.ctx).2))
  -- capi.rs:854-864
  | .toComposite => let r := CApi.getToComposite s.heap s.ctx; .ok ({ s with heap := r.1 }, .ptr r.2)
  -- capi.rs:870-872
  | .count => .ok (s, .int (CApi.candidateCount s.ctx))
  -- capi.rs:890-918
  | .candidates buf size offset => do
    let r ← CApi.getCandidates s.heap s.ctx buf size offset
    return ({ s with heap := r.1 }, .slots r.2.1 r.2.2)
  -- capi.rs:946-958
  | .cursor => .ok (s, .int (CApi.cursorPosition s.ctx))
  -- capi.rs:966-968
  | .selectAt i => let r := s.ctx.selectCandidateAt i; .ok ({ s with ctx := r.1 }, .bool r.2)
  -- capi.rs:975-977
  | .confirmAt i => let r := s.ctx.confirmCandidateAt e i; .ok ({ s with ctx := r.1 }, .bool r.2)
  -- capi.rs:385-387
  | .setInputMode m => .ok ({ s with ctx := s.ctx.setInputMode m }, .unit)
  -- capi.rs:393-395
  | .getInputMode => .ok (s, .inputMode s.ctx.top.inputMode)
  -- capi.rs:401-403
  | .getCompositionMode => .ok (s, .compositionMode s.ctx.top.mode)
  -- capi.rs:413-429
  | .setRule name files dir =>
    match cstr name with
    | none => .ok (s, .int (-1))
    | some n =>
      let r := RuleLoad.setRule files dir s.ctx n
      .ok ({ s with ctx := r.1 }, .int (if r.2 then 0 else -1))
  -- capi.rs:985-1003
  | .setKeywords array => do
    let l ← keywords array
    return ({ s with ctx := { s.ctx with config := { s.ctx.config with keywords := l } } }, .unit)
  -- capi.rs:1009-1014
  | .setPeriod p => .ok ({ s with ctx := { s.ctx with config := { s.ctx.config with period := p } } }, .unit)
  -- capi.rs:1020-1022
  | .setComma p => .ok ({ s with ctx := { s.ctx with config := { s.ctx.config with comma := p } } }, .unit)
  -- capi.rs:842-844
  | .reset => .ok ({ s with ctx := s.ctx.reset }, .unit)
  -- capi.rs:733-735
  | .save os =>
    let r := Session.saveAll ogs s.ctx.dicts os s.fs
    .ok ({ s with ctx := { s.ctx with dicts := r.1 }, fs := r.2 }, .unit)
  -- capi.rs:1033-1041
  | .version => let r := CApi.orNull s.heap versionText; .ok ({ s with heap := r.1 }, .ptr r.2)
  -- capi.rs:721-727
  | .freeString a => do
    let h ← CApi.freeString s.heap a
    return ({ s with heap := h }, .unit)
  -- capi.rs:703-709
  | .freeDetail fs => do
    let h ← CApi.freePreeditDetail s.heap fs
    return ({ s with heap := h }, .unit)
  -- capi.rs:930-941
  | .freeCandidates buf size => do
    let h ← CApi.freeCandidateList s.heap buf size
    return ({ s with heap := h }, .unit)

end CSession
end Cskk

import Verif.Spec.Front
import Verif.Spec.Life

/-!
# A user's life with C programs

One C program after the other opens the user's dictionaries, drives a context over the C API, and ends: after it has saved, or by surprise. The machine of
`Spec/Machine.lean` knows nothing of files: a program begins with the words the machine had when the program before it saved for the last time.
-/

namespace Cskk.Spec.CLife
open Machine Cskk.CSession Cskk.Session Cskk.DictFile
open Cskk.Props.Machine (shipped names start fresh)

/-- The call does not save. -/
def Saveless (cl : Call) : Prop := ∀ os, cl ≠ .save os

/-- What the machine, which has no files, makes of a call, and what the call says. A save means nothing to it, as long as no file is lost (between moving it to its
backup and creating it again). -/
inductive Says (pr : Bool) : Seat → Call → Seat → Front.Reply → Prop
  | save {Z : Seat} {os : Nat → Outcome} : (∀ i, os i ≠ .createFails) → Says pr Z (.save os) Z (.answer .nothing)
  | other {Z Z' : Seat} {cl : Call} {r : Front.Reply} : Saveless cl →
      Front.Says (Assets.env ⟨pr⟩) (shipped pr) (names pr) [] (Z, fun _ => none) cl (Z', fun _ => none) r → Says pr Z cl Z' r

/-- What the machine makes of several calls. -/
inductive Follows (pr : Bool) : Seat → List Call → Seat → Prop
  | done (Z) : Follows pr Z [] Z
  | call {Z cl Z' r l Z''} : Says pr Z cl Z' r → Follows pr Z' l Z'' → Follows pr Z (cl :: l) Z''

/-- A program: with which rule, configuration and input mode its context begins, its calls and what they returned. -/
structure Program where
  azik : Bool
  config : Config
  mode : InputMode
  calls : List (Call × Val)

/-- Programs run one after the other, each with the files the one before has left; each keeps the rules of the header. `ss` are the files of the dictionaries. -/
inductive Runs (pr : Bool) (ss : List Source) : FS → List Program → FS → Prop
  | done (fs) : Runs pr ss fs [] fs
  | program {fs ds x s l ps fs'} : openAll fs ss = some ds →
      CSession.Uses (Assets.env ⟨pr⟩) ss ⟨fresh x.azik x.config x.mode ds, fs, ⟨1, []⟩⟩ [] x.calls s l → Runs pr ss s.fs ps fs' → Runs pr ss fs (x :: ps) fs'

/-- What the machine remembers of programs: the words it had at the last save of each, which succeeded (`saved`), or those from the beginning of the program, if it never
saved (`lost`). The words are such as a dictionary file can hold. -/
inductive Remembers (pr : Bool) : List CskkDict → List Program → List CskkDict → Prop
  | done (ds) : Remembers pr ds [] ds
  | saved {ds : List CskkDict} {x : Program} {before after : List Call} {Z Z' ps ds'} : x.calls.map (·.1) = before ++ .save (fun _ => .completes) :: after →
      Follows pr (start x.azik x.config x.mode ds) before Z → Life.Writable Z.desk.dicts → (∀ cl ∈ after, Saveless cl) → Follows pr Z after Z' →
      Remembers pr Z.desk.dicts ps ds' → Remembers pr ds (x :: ps) ds'
  | lost {ds : List CskkDict} {x : Program} {Z ps ds'} : (∀ cl ∈ x.calls.map (·.1), Saveless cl) → Follows pr (start x.azik x.config x.mode ds) (x.calls.map (·.1)) Z →
      Remembers pr ds ps ds' → Remembers pr ds (x :: ps) ds'

end Cskk.Spec.CLife

import Verif.Spec.Document
import Verif.Spec.Editing
import Verif.Spec.Registration
import Verif.Spec.Numeric

/-!
# A small SKK machine

What a user sees of the engine, key by key: direct input, a reading (`▽`), an abbreviation (`▽`), okurigana (`▽…*`), a shown word (`▼`), a completion (`■`),
and any number of registrations waiting below (`▼…【…】`). The machine has no rule files, no tries and no instructions. It answers `none` for keys of which it knows nothing.
-/

namespace Cskk.Spec.Machine
open Typing Document Editing

/-- The keys the machine knows. -/
inductive Key where
  | char (ch : Char)
  | back
  | enter
  | ctrlJ
  | ctrlG
  | tab
  | escape
  | shiftTab
  /-- a capital letter as a keyboard sends it, with Shift -/
  | shifted (ch : Char)
  /-- with Ctrl -/
  | ctrl (ch : Char)
  /-- any key event -/
  | other (ev : KeyEvent)
  deriving Repr, DecidableEq

/-- The key event. -/
def Key.event : Key → KeyEvent
  | .char ch => ⟨ch.toNat, 0⟩
  | .back => ⟨0xff08, 0⟩
  | .enter => ⟨0xff0d, 0⟩
  | .ctrlJ => ⟨0x6a, 4⟩
  | .ctrlG => ⟨0x67, 4⟩
  | .tab => ⟨0xff09, 0⟩
  | .escape => ⟨0xff1b, 0⟩
  | .shiftTab => ⟨0xff09, 1⟩
  | .shifted ch => ⟨ch.toNat, 1⟩
  | .ctrl ch => ⟨ch.toNat, 4⟩
  | .other ev => ev

/-- What the machine depends on: the layout, the configuration, how kana appear in each input mode, how full-width characters appear, in which input
modes `x` is the key for the previous word, which key begins an empty reading, whether Tab completes, and in which form pending kana are written by the key
with Ctrl which switches to half-width katakana. -/
structure Setup where
  layout : Layout
  config : Config
  form : InputMode → Str → Str
  wide : Char → Str
  previous : InputMode → Bool
  opener : Char
  completes : Bool
  aside : InputMode → InputMode

/-- A word which is asked for: the kana of the word, and the kana after it, which are okurigana (`strict`) or only follow (as the full stop with which the
conversion was started). `shift`: a capital letter was typed last and erased. `short`: the word was
typed as an abbreviation. `pending`: keys which are no kana, and stay. -/
structure Asked where
  stem : Str
  tail : Str
  strict : Bool
  shift : Bool
  short : Bool
  pending : List Keysym
  deriving Repr, DecidableEq

/-- What the dictionaries are asked. -/
def Asked.key (a : Asked) : CompositeKey := ⟨a.stem, if a.strict = true ∧ a.tail ≠ [] then some a.tail else none⟩

/-- The reading one comes back to. -/
def Asked.draft (a : Asked) : Draft := ⟨a.stem ++ a.tail, a.pending, a.shift⟩

/-- What is being done. -/
inductive Phase where
  /-- direct input, with the pending keys, and whether a capital letter was typed last -/
  | direct (pending : List Keysym) (shift : Bool)
  /-- `▽` -/
  | reading (d : Draft)
  /-- `▽`: an abbreviation -/
  | short (text : Str) (pending : List Keysym) (shift : Bool)
  /-- `▽…*` -/
  | okuri (stem tail : Str) (pending : List Keysym) (shift : Bool)
  /-- `▼`: the words which were found, and the number of the shown one -/
  | choosing (a : Asked) (words : List Candidate) (i : Nat)
  /-- `■`: the words which begin with what was typed, and the number of the shown one -/
  | completing (text : Str) (pending : List Keysym) (short : Bool) (words : List Candidate) (i : Nat)
  deriving DecidableEq

/-- The reading, or the abbreviation, with `w` in it. -/
def typing (w : Str) (pending : List Keysym) (short shift : Bool) : Phase :=
  if short then .short w pending shift else .reading ⟨w, pending, shift⟩

/-- A level which waits for a word to be registered. -/
structure Waiter where
  written : Str
  mode : InputMode
  asked : Asked
  words : List Candidate
  i : Nat
  trail : List CompositionMode

/-- All of it. `trail`: what was done before, the latest at the end; Ctrl-g leads back there. -/
structure Desk where
  written : Str
  mode : InputMode
  phase : Phase
  waiting : List Waiter
  dicts : List CskkDict
  trail : List CompositionMode

/-- Japanese is typed in this input mode. -/
def kanaMode : InputMode → Bool
  | .hiragana | .katakana | .hankakuKatakana => true
  | _ => false

/-- At most this many levels. -/
def levels : Nat := 10

/-- `m` is left, and remembered. -/
def Desk.leave (D : Desk) (m : CompositionMode) : Desk := { D with trail := remember D.trail m }

/-- What was done when the word was asked for. -/
def Asked.origin (a : Asked) : CompositionMode := if a.strict then .preCompositionOkurigana else if a.short then .abbreviation else .preComposition

/-- A word is looked up. If there is none, it is to be registered; if there are too many registrations already, nothing more happens. (Of the last case the
machine knows nothing when the conversion was started by a keyword.) -/
def Desk.convert (D : Desk) (a : Asked) : Option Desk :=
  match Dicts.getAll D.dicts a.key with
  | .error _ => none
  | .ok [] =>
    if D.waiting.length + 1 < levels then
      some ⟨[], .hiragana, .direct [] false, ⟨D.written, D.mode, a, [], 0, remember D.trail a.origin⟩ :: D.waiting, D.dicts, []⟩
    else if a.strict then some { D with phase := .okuri a.stem a.tail a.pending a.shift }
    else if a.tail = [] then some { D with phase := typing a.stem a.pending a.short a.shift }
    else none
  | .ok (x :: xs) => some { D.leave a.origin with phase := .choosing a (x :: xs) 0 }

/-- A word becomes part of the text, and the dictionaries remember it. -/
def Desk.settle (S : Setup) (D : Desk) (a : Asked) (x : Candidate) : Desk :=
  { D with
    written := D.written ++ (x.output ++ S.form D.mode a.tail)
    phase := .direct [] false
    dicts := D.dicts.map fun (d : CskkDict) => d.confirm x
    trail := [] }

/-- Back to the level which waits, without a word. -/
def Desk.resume (D : Desk) : Option Desk :=
  match D.waiting with
  | [] => none
  | W :: rest =>
    if W.words ≠ [] then some ⟨W.written, W.mode, .choosing W.asked W.words W.i, rest, D.dicts, W.trail.dropLast⟩
    else if W.asked.strict then some ⟨W.written, W.mode, .reading W.asked.draft, rest, D.dicts, W.trail.dropLast⟩
    else if W.asked.tail = [] then some ⟨W.written, W.mode, typing W.asked.stem W.asked.pending W.asked.short W.asked.shift, rest, D.dicts, W.trail.dropLast⟩
    else none

/-- The word which is registered for what was asked. -/
def Asked.word (a : Asked) (w : Str) : Candidate := ⟨a.stem, a.key.okuri, !a.tail.isEmpty, w, none, w⟩

/-- The words which are registered for what was asked: the written text; if it has as many places for numbers (`#0`, …) as the reading has numbers, it is kept for the
reading with `#` for its numbers, and the numbers fill the places. -/
def Asked.registers (a : Asked) (ds : List CskkDict) (w : Str) : R (List Candidate) :=
  if Numeric.numericEntryCount w ≠ 0 ∧ Numeric.numericEntryCount w = Numeric.numericStringCount a.stem then
    (Numeric.replaceNumericString (Dicts.relookup ds) w (Numeric.numericKey a.stem).2).map fun outs =>
      outs.map fun o => ⟨(Numeric.numericKey a.stem).1, a.key.okuri, !a.tail.isEmpty, w, none, o⟩
  else .ok [a.word w]

/-- The written text is registered as the word the waiting level asked for. (A text which asks for the word of a number which has none is left out.) -/
def Desk.register (S : Setup) (D : Desk) : Option Desk :=
  match D.waiting with
  | [] => none
  | W :: rest =>
    match W.asked.registers D.dicts D.written with
    | .ok (x :: _) => some (Desk.settle S ⟨W.written, W.mode, .direct [] false, rest, D.dicts, []⟩ W.asked x)
    | _ => none

/-- A printable character. -/
def printable (ch : Char) : Bool := decide (0x20 ≤ ch.toNat ∧ ch.toNat ≤ 0x7e)

/-- A capital letter. -/
def capital (ch : Char) : Bool := decide (0x41 ≤ ch.toNat ∧ ch.toNat ≤ 0x5a)

/-- The key completes kana with the pending keys (a capital letter also if its small letter does). -/
def completes (tbl : List (List Keysym × Conv)) (pending : List Keysym) (ch : Char) : Bool :=
  (completed tbl (pending ++ [ch.toNat])).isSome || (capital ch && (completed tbl (pending ++ [ch.toNat + 0x20])).isSome)

/-- The key is a command in mode `m`. (A key which completes kana is none.) -/
def command (L : Layout) (m : CompositionMode) (pending : List Keysym) (ch : Char) : Bool := (L.commands m).contains ch && !completes L.tbl pending ch

/-- How a character is typed. -/
inductive Sense where
  /-- as it is -/
  | itself
  /-- as the capital letter of a letter with which kana are written -/
  | capital
  | unknown
  deriving Repr, DecidableEq

/-- How a character is typed after the pending keys. -/
def sense (tbl : List (List Keysym × Conv)) (pending : List Keysym) (ch : Char) : Sense :=
  if !capital ch || (completed tbl (pending ++ [ch.toNat])).isSome then .itself
  else if begins tbl (pending ++ [ch.toNat]) || begins tbl [ch.toNat] then .unknown
  else if begins tbl (pending ++ [ch.toNat + 0x20]) || begins tbl [ch.toNat + 0x20] then .capital
  else .itself

/-- The key goes on with the pending keys, and completes nothing yet. -/
def goesOn (tbl : List (List Keysym × Conv)) (pending : List Keysym) (ch : Char) : Bool :=
  begins tbl (pending ++ [ch.toNat]) || (capital ch && begins tbl (pending ++ [ch.toNat + 0x20]))

/-- A capital letter was typed last, and is still there when the pending keys are flushed. -/
def shiftLeft (tbl : List (List Keysym × Conv)) (d : Draft) : Bool := d.shift && (valueOf tbl d.pending).isNone

/-- One character in direct input, as it is. -/
def Desk.typeDirect (S : Setup) (D : Desk) (pending : List Keysym) (shift : Bool) (ch : Char) : Desk :=
  let d := (⟨D.written, pending, shift⟩ : Draft).press S.layout.tbl S.config (S.form D.mode) (.char ch)
  { D with written := d.text, phase := .direct d.pending d.shift }

/-- The pending keys are written, and the input mode changes. -/
def Desk.switch (S : Setup) (D : Desk) (pending : List Keysym) (k : ModeKeys.ModeKey) : Desk :=
  { D with
    written := D.written ++ S.form D.mode (ModeKeys.pendingKana S.layout.tbl pending)
    mode := k.target D.mode
    phase := .direct [] false }

/-- The last `n` characters are erased, pending keys first. -/
def erased (d : Draft) (n : Nat) : Draft := ⟨d.text.take (d.text.length - (n - d.pending.length)), d.pending.take (d.pending.length - n), d.shift⟩

/-- The word of a reading is asked for. -/
def Desk.seek (S : Setup) (D : Desk) (d : Draft) (tail : Str) : Option Desk :=
  D.convert ⟨d.reading S.layout.tbl, tail, false, shiftLeft S.layout.tbl d, false, d.left S.layout.tbl⟩

/-- A reading to which something was typed: if it ends with a keyword, what is before it is converted. (As many characters as the keyword has are erased,
pending keys first.) -/
def Desk.read (S : Setup) (D : Desk) (d : Draft) : Option Desk :=
  match S.config.keywords.find? fun kw => !decide (d.text = kw) && kw.isSuffixOf d.text with
  | none => some { D with phase := .reading d }
  | some kw => D.seek S (erased d kw.length) kw

/-- A capital letter in direct input begins a word; while one was typed last it is only a letter, unless it is kana alone and the pending keys are not. -/
def Desk.startWord (S : Setup) (D : Desk) (pending : List Keysym) (shift : Bool) (up : Char) : Option Desk :=
  let k := up.toNat + 0x20
  match completed S.layout.tbl (pending ++ [k]) with
  | some (w, carry) => if shift then some (D.typeDirect S pending shift (small up)) else (D.leave .direct).read S ⟨w, carry, !carry.isEmpty⟩
  | none =>
    if begins S.layout.tbl (pending ++ [k]) then
      some (if shift then D.typeDirect S pending shift (small up) else { D.leave .direct with phase := .reading ⟨[], pending ++ [k], true⟩ })
    else
      match completed S.layout.tbl [k] with
      | some (w, carry) => (D.leave .direct).read S ⟨w, carry, !carry.isEmpty⟩
      | none => some (
        if shift then D.typeDirect S pending shift (small up)
        else { D.leave .direct with written := D.written ++ rendered (S.form D.mode) (flushed S.layout.tbl pending), phase := .reading ⟨[], [k], false⟩ })

/-- A character which is no command, in direct input of kana. -/
def Desk.inputDirect (S : Setup) (D : Desk) (pending : List Keysym) (shift : Bool) (ch : Char) : Option Desk :=
  match sense S.layout.tbl pending ch with
  | .itself => some (D.typeDirect S pending shift ch)
  | .capital => D.startWord S pending shift ch
  | .unknown => none

/-- A character which is no command, after a word which was shown and has become part of the text: keys which were pending when the word was asked for complete
kana with it, or are forgotten. (They then only keep a capital letter which would go on with them.) -/
def Desk.typeOn (S : Setup) (D : Desk) (pending : List Keysym) (ch : Char) : Option Desk :=
  if pending = [] ∨ completes S.layout.tbl pending ch = true then D.inputDirect S pending false ch
  else if sense S.layout.tbl [] ch = .capital ∧ goesOn S.layout.tbl pending ch = false ∧ completed S.layout.tbl [ch.toNat + 0x20] = none then
    some { D.leave .direct with phase := .reading ⟨[], [ch.toNat + 0x20], false⟩ }
  else D.inputDirect S [] false ch

/-- A command in direct input. -/
def Desk.commandDirect (S : Setup) (D : Desk) (pending : List Keysym) (shift : Bool) (ch : Char) : Option Desk :=
  if ch = S.layout.toggle then some (D.switch S pending .kana)
  else if ch = 'l' then some (D.switch S pending .ascii)
  else if ch = 'L' then some (D.switch S pending .zenkaku)
  else if ch = S.opener then some { D.leave .direct with phase := .reading ⟨[], pending, shift⟩ }
  else if ch = '/' then some { D.leave .direct with phase := .short [] pending shift }
  else none

/-- A printable character in direct input. -/
def Desk.directChar (S : Setup) (D : Desk) (pending : List Keysym) (shift : Bool) (ch : Char) : Option Desk :=
  if D.mode = .ascii then some { D with written := D.written ++ [ch] }
  else if D.mode = .zenkaku then some { D with written := D.written ++ S.wide ch }
  else if command S.layout .direct pending ch then D.commandDirect S pending shift ch
  else D.inputDirect S pending shift ch

/-- A capital letter in a reading begins the okurigana; in an empty reading it is only a letter, and while one was typed last too, unless it is kana alone
and the pending keys are not. -/
def Desk.startOkuri (S : Setup) (D : Desk) (d : Draft) (up : Char) : Option Desk :=
  let k := up.toNat + 0x20
  let letter := D.read S (d.press S.layout.tbl S.config id (.char (small up)))
  if d.text = [] then letter
  else
    match completed S.layout.tbl (d.pending ++ [k]) with
    | some (w, carry) =>
      if d.shift then letter
      else if carry = [] then (D.leave .preComposition).convert ⟨d.text, w, true, false, false, []⟩
      else if d.pending = [] then none
      else some { D.leave .preComposition with phase := .okuri (d.text ++ w) [] carry true }
    | none =>
      if begins S.layout.tbl (d.pending ++ [k]) then if d.shift then letter else some { D.leave .preComposition with phase := .okuri d.text [] (d.pending ++ [k]) true }
      else
        match completed S.layout.tbl [k] with
        | some (w, carry) => if carry = [] then (D.leave .preComposition).convert ⟨d.text, w, true, false, false, []⟩ else none
        | none =>
          if d.shift then letter else some { D.leave .preComposition with phase := .okuri (d.text ++ rendered id (flushed S.layout.tbl d.pending)) [] [k] false }

/-- What is being done. -/
def Phase.doing : Phase → CompositionMode
  | .direct .. => .direct
  | .reading .. => .preComposition
  | .short .. => .abbreviation
  | .okuri .. => .preCompositionOkurigana
  | .choosing .. => .compositionSelection
  | .completing .. => .completion

/-- The text becomes `written`, and direct input goes on. -/
def Desk.commit (D : Desk) (w : Str) : Desk := { D.leave D.phase.doing with written := D.written ++ w, phase := .direct [] false }

/-- Back to what was done before. (Nothing is known of words which were shown before, nor of readings where no Japanese is typed.) -/
def Desk.back (D : Desk) : Option Desk :=
  match D.trail.getLast? with
  | none | some .direct => some { D with phase := .direct [] false, trail := D.trail.dropLast }
  | some .preComposition | some .preCompositionOkurigana =>
    if kanaMode D.mode then some { D with phase := .reading ⟨[], [], false⟩, trail := D.trail.dropLast } else none
  | some .abbreviation => if kanaMode D.mode then some { D with phase := .short [] [] false, trail := D.trail.dropLast } else none
  | _ => none

/-- Space in a reading: it is converted. -/
def Desk.ask (S : Setup) (D : Desk) (d : Draft) : Option Desk :=
  if d.reading S.layout.tbl = [] then
    match Dicts.getAll D.dicts ⟨[], none⟩ with
    | .ok [] => some { D with phase := .reading ⟨[], d.left S.layout.tbl, shiftLeft S.layout.tbl d⟩ }
    | _ => D.seek S d []
  else D.seek S d []

/-- A character which is no command, in a reading. -/
def Desk.inputReading (S : Setup) (D : Desk) (d : Draft) (ch : Char) : Option Desk :=
  match sense S.layout.tbl d.pending ch with
  | .itself => D.read S (d.press S.layout.tbl S.config id (.char ch))
  | .capital => D.startOkuri S d ch
  | .unknown => none

/-- A printable character in a reading. -/
def Desk.readingChar (S : Setup) (D : Desk) (d : Draft) (ch : Char) : Option Desk :=
  if command S.layout .preComposition d.pending ch then
    if ch = ' ' then D.ask S d
    else if ch = S.layout.toggle then some (D.commit (S.form (ModeKeys.ModeKey.target .kana D.mode) (d.reading S.layout.tbl)))
    else if ch = S.opener then some D
    else none
  else D.inputReading S d ch

/-- The character completes kana after which nothing is pending. -/
def ends (tbl : List (List Keysym × Conv)) (g : Config) (pending : List Keysym) (ch : Char) : Bool :=
  match completed tbl (pending ++ [ch.toNat]) with
  | some v => v.2.isEmpty
  | none => (punctuation g.period g.comma ch).isNone && !begins tbl (pending ++ [ch.toNat]) &&
      match completed tbl [ch.toNat] with
      | some v => v.2.isEmpty
      | none => false

/-- One character in the okurigana, as it is; as soon as its kana are complete the word is converted. -/
def Desk.typeOkuri (S : Setup) (D : Desk) (stem tail : Str) (pending : List Keysym) (shift : Bool) (ch : Char) : Option Desk :=
  let s := typeKey S.layout.tbl S.config.period S.config.comma ⟨[], pending, shift⟩ ch
  if ends S.layout.tbl S.config pending ch then D.convert ⟨stem, tail ++ rendered id s.out, true, false, false, []⟩
  else some { D with phase := .okuri stem (tail ++ rendered id s.out) s.pending s.shift }

/-- Space in the okurigana: the word is converted with what there is of it. -/
def Desk.askOkuri (S : Setup) (D : Desk) (stem tail : Str) (pending : List Keysym) (shift : Bool) : Option Desk :=
  let d : Draft := ⟨tail, pending, shift⟩
  D.convert ⟨stem, d.reading S.layout.tbl, true, shiftLeft S.layout.tbl d, false, d.left S.layout.tbl⟩

/-- A character which is no command, in the okurigana. -/
def Desk.inputOkuri (S : Setup) (D : Desk) (stem tail : Str) (pending : List Keysym) (shift : Bool) (ch : Char) : Option Desk :=
  match sense S.layout.tbl pending ch with
  | .itself => D.typeOkuri S stem tail pending shift ch
  | .capital => D.typeOkuri S stem tail pending shift (small ch)
  | .unknown => none

/-- A printable character in the okurigana. -/
def Desk.okuriChar (S : Setup) (D : Desk) (stem tail : Str) (pending : List Keysym) (shift : Bool) (ch : Char) : Option Desk :=
  if command S.layout .preCompositionOkurigana pending ch then
    if ch = ' ' then D.askOkuri S stem tail pending shift
    else if ch = S.layout.toggle then some (D.commit (S.form (ModeKeys.ModeKey.target .kana D.mode) stem))
    else if ch = S.opener then some D
    else none
  else D.inputOkuri S stem tail pending shift ch

/-- A printable character in an abbreviation. -/
def Desk.shortChar (D : Desk) (text : Str) (pending : List Keysym) (shift : Bool) (ch : Char) : Option Desk :=
  if ch = ' ' then
    if text = [] then
      match Dicts.getAll D.dicts ⟨[], none⟩ with
      | .ok [] => some D
      | _ => D.convert ⟨[], [], false, shift, true, pending⟩
    else D.convert ⟨text, [], false, shift, true, pending⟩
  else some { D with phase := .short (text ++ [ch]) pending shift }

/-- Tab: the words whose reading begins with `text`. -/
def Desk.complete (S : Setup) (D : Desk) (text : Str) (pending : List Keysym) (short shift : Bool) : Option Desk :=
  if S.completes then
    match Dicts.getAllComplete D.dicts ⟨text, none⟩ with
    | .error _ => none
    | .ok [] => some { D with phase := typing text pending short shift }
    | .ok (x :: xs) => some { D.leave (if short then .abbreviation else .preComposition) with phase := .completing text pending short (x :: xs) 0 }
  else none

/-- A printable character while a word is shown. (The commands of direct input are none here.) -/
def Desk.choosingChar (S : Setup) (D : Desk) (a : Asked) (words : List Candidate) (i : Nat) (ch : Char) : Option Desk :=
  if ch = ' ' then
    if i + 1 < words.length then some { D with phase := .choosing a words (i + 1) }
    else if D.waiting.length + 1 < levels then
      some ⟨[], .hiragana, .direct [] false, ⟨D.written, D.mode, a, words, i, remember D.trail .compositionSelection⟩ :: D.waiting, D.dicts, []⟩
    else some D
  else if ch = 'x' ∧ S.previous D.mode = true then some (if i = 0 then { D.leave .compositionSelection with phase := .reading a.draft } else { D with phase := .choosing a words (i - 1) })
  else
    match words[i]? with
    | none => none
    | some x =>
      if ch = 'X' then some { D with written := [], phase := .direct [] false, dicts := D.dicts.map fun (d : CskkDict) => d.purge a.key x, trail := [.compositionSelection] }
      else if ch = S.layout.toggle then some { D.settle S a x with mode := ModeKeys.ModeKey.target .kana D.mode }
      else (D.settle S a x).typeOn S a.pending ch

/-- A completed word becomes part of the text. -/
def Desk.settleCompleted (S : Setup) (D : Desk) (x : Candidate) : Desk := D.settle S ⟨[], [], false, false, false, []⟩ x

/-- A printable character while a completion is shown. -/
def Desk.completingChar (S : Setup) (D : Desk) (text : Str) (pending : List Keysym) (short : Bool) (words : List Candidate) (i : Nat) (ch : Char) : Option Desk :=
  if ch = '.' then some { D with phase := .completing text pending short words (min (i + 1) (words.length - 1)) }
  else if ch = ',' then some { D with phase := .completing text pending short words (i - 1) }
  else
    match words[i]? with
    | none => none
    | some x => (D.settleCompleted S x).typeOn S pending ch

/-- The simple keys, and whether they were taken. -/
def Desk.plain (S : Setup) (D : Desk) (k : Key) : Option (Desk × Bool) :=
  match D.phase, k with
  | .direct pending shift, .char ch => if printable ch then (D.directChar S pending shift ch).map (·, true) else none
  | .direct pending shift, .back =>
    let d := (⟨D.written, pending, shift⟩ : Draft).press S.layout.tbl S.config id .back
    some ({ D with written := d.text, phase := .direct d.pending d.shift }, !decide (D.written = [] ∧ pending = []))
  | .direct _ _, .enter =>
    if D.waiting = [] then some (D, false)
    else if D.written = [] then D.resume.map (·, true)
    else (D.register S).map (·, true)
  | .direct _ _, .ctrlJ => some (if kanaMode D.mode then D else { D with mode := .hiragana }, true)
  | .direct _ _, .tab => some (D, false)
  | .direct _ _, .ctrlG => (if D.waiting = [] then D.back else D.resume).map (·, true)
  | .reading d, .char ch => if printable ch then (D.readingChar S d ch).map (·, true) else none
  | .reading d, .back =>
    some ({ D with phase := if d.Empty then .direct [] d.shift else .reading (d.press S.layout.tbl S.config id .back) }, true)
  | .reading _, .enter => some (D, false)
  | .reading d, .ctrlJ => some (D.commit (S.form D.mode (d.reading S.layout.tbl)), true)
  | .reading d, .tab =>
    if !S.completes then some (D, false)
    else (D.complete S (d.reading S.layout.tbl) (d.left S.layout.tbl) false (shiftLeft S.layout.tbl d)).map (·, true)
  | .reading _, .ctrlG => D.back.map (·, true)
  | .okuri stem tail pending shift, .char ch => if printable ch then (D.okuriChar S stem tail pending shift ch).map (·, true) else none
  | .okuri stem tail pending shift, .back =>
    if pending = [] then none
    else if pending.dropLast = [] ∧ tail = [] then some ({ D with phase := .reading ⟨stem, [], shift⟩ }, true)
    else some ({ D with phase := .okuri stem tail pending.dropLast shift }, true)
  | .okuri _ _ _ _, .ctrlG => ({ D with trail := D.trail.dropLast } : Desk).back.map (·, true)
  | .okuri stem _ _ _, .ctrlJ => some (D.commit (S.form D.mode stem), true)
  | .okuri .., .enter => some (D, false)
  | .okuri .., .tab => some (D, false)
  | .short text pending shift, .char ch => if printable ch then (D.shortChar text pending shift ch).map (·, true) else none
  | .short text pending shift, .back =>
    some ({ D with
      phase := if pending ≠ [] then .short text pending.dropLast shift else if text = [] then .direct [] shift else .short text.dropLast [] shift }, true)
  | .short _ _ _, .enter => some (D, false)
  | .short text _ _, .ctrlJ => some (D.commit text, true)
  | .short _ _ _, .ctrlG => some (D, false)
  | .short text pending shift, .tab => if S.completes then (D.complete S text pending true shift).map (·, true) else some (D, false)
  | .choosing a words i, .char ch => if printable ch then (D.choosingChar S a words i ch).map (·, true) else none
  | .choosing a words i, .back =>
    words[i]?.map fun x => ({ D.settle S a x with written := (D.settle S a x).written.dropLast }, !(D.settle S a x).written.isEmpty)
  | .choosing a words i, .enter => words[i]?.map fun x => (D.settle S a x, true)
  | .choosing a words i, .ctrlJ => words[i]?.map fun x => (D.settle S a x, true)
  | .choosing a _ _, .ctrlG => some ({ D with phase := typing (a.stem ++ a.tail) [] (a.short && !a.strict) false, trail := D.trail.dropLast }, true)
  | .choosing _ _ _, .tab => some (D, false)
  | .completing text pending short words i, .char ch => if printable ch then (D.completingChar S text pending short words i ch).map (·, true) else none
  | .completing _ _ _ words i, .back =>
    words[i]?.map fun x => ({ D.settleCompleted S x with written := (D.settleCompleted S x).written.dropLast }, !(D.settleCompleted S x).written.isEmpty)
  | .completing _ _ _ words i, .enter => words[i]?.map fun x => (D.settleCompleted S x, true)
  | .completing _ _ _ words i, .ctrlJ => words[i]?.map fun x => (D.settleCompleted S x, true)
  | .completing text _ short _ _, .ctrlG => some ({ D with phase := typing text [] short false, trail := D.trail.dropLast }, true)
  | .completing text pending short words i, .tab =>
    some ({ D with phase := .completing text pending short words (min (i + 1) (words.length - 1)) }, true)
  | _, _ => none

/-- A key with Ctrl. -/
def Desk.control (S : Setup) (D : Desk) (ch : Char) : Option (Desk × Bool) :=
  if ch = 'j' then D.plain S .ctrlJ
  else if ch = 'g' then D.plain S .ctrlG
  else
    match D.phase with
    | .direct pending _ =>
      if ch = 'h' ∨ ch = 'H' then D.plain S .back
      else if ch = 'm' then D.plain S .enter
      else if kanaMode D.mode = true ∧ ch = 'G' then D.plain S .ctrlG
      else if kanaMode D.mode = true ∧ ch = S.layout.toggle then
        some ({ D.switch S [] .halfKana with written := D.written ++ S.form (S.aside D.mode) (ModeKeys.pendingKana S.layout.tbl pending) }, true)
      else some (D, false)
    | .reading d =>
      if ch = 'h' then D.plain S .back
      else if ch = S.layout.toggle then some (D.commit (S.form (ModeKeys.ModeKey.target .halfKana D.mode) d.text), true)
      else some (D, false)
    | .okuri stem _ _ _ =>
      if ch = 'h' then D.plain S .back
      else if ch = S.layout.toggle then some (D.commit (S.form (ModeKeys.ModeKey.target .halfKana D.mode) stem), true)
      else some (D, false)
    | .short text _ _ =>
      if ch = 'h' then D.plain S .back
      else if ch = 'q' then some (D.commit (text.map S.wide).flatten, true)
      else some (D, false)
    | .choosing a words i =>
      if ch = 'h' then D.plain S .back
      else if ch = S.layout.toggle then words[i]?.map fun x => ({ D.settle S a x with mode := ModeKeys.ModeKey.target .halfKana D.mode }, true)
      else some (D, false)
    | .completing .. => some (D, false)

/-- The machine has no use for this key in any phase: the key was released, or a modifier other than Shift and Ctrl is held, or it is neither a character
nor Enter, Tab, BackSpace or Escape (nor a key of the keypad or a keyboard of another script, of which the machine knows nothing). -/
def useless (ev : KeyEvent) : Bool :=
  let character := decide (0x20 ≤ ev.symbol ∧ ev.symbol ≤ 0x7e)
  let foreign := decide (0x100 ≤ ev.symbol ∧ ev.symbol < 0xff00 ∨ 0xff80 ≤ ev.symbol ∧ ev.symbol < 0xffbe ∨ 0x1000000 ≤ ev.symbol)
  decide (ev.modifiers &&& ~~~5#32 ≠ 0) ||
  (decide (ev.modifiers = 5) && !(decide (ev.symbol = 'G'.toNat) || decide (ev.symbol = 'H'.toNat))) ||
  (decide (ev.modifiers = 4) && !character) ||
  (decide (ev.modifiers = 1) && !character && !foreign && decide (ev.symbol ≠ 0xff09)) ||
  (decide (ev.modifiers = 0) && !character && !foreign && ![0xff08, 0xff09, 0xff0d, 0xff1b].contains ev.symbol)

/-- A key, and whether it was taken. -/
def Desk.press (S : Setup) (D : Desk) : Key → Option (Desk × Bool)
  | .escape =>
    match D.phase with
    | .choosing .. | .completing .. => D.plain S .ctrlG
    | _ => some (D, false)
  | .shiftTab =>
    match D.phase with
    | .completing text pending short words i => some ({ D with phase := .completing text pending short words (i - 1) }, true)
    | _ => some (D, false)
  | .shifted ch => if capital ch then D.plain S (.char ch) else none
  | .ctrl ch => if printable ch then D.control S ch else none
  | .other ev => if useless ev then some (D, false) else none
  | k => D.plain S k

/-- Many keys. -/
def Desk.presses (S : Setup) (D : Desk) : List Key → Option Desk
  | [] => some D
  | k :: l => (D.press S k).bind fun r => r.1.presses S l

/-- The text the application gets when it asks: that of the lowest level. -/
def Desk.output (D : Desk) : Str := (D.waiting.getLast?.map (·.written)).getD D.written

/-- After the application has asked. -/
def Desk.taken (D : Desk) : Desk :=
  match D.waiting with
  | [] => { D with written := [] }
  | W :: l => { D with waiting := (W :: l).dropLast ++ [{ ((W :: l).getLast (by simp)) with written := [] }] }

/-- How a level which is worked on looks; `names` writes pending keys. -/
def Phase.shown (S : Setup) (names : List Keysym → Str) (m : InputMode) : Phase → Str
  | .direct pending _ => names pending
  | .reading d => c%"▽" ++ S.form m d.text ++ names d.pending
  | .short text pending _ => c%"▽" ++ S.form m text ++ names pending
  | .okuri stem tail pending _ => c%"▽" ++ S.form m stem ++ c%"*" ++ S.form m tail ++ names pending
  | .choosing a words i => c%"▼" ++ ((words[i]?.map (·.output)).getD []) ++ S.form m a.tail
  | .completing _ _ _ words i => c%"■" ++ ((words[i]?.map (·.output)).getD [])

/-- How a level which waits looks. -/
def Waiter.shown (S : Setup) (W : Waiter) : Str :=
  c%"▼" ++ S.form W.mode W.asked.stem ++ (if W.asked.strict = true ∧ W.asked.tail ≠ [] then c%"*" else []) ++ S.form W.mode W.asked.tail

/-- The line the user sees. -/
def Desk.screen (S : Setup) (names : List Keysym → Str) (D : Desk) : Str :=
  (D.waiting.reverse.map fun W => W.shown S ++ c%"【").flatten ++ (D.written ++ D.phase.shown S names D.mode) ++ List.replicate D.waiting.length '】'

/-- A word of the list is chosen by its number: a negative number leads back to the reading, one which is too large to a registration. -/
def Desk.select (D : Desk) (n : Int) : Option (Desk × Bool) :=
  match D.phase with
  | .choosing a words _ =>
    if n < 0 then some ({ D.leave .compositionSelection with phase := .reading a.draft }, true)
    else if n < words.length then some ({ D with phase := .choosing a words n.toNat }, true)
    else if D.waiting.length + 1 < levels then
      some (⟨[], .hiragana, .direct [] false, ⟨D.written, D.mode, a, words, words.length - 1, remember D.trail .compositionSelection⟩ :: D.waiting, D.dicts, []⟩, true)
    else some ({ D with phase := .choosing a words (words.length - 1) }, true)
  | .completing text pending short words _ =>
    if 0 ≤ n ∧ n < words.length then some ({ D with phase := .completing text pending short words n.toNat }, true) else none
  | _ => some (D, false)

/-- A word of the list is confirmed by its number. -/
def Desk.confirm (S : Setup) (D : Desk) (n : Nat) : Desk × Bool :=
  match D.phase with
  | .choosing a words _ =>
    match words[n]? with
    | some x => (D.settle S a x, true)
    | none => (D, false)
  | .completing _ _ _ words _ =>
    match words[n]? with
    | some x => (D.settleCompleted S x, true)
    | none => (D, false)
  | _ => (D, false)

/-- The input mode is set. (Not to one in which no Japanese is typed, unless nothing is being done.) -/
def Desk.setMode (D : Desk) (m : InputMode) : Option Desk :=
  match D.phase with
  | .direct _ _ => some { D with mode := m }
  | _ => if kanaMode m then some { D with mode := m } else none

/-- Everything is dropped. (The machine knows nothing of a reset while a list is shown or a level waits.) -/
def Desk.reset (D : Desk) : Option Desk :=
  if D.waiting = [] then
    match D.phase with
    | .direct _ _ => some { D with written := [], phase := .direct [] false, trail := [] }
    | .reading _ => some { D with written := [], phase := .reading ⟨[], [], false⟩, trail := [] }
    | .short _ _ _ => some { D with written := [], phase := .short [] [] false, trail := [] }
    | _ => none
  else none

/-- What the application does. -/
inductive Act where
  /-- it hands over a key -/
  | key (k : Key)
  /-- it asks for the finished text -/
  | poll
  /-- it moves the cursor of the list -/
  | select (n : Int)
  /-- it confirms a word of the list -/
  | confirm (n : Nat)
  | setMode (m : InputMode)
  | reset
  | setKeywords (l : List Str)
  | setPeriod (p : PeriodStyle)
  | setComma (p : CommaStyle)
  /-- it changes to the default rule, or to the AZIK rule -/
  | setRule (azik : Bool)
  /-- it gives other dictionaries, or another context has changed them -/
  | setDictionaries (ds : List CskkDict)

/-- What it gets. -/
inductive Answer where
  | nothing
  | taken (b : Bool)
  | text (w : Str)
  deriving Repr, DecidableEq

/-- What can be seen: the line, the input mode, what is being done, the list of words and the cursor in it. -/
structure View where
  line : Str
  mode : InputMode
  doing : CompositionMode
  words : List Candidate
  cursor : Option Nat
  deriving Repr, DecidableEq

/-- The words one can choose from, and the number of the shown one. -/
def Phase.list : Phase → List Candidate × Option Nat
  | .choosing _ words i | .completing _ _ _ words i => (words, some i)
  | _ => ([], none)

/-- All of it. -/
def Desk.view (S : Setup) (names : List Keysym → Str) (D : Desk) : View := ⟨D.screen S names, D.mode, D.phase.doing, D.phase.list.1, D.phase.list.2⟩

/-- The machine with the rule and the configuration which are in use. -/
structure Seat where
  azik : Bool
  config : Config
  desk : Desk

/-- What the application does, and what it gets; `rules` are the two rules. -/
def Seat.act (rules : Bool → Config → Setup) (Z : Seat) : Act → Option (Seat × Answer)
  | .key k => (Z.desk.press (rules Z.azik Z.config) k).map fun r => ({ Z with desk := r.1 }, .taken r.2)
  | .poll => some ({ Z with desk := Z.desk.taken }, .text Z.desk.output)
  | .select n => (Z.desk.select n).map fun r => ({ Z with desk := r.1 }, .taken r.2)
  | .confirm n => some ({ Z with desk := (Z.desk.confirm (rules Z.azik Z.config) n).1 }, .taken (Z.desk.confirm (rules Z.azik Z.config) n).2)
  | .setMode m => (Z.desk.setMode m).map fun D => ({ Z with desk := D }, .nothing)
  | .reset => Z.desk.reset.map fun D => ({ Z with desk := D }, .nothing)
  | .setKeywords l => some ({ Z with config := { Z.config with keywords := l } }, .nothing)
  | .setPeriod p => some ({ Z with config := { Z.config with period := p } }, .nothing)
  | .setComma p => some ({ Z with config := { Z.config with comma := p } }, .nothing)
  | .setRule azik => some ({ Z with azik := azik }, .nothing)
  | .setDictionaries ds => some ({ Z with desk := { Z.desk with dicts := ds } }, .nothing)

/-- What the application gets and sees when the machine is used. -/
def Seat.use (rules : Bool → Config → Setup) (names : List Keysym → Str) (Z : Seat) : List Act → Option (Seat × List (Answer × View))
  | [] => some (Z, [])
  | x :: l => (Z.act rules x).bind fun r =>
    (r.1.use rules names l).map fun q => (q.1, (r.2, r.1.desk.view (rules r.1.azik r.1.config) names) :: q.2)

end Cskk.Spec.Machine

import Verif.Spec.Machine

/-!
# The rest of what can be seen of the machine

The details of each level, the reading which is to be converted, and which keys are announced as of use.
-/

namespace Cskk.Spec.Machine
open Typing Document Editing

/-- A part which may be missing. -/
def part (w : Str) : Option Str := if w = [] then none else some w

/-- The details of the level one works on. -/
def Phase.detail (S : Setup) (names : List Keysym → Str) (written : Str) (m : InputMode) : Phase → StateInfo
  | .direct pending _ => .direct written (if pending = [] then none else some (names pending))
  | .reading d => .preComposition written (S.form m d.text) none (if d.pending = [] then none else some (names d.pending))
  | .short text pending _ => .preComposition written (S.form m text) none (if pending = [] then none else some (names pending))
  | .okuri stem tail pending _ =>
    .preCompositionOkurigana written (S.form m stem) ((part tail).map (S.form m)) (if pending = [] then none else some (names pending))
  | .choosing a words i =>
    let x := words[i]?.getD Candidate.default
    .compositionSelection written x.output ((part a.tail).map (S.form m)) x.annotation
  | .completing text _ _ words i =>
    let x := words[i]?.getD Candidate.default
    .complete written text x.midashi x.output none x.annotation

/-- The details of a level which waits: what follows the reading is its okurigana, or only follows. -/
def Waiter.detail (S : Setup) (W : Waiter) : StateInfo :=
  .register W.written (S.form W.mode W.asked.stem) (if W.asked.strict then (part W.asked.tail).map (S.form W.mode) else none)
    (if W.asked.strict then none else (part W.asked.tail).map (S.form W.mode))

/-- The details, from the lowest level to the one which is worked on. -/
def Desk.detail (S : Setup) (names : List Keysym → Str) (D : Desk) : List StateInfo :=
  (D.waiting.reverse.map fun W => W.detail S) ++ [D.phase.detail S names D.written D.mode]

/-- The reading of the word which is being typed or looked up. -/
def Phase.reads : Phase → Str
  | .direct _ _ => []
  | .reading d => d.text
  | .short text _ _ => text
  | .okuri stem _ _ _ => stem
  | .choosing a _ _ => a.stem
  | .completing text _ _ _ _ => text

/-- The keys which are commands. -/
def Phase.commands (S : Setup) (m : InputMode) : Phase → List Key
  | .direct _ _ =>
    [.back, .enter, .ctrlG, .ctrlJ, .ctrl 'h', .ctrl 'H', .ctrl 'm'] ++
      if kanaMode m then (S.layout.commands .direct).map .char ++ [.ctrl 'G', .ctrl S.layout.toggle] else []
  | .reading _ =>
    [.back, .ctrlG, .ctrlJ, .ctrl 'h', .ctrl S.layout.toggle] ++ (S.layout.commands .preComposition).map .char ++ if S.completes then [.tab] else []
  | .okuri _ _ _ _ => [.back, .ctrlG, .ctrlJ, .ctrl 'h', .ctrl S.layout.toggle] ++ (S.layout.commands .preCompositionOkurigana).map .char
  | .short _ _ _ => [.back, .ctrlJ, .ctrl 'h', .ctrl 'q', .char ' '] ++ if S.completes then [.tab] else []
  | .choosing _ _ _ =>
    [.back, .enter, .escape, .ctrlG, .ctrlJ, .ctrl 'h', .ctrl S.layout.toggle, .char S.layout.toggle, .char ' ', .char 'X'] ++
      if S.previous m then [.char 'x'] else []
  | .completing _ _ _ _ _ => [.back, .enter, .escape, .tab, .shiftTab, .ctrlG, .ctrlJ, .char '.', .char ',']

/-- The keys which are pending, where kana are typed. -/
def Desk.typed (D : Desk) : Option (List Keysym) :=
  if kanaMode D.mode then
    match D.phase with
    | .direct pending _ | .okuri _ _ pending _ => some pending
    | .reading d => some d.pending
    | _ => none
  else none

/-- A capital letter is looked up without Shift. -/
def folded (ev : KeyEvent) : KeyEvent :=
  if 0x41 ≤ ev.symbol ∧ ev.symbol ≤ 0x5a then ⟨ev.symbol, ev.modifiers &&& ~~~1#32⟩ else ev

/-- The key is no command, but is typed: no modifier but Shift is held, and it goes on with the pending keys or begins kana, or, where no kana are typed,
it is a printable character. -/
def Desk.types (S : Setup) (D : Desk) (ev : KeyEvent) : Bool :=
  decide (ev.modifiers &&& ~~~1#32 = 0) &&
    match D.typed with
    | some pending => begins S.layout.tbl (pending ++ [ev.symbol]) || begins S.layout.tbl [ev.symbol]
    | none => decide (0x20 ≤ ev.symbol ∧ ev.symbol ≤ 0x7e)

/-- The key is announced as of use: it is a command, or it is typed. -/
def Desk.announces (S : Setup) (D : Desk) (ev : KeyEvent) : Bool :=
  (D.phase.commands S D.mode).any (fun k => decide (k.event = folded ev)) || D.types S ev

/-- The key is announced, but there is nothing to be done: Enter with nothing to register, or BackSpace (or Ctrl-h) with nothing to erase. -/
def Desk.idle (S : Setup) (D : Desk) (k : Key) : Bool :=
  let erases := decide (k = .back ∨ k = .ctrl 'h')
  match D.phase with
  | .direct pending _ =>
    (decide (k = .enter ∨ k = .ctrl 'm') && D.waiting.isEmpty) ||
    ((erases || decide (k = .ctrl 'H')) && (D.written.isEmpty && pending.isEmpty))
  | .choosing a words i => erases && (words[i]?.map fun x => (D.settle S a x).written.isEmpty).getD false
  | .completing _ _ _ words i => decide (k = .back) && (words[i]?.map fun x => (D.settleCompleted S x).written.isEmpty).getD false
  | _ => false

/-- A printable character, with or without Shift. -/
def Key.character : Key → Bool
  | .char _ | .shifted _ => true
  | _ => false

end Cskk.Spec.Machine

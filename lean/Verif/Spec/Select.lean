import Verif.Spec.Keys

/-!
# Choosing among candidates: what the calls should do to a context
-/

namespace Cskk.Spec

/-- The rule in use gives the event the command `is` in the current modes: the first listed command whose key matches. -/
def CommandIs (c : Ctx) (ev : KeyEvent) (is : List Instruction) : Prop :=
  ∃ l₁ k l₂, c.cmds c.top.mode c.top.inputMode = l₁ ++ (k, is) :: l₂ ∧ KeyMatches k ev ∧
    ∀ x ∈ l₁, ¬ KeyMatches x.1 ev

/-- The user is choosing (`▼`): the cursor is on a candidate of the list. -/
structure Choosing (c : Ctx) : Prop where
  mode : c.top.mode = .compositionSelection
  inside : c.top.cands.cursor < c.top.cands.cands.length

/-- The context with the cursor on candidate `i` and otherwise unchanged. -/
def moved (c : Ctx) (i : Nat) : Ctx :=
  { c with top := { c.top with cands := { c.top.cands with cursor := i } } }

/-- A mode history with one more mode, of which at most the 20 latest are kept. -/
def remember (h : List CompositionMode) (m : CompositionMode) : List CompositionMode :=
  (h ++ [m]).drop ((h ++ [m]).length - 20)

/-- Registration of a word has begun: the level which asks waits and remembers that it was in mode `m`, and an empty level
for typing the word is on top of it. -/
def registering (c : Ctx) (m : CompositionMode) : Ctx :=
  { c with
    below := { c.top with mode := .register, history := remember c.top.history m } :: c.below
    top := State.new .hiragana .direct }

/-- The conversion is given up: there is no candidate list any more and the okurigana is again the end of the reading. -/
def unchosen (c : Ctx) : Ctx :=
  { c with
    top := { c.top with
      mode := .preComposition
      history := remember c.top.history c.top.mode
      kana := c.top.kana ++ c.top.okuri
      raw := c.top.raw ++ c.top.okuri
      okuri := []
      useOkuri := false
      compositedOkuri := []
      cands := ⟨⟨[], none⟩, 0, []⟩ } }

end Cskk.Spec

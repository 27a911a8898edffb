import Verif.Spec.Typing
import Verif.Spec.Select

/-!
# Changing the input mode, and committing a reading as kana
-/

namespace Cskk.Spec.ModeKeys
open Spec Typing

/-- The kana of the pending keys, if they are an entry of the table (as `n` is). -/
def pendingKana (tbl : List (List Keysym × Conv)) (u : List Keysym) : Str :=
  match valueOf tbl u with
  | some v => v.1
  | none => []

/-- The key, or the lower case letter of a capital letter, completes an entry of the romaji table together with the pending
keys: then it is not taken as a command. -/
def Completes (tbl : List (List Keysym × Conv)) (u : List Keysym) (ev : KeyEvent) : Prop :=
  ¬ HasOtherModifier ev ∧
    ((completed tbl (u ++ [ev.symbol])).isSome = true ∨ (completed tbl (u ++ [KanaBuilder.uncapitalize ev.symbol])).isSome = true)

/-- Nothing but the topmost level was changed. -/
def OnlyTop (c c' : Ctx) : Prop :=
  c'.below = c.below ∧ c'.dicts = c.dicts ∧ c'.cmds = c.cmds ∧ c'.kanaConv = c.kanaConv ∧ c'.config = c.config

/-- The input mode was changed to `m`; the committed text is now `out`; nothing is pending. A level without a reading stays without one. -/
structure Switched (c c' : Ctx) (m : InputMode) (out : Str) : Prop where
  only : OnlyTop c c'
  mode : c'.top.mode = c.top.mode
  history : c'.top.history = c.top.history
  inputMode : c'.top.inputMode = m
  committed : c'.top.confirmed = out
  pending : c'.top.pre = [] ∧ c'.top.capital = false
  default : c'.top.defaultMode = c.top.defaultMode
  empty : c.top.kana = [] ∧ c.top.raw = [] ∧ c.top.okuri = [] → c'.top.kana = [] ∧ c'.top.raw = [] ∧ c'.top.okuri = []

/-- The composition was finished: the committed text is now `out`, and there is neither a reading nor okurigana nor pending
keys nor candidates. The input mode is the same. -/
structure Finished (c c' : Ctx) (out : Str) : Prop where
  only : OnlyTop c c'
  mode : c'.top.mode = .direct
  history : c'.top.history = remember c.top.history c.top.mode
  inputMode : c'.top.inputMode = c.top.inputMode
  committed : c'.top.confirmed = out
  pending : c'.top.pre = [] ∧ c'.top.capital = false
  reading : c'.top.kana = [] ∧ c'.top.raw = [] ∧ c'.top.okuri = []
  candidates : c'.top.cands.cands = []
  default : c'.top.defaultMode = c.top.defaultMode

/-- The input mode after the mode keys of the default rule: `l`, `L`, `q` and Ctrl-q. -/
inductive ModeKey where
  | ascii | zenkaku | kana | halfKana

/-- What the mode keys are for. -/
def ModeKey.target (k : ModeKey) : InputMode → InputMode
  | .hiragana => match k with | .ascii => .ascii | .zenkaku => .zenkaku | .kana => .katakana | .halfKana => .hankakuKatakana
  | .katakana => match k with | .ascii => .ascii | .zenkaku => .zenkaku | .kana => .hiragana | .halfKana => .hankakuKatakana
  | _ => match k with | .ascii => .ascii | .zenkaku => .zenkaku | .kana => .hiragana | .halfKana => .katakana

end Cskk.Spec.ModeKeys

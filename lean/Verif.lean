import Verif.Model.Basic
import Verif.Model.CandidateList
import Verif.Model.LruMap
import Verif.Spec.Recency
import Verif.Props.CandidateList
import Verif.Lemmas.LruMap
import Verif.Props.LruMap
import Verif.Model.Numeric
import Verif.Spec.Numeric
import Verif.Lemmas.Numeric
import Verif.Lemmas.Numeric2
import Verif.Lemmas.Numeric3
import Verif.Props.Numeric
import Verif.Model.KeyEvent
import Verif.Props.KeyEvent
import Verif.Model.Assets
import Verif.Model.Modes
import Verif.Model.Forms
import Verif.Props.Forms
import Verif.Model.Romaji
import Verif.Props.Romaji
import Verif.Model.Candidate
import Verif.Model.LispFun
import Verif.Model.DictParser
import Verif.Model.DictEntry
import Verif.Lemmas.LispFun
import Verif.Lemmas.DictLine
import Verif.Spec.DictText
import Verif.Props.DictFile
import Verif.Model.Dictionary
import Verif.Lemmas.Dedup
import Verif.Lemmas.DictEntry
import Verif.Spec.UserDict
import Verif.Props.UserDict
import Verif.Props.Candidates
import Verif.Props.Completion
import Verif.Model.DictFile
import Verif.Props.DictSave
import Verif.Model.State
import Verif.Model.Command
import Verif.Model.Context
import Verif.Model.DefaultRule
import Verif.Spec.History
import Verif.Lemmas.CtxInv
import Verif.Spec.Keys
import Verif.Lemmas.Keys
import Verif.Props.KeyInput
import Verif.Lemmas.CtxInst
import Verif.Lemmas.Credit
import Verif.Spec.Preedit
import Verif.Props.Output
import Verif.Lemmas.CtxFrame
import Verif.Props.Confirm
import Verif.Props.Levels
import Verif.Props.Cursor
import Verif.Props.Reading
import Verif.Props.Delete
import Verif.Props.WillProcess
import Verif.Props.Ascii
import Verif.Props.ContextDicts
import Verif.Props.Register
import Verif.Model.CApi
import Verif.Props.CApi
import Verif.Props.Navigate
import Verif.Props.Convert
import Verif.Props.Typing
import Verif.Props.Words
import Verif.Props.ShippedTyping
import Verif.Props.KeyToken
import Verif.Lemmas.Digits
import Verif.Props.NoPanic
import Verif.Model.World
import Verif.Spec.World
import Verif.Props.World
import Verif.Model.CRules
import Verif.Props.CRules
import Verif.Model.RuleLoad
import Verif.Props.RuleLoad
import Verif.Model.Locks
import Verif.Spec.Locks
import Verif.Props.Locks
import Verif.Model.Utf8
import Verif.Props.Utf8
import Verif.Model.Handles
import Verif.Spec.Handles
import Verif.Props.Handles
import Verif.Model.SaveFaults
import Verif.Spec.Persist
import Verif.Props.Persist
import Verif.Lemmas.CtxTwin
import Verif.Spec.SameWords
import Verif.Props.SameWords
import Verif.Props.Filing
import Verif.Props.ModeKeys
import Verif.Spec.Registration
import Verif.Props.Registration
import Verif.Model.RuleText
import Verif.Model.RuleTexts
import Verif.Spec.RuleText
import Verif.Props.RuleText
import Verif.Props.RuleFile
import Verif.Props.RuleFiles
import Verif.Spec.DictGrammar
import Verif.Props.NumericOffer
import Verif.Props.DictGrammar
import Verif.Props.FileLines
import Verif.Spec.Merge
import Verif.Props.Merge
import Verif.Props.WordCycle
import Verif.Props.TypeOn
import Verif.Props.CompletionCycle
import Verif.Props.Session
import Verif.Props.Label
import Verif.Props.EucJp
import Verif.Model.CSession
import Verif.Spec.CSession
import Verif.Props.CSession
import Verif.Props.Stale
import Verif.Spec.Teach
import Verif.Props.Teach
import Verif.Spec.Document
import Verif.Props.Document
import Verif.Spec.Taken
import Verif.Props.Taken
import Verif.Spec.Editing
import Verif.Props.Editing
import Verif.Spec.Screen
import Verif.Props.Screen
import Verif.Spec.Machine
import Verif.Props.MachineBase
import Verif.Props.MachineDirect
import Verif.Props.MachineReading
import Verif.Props.MachineOkuri
import Verif.Props.MachineChoosing
import Verif.Props.MachineShort
import Verif.Props.MachineCompleting
import Verif.Props.Machine
import Verif.Props.ShiftKey
import Verif.Props.MachineHanded
import Verif.Spec.Lists
import Verif.Props.Lists
import Verif.Props.MachineUse
import Verif.Props.Concat
import Verif.Props.MachineAnswers
import Verif.Model.Disk
import Verif.Spec.Disk
import Verif.Props.Disk
import Verif.Spec.Office
import Verif.Props.Office
import Verif.Spec.Front
import Verif.Props.Front
import Verif.Spec.Digits
import Verif.Props.MachineStale
import Verif.Spec.FormTables
import Verif.Props.FormTables
import Verif.Props.NumericBack
import Verif.Spec.Life
import Verif.Props.Life
import Verif.Spec.CDetail
import Verif.Spec.MachineSeen
import Verif.Props.MachineSeen
import Verif.Spec.CLife
import Verif.Props.CLife
import Verif.Spec.Careful
import Verif.Props.Careful
import Verif.Props.CarefulLife
import Verif.Spec.Strays
import Verif.Props.Strays
import Verif.Model.WorldFiles
import Verif.Spec.Years
import Verif.Props.Years
import Verif.Spec.CarefulYears
import Verif.Props.CarefulYears
import Verif.Props.ReadingKept
import Verif.Model.TomlText
import Verif.Model.TomlFiles
import Verif.Spec.TomlText
import Verif.Props.TomlText
import Verif.Props.TomlRule
import Verif.Props.TomlLines
import Verif.Model.RuleList
import Verif.Props.RuleList
import Verif.Model.Bom
import Verif.Props.Bom
import Verif.Model.Boot
import Verif.Spec.Boot
import Verif.Props.Boot
import Verif.Spec.FormFile
import Verif.Props.FormFile
import Verif.Model.Xdg
import Verif.Spec.Xdg
import Verif.Props.Xdg
import Verif.Props.EntryTables
import Verif.Props.Entries
import Verif.Props.WishTables
import Verif.Props.Wishes
import Verif.Props.Vowels
import Verif.Props.Shortened
import Verif.Props.Openings
import Verif.Props.WayBack

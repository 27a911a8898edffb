import Verif.Spec.Persist
import Verif.Spec.History
import Verif.Props.UserDict

/-!
# Dictionaries with the same words
-/

namespace Cskk.Spec.SameWords
open Cskk.Spec Cskk.Spec.Persist Cskk.Props.UserDict
open Cskk.Spec.UserDict (WellFormed)

/-- Both static, both user dictionaries, or both the empty dictionary. -/
def SameKind : DictKind → DictKind → Prop
  | .static _, .static _ => True
  | .user _ _, .user _ _ => True
  | .empty, .empty => True
  | _, _ => False

/-- Two dictionaries of one kind that list the same words in the same order under every reading; they may differ in everything
else: the order in which readings were used, entries and groups without words, unsaved changes. -/
structure SameDict (d d' : CskkDict) : Prop where
  completable : d'.completable = d.completable
  kind : SameKind d.kind d'.kind
  wf : WellFormed (maps d)
  wf' : WellFormed (maps d')
  words : words (maps d') = words (maps d)

/-- The same for lists of dictionaries, one by one. -/
inductive AllSame : List CskkDict → List CskkDict → Prop where
  | nil : AllSame [] []
  | cons {d d' ds ds'} : SameDict d d' → AllSame ds ds' → AllSame (d :: ds) (d' :: ds')

/-- Two contexts that are equal in everything except the layout of their dictionaries. -/
structure SameCtx (c c' : Ctx) : Prop where
  rest : c' = { c with dicts := c'.dicts }
  dicts : AllSame c.dicts c'.dicts

/-- Two computations that panic alike or succeed with related results. -/
inductive SameResult {A : Type} (Q : A → A → Prop) : R A → R A → Prop where
  | ok {a b} : Q a b → SameResult Q (.ok a) (.ok b)
  | panic {p} : SameResult Q (.error p) (.error p)

/-- New dictionaries given to a context are well-formed. -/
def GoodOp : Op → Prop
  | .setDictionaries ds => ∀ d ∈ ds, WellFormed (maps d)
  | _ => True

end Cskk.Spec.SameWords

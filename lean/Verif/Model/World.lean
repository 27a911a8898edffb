import Verif.Model.Context

/-!
# Several contexts sharing dictionaries

`CskkContext` holds `Vec<Arc<CskkDictionary>>` (lib.rs:71), so several contexts of a program may use the same dictionaries,
which is what the C API is used for: the dictionaries are opened once and given to every new context
(capi.rs:253 `skk_context_new`, capi.rs:280 `skk_context_new_with_empty_fallback`, capi.rs:809 `skk_context_set_dictionaries`).
The model of one context (`Ctx`) keeps its dictionaries by value; here they are kept in a store, and a context names the ones it uses.

Simplifications: a call is atomic (calls of different contexts do not overlap in time); the same dictionary is not listed twice
in one context (`Nodup` in the theorems): there `Ctx.step` would treat the two occurrences as two dictionaries.
-/

namespace Cskk

/-- A context, and the dictionaries it uses in order (lib.rs:71 `dictionaries: Vec<Arc<CskkDictionary>>`; the number stands for the
`Arc`). The field `dicts` of `ctx` is not used. -/
structure Client where
  ctx : Ctx
  ids : List Nat

/-- All contexts and all dictionaries of a program. -/
structure World where
  store : Nat → CskkDict
  clients : Nat → Client

/-- A call on one of the contexts. -/
inductive WOp where
  /-- a call of the API of context `i` -/
  | call (i : Nat) (op : Op)
  /-- lib.rs:767 `set_dictionaries` of context `i` -/
  | use (i : Nat) (ids : List Nat)

namespace World

/-- Context `i` with the present contents of its dictionaries. -/
def view (w : World) (i : Nat) : Ctx := { (w.clients i).ctx with dicts := (w.clients i).ids.map w.store }

/-- The dictionary `d` after a call of a context which uses `ids` and left them as `ds` (the locks of dictionary/mod.rs:102, 119
are held while the shared dictionary is changed in place). -/
def written : List Nat → List CskkDict → (Nat → CskkDict) → Nat → CskkDict
  | a :: ids, x :: ds, st, d => if d = a then x else written ids ds st d
  | _, _, st, d => st d

/-- The effect of a call; `use` is lib.rs:767-769. The dictionaries passed to `Op.setDictionaries` are values, which no
other context shares: contexts of a program with shared dictionaries use `use`. -/
def step (e : Env) (w : World) : WOp → R World
  | .call i op => do
    let c ← (w.view i).step e op
    return { store := written (w.clients i).ids c.dicts w.store
             clients := fun j => if j = i then ⟨c, (w.clients i).ids⟩ else w.clients j }
  | .use i ids => .ok { w with clients := fun j => if j = i then ⟨(w.clients i).ctx, ids⟩ else w.clients j }

end World
end Cskk

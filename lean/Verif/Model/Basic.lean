/-!
# Basic conventions of the model

* Rust `String`/`&str` is modelled by `Str = List Char` (a list of Unicode scalar values).
* A panic is an explicit error value (`Panic`), computations that may panic return `R α`.
* Behaviour which differs between a debug and a release build is parametrised by `Profile`.
-/

namespace Cskk

/-- Rust `String` / `&str`. Both sides are sequences of Unicode scalar values; byte-level encoding is not
modelled (except where a byte index matters, see `Model/KeyEvent.lean`). -/
abbrev Str := List Char

open Lean in
/-- `c%"abc"` is the character list `['a','b','c']` (syntax only, so that `decide` never has to decode a `String`). -/
macro:max "c%" s:str : term => do
  let cs : Array (TSyntax `term) := (s.getString.toList.map fun c => (Syntax.mkCharLit c)).toArray
  `(([$cs,*] : List Char))

/-- Reasons for a Rust panic which occur in the modelled code. -/
inductive Panic where
  /-- arithmetic underflow with overflow checks on -/
  | overflow
  /-- `unwrap()` / `expect()` on `None` / `Err` -/
  | unwrap
  /-- `assert!` -/
  | assertFailed
  /-- `debug_assert!` -/
  | debugAssert
  /-- slice or char-boundary index -/
  | index
  deriving Repr, DecidableEq

/-- Computations that may panic. -/
abbrev R := Except Panic

instance {α} [DecidableEq α] : DecidableEq (R α) := fun a b =>
  match a, b with
  | .ok a, .ok b => if h : a = b then isTrue (by rw [h]) else isFalse (by intro h'; cases h'; exact h rfl)
  | .error a, .error b => if h : a = b then isTrue (by rw [h]) else isFalse (by intro h'; cases h'; exact h rfl)
  | .ok _, .error _ => isFalse (by intro h; cases h)
  | .error _, .ok _ => isFalse (by intro h; cases h)

/-- Build profile: `checked = true` is cargo's `dev` profile (overflow checks and `debug_assert!` on),
`checked = false` is `release` (wrapping arithmetic, no `debug_assert!`). -/
structure Profile where
  checked : Bool
  deriving Repr, DecidableEq

/-- `usize` subtraction `a - b` on a 64-bit target: panics when checked, wraps otherwise. -/
def usizeSub (p : Profile) (a b : Nat) : R Nat :=
  if b ≤ a then .ok (a - b)
  else if p.checked then .error .overflow
  else .ok (a + 2 ^ 64 - b)

/-- Code-point lexicographic order: Rust's `Ord for str` compares UTF-8 bytes, which is the same order. -/
def strLt : Str → Str → Bool
  | [], [] => false
  | [], _ :: _ => true
  | _ :: _, [] => false
  | a :: as, b :: bs =>
    if a.toNat < b.toNat then true
    else if a = b then strLt as bs else false

theorem Char.toNat_inj' {a b : Char} (h : a.toNat = b.toNat) : a = b := by
  apply Char.ext
  exact UInt32.toNat_inj.mp h

theorem strLt_irrefl (a : Str) : strLt a a = false := by
  induction a with
  | nil => rfl
  | cons x xs ih => simp [strLt, ih]

theorem strLt_trans {a b c : Str} (h₁ : strLt a b = true) (h₂ : strLt b c = true) : strLt a c = true := by
  induction a generalizing b c with
  | nil =>
    cases b with
    | nil => simp [strLt] at h₁
    | cons y ys => cases c with
      | nil => simp [strLt] at h₂
      | cons z zs => rfl
  | cons x xs ih =>
    cases b with
    | nil => simp [strLt] at h₁
    | cons y ys => cases c with
      | nil => simp [strLt] at h₂
      | cons z zs =>
        simp only [strLt] at *
        split at h₁
        · split at h₂
          · rw [if_pos (by omega)]
          · split at h₂
            · subst_vars; rw [if_pos (by omega)]
            · simp at h₂
        · split at h₁
          · subst_vars
            split at h₂
            · rw [if_pos (by omega)]
            · split at h₂
              · rw [if_neg (by assumption), if_pos (by assumption)]; exact ih h₁ h₂
              · simp at h₂
          · simp at h₁

theorem strLt_total (a b : Str) : strLt a b = true ∨ a = b ∨ strLt b a = true := by
  induction a generalizing b with
  | nil => cases b <;> simp [strLt]
  | cons x xs ih =>
    cases b with
    | nil => simp [strLt]
    | cons y ys =>
      simp only [strLt]
      by_cases h : x.toNat < y.toNat
      · simp [h]
      · by_cases h' : y.toNat < x.toNat
        · simp [h']
        · have : x = y := Char.toNat_inj' (by omega)
          subst this
          rcases ih ys with h1 | h1 | h1 <;> simp [h1]

theorem strLt_asymm {a b : Str} (h : strLt a b = true) : strLt b a = false := by
  cases hb : strLt b a with
  | false => rfl
  | true => have := strLt_trans h hb; rw [strLt_irrefl] at this; cases this

theorem strLt_ne {a b : Str} (h : strLt a b = true) : a ≠ b := by
  intro e; subst e; rw [strLt_irrefl] at h; cases h

end Cskk

import Verif.Props.Document
import Verif.Spec.Wishes

/-!
# C93: the keys of every hiragana in the shipped tables
-/

namespace Cskk.Props.Wishes

open Spec Spec.Typing Spec.Document Spec.Wishes Romaji KanaBuilder Navigate Convert Typing Words ShippedTyping Document

/-- The keys `k` write the kana `ch` and nothing else, and none of them is a command while kana are typed. -/
structure KeysOf (L : Layout) (ch : Char) (k : List Keysym) : Prop where
  ne : k ≠ []
  keys : ∀ s ∈ k, 0x21 ≤ s ∧ s ≤ 0x7e ∧ ¬ (0x41 ≤ s ∧ s ≤ 0x5a) ∧ s ≠ 0x2e ∧ s ≠ 0x2c ∧ Char.ofNat s ∉ L.commands .direct ∧
    Char.ofNat s ∉ L.commands .preComposition ∧ Char.ofNat s ∉ L.commands .preCompositionOkurigana
  value : valueOf L.tbl k = some ([ch], [])
  whole : extendable L.tbl k = false

instance (L : Layout) (ch : Char) (k : List Keysym) : Decidable (KeysOf L ch k) :=
  decidable_of_iff (k ≠ [] ∧ (∀ s ∈ k, 0x21 ≤ s ∧ s ≤ 0x7e ∧ ¬ (0x41 ≤ s ∧ s ≤ 0x5a) ∧ s ≠ 0x2e ∧ s ≠ 0x2c ∧ Char.ofNat s ∉ L.commands .direct ∧
    Char.ofNat s ∉ L.commands .preComposition ∧ Char.ofNat s ∉ L.commands .preCompositionOkurigana) ∧ valueOf L.tbl k = some ([ch], []) ∧
    extendable L.tbl k = false) ⟨fun ⟨a, b, c, d⟩ => ⟨a, b, c, d⟩, fun ⟨a, b, c, d⟩ => ⟨a, b, c, d⟩⟩

/-- A letter which as a capital letter begins the okurigana in mode `m`. -/
def Starts (L : Layout) (m : CompositionMode) (s : Keysym) : Prop :=
  0x61 ≤ s ∧ s ≤ 0x7a ∧ s ≠ 0x75 ∧ Char.ofNat (s - 0x20) ∉ L.commands m ∧ begins L.tbl [s] = true

instance (L : Layout) (m : CompositionMode) (s : Keysym) : Decidable (Starts L m s) := inferInstanceAs (Decidable (_ ∧ _ ∧ _))

def okuri? (L : Layout) (k : List Keysym) : Bool :=
  match k with
  | [] => false
  | s :: q => q != [] && decide (completed L.tbl [s] = none) && decide (Starts L .preComposition s)

def vowel? (L : Layout) (k : List Keysym) : Bool :=
  match k with
  | [s] => decide (0x61 ≤ s) && decide (s ≤ 0x7a) && !begins L.tbl [s - 0x20]
  | _ => false

/-- There are keys for `ch`, with the property `f`. -/
def found (L : Layout) (f : List Keysym → Bool) (ch : Char) : Bool :=
  L.tbl.any fun x => decide (x.2 = ([ch], [])) && f x.1 && decide (KeysOf L ch x.1)

theorem found_iff {L : Layout} {f : List Keysym → Bool} {ch : Char} (h : found L f ch = true) : ∃ k, f k = true ∧ KeysOf L ch k := by
  obtain ⟨x, _, hx⟩ := List.any_eq_true.mp h
  simp only [Bool.and_eq_true, decide_eq_true_eq] at hx
  exact ⟨x.1, hx.1.2, hx.2⟩

def alphabet : List Char := 'ー' :: (List.range 86).map fun i => Char.ofNat (0x3041 + i)

theorem mem_alphabet {ch : Char} (h : Hiragana ch) : ch ∈ alphabet := by
  rcases h with ⟨h1, h2⟩ | rfl
  · refine List.mem_cons_of_mem _ (List.mem_map.mpr ⟨ch.toNat - 0x3041, List.mem_range.mpr (by omega), ?_⟩)
    rw [Nat.add_sub_cancel' h1, Char.ofNat_toNat]
  · exact List.mem_cons_self ..

/-- The statements about a table. -/
def covers (L : Layout) (m : Limits) : Bool :=
  alphabet.all fun ch => decide (ch ∈ m.never) ||
    (found L (fun _ => true) ch && (decide (ch ∈ m.okuri) || found L (fun k => okuri? L k || vowel? L k) ch))

set_option Elab.async false

theorem default_covers : covers defaultLayout defaultLimits = true := by decide +kernel

theorem azik_covers : covers azikLayout azikLimits = true := by decide +kernel

theorem katakana_form (p : Bool) : ∀ ch ∈ alphabet, (Assets.env ⟨p⟩).kanaForm.adjust .katakana [ch] = [Spec.Wishes.katakana ch] := by
  cases p <;> decide +kernel

end Cskk.Props.Wishes

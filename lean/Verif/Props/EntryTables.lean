import Verif.Props.ShippedTyping

/-!
# C92: the tables of the shipped rules, entry by entry
-/

namespace Cskk.Props.Entries

open Spec Spec.Typing Romaji KanaBuilder Navigate Convert Typing Words ShippedTyping

/-- The keys of an entry can be typed: none before the last is a command, a capital letter, a full stop or a comma, and the last is a printable key. -/
def Typeable (ks : CompositionMode → List Char) (k : List Keysym) : Prop :=
  k ≠ [] ∧ (∀ s ∈ k, 0x20 ≤ s ∧ s ≤ 0x7e) ∧
    ∀ s ∈ k.dropLast, ¬ (0x41 ≤ s ∧ s ≤ 0x5a) ∧ s ≠ 0x2e ∧ s ≠ 0x2c ∧ Char.ofNat s ∉ ks .direct ∧ Char.ofNat s ∉ ks .preComposition

instance (ks : CompositionMode → List Char) (k : List Keysym) : Decidable (Typeable ks k) := inferInstanceAs (Decidable (_ ∧ _ ∧ _))

set_option Elab.async false

/-- A property of the entries of a table from number `i` on, shown in pieces (the kernel needs too much memory for a whole table). -/
theorem piece {P : List Keysym × Conv → Prop} {l : Table} (i n : Nat) (h1 : ∀ x ∈ (l.drop i).take n, P x) (h2 : ∀ x ∈ l.drop (i + n), P x) :
    ∀ x ∈ l.drop i, P x := by
  intro x hx
  rw [← List.take_append_drop n (l.drop i), List.drop_drop] at hx
  exact (List.mem_append.mp hx).elim (h1 x) (h2 x)

def DefaultEntry (x : List Keysym × Conv) : Prop :=
  Typeable defaultCommandKeys x.1 ∧ valueOf Assets.defaultRomaji x.1 = some x.2 ∧ (extendable Assets.defaultRomaji x.1 = false ∨ x.1 = [0x6e])

def AzikEntry (x : List Keysym × Conv) : Prop :=
  (Typeable azikCommandKeys x.1 ∨ x.1 = [0x9e8] ∨ x.1 = [0xfea0]) ∧ valueOf Assets.azikRomaji x.1 = some x.2 ∧ extendable Assets.azikRomaji x.1 = false

instance (x : List Keysym × Conv) : Decidable (DefaultEntry x) := inferInstanceAs (Decidable (_ ∧ _ ∧ _))
instance (x : List Keysym × Conv) : Decidable (AzikEntry x) := inferInstanceAs (Decidable (_ ∧ _ ∧ _))

theorem default_from0 : ∀ x ∈ (Assets.defaultRomaji.drop 0).take 40, DefaultEntry x := by decide +kernel
theorem default_from40 : ∀ x ∈ (Assets.defaultRomaji.drop 40).take 40, DefaultEntry x := by decide +kernel
theorem default_from80 : ∀ x ∈ (Assets.defaultRomaji.drop 80).take 40, DefaultEntry x := by decide +kernel
theorem default_from120 : ∀ x ∈ (Assets.defaultRomaji.drop 120).take 40, DefaultEntry x := by decide +kernel
theorem default_from160 : ∀ x ∈ (Assets.defaultRomaji.drop 160).take 40, DefaultEntry x := by decide +kernel
theorem default_from200 : ∀ x ∈ Assets.defaultRomaji.drop 200, DefaultEntry x := by decide +kernel

theorem default_entries : ∀ x ∈ Assets.defaultRomaji, Typeable defaultCommandKeys x.1 ∧ valueOf Assets.defaultRomaji x.1 = some x.2 ∧
    (extendable Assets.defaultRomaji x.1 = false ∨ x.1 = [0x6e]) :=
  piece 0 40 default_from0 (piece 40 40 default_from40 (piece 80 40 default_from80 (piece 120 40 default_from120 (piece 160 40 default_from160 (default_from200)))))

theorem azik_from0 : ∀ x ∈ (Assets.azikRomaji.drop 0).take 40, AzikEntry x := by decide +kernel
theorem azik_from40 : ∀ x ∈ (Assets.azikRomaji.drop 40).take 40, AzikEntry x := by decide +kernel
theorem azik_from80 : ∀ x ∈ (Assets.azikRomaji.drop 80).take 40, AzikEntry x := by decide +kernel
theorem azik_from120 : ∀ x ∈ (Assets.azikRomaji.drop 120).take 40, AzikEntry x := by decide +kernel
theorem azik_from160 : ∀ x ∈ (Assets.azikRomaji.drop 160).take 40, AzikEntry x := by decide +kernel
theorem azik_from200 : ∀ x ∈ (Assets.azikRomaji.drop 200).take 40, AzikEntry x := by decide +kernel
theorem azik_from240 : ∀ x ∈ (Assets.azikRomaji.drop 240).take 40, AzikEntry x := by decide +kernel
theorem azik_from280 : ∀ x ∈ (Assets.azikRomaji.drop 280).take 40, AzikEntry x := by decide +kernel
theorem azik_from320 : ∀ x ∈ (Assets.azikRomaji.drop 320).take 40, AzikEntry x := by decide +kernel
theorem azik_from360 : ∀ x ∈ (Assets.azikRomaji.drop 360).take 40, AzikEntry x := by decide +kernel
theorem azik_from400 : ∀ x ∈ (Assets.azikRomaji.drop 400).take 40, AzikEntry x := by decide +kernel
theorem azik_from440 : ∀ x ∈ (Assets.azikRomaji.drop 440).take 40, AzikEntry x := by decide +kernel
theorem azik_from480 : ∀ x ∈ (Assets.azikRomaji.drop 480).take 40, AzikEntry x := by decide +kernel
theorem azik_from520 : ∀ x ∈ Assets.azikRomaji.drop 520, AzikEntry x := by decide +kernel

theorem azik_entries : ∀ x ∈ Assets.azikRomaji, (Typeable azikCommandKeys x.1 ∨ x.1 = [0x9e8] ∨ x.1 = [0xfea0]) ∧ valueOf Assets.azikRomaji x.1 = some x.2 ∧
    extendable Assets.azikRomaji x.1 = false :=
  piece 0 40 azik_from0 (piece 40 40 azik_from40 (piece 80 40 azik_from80 (piece 120 40 azik_from120 (piece 160 40 azik_from160 (piece 200 40 azik_from200 (piece 240 40 azik_from240 (piece 280 40 azik_from280 (piece 320 40 azik_from320 (piece 360 40 azik_from360 (piece 400 40 azik_from400 (piece 440 40 azik_from440 (piece 480 40 azik_from480 (azik_from520)))))))))))))

end Cskk.Props.Entries

import Verif.Props.Romaji
import Verif.Props.KeyToken

/-!
# C48: a romaji table is loaded as it is written, in whatever order its entries arrive

`src/kana_builder.rs` fills its trie from a `HashMap`, whose iteration order changes from run to run.
-/

namespace Cskk.Props.RuleText
open Cskk Cskk.KanaBuilder Cskk.KeyEvent Cskk.Props.Romaji

/-- The `[conversion]` table of a rule file: key text, carry-over text, kana. -/
abbrev RuleMap := List (Str × (Str × Str))

/-- No two entries of the table denote the same keys. -/
def Unambiguous (x : Xkb) (map : RuleMap) : Prop :=
  map.Pairwise fun a b => keysymsFromStr x a.1 ≠ keysymsFromStr x b.1

/-- Specification: the file says that the keys `ks` give `out` and leave the keys `carry` pending. -/
def Says (x : Xkb) (map : RuleMap) (ks : List Keysym) (out : Str) (carry : List Keysym) : Prop :=
  ∃ key carryText, (key, (carryText, out)) ∈ map ∧ keysymsFromStr x key = ks ∧ keysymsFromStr x carryText = carry

/-- Specification: the keys `ks` are the beginning of some longer entry of the file. -/
def SaysMore (x : Xkb) (map : RuleMap) (ks : List Keysym) : Prop :=
  ∃ e ∈ map, ∃ s, s ≠ [] ∧ keysymsFromStr x e.1 = ks ++ s

theorem entry_says (x : Xkb) (map : RuleMap) (hu : Unambiguous x map) (ks : List Keysym) (v : Conv) :
    Entry (map.map fun e => (keysymsFromStr x e.1, (e.2.2, keysymsFromStr x e.2.1))) ks v ↔ Says x map ks v.1 v.2 := by
  constructor
  · rintro ⟨pre, post, e, _⟩
    have : (ks, v) ∈ map.map fun e => (keysymsFromStr x e.1, (e.2.2, keysymsFromStr x e.2.1)) := by rw [e]; simp
    rw [List.mem_map] at this
    obtain ⟨⟨k, c, o⟩, hm, he⟩ := this
    simp only [Prod.mk.injEq] at he
    obtain ⟨h1, rfl⟩ := he
    exact ⟨k, c, hm, h1, rfl⟩
  · rintro ⟨key, ct, hm, hk, hc⟩
    obtain ⟨pre, post, rfl⟩ := List.append_of_mem hm
    obtain ⟨o, ca⟩ := v
    simp only at hc
    refine ⟨pre.map _, post.map _, by rw [List.map_append, List.map_cons, hk, hc], ?_⟩
    intro e he
    rw [List.mem_map] at he
    obtain ⟨a, ha, rfl⟩ := he
    have := (List.pairwise_append.mp hu).2.1
    rw [List.pairwise_cons] at this
    have := this.1 a ha
    simp only at this ⊢
    rw [← hk]; exact fun e => this e.symm

theorem extendable_says (x : Xkb) (map : RuleMap) (ks : List Keysym) :
    Extendable (map.map fun e => (keysymsFromStr x e.1, (e.2.2, keysymsFromStr x e.2.1))) ks ↔ SaysMore x map ks := by
  constructor
  · rintro ⟨e, he, s, hs, h⟩
    rw [List.mem_map] at he
    obtain ⟨a, ha, rfl⟩ := he
    exact ⟨a, ha, s, hs, h⟩
  · rintro ⟨a, ha, s, hs, h⟩
    exact ⟨_, List.mem_map.mpr ⟨a, ha, rfl⟩, s, hs, h⟩

/-- The loaded table gives the keys the kana and the carry-over that the file says. -/
theorem loaded_value (x : Xkb) (map : RuleMap) (hu : Unambiguous x map) (ks : List Keysym) (out : Str)
    (carry : List Keysym) :
    (fromRule x map).convertGreedy ks = some (out, carry) ↔ Says x map ks out carry := by
  rw [fromRule, convert_greedy_iff]; exact entry_says x map hu ks (out, carry)

/-- Conversion without waiting happens exactly for the entries no other entry extends. -/
theorem loaded_final (x : Xkb) (map : RuleMap) (hu : Unambiguous x map) (ks : List Keysym) (out : Str)
    (carry : List Keysym) :
    (fromRule x map).convertNonPartial ks = some (out, carry) ↔
      Says x map ks out carry ∧ ¬ SaysMore x map ks := by
  rw [fromRule, convert_non_partial_iff, extendable_says]
  exact and_congr (entry_says x map hu ks (out, carry)) Iff.rfl

/-- A key is awaited exactly when with it the pending keys are the beginning of an entry of the file (or the whole). -/
theorem loaded_continues (x : Xkb) (map : RuleMap) (ev : KeyEvent) (pending : List Keysym) :
    (fromRule x map).canContinue ev pending = true ↔
      ∃ e ∈ map, ∃ s, keysymsFromStr x e.1 = pending ++ [ev.symbol] ++ s := by
  rw [fromRule, can_continue_iff]
  constructor
  · rintro ⟨e, he, s, h⟩
    rw [List.mem_map] at he
    obtain ⟨a, ha, rfl⟩ := he
    exact ⟨a, ha, s, h⟩
  · rintro ⟨a, ha, s, h⟩
    exact ⟨_, List.mem_map.mpr ⟨a, ha, rfl⟩, s, h⟩

theorem loaded_continues_lower (x : Xkb) (map : RuleMap) (ev : KeyEvent) (pending : List Keysym) :
    (fromRule x map).canContinueLower ev pending = true ↔
      ∃ e ∈ map, ∃ s, keysymsFromStr x e.1 = pending ++ [uncapitalize ev.symbol] ++ s := by
  rw [fromRule, can_continue_lower_iff]
  constructor
  · rintro ⟨e, he, s, h⟩
    rw [List.mem_map] at he
    obtain ⟨a, ha, rfl⟩ := he
    exact ⟨a, ha, s, h⟩
  · rintro ⟨a, ha, s, h⟩
    exact ⟨_, List.mem_map.mpr ⟨a, ha, rfl⟩, s, h⟩

/-- Two tables convert alike, whatever is typed. -/
def SameConversion (a b : KanaBuilder) : Prop :=
  (∀ ks, a.convertGreedy ks = b.convertGreedy ks) ∧ (∀ ks, a.convertNonPartial ks = b.convertNonPartial ks) ∧
    (∀ ev p, a.canContinue ev p = b.canContinue ev p) ∧ (∀ ev p, a.canContinueLower ev p = b.canContinueLower ev p) ∧
    (∀ ev p, a.nextUnprocessedState ev p = b.nextUnprocessedState ev p)

/-- The order in which the entries of an unambiguous table arrive makes no difference. -/
theorem load_order_irrelevant (x : Xkb) (m m' : RuleMap) (hp : m.Perm m') (hu : Unambiguous x m) :
    SameConversion (fromRule x m) (fromRule x m') := by
  have hu' : Unambiguous x m' := hp.pairwise hu (fun h => Ne.symm h)
  have hs : ∀ ks o c, Says x m ks o c ↔ Says x m' ks o c := by
    intro ks o c; constructor <;> rintro ⟨k, ct, h, r⟩
    · exact ⟨k, ct, hp.subset h, r⟩
    · exact ⟨k, ct, hp.symm.subset h, r⟩
  have hmm : ∀ ks, SaysMore x m ks ↔ SaysMore x m' ks := by
    intro ks; constructor <;> rintro ⟨e, h, r⟩
    · exact ⟨e, hp.subset h, r⟩
    · exact ⟨e, hp.symm.subset h, r⟩
  have hc : ∀ ev p, (fromRule x m).canContinue ev p = (fromRule x m').canContinue ev p := by
    intro ev p
    rw [Bool.eq_iff_iff, loaded_continues, loaded_continues]
    constructor <;> rintro ⟨e, h, r⟩
    · exact ⟨e, hp.subset h, r⟩
    · exact ⟨e, hp.symm.subset h, r⟩
  have hl : ∀ ev p, (fromRule x m).canContinueLower ev p = (fromRule x m').canContinueLower ev p := by
    intro ev p
    rw [Bool.eq_iff_iff, loaded_continues_lower, loaded_continues_lower]
    constructor <;> rintro ⟨e, h, r⟩
    · exact ⟨e, hp.subset h, r⟩
    · exact ⟨e, hp.symm.subset h, r⟩
  refine ⟨?_, ?_, hc, hl, ?_⟩
  · intro ks
    apply Option.ext
    rintro ⟨o, c⟩
    rw [loaded_value x m hu, loaded_value x m' hu', hs]
  · intro ks
    apply Option.ext
    rintro ⟨o, c⟩
    rw [loaded_final x m hu, loaded_final x m' hu', hs, hmm]
  · intro ev p
    simp only [nextUnprocessedState, hc, hl]

/-- **Finding.** Two key texts that denote the same keys, such as "ka" and "k a", are two entries of the file's table;
which of them counts depends on the iteration order of the `HashMap`. -/
theorem ambiguous_entries_depend_on_order :
    (fromRule KeyEvents.demoXkb [(c%"ka", ([], c%"か")), (c%"k a", ([], c%"カ"))]).convertGreedy [107, 97]
      = some (c%"カ", []) ∧
    (fromRule KeyEvents.demoXkb [(c%"k a", ([], c%"カ")), (c%"ka", ([], c%"か"))]).convertGreedy [107, 97]
      = some (c%"か", []) := by decide +kernel

example : Unambiguous KeyEvents.demoXkb [(c%"ka", ([], c%"か")), (c%"kk", (c%"k", c%"っ"))] := by
  refine List.Pairwise.cons ?_ (List.Pairwise.cons (by simp) List.Pairwise.nil)
  intro a ha; simp at ha; subst ha; decide +kernel
example : (fromRule KeyEvents.demoXkb [(c%"ka", ([], c%"か")), (c%"kk", (c%"k", c%"っ"))]).convertNonPartial [107, 107] =
    some (c%"っ", [107]) := by decide +kernel

end Cskk.Props.RuleText

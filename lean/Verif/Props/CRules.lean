import Verif.Model.CRules
import Verif.Props.CApi

/-!
# C51: the list of rules in the C API
-/

namespace Cskk.Spec
open CRules

/-- The three texts of a rule: identifier, name and description. -/
def ruleTexts (r : Str × Str × Str) : List Str := [r.1, r.2.1, r.2.2]

/-- The C description of a rule points to its texts. -/
def DescribesRule (h : CHeap) (r : Str × Str × Str) (f : RuleFfi) : Prop :=
  Points h f.id r.1 ∧ Points h f.name r.2.1 ∧ Points h f.description r.2.2

/-- Memory as the allocator leaves it: strings and arrays have different addresses, NULL is none of them. -/
def MemOk (m : CMem) : Prop := HeapOk m.strings ∧ ∀ p ∈ m.arrays, 0 < p.1 ∧ p.1 < m.strings.next

end Cskk.Spec

namespace Cskk.Props.CRules
open Spec Cskk.CApi Cskk.CRules Props.CApi

/-- The structs made for `k` rules when the next address is `n`. -/
def ffis (n : Nat) : Nat → List RuleFfi
  | 0 => []
  | k + 1 => ⟨n, n + 1, n + 2⟩ :: ffis (n + 3) k

theorem ffis_length (n k : Nat) : (ffis n k).length = k := by
  induction k generalizing n with
  | zero => rfl
  | succ k ih => simp [ffis, ih]

theorem ffis_fields (n k : Nat) : (ffis n k).flatMap fields = List.range' n (3 * k) := by
  induction k generalizing n with
  | zero => rfl
  | succ k ih =>
    have h3 : 3 * (k + 1) = 3 * k + 1 + 1 + 1 := by omega
    rw [ffis, List.flatMap_cons, ih, h3]
    simp [List.range'_succ, fields]

theorem ffis_texts (h : CHeap) (hh : HeapOk h) (rs : List (Str × Str × Str)) (ws : List Str) :
    All2 (DescribesRule (allocs h (ws ++ rs.flatMap ruleTexts))) rs (ffis (h.next + ws.length) rs.length) := by
  induction rs generalizing ws with
  | nil => exact .nil
  | cons r rs ih =>
    have := ih (ws ++ ruleTexts r)
    rw [List.append_assoc, ← List.flatMap_cons] at this
    refine .cons ⟨?_, ?_, ?_⟩ ?_
    · exact read_new _ ws.length r.1 (by simp [ruleTexts])
    · exact read_new _ (ws.length + 1) r.2.1 (by simp [ruleTexts, List.getElem?_append])
    · exact read_new _ (ws.length + 2) r.2.2 (by simp [ruleTexts, List.getElem?_append])
    · have hl : h.next + (ws ++ ruleTexts r).length = h.next + ws.length + 3 := by simp [ruleTexts]; omega
      rw [hl] at this
      exact this

theorem newRule_ok (h : CHeap) (r : Str × Str × Str) (hr : ∀ w ∈ ruleTexts r, NoNul w) :
    newRule h r = some (allocs h (ruleTexts r), ⟨h.next, h.next + 1, h.next + 2⟩) := by
  have h1 := cstring_ok (hr r.1 (by simp [ruleTexts]))
  have h2 := cstring_ok (hr r.2.1 (by simp [ruleTexts]))
  have h3 := cstring_ok (hr r.2.2 (by simp [ruleTexts]))
  simp only [newRule, h1, h2, h3]
  simp only [alloc_eq, allocs_append]
  rfl

theorem newRule_bad (h : CHeap) (r : Str × Str × Str) (hr : ¬ ∀ w ∈ ruleTexts r, NoNul w) : newRule h r = none := by
  by_cases h1 : NoNul r.1
  · by_cases h2 : NoNul r.2.1
    · by_cases h3 : NoNul r.2.2
      · exact absurd (by simp [ruleTexts, h1, h2, h3]) hr
      · simp [newRule, cstring_ok h1, cstring_ok h2, cstring_bad h3]
    · simp [newRule, cstring_ok h1, cstring_bad h2]
  · simp [newRule, cstring_bad h1]

theorem fill_ok (h : CHeap) (rs : List (Str × Str × Str)) (hn : ∀ r ∈ rs, ∀ w ∈ ruleTexts r, NoNul w) :
    fill h rs = (allocs h (rs.flatMap ruleTexts), ffis h.next rs.length, true) := by
  induction rs generalizing h with
  | nil => simp [fill, allocs, ffis]
  | cons r rs ih =>
    simp only [fill, newRule_ok h r (hn r (by simp)), ih _ fun r hr => hn r (by simp [hr]), allocs_append, List.flatMap_cons,
      List.length_cons, ffis]
    rfl

theorem fill_bad (h : CHeap) (good rest : List (Str × Str × Str)) (r : Str × Str × Str)
    (hn : ∀ r ∈ good, ∀ w ∈ ruleTexts r, NoNul w) (hr : ¬ ∀ w ∈ ruleTexts r, NoNul w) :
    fill h (good ++ r :: rest) = (allocs h (good.flatMap ruleTexts), ffis h.next good.length, false) := by
  induction good generalizing h with
  | nil => simp [fill, newRule_bad h r hr, allocs, ffis]
  | cons g good ih =>
    simp only [List.cons_append, fill, newRule_ok h g (hn g (by simp)), ih _ fun r hr => hn r (by simp [hr]), allocs_append,
      List.flatMap_cons, List.length_cons, ffis]
    rfl

theorem texts_length (rs : List (Str × Str × Str)) : (rs.flatMap ruleTexts).length = 3 * rs.length := by
  induction rs with
  | nil => rfl
  | cons r rs ih => rw [List.flatMap_cons, List.length_append, ih]; simp [ruleTexts]; omega

theorem array_new (m : CMem) (h : CHeap) (a cap : Nat) (fs : List RuleFfi) :
    CMem.array ⟨h, (a, cap, fs) :: m.arrays⟩ a = some (cap, fs) := by simp [CMem.array]

/-- C51: `skk_get_rules` returns an array with one element per rule, in order, whose pointers lead to the identifier, the name
and the description of the rule; `*length` is their number, and strings handed out earlier are still there. -/
theorem rules_described (m : CMem) (hm : MemOk m) (rs : List (Str × Str × Str)) (len : Nat) (hne : rs ≠ [])
    (hl : rs.length < 2 ^ 32) (hn : ∀ r ∈ rs, ∀ w ∈ ruleTexts r, NoNul w) :
    ∃ m' ptr cap fs, getRules m (some rs) len = .ok (m', ptr, rs.length) ∧ ptr ≠ 0 ∧ m'.array ptr = some (cap, fs) ∧
      All2 (DescribesRule m'.strings) rs fs ∧ MemOk m' ∧
      ∀ a s, m.strings.read a = some s → m'.strings.read a = some s := by
  have hpos : 0 < rs.length := List.length_pos_iff.mpr hne
  simp only [getRules, fill_ok m.strings rs hn]
  rw [if_pos ⟨trivial, hl⟩, if_pos hpos]
  have hok := allocs_ok hm.1 (rs.flatMap ruleTexts)
  have hnext : m.strings.next ≤ (allocs m.strings (rs.flatMap ruleTexts)).next := by simp [allocs_next]
  refine ⟨_, _, _, _, rfl, Nat.pos_iff_ne_zero.mp hok.1, array_new m _ _ _ _, ?_, ?_, ?_⟩
  · have := ffis_texts m.strings hm.1 rs []
    simp only [List.nil_append, List.length_nil, Nat.add_zero] at this
    exact this
  · refine ⟨⟨Nat.succ_pos _, ?_, hok.2.2⟩, ?_⟩
    · intro p hp
      have := hok.2.1 p hp
      exact ⟨this.1, Nat.lt_succ_of_lt this.2⟩
    · intro p hp
      rcases List.mem_cons.mp hp with rfl | hp
      · exact ⟨hok.1, Nat.lt_succ_self _⟩
      · have := hm.2 p hp
        exact ⟨this.1, Nat.lt_succ_of_lt (Nat.lt_of_lt_of_le this.2 hnext)⟩
  · intro a s ha
    have := read_old hm.1 (rs.flatMap ruleTexts) a s ha
    simpa [CHeap.read] using this

/-- C51: if a text of some rule holds a NUL, or the rules cannot be read, the result is NULL, no string is left behind, and `*length` is
not written. -/
theorem rules_unavailable (m : CMem) (hm : MemOk m) (rs : List (Str × Str × Str)) (len : Nat)
    (hb : ∃ r ∈ rs, ∃ w ∈ ruleTexts r, ¬ NoNul w) :
    getRules m none len = .ok (m, 0, len) ∧
      ∃ m', getRules m (some rs) len = .ok (m', 0, len) ∧ m'.strings.live = m.strings.live ∧ m'.arrays = m.arrays := by
  refine ⟨rfl, ?_⟩
  obtain ⟨good, r, rest, rfl, hg, hr⟩ : ∃ good r rest, rs = good ++ r :: rest ∧ (∀ r ∈ good, ∀ w ∈ ruleTexts r, NoNul w) ∧
      ¬ ∀ w ∈ ruleTexts r, NoNul w := by
    clear hm
    induction rs with
    | nil => obtain ⟨r, hr, _⟩ := hb; cases hr
    | cons x rs ih =>
      by_cases hx : ∀ w ∈ ruleTexts x, NoNul w
      · obtain ⟨r, hr, w, hw, hwn⟩ := hb
        rcases List.mem_cons.mp hr with rfl | hr
        · exact absurd (hx w hw) hwn
        · obtain ⟨good, y, rest, he, h1, h2⟩ := ih ⟨r, hr, w, hw, hwn⟩
          refine ⟨x :: good, y, rest, by rw [he]; rfl, ?_, h2⟩
          intro z hz
          rcases List.mem_cons.mp hz with rfl | hz
          · exact hx
          · exact h1 z hz
      · exact ⟨[], x, rs, rfl, by simp, hx⟩
  simp only [getRules, fill_bad m.strings good rest r hg hr]
  rw [if_neg (by simp), ffis_fields, ← texts_length]
  have := freeAll_allocs hm.1 (good.flatMap ruleTexts)
  rw [this]
  exact ⟨_, rfl, rfl, rfl⟩

/-- C51: no rules at all is NULL with length 0. -/
theorem no_rules (m : CMem) (len : Nat) : getRules m (some []) len = .ok (m, 0, 0) := rfl

/-- The capacity of a `Vec` filled by `push` is the length exactly for the lengths 4, 8, 16, … -/
theorem capAfter_spec (n : Nat) : (n = 0 ∧ capAfter n = 0) ∨
    ∃ k, capAfter n = 4 * 2 ^ k ∧ n ≤ 4 * 2 ^ k ∧ (k = 0 ∨ 4 * 2 ^ (k - 1) < n) ∧ 0 < n := by
  induction n with
  | zero => exact .inl ⟨rfl, rfl⟩
  | succ n ih =>
    right
    rcases ih with ⟨rfl, _⟩ | ⟨k, h1, h2, h3, h4⟩
    · exact ⟨0, by simp [capAfter], by simp, .inl rfl, by omega⟩
    · rw [capAfter, h1]
      by_cases hn : n = 4 * 2 ^ k
      · rw [if_pos hn]
        refine ⟨k + 1, ?_, ?_, .inr ?_, by omega⟩
        · rw [Nat.pow_succ]; have := Nat.two_pow_pos k; omega
        · rw [Nat.pow_succ]; have := Nat.two_pow_pos k; omega
        · simp; omega
      · rw [if_neg hn]
        exact ⟨k, rfl, by omega, by rcases h3 with h | h; exact .inl h; exact .inr (by omega), by omega⟩

theorem capAfter_eq_iff (n : Nat) (hn : 0 < n) : capAfter n = n ↔ ∃ k, n = 4 * 2 ^ k := by
  constructor
  · intro h
    rcases capAfter_spec n with ⟨rfl, _⟩ | ⟨k, h1, _⟩
    · omega
    · exact ⟨k, by rw [← h1, h]⟩
  · rintro ⟨k, rfl⟩
    rcases capAfter_spec (4 * 2 ^ k) with ⟨h, _⟩ | ⟨j, h1, h2, h3, _⟩
    · omega
    · rw [h1]
      have : 2 ^ k ≤ 2 ^ j := by omega
      have hkj : k ≤ j := (Nat.pow_le_pow_iff_right (by omega)).mp this
      rcases h3 with rfl | h3
      · have : k = 0 := by omega
        rw [this]
      · have : 2 ^ (j - 1) < 2 ^ k := by omega
        have := (Nat.pow_lt_pow_iff_right (by omega : 1 < 2)).mp this
        have : k = j := by omega
        rw [this]

/-- C51: giving the array and the length back to `skk_free_rules` releases all strings of the list and nothing else — but the array itself
is released with the right size only if the number of rules is 4, 8, 16, …; otherwise the behaviour is undefined. -/
theorem rules_freed (m : CMem) (hm : MemOk m) (rs : List (Str × Str × Str)) (len : Nat) (hne : rs ≠ [])
    (hl : rs.length < 2 ^ 32) (hn : ∀ r ∈ rs, ∀ w ∈ ruleTexts r, NoNul w) (m' : CMem) (ptr : Nat)
    (hg : getRules m (some rs) len = .ok (m', ptr, rs.length)) :
    ((∃ k, rs.length = 4 * 2 ^ k) → ∃ m'', freeRules m' ptr rs.length = .ok m'' ∧ m''.strings.live = m.strings.live ∧
      m''.arrays = m.arrays) ∧
    ((¬ ∃ k, rs.length = 4 * 2 ^ k) → freeRules m' ptr rs.length = .error .badLayout) := by
  have hpos : 0 < rs.length := List.length_pos_iff.mpr hne
  simp only [getRules, fill_ok m.strings rs hn] at hg
  rw [if_pos ⟨trivial, hl⟩, if_pos hpos] at hg
  cases hg
  have hfree : freeAll { allocs m.strings (rs.flatMap ruleTexts) with
        next := (allocs m.strings (rs.flatMap ruleTexts)).next + 1 } (List.range' m.strings.next (3 * rs.length)) =
      .ok ⟨m.strings.next + 3 * rs.length + 1, m.strings.live⟩ := by
    have h1 := freeAll_allocs hm.1 (rs.flatMap ruleTexts)
    rw [texts_length] at h1
    have h2 := freeAll_eq (allocs m.strings (rs.flatMap ruleTexts)) (List.range' m.strings.next (3 * rs.length)) List.nodup_range' (by
      intro a ha
      rw [allocs_keys, texts_length]
      exact List.mem_append.mpr (.inl (List.mem_reverse.mpr ha)))
    rw [h1] at h2
    rw [freeAll_eq _ _ List.nodup_range' (by
      intro a ha
      show a ∈ (allocs m.strings (rs.flatMap ruleTexts)).live.map (·.1)
      rw [allocs_keys, texts_length]
      exact List.mem_append.mpr (.inl (List.mem_reverse.mpr ha)))]
    have h3 := congrArg CHeap.live (Except.ok.inj h2)
    simp only at h3
    rw [h3, allocs_next, texts_length]
  have harr : (m.arrays.filter fun p => decide (p.1 ≠ (allocs m.strings (rs.flatMap ruleTexts)).next)) = m.arrays := by
    apply List.filter_eq_self.mpr
    intro p hp
    have := (hm.2 p hp).2
    have hnext : m.strings.next ≤ (allocs m.strings (rs.flatMap ruleTexts)).next := by simp [allocs_next]
    simp only [ne_eq, decide_eq_true_eq]
    omega
  have hfr : freeRules ⟨{ allocs m.strings (rs.flatMap ruleTexts) with
        next := (allocs m.strings (rs.flatMap ruleTexts)).next + 1 },
        ((allocs m.strings (rs.flatMap ruleTexts)).next, capAfter (ffis m.strings.next rs.length).length, ffis m.strings.next rs.length)
          :: m.arrays⟩ (allocs m.strings (rs.flatMap ruleTexts)).next rs.length =
      if capAfter rs.length = rs.length then .ok ⟨⟨m.strings.next + 3 * rs.length + 1, m.strings.live⟩, m.arrays⟩
      else .error .badLayout := by
    unfold freeRules
    rw [array_new]
    simp only [ffis_length, Nat.lt_irrefl, if_false]
    rw [List.take_of_length_le (by rw [ffis_length]; exact Nat.le_refl _), ffis_fields, hfree]
    simp only [bind, Except.bind, pure, Except.pure]
    by_cases hc : capAfter rs.length = rs.length
    · rw [if_pos hc, if_pos hc, List.filter_cons_of_neg (by simp), harr]
    · rw [if_neg hc, if_neg hc]
  rw [hfr]
  constructor
  · intro hk
    rw [if_pos ((capAfter_eq_iff _ hpos).mpr hk)]
    exact ⟨_, rfl, rfl, rfl⟩
  · intro hk
    rw [if_neg (fun h => hk ((capAfter_eq_iff _ hpos).mp h))]

/-- C51: releasing the result when there is none (NULL) is undefined as well: unlike the other functions, `skk_free_rules` has no
test for NULL. -/
theorem free_null_rules (m : CMem) (hm : MemOk m) (len : Nat) : freeRules m 0 len = .error .badFree := by
  unfold freeRules CMem.array
  rw [List.find?_eq_none.mpr]
  · rfl
  · intro p hp
    have := (hm.2 p hp).1
    simp; omega

/-- The rules which come with the library (assets/rules/metadata.toml), in the order of the `BTreeMap`. -/
def shippedRules : List (Str × Str × Str) :=
  [(c%"azik", c%"AZIK", c%"AZIKルール"), (c%"default", c%"Default", c%"default rule")]

/-- C51: with the shipped rules the documented pair of calls releases the array with the wrong size: it was allocated for four rules. -/
theorem shipped_rules_wrong_layout (m : CMem) (hm : MemOk m) (len : Nat) :
    ∃ m' ptr, getRules m (some shippedRules) len = .ok (m', ptr, 2) ∧ m'.array ptr = some (4, ffis m.strings.next 2) ∧
      freeRules m' ptr 2 = .error .badLayout := by
  have hn : ∀ r ∈ shippedRules, ∀ w ∈ ruleTexts r, NoNul w := by decide +kernel
  have hg : ∃ m' ptr, getRules m (some shippedRules) len = .ok (m', ptr, 2) ∧ m'.array ptr = some (4, ffis m.strings.next 2) := by
    simp only [getRules, fill_ok m.strings shippedRules hn]
    rw [if_pos (by decide), if_pos (by decide)]
    exact ⟨_, _, rfl, array_new m _ _ _ _⟩
  obtain ⟨m', ptr, h1, h2⟩ := hg
  refine ⟨m', ptr, h1, h2, (rules_freed m hm shippedRules len (by decide) (by decide) hn m' ptr h1).2 ?_⟩
  rintro ⟨k, hk⟩
  have := Nat.two_pow_pos k
  have : shippedRules.length = 2 := rfl
  omega

/-- The hypotheses are met: an empty memory, and four rules, which are released properly. -/
example : MemOk ⟨⟨1, []⟩, []⟩ := ⟨⟨by decide, by simp, by simp⟩, by simp⟩

example : ((getRules ⟨⟨1, []⟩, []⟩ (some (shippedRules ++ shippedRules)) 7).bind fun r => freeRules r.1 r.2.1 r.2.2) =
    .ok ⟨⟨14, []⟩, []⟩ := by decide +kernel

end Cskk.Props.CRules

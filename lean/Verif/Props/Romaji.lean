import Verif.Model.Romaji

/-!
# Romaji conversion: property C25 (table level; the typing-level theorem is in `Props/Typing.lean`)
-/

namespace Cskk.Props.Romaji
open Cskk.KanaBuilder

/-- A romaji table: key sequence, text, carried-over keys, in insertion order. -/
abbrev Table := List (List Keysym × Conv)

/-- Specification: `v` is the value of `k` in the table (the last one inserted for `k`). -/
def Entry (tbl : Table) (k : List Keysym) (v : Conv) : Prop :=
  ∃ pre post, tbl = pre ++ (k, v) :: post ∧ ∀ e ∈ post, e.1 ≠ k

/-- Specification: some entry is a proper extension of `k`. -/
def Extendable (tbl : Table) (k : List Keysym) : Prop := ∃ e ∈ tbl, ∃ s, s ≠ [] ∧ e.1 = k ++ s

theorem childGet_childSet (k k' : Keysym) (t : Trie) (cs : List (Keysym × Trie)) :
    Trie.childGet k' (Trie.childSet k t cs) = if k' = k then some t else Trie.childGet k' cs := by
  induction cs with
  | nil =>
    simp only [Trie.childSet, Trie.childGet]
    by_cases h : k = k'
    · simp [h]
    · simp [h, Ne.symm h]
  | cons c cs ih =>
    obtain ⟨a, t'⟩ := c
    simp only [Trie.childSet]
    split
    · rename_i h; subst h
      simp only [Trie.childGet]
      by_cases h : a = k'
      · simp [h]
      · simp [h, Ne.symm h]
    · rename_i h
      simp only [Trie.childGet, ih]
      by_cases h1 : a = k'
      · subst h1; simp [h]
      · simp [h1]

theorem childSet_ne_nil (k : Keysym) (t : Trie) (cs) : (Trie.childSet k t cs).isEmpty = false := by
  cases cs with
  | nil => rfl
  | cons c cs => simp only [Trie.childSet]; split <;> rfl

theorem getNode_empty (k : Keysym) (ks : List Keysym) : Trie.getNode (k :: ks) Trie.empty = none := rfl

/-- Effect of one insertion on node existence, value and leafness of every key. -/
theorem insert_spec (key : List Keysym) (v : Conv) (t : Trie) (q : List Keysym) :
    ((Trie.getNode q (t.insert key v)).isSome = ((Trie.getNode q t).isSome || q.isPrefixOf key)) ∧
    (Trie.get q (t.insert key v) = if q = key then some v else Trie.get q t) ∧
    (∀ n, Trie.getNode q (t.insert key v) = some n →
      (n.isLeaf = true ↔ (∀ m, Trie.getNode q t = some m → m.isLeaf = true) ∧
        ¬ ∃ s, s ≠ [] ∧ key = q ++ s)) := by
  induction key generalizing t q with
  | nil =>
    obtain ⟨val, cs⟩ := t
    cases q with
    | nil => simp [Trie.insert, Trie.getNode, Trie.get, Trie.value, Trie.isLeaf]
    | cons a q =>
      simp [Trie.insert, Trie.getNode, Trie.get, List.isPrefixOf]
      intro n hn
      rw [hn]; simp
  | cons k ks ih =>
    obtain ⟨val, cs⟩ := t
    cases q with
    | nil =>
      simp [Trie.insert, Trie.getNode, Trie.get, Trie.value, Trie.isLeaf]
      simpa using childSet_ne_nil k ((Trie.childGet k cs).getD Trie.empty |>.insert ks v) cs
    | cons a q =>
      simp only [Trie.insert, Trie.getNode, Trie.get, childGet_childSet]
      by_cases h : a = k
      · subst h
        simp only [if_true]
        obtain ⟨h1, h2, h3⟩ := ih ((Trie.childGet a cs).getD Trie.empty) q
        cases hc : Trie.childGet a cs with
        | some t' =>
          rw [hc] at h1 h2 h3
          simp only [Option.getD_some] at h1 h2 h3 ⊢
          refine ⟨by simp [h1, List.isPrefixOf], ?_, ?_⟩
          · have := h2; simp only [Trie.get] at this; simp [this]
          · intro n hn; have := h3 n hn; simpa using this
        | none =>
          rw [hc] at h1 h2 h3
          simp only [Option.getD_none] at h1 h2 h3 ⊢
          refine ⟨?_, ?_, ?_⟩
          · cases q <;> simp_all [Trie.getNode, Trie.empty, Trie.childGet, List.isPrefixOf]
          · have := h2; simp only [Trie.get] at this
            rw [this]
            cases q <;> simp [Trie.getNode, Trie.empty, Trie.childGet, Trie.value]
          · intro n hn
            have := h3 n hn
            rw [this]
            cases q <;> simp [Trie.getNode, Trie.empty, Trie.childGet, Trie.isLeaf]
      · simp only [h, if_false]
        refine ⟨?_, ?_, ?_⟩
        · simp [List.isPrefixOf, h]
        · simp [h]
        · intro n hn
          cases hc : Trie.childGet a cs with
          | none => rw [hc] at hn; simp at hn
          | some t' =>
            rw [hc] at hn
            simp only at hn ⊢
            rw [hn]
            simp [Ne.symm h]

theorem foldl_spec (tbl : Table) (q : List Keysym) :
    ((Trie.getNode q (ofTable tbl).processMap).isSome = true ↔ q = [] ∨ ∃ e ∈ tbl, q.isPrefixOf e.1 = true) ∧
    (∀ v, Trie.get q (ofTable tbl).processMap = some v ↔ Entry tbl q v) ∧
    (∀ n, Trie.getNode q (ofTable tbl).processMap = some n → (n.isLeaf = true ↔ ¬ Extendable tbl q)) := by
  have snoc : ∀ (l : Table) (e), (ofTable (l ++ [e])).processMap = (ofTable l).processMap.insert e.1 e.2 := by
    intro l e; simp [ofTable]
  have := List.reverse_reverse tbl
  generalize hr : tbl.reverse = r at this
  subst this; clear hr
  induction r with
  | nil =>
    simp only [List.reverse_nil]
    refine ⟨?_, ?_, ?_⟩
    · cases q <;> simp [ofTable, Trie.getNode, Trie.empty, Trie.childGet]
    · intro v
      constructor
      · cases q <;> simp [ofTable, Trie.get, Trie.getNode, Trie.empty, Trie.childGet, Trie.value]
      · rintro ⟨pre, post, h, _⟩; simp at h
    · intro n hn
      cases q with
      | nil => simp [ofTable, Trie.getNode, Trie.empty] at hn; subst hn; simp [Trie.isLeaf, Extendable]
      | cons a q => simp [ofTable, Trie.getNode, Trie.empty, Trie.childGet] at hn
  | cons e r ih =>
    rw [List.reverse_cons, snoc]
    obtain ⟨i1, i2, i3⟩ := ih
    obtain ⟨h1, h2, h3⟩ := insert_spec e.1 e.2 (ofTable r.reverse).processMap q
    refine ⟨?_, ?_, ?_⟩
    · rw [h1, Bool.or_eq_true, i1]
      simp only [List.mem_append, List.mem_singleton]
      constructor
      · rintro ((h | ⟨e', he, hp⟩) | h)
        · exact .inl h
        · exact .inr ⟨e', .inl he, hp⟩
        · exact .inr ⟨e, .inr rfl, h⟩
      · rintro (h | ⟨e', he | he, hp⟩)
        · exact .inl (.inl h)
        · exact .inl (.inr ⟨e', he, hp⟩)
        · subst he; exact .inr hp
    · intro v
      rw [h2]
      by_cases hq : q = e.1
      · subst hq
        simp only [if_true, Option.some.injEq]
        constructor
        · rintro rfl; exact ⟨r.reverse, [], by simp, by simp⟩
        · rintro ⟨pre, post, he, hp⟩
          rcases List.eq_nil_or_concat post with rfl | ⟨post', x, rfl⟩
          · have := List.append_inj' he rfl
            simp at this; rw [this.2]
          · exfalso
            have he' : r.reverse ++ [e] = (pre ++ (e.1, v) :: post') ++ [x] := by rw [he]; simp
            have := (List.append_inj' he' rfl).2
            simp at this
            exact hp x (by simp) (by rw [← this])
      · simp only [hq, if_false, i2]
        constructor
        · rintro ⟨pre, post, he, hp⟩
          refine ⟨pre, post ++ [e], by rw [he]; simp, ?_⟩
          intro e' he'
          rcases List.mem_append.mp he' with h | h
          · exact hp e' h
          · simp at h; subst h; exact Ne.symm hq
        · rintro ⟨pre, post, he, hp⟩
          rcases List.eq_nil_or_concat post with rfl | ⟨post', x, rfl⟩
          · exfalso
            have := (List.append_inj' he rfl).2
            simp at this; exact hq (by rw [this])
          · have he' : r.reverse ++ [e] = (pre ++ (q, v) :: post') ++ [x] := by rw [he]; simp
            have := List.append_inj' he' rfl
            refine ⟨pre, post', this.1, fun e' h => hp e' (by simp [h])⟩
    · intro n hn
      rw [h3 n hn]
      constructor
      · rintro ⟨ha, hb⟩ ⟨e', he', s, hs, heq⟩
        rcases List.mem_append.mp he' with h | h
        · have hex : ∃ m, Trie.getNode q (ofTable r.reverse).processMap = some m := by
            apply Option.isSome_iff_exists.mp
            rw [i1]; right
            refine ⟨e', h, ?_⟩
            rw [heq]; simp
          obtain ⟨m, hm⟩ := hex
          exact (i3 m hm).mp (ha m hm) ⟨e', h, s, hs, heq⟩
        · simp at h; subst h; exact hb ⟨s, hs, heq⟩
      · intro hne
        refine ⟨fun m hm => (i3 m hm).mpr ?_, ?_⟩
        · rintro ⟨e', he', s, hs, heq⟩
          exact hne ⟨e', by simp [he'], s, hs, heq⟩
        · rintro ⟨s, hs, heq⟩
          exact hne ⟨e, by simp, s, hs, heq⟩

/-- **C25 (a).** A pending key sequence is turned into text by the "no longer match possible" conversion exactly when
it is an entry of the table that no entry extends, and then text and carry-over are the table's. -/
theorem convert_non_partial_iff (tbl : Table) (k : List Keysym) (v : Conv) :
    (ofTable tbl).convertNonPartial k = some v ↔ Entry tbl k v ∧ ¬ Extendable tbl k := by
  obtain ⟨h1, h2, h3⟩ := foldl_spec tbl k
  rw [← h2 v]
  unfold convertNonPartial Trie.get
  cases hn : Trie.getNode k (ofTable tbl).processMap with
  | none => simp
  | some n =>
    have := h3 n hn
    simp only [Option.bind_some]
    by_cases hl : n.isLeaf
    · simp [hl, this.mp hl]
    · simp [hl]
      intro _
      exact Classical.not_not.mp fun hx => hl (this.mpr hx)

/-- **C25 (b).** The greedy conversion (used when composition starts or text is committed) looks the sequence up as a
whole, extendable or not. -/
theorem convert_greedy_iff (tbl : Table) (k : List Keysym) (v : Conv) :
    (ofTable tbl).convertGreedy k = some v ↔ Entry tbl k v := (foldl_spec tbl k).2.1 v

/-- **C25 (c).** A key can be appended to the pending sequence exactly when the result is a prefix of some entry. -/
theorem can_continue_iff (tbl : Table) (ev : KeyEvent) (u : List Keysym) :
    (ofTable tbl).canContinue ev u = true ↔ ∃ e ∈ tbl, ∃ s, e.1 = u ++ [ev.symbol] ++ s := by
  unfold canContinue combineRaw
  rw [(foldl_spec tbl _).1]
  simp only [List.append_eq_nil_iff, List.cons_ne_nil, and_false, false_or]
  constructor
  · rintro ⟨e, he, hp⟩
    obtain ⟨s, hs⟩ := List.isPrefixOf_iff_prefix.mp hp
    exact ⟨e, he, s, hs.symm⟩
  · rintro ⟨e, he, s, hs⟩
    exact ⟨e, he, List.isPrefixOf_iff_prefix.mpr ⟨s, hs.symm⟩⟩

theorem can_continue_lower_iff (tbl : Table) (ev : KeyEvent) (u : List Keysym) :
    (ofTable tbl).canContinueLower ev u = true ↔ ∃ e ∈ tbl, ∃ s, e.1 = u ++ [uncapitalize ev.symbol] ++ s := by
  unfold canContinueLower combineLower
  rw [(foldl_spec tbl _).1]
  simp only [List.append_eq_nil_iff, List.cons_ne_nil, and_false, false_or]
  constructor
  · rintro ⟨e, he, hp⟩
    obtain ⟨s, hs⟩ := List.isPrefixOf_iff_prefix.mp hp
    exact ⟨e, he, s, hs.symm⟩
  · rintro ⟨e, he, s, hs⟩
    exact ⟨e, he, List.isPrefixOf_iff_prefix.mpr ⟨s, hs.symm⟩⟩

/-- Specification: `p` begins some entry of the table. -/
def Begins (tbl : Table) (p : List Keysym) : Prop := ∃ e ∈ tbl, ∃ s, e.1 = p ++ s

/-- **C25 (d).** What becomes pending after a key: the pending keys extended by the key as typed if that begins an
entry, else extended by the lower-cased key if that does, else the key alone if it begins an entry, else nothing. -/
theorem next_state_spec (tbl : Table) (ev : KeyEvent) (u n : List Keysym) :
    (ofTable tbl).nextUnprocessedState ev u = n ↔
      (Begins tbl (u ++ [ev.symbol]) ∧ n = u ++ [ev.symbol]) ∨
      (¬ Begins tbl (u ++ [ev.symbol]) ∧ Begins tbl (u ++ [uncapitalize ev.symbol]) ∧
        n = u ++ [uncapitalize ev.symbol]) ∨
      (¬ Begins tbl (u ++ [ev.symbol]) ∧ ¬ Begins tbl (u ++ [uncapitalize ev.symbol]) ∧
        Begins tbl [ev.symbol] ∧ n = [ev.symbol]) ∨
      (¬ Begins tbl (u ++ [ev.symbol]) ∧ ¬ Begins tbl (u ++ [uncapitalize ev.symbol]) ∧
        ¬ Begins tbl [ev.symbol] ∧ n = []) := by
  have h1 := can_continue_iff tbl ev u
  have h2 := can_continue_lower_iff tbl ev u
  have h3 := can_continue_iff tbl ev []
  simp only [List.nil_append] at h3
  unfold nextUnprocessedState combineRaw combineLower
  unfold Begins
  by_cases a : (ofTable tbl).canContinue ev u = true <;>
  by_cases b : (ofTable tbl).canContinueLower ev u = true <;>
  by_cases c : (ofTable tbl).canContinue ev [] = true <;>
  simp only [← h1, ← h2, ← h3, a, b, c] <;> simp [eq_comm]

/-- Pending keys always begin some entry (so they can still lead to text), whatever is typed. -/
theorem next_state_begins (tbl : Table) (ev : KeyEvent) (u : List Keysym)
    (h : (ofTable tbl).nextUnprocessedState ev u ≠ []) :
    Begins tbl ((ofTable tbl).nextUnprocessedState ev u) := by
  rcases (next_state_spec tbl ev u _).mp rfl with ⟨h1, h2⟩ | ⟨_, h1, h2⟩ | ⟨_, _, h1, h2⟩ | ⟨_, _, _, h2⟩
  · rw [h2]; exact h1
  · rw [h2]; exact h1
  · rw [h2]; exact h1
  · exact absurd h2 h

/-- The specification of `Entry` is a function: one value per key. -/
theorem Entry.det {tbl : Table} {k v v'} (h : Entry tbl k v) (h' : Entry tbl k v') : v = v' := by
  have a := (convert_greedy_iff tbl k v).mpr h
  have b := (convert_greedy_iff tbl k v').mpr h'
  rw [a] at b; exact Option.some.inj b

/-- Example table: a, n, nn, na, kk (with carry-over), ka. -/
def demoTable : Table :=
  [([97], (c%"あ", [])), ([110], (c%"ん", [])), ([110, 110], (c%"ん", [])), ([110, 97], (c%"な", [])),
   ([107, 107], (c%"っ", [107])), ([107, 97], (c%"か", []))]

example : (ofTable demoTable).convertNonPartial [107, 107] = some (c%"っ", [107]) := by decide
example : (ofTable demoTable).convertNonPartial [110] = none := by decide
example : (ofTable demoTable).convertGreedy [110] = some (c%"ん", []) := by decide
example : Entry demoTable [107, 107] (c%"っ", [107]) ∧ ¬ Extendable demoTable [107, 107] :=
  (convert_non_partial_iff _ _ _).mp (by decide)
example : (ofTable demoTable).nextUnprocessedState ⟨0x41, 0⟩ [107] = [107, 97] := by decide
example : (ofTable demoTable).nextUnprocessedState ⟨107, 0⟩ [110] = [107] := by decide

end Cskk.Props.Romaji

import Verif.Props.TomlText
import Verif.Props.Utf8

/-!
# C86, second part: what a rule file puts into effect
-/

namespace Cskk.Props.TomlText

open Cskk.TomlText Cskk.Spec.TomlText
open Cskk.Spec.RuleText (sectionName tableName HasTable Proper Lists MeanAll)

theorem lists_iff (es : List (Str × Value)) (ls : List (Str × List Str)) :
    lists es = some ls ↔ es = ls.map fun e => (e.1, Value.list e.2) := by
  induction es generalizing ls with
  | nil =>
    cases ls with
    | nil => simp [lists]
    | cons => simp [lists]
  | cons e es ih =>
    obtain ⟨k, v⟩ := e
    unfold lists
    constructor
    · intro h
      cases v with
      | text s => cases h
      | list l =>
        cases hl : lists es with
        | none => rw [hl] at h; cases h
        | some ms =>
          rw [hl] at h
          cases h
          simp [(ih ms).mp hl]
    · intro h
      cases ls with
      | nil => cases h
      | cons e' ls =>
        simp only [List.map_cons, List.cons.injEq, Prod.mk.injEq] at h
        obtain ⟨⟨rfl, rfl⟩, h⟩ := h
        rw [(ih ls).mpr h]; rfl

theorem lists_isSome (es : List (Str × Value)) : (∃ ls, lists es = some ls) ↔ ∀ e ∈ es, ∃ l, e.2 = .list l := by
  constructor
  · rintro ⟨ls, h⟩ e he
    rw [(lists_iff es ls).mp h] at he
    obtain ⟨e', _, rfl⟩ := List.mem_map.mp he
    exact ⟨e'.2, rfl⟩
  · intro h
    induction es with
    | nil => exact ⟨[], rfl⟩
    | cons e es ih =>
      obtain ⟨ls, hl⟩ := ih fun e' he' => h e' (by simp [he'])
      obtain ⟨l, hl'⟩ := h e (by simp)
      obtain ⟨k, v⟩ := e
      simp only at hl'
      subst hl'
      exact ⟨(k, l) :: ls, by unfold lists; rw [hl]; rfl⟩

theorem pairs_iff (es : List (Str × List Str)) (ps : List (Str × Str × Str)) :
    pairs es = some ps ↔ es = ps.map fun e => (e.1, [e.2.1, e.2.2]) := by
  induction es generalizing ps with
  | nil => cases ps <;> simp [pairs]
  | cons e es ih =>
    constructor
    · intro h
      unfold pairs at h
      split at h
      · rename_i hn; cases hn
      · rename_i k a b es' he
        cases he
        cases hp : pairs es with
        | none => rw [hp] at h; cases h
        | some qs => rw [hp] at h; cases h; simp [(ih qs).mp hp]
      · cases h
    · intro h
      cases ps with
      | nil => cases h
      | cons p ps =>
        simp only [List.map_cons, List.cons.injEq] at h
        obtain ⟨rfl, h⟩ := h
        unfold pairs
        rw [(ih ps).mpr h]; rfl

/-- A table of a section. -/
def InSections (ss : List (Str × List (Str × List (Str × List Str)))) (s n : Str) (es : List (Str × List Str)) : Prop :=
  ∃ tabs, (s, tabs) ∈ ss ∧ (n, es) ∈ tabs

theorem mem_addTable (ss : List (Str × List (Str × List (Str × List Str)))) (s n : Str) (es : List (Str × List Str))
    (s' n' : Str) (es' : List (Str × List Str)) :
    InSections (addTable ss s n es) s' n' es' ↔ InSections ss s' n' es' ∨ (s' = s ∧ n' = n ∧ es' = es) := by
  induction ss with
  | nil =>
    simp only [addTable, InSections, List.mem_singleton, Prod.mk.injEq, List.not_mem_nil, false_and, exists_false, false_or]
    constructor
    · rintro ⟨tabs, ⟨rfl, rfl⟩, h⟩
      simp only [List.mem_singleton, Prod.mk.injEq] at h
      exact ⟨rfl, h⟩
    · rintro ⟨rfl, rfl, rfl⟩; exact ⟨_, ⟨rfl, rfl⟩, by simp⟩
  | cons p ss ih =>
    obtain ⟨s₁, ts⟩ := p
    unfold addTable
    split
    · rename_i hs; subst hs
      constructor
      · rintro ⟨tabs, hm, ht⟩
        rcases List.mem_cons.mp hm with h | h
        · cases h
          rcases List.mem_append.mp ht with h' | h'
          · exact .inl ⟨ts, by simp, h'⟩
          · simp only [List.mem_singleton, Prod.mk.injEq] at h'
            exact .inr ⟨rfl, h'⟩
        · exact .inl ⟨tabs, by simp [h], ht⟩
      · rintro (⟨tabs, hm, ht⟩ | ⟨rfl, rfl, rfl⟩)
        · rcases List.mem_cons.mp hm with h | h
          · cases h; exact ⟨_, List.mem_cons_self .., List.mem_append.mpr (.inl ht)⟩
          · exact ⟨tabs, by simp [h], ht⟩
        · exact ⟨_, List.mem_cons_self .., by simp⟩
    · constructor
      · rintro ⟨tabs, hm, ht⟩
        rcases List.mem_cons.mp hm with h | h
        · cases h; exact .inl ⟨ts, by simp, ht⟩
        · rcases ih.mp ⟨tabs, h, ht⟩ with ⟨tabs', hm', ht'⟩ | h'
          · exact .inl ⟨tabs', by simp [hm'], ht'⟩
          · exact .inr h'
      · rintro (⟨tabs, hm, ht⟩ | h)
        · rcases List.mem_cons.mp hm with h | h
          · cases h; exact ⟨ts, by simp, ht⟩
          · obtain ⟨tabs', hm', ht'⟩ := ih.mpr (.inl ⟨tabs, h, ht⟩)
            exact ⟨tabs', by simp [hm'], ht'⟩
        · obtain ⟨tabs', hm', ht'⟩ := ih.mpr (.inr h)
          exact ⟨tabs', by simp [hm'], ht'⟩

theorem names_addTable (ss : List (Str × List (Str × List (Str × List Str)))) (s n : Str) (es : List (Str × List Str)) :
    (addTable ss s n es).map (·.1) = if s ∈ ss.map (·.1) then ss.map (·.1) else ss.map (·.1) ++ [s] := by
  induction ss with
  | nil => rfl
  | cons p ss ih =>
    obtain ⟨s₁, ts⟩ := p
    unfold addTable
    split
    · rename_i hs; subst hs; simp
    · rename_i hs
      simp only [List.map_cons, ih, List.mem_cons, Ne.symm hs, false_or]
      split <;> simp

theorem tables_addTable {ss : List (Str × List (Str × List (Str × List Str)))} {s n : Str} {es : List (Str × List Str)}
    (h : ∀ p ∈ ss, (p.2.map (·.1)).Nodup) (hn : ∀ tabs, (s, tabs) ∈ ss → n ∉ tabs.map (·.1)) :
    ∀ p ∈ addTable ss s n es, (p.2.map (·.1)).Nodup := by
  induction ss with
  | nil => intro p hp; simp only [addTable, List.mem_singleton] at hp; subst hp; simp
  | cons q ss ih =>
    obtain ⟨s₁, ts⟩ := q
    intro p hp
    unfold addTable at hp
    split at hp
    · rename_i hs; subst hs
      rcases List.mem_cons.mp hp with rfl | hp
      · have h1 := h (s₁, ts) (by simp)
        have h2 := hn ts (by simp)
        simp only [List.map_append, List.map_cons, List.map_nil]
        rw [List.nodup_append]
        refine ⟨h1, by simp, fun a ha b hb => ?_⟩
        simp only [List.mem_singleton] at hb
        subst hb
        rintro rfl
        exact h2 ha
      · exact h p (by simp [hp])
    · rcases List.mem_cons.mp hp with rfl | hp
      · exact h _ (by simp)
      · exact ih (fun p hp => h p (by simp [hp])) (fun tabs ht => hn tabs (by simp [ht])) p hp

theorem known_iff (s : Str) : (∃ m, RuleText.sectionMode s = some m) ↔ ∃ m, sectionName m = some s := by
  constructor
  · rintro ⟨m, h⟩; exact ⟨m, (RuleFile.sectionMode_iff s m).mp h⟩
  · rintro ⟨m, h⟩; exact ⟨m, (RuleFile.sectionMode_iff s m).mpr h⟩

theorem sections_mem {ds : List (List Str × List (Str × Value))} {ss r : List (Str × List (Str × List (Str × List Str)))}
    (h : sections ss ds = some r) (s n : Str) (es : List (Str × List Str)) (hk : ∃ m, RuleText.sectionMode s = some m) :
    InSections r s n es ↔ InSections ss s n es ∨ ([s, n], es.map fun e => (e.1, Value.list e.2)) ∈ ds := by
  induction ds generalizing ss with
  | nil => simp only [sections, Option.some.injEq] at h; subst h; simp
  | cons d ds ih =>
    obtain ⟨p, vs⟩ := d
    unfold sections at h
    cases p with
    | nil => cases h
    | cons s₁ p =>
      simp only at h
      have skip : ∀ q, sections ss ds = some r → (q ≠ [s, n]) →
          (InSections r s n es ↔ InSections ss s n es ∨ ([s, n], es.map fun e => (e.1, Value.list e.2)) ∈ (q, vs) :: ds) := by
        intro q hq hne
        rw [ih hq]
        simp [Ne.symm hne]
      cases hm : RuleText.sectionMode s₁ with
      | none =>
        rw [hm] at h
        refine skip _ h ?_
        rintro he; cases he
        obtain ⟨m, hm'⟩ := hk
        rw [hm] at hm'; cases hm'
      | some m =>
        rw [hm] at h
        simp only at h
        cases p with
        | nil =>
          simp only at h
          split at h
          · exact skip _ h (by simp)
          · cases h
        | cons t p =>
          cases p with
          | nil =>
            simp only at h
            cases hl : lists vs with
            | none => rw [hl] at h; cases h
            | some ls =>
              rw [hl] at h
              simp only at h
              rw [ih h, mem_addTable]
              have hvs := (lists_iff vs ls).mp hl
              simp only [List.mem_cons, Prod.mk.injEq, List.cons.injEq, and_true]
              constructor
              · rintro ((h | ⟨rfl, rfl, rfl⟩) | h)
                · exact .inl h
                · exact .inr (.inl ⟨⟨rfl, rfl⟩, hvs.symm⟩)
                · exact .inr (.inr h)
              · rintro (h | ⟨⟨rfl, rfl⟩, he⟩ | h)
                · exact .inl (.inl h)
                · refine .inl (.inr ⟨rfl, rfl, ?_⟩)
                  have h1 : lists (es.map fun e => (e.1, Value.list e.2)) = some es := (lists_iff _ _).mpr rfl
                  rw [he, hl] at h1
                  exact (Option.some.inj h1).symm
                · exact .inr h
          | cons u p => cases h

theorem sections_proper {ds : List (List Str × List (Str × Value))} {ss r : List (Str × List (Str × List (Str × List Str)))}
    (h : sections ss ds = some r) (h1 : (ss.map (·.1)).Nodup) (h2 : ∀ p ∈ ss, (p.2.map (·.1)).Nodup)
    (h3 : (ds.map (·.1)).Nodup) (h4 : ∀ s tabs, (s, tabs) ∈ ss → ∀ n ∈ tabs.map (·.1), [s, n] ∉ ds.map (·.1)) :
    (r.map (·.1)).Nodup ∧ ∀ p ∈ r, (p.2.map (·.1)).Nodup := by
  induction ds generalizing ss with
  | nil => simp only [sections, Option.some.injEq] at h; subst h; exact ⟨h1, h2⟩
  | cons d ds ih =>
    obtain ⟨p, vs⟩ := d
    have h3' : (ds.map (·.1)).Nodup := (List.nodup_cons.mp h3).2
    have h4' : ∀ s tabs, (s, tabs) ∈ ss → ∀ n ∈ tabs.map (·.1), [s, n] ∉ ds.map (·.1) :=
      fun s tabs hs n hn hm => h4 s tabs hs n hn (by rw [List.map_cons]; exact List.mem_cons_of_mem _ hm)
    unfold sections at h
    cases p with
    | nil => cases h
    | cons s₁ p =>
      simp only at h
      cases hm : RuleText.sectionMode s₁ with
      | none => rw [hm] at h; exact ih h h1 h2 h3' h4'
      | some m =>
        rw [hm] at h
        simp only at h
        cases p with
        | nil =>
          simp only at h
          split at h
          · exact ih h h1 h2 h3' h4'
          · cases h
        | cons t p =>
          cases p with
          | cons u p => cases h
          | nil =>
            simp only at h
            cases hl : lists vs with
            | none => rw [hl] at h; cases h
            | some ls =>
              rw [hl] at h
              simp only at h
              refine ih h ?_ ?_ h3' ?_
              · rw [names_addTable]
                split
                · exact h1
                · rename_i hn
                  rw [List.nodup_append]
                  refine ⟨h1, by simp, fun a ha b hb => ?_⟩
                  simp only [List.mem_singleton] at hb
                  subst hb
                  rintro rfl
                  exact hn ha
              · refine tables_addTable h2 fun tabs ht hn => ?_
                exact h4 s₁ tabs ht t hn (by simp)
              · intro s tabs hs n hn hmem
                obtain ⟨e, he, rfl⟩ := List.mem_map.mp hn
                rcases (mem_addTable ss s₁ t ls s e.1 e.2).mp ⟨tabs, hs, he⟩ with ⟨tabs', hs', he'⟩ | ⟨rfl, h', _⟩
                · exact h4' s tabs' hs' e.1 (List.mem_map.mpr ⟨_, he', rfl⟩) hmem
                · rw [h'] at hmem
                  exact (List.nodup_cons.mp h3).1 hmem

theorem sections_isSome (ds : List (List Str × List (Str × Value))) (ss : List (Str × List (Str × List (Str × List Str)))) :
    (∃ r, sections ss ds = some r) ↔ ∀ t ∈ ds, t.1 ≠ [] ∧ ∀ m s, sectionName m = some s → t.1.head? = some s →
      (t.1 = [s] ∧ t.2 = []) ∨ ((∃ n, t.1 = [s, n]) ∧ ∀ e ∈ t.2, ∃ l, e.2 = .list l) := by
  induction ds generalizing ss with
  | nil => simp [sections]
  | cons d ds ih =>
    obtain ⟨p, vs⟩ := d
    unfold sections
    rw [List.forall_mem_cons]
    cases p with
    | nil => simp
    | cons s p =>
      simp only
      cases hm : RuleText.sectionMode s with
      | none =>
        simp only [ih]
        constructor
        · refine fun h => ⟨⟨by simp, fun m s' hs' he => ?_⟩, h⟩
          simp only [List.head?_cons, Option.some.injEq] at he
          subst he
          rw [(RuleFile.sectionMode_iff s m).mpr hs'] at hm; cases hm
        · exact fun h => h.2
      | some m =>
        have hs := (RuleFile.sectionMode_iff s m).mp hm
        simp only
        cases p with
        | nil =>
          simp only
          split
          · rename_i hv
            rw [ih]
            constructor
            · refine fun h => ⟨⟨by simp, fun m' s' _ he => .inl ⟨?_, hv⟩⟩, h⟩
              simpa using he
            · exact fun h => h.2
          · rename_i hv
            simp only [reduceCtorEq, exists_false, false_iff]
            rintro ⟨⟨_, h⟩, _⟩
            rcases h m s hs (by simp) with ⟨_, h⟩ | ⟨⟨n, h⟩, _⟩
            · exact hv h
            · cases h
        | cons t p =>
          cases p with
          | nil =>
            simp only
            cases hl : lists vs with
            | none =>
              simp only [reduceCtorEq, exists_false, false_iff]
              rintro ⟨⟨_, h⟩, _⟩
              rcases h m s hs (by simp) with ⟨h, _⟩ | ⟨_, h⟩
              · cases h
              · obtain ⟨ls, h⟩ := (lists_isSome vs).mpr h
                rw [hl] at h; cases h
            | some ls =>
              simp only
              rw [ih]
              constructor
              · refine fun h => ⟨⟨by simp, fun m' s' _ he => .inr ⟨⟨t, ?_⟩, (lists_isSome vs).mp ⟨ls, hl⟩⟩⟩, h⟩
                simpa using he
              · exact fun h => h.2
          | cons u p =>
            simp only [reduceCtorEq, exists_false, false_iff]
            rintro ⟨⟨_, h⟩, _⟩
            rcases h m s hs (by simp) with ⟨h, _⟩ | ⟨⟨n, h⟩, _⟩ <;> cases h

theorem conversion_some {d : Doc} (hd : Lawful d) (conv : List (Str × Str × Str)) :
    conversion d = some (some conv) ↔ (∀ t ∈ d.tables, t.1.head? = some c%"conversion" → t.1 = [c%"conversion"]) ∧
      ([c%"conversion"], conv.map fun e => (e.1, Value.list [e.2.1, e.2.2])) ∈ d.tables := by
  have hany : (d.tables.any fun t => decide (t.1.head? = some c%"conversion" ∧ 2 ≤ t.1.length)) = false ↔
      ∀ t ∈ d.tables, t.1.head? = some c%"conversion" → t.1 = [c%"conversion"] := by
    rw [List.any_eq_false]
    simp only [decide_eq_true_eq, not_and, Nat.not_le]
    refine ⟨fun h t ht he => ?_, fun h t ht he => ?_⟩
    · have := h t ht he
      cases hp : t.1 with
      | nil => rw [hp] at he; cases he
      | cons x p =>
        rw [hp] at he this
        cases p with
        | nil => simpa using he
        | cons y p => simp only [List.length_cons] at this; omega
    · rw [h t ht he]; simp
  have hval : ∀ es : List (Str × Value), (lists es).bind pairs = some conv ↔
      es = conv.map fun e => (e.1, Value.list [e.2.1, e.2.2]) := by
    intro es
    constructor
    · intro h
      cases hl : lists es with
      | none => rw [hl] at h; cases h
      | some ls =>
        rw [hl] at h
        rw [(lists_iff es ls).mp hl, (pairs_iff ls conv).mp h]
        simp
    · intro h
      have h1 : lists es = some (conv.map fun e => (e.1, [e.2.1, e.2.2])) := (lists_iff _ _).mpr (by rw [h]; simp)
      rw [h1]
      exact (pairs_iff _ _).mpr rfl
  unfold conversion
  split
  · rename_i h
    simp only [reduceCtorEq, false_iff]
    rintro ⟨h', _⟩
    rw [hany.mpr h'] at h; cases h
  · rename_i h
    have hc := hany.mp (by simpa using h)
    cases hf : d.tables.find? (fun t => decide (t.1 = [c%"conversion"])) with
    | none =>
      simp only [Option.some.injEq, reduceCtorEq, false_iff]
      rintro ⟨_, hm⟩
      have := List.find?_eq_none.mp hf _ hm
      simp at this
    | some t =>
      have hm := List.mem_of_find?_eq_some hf
      have ht := List.find?_some hf
      simp only [decide_eq_true_eq] at ht
      simp only
      rw [Option.map_eq_some_iff]
      simp only [Option.some.injEq, exists_eq_right, hval]
      constructor
      · intro he
        refine ⟨hc, ?_⟩
        rw [← ht, ← he]; exact hm
      · rintro ⟨_, hm'⟩
        obtain ⟨p, es⟩ := t
        simp only at ht
        subst ht
        exact RuleFile.nodup_unique hd.tables hm hm'

/-- The commands of the document are those of the tables which are read. -/
theorem hasTable_iff {d : Doc} {t : RuleText.Toml} (h : ruleOf d = some t) (m : CompositionMode) (im : InputMode)
    (es : List (Str × List Str)) : HasTable t m im es ↔ HasEntry d m im es := by
  unfold ruleOf at h
  split at h
  · cases hc : conversion d with
    | none => rw [hc] at h; cases h
    | some conv =>
      rw [hc] at h
      cases hs : sections [] d.tables with
      | none => simp only [Option.bind_eq_bind, Option.bind_some, hs] at h; cases h
      | some ss =>
        simp only [Option.bind_eq_bind, Option.bind_some, hs] at h
        cases h
        constructor
        · rintro ⟨sect, tabs, hn, hm, he⟩
          refine ⟨sect, hn, ?_⟩
          rcases (sections_mem hs sect (tableName im) es ⟨m, (RuleFile.sectionMode_iff _ _).mpr hn⟩).mp ⟨tabs, hm, he⟩ with ⟨_, h, _⟩ | h
          · cases h
          · exact h
        · rintro ⟨sect, hn, hm⟩
          obtain ⟨tabs, h1, h2⟩ := (sections_mem hs sect (tableName im) es ⟨m, (RuleFile.sectionMode_iff _ _).mpr hn⟩).mpr (.inr hm)
          exact ⟨sect, tabs, hn, h1, h2⟩
  · cases h

theorem ruleOf_proper {d : Doc} (hd : Lawful d) {t : RuleText.Toml} (h : ruleOf d = some t) : Proper t := by
  unfold ruleOf at h
  split at h
  · cases hc : conversion d with
    | none => rw [hc] at h; cases h
    | some conv =>
      rw [hc] at h
      cases hs : sections [] d.tables with
      | none => simp only [Option.bind_eq_bind, Option.bind_some, hs] at h; cases h
      | some ss =>
        simp only [Option.bind_eq_bind, Option.bind_some, hs] at h
        cases h
        obtain ⟨h1, h2⟩ := sections_proper hs (by simp) (by simp) hd.tables (by simp)
        exact ⟨h1, h2⟩
  · cases h

theorem pairs_isSome (es : List (Str × List Str)) (h : ∀ e ∈ es, ∃ a b, e.2 = [a, b]) : ∃ ps, pairs es = some ps := by
  induction es with
  | nil => exact ⟨[], rfl⟩
  | cons e es ih =>
    obtain ⟨ps, hp⟩ := ih fun e' he' => h e' (by simp [he'])
    obtain ⟨a, b, hab⟩ := h e (by simp)
    obtain ⟨k, v⟩ := e
    simp only at hab
    subst hab
    exact ⟨(k, a, b) :: ps, by unfold pairs; rw [hp]; rfl⟩

/-- A file of this form is a rule file. -/
theorem ruleOf_isSome {d : Doc} (hd : Lawful d) (hf : IsRuleFile d) : ∃ t, ruleOf d = some t ∧
    (t.conversion.isSome = true ↔ ∃ es, ([c%"conversion"], es) ∈ d.tables) ∧
    ∀ conv, t.conversion = some conv ↔ ([c%"conversion"], conv.map fun e => (e.1, Value.list [e.2.1, e.2.2])) ∈ d.tables := by
  obtain ⟨ss, hs⟩ := (sections_isSome d.tables []).mpr fun t ht => ⟨hf.named t ht, hf.sections t ht⟩
  have hcv := fun t ht h => (hf.conversion t ht h).1
  by_cases hex : ∃ es, ([c%"conversion"], es) ∈ d.tables
  · obtain ⟨es, hes⟩ := hex
    have h1 := (hf.conversion _ hes rfl).2
    obtain ⟨ls, hl⟩ := (lists_isSome es).mpr fun e he => by
      obtain ⟨a, b, h⟩ := h1 e he; exact ⟨_, h⟩
    have hes' := (lists_iff es ls).mp hl
    obtain ⟨ps, hp⟩ := pairs_isSome ls fun e he => by
      obtain ⟨a, b, h⟩ := h1 (e.1, .list e.2) (by rw [hes']; exact List.mem_map.mpr ⟨e, he, rfl⟩)
      exact ⟨a, b, by simpa using h⟩
    have hps := (pairs_iff ls ps).mp hp
    have hm : ([c%"conversion"], ps.map fun e => (e.1, Value.list [e.2.1, e.2.2])) ∈ d.tables := by
      have : es = ps.map fun e => (e.1, Value.list [e.2.1, e.2.2]) := by rw [hes', hps]; simp
      rw [← this]; exact hes
    have hc := (conversion_some hd ps).mpr ⟨hcv, hm⟩
    refine ⟨⟨some ps, ss⟩, ?_, ?_, ?_⟩
    · unfold ruleOf; rw [if_pos hf.root, hc]; simp only [Option.bind_eq_bind, Option.bind_some, hs]; rfl
    · exact ⟨fun _ => ⟨es, hes⟩, fun _ => rfl⟩
    · intro conv
      constructor
      · intro h; cases h; exact hm
      · intro h
        have := (conversion_some hd conv).mpr ⟨hcv, h⟩
        rw [hc] at this
        exact Option.some.inj this
  · have hc : conversion d = some none := by
      unfold conversion
      rw [if_neg, List.find?_eq_none.mpr]
      · intro t ht
        simp only [decide_eq_true_eq]
        intro h
        exact hex ⟨t.2, by rw [← h]; exact ht⟩
      · rw [Bool.not_eq_true, List.any_eq_false]
        intro t ht
        simp only [decide_eq_true_eq]
        rintro ⟨h, _⟩
        exact hex ⟨t.2, by rw [← hcv t ht h]; exact ht⟩
    refine ⟨⟨none, ss⟩, ?_, ?_, ?_⟩
    · unfold ruleOf; rw [if_pos hf.root, hc]; simp only [Option.bind_eq_bind, Option.bind_some, hs]; rfl
    · exact ⟨fun h => (by cases h), fun h => absurd h hex⟩
    · intro conv
      exact ⟨fun h => (by cases h), fun h => absurd ⟨_, h⟩ hex⟩

theorem strict_utf8 (s : Str) : Label.strict (Cskk.Utf8.encode s) = some s := by
  unfold Label.strict
  rw [Utf8.decode_encode, if_pos rfl]

theorem fileAt_text {read : Str → Option Bytes} {path s : Str} (h : read path = some (Cskk.Utf8.encode s)) :
    fileAt read path = document s := by
  unfold fileAt
  rw [h]
  simp only [Option.bind_eq_bind, Option.bind_some, strict_utf8]

/-- **C86.** A rule file whose text has the form described is accepted iff it has a table `[conversion]` and the keys and commands of all tables
which are for some pair of modes can be read. -/
theorem text_accepted (x : Xkb) (read : Str → Option Bytes) (path s : Str) (d : Doc) (h : read path = some (Cskk.Utf8.encode s))
    (hd : IsDocument s d) (hf : IsRuleFile d) :
    (∃ r, ruleAt x read path = some r) ↔ (∃ es, ([c%"conversion"], es) ∈ d.tables) ∧
      ∀ m im es, HasEntry d m im es → ∀ e ∈ es, (∃ ev, KeyEvent.fromStr x e.1 = .ok (some ev)) ∧ ∃ is, MeanAll e.2 is := by
  obtain ⟨t, ht, hc, _⟩ := ruleOf_isSome hd.1 hf
  have hr : (∃ r, ruleAt x read path = some r) ↔ ∃ r, RuleText.load x t = .ok (some r) := by
    unfold ruleAt
    rw [fileAt_text h, (document_iff s d).mpr hd]
    simp only [Option.bind_eq_bind, Option.bind_some, ht]
    cases hl : RuleText.load x t with
    | error p => simp
    | ok o => simp
  rw [hr, RuleFile.accepted_iff, hc]
  unfold Spec.RuleText.Readable
  simp only [hasTable_iff ht]
  exact Iff.rfl

/-- **C86.** The commands in effect after such a file is loaded are those which its text lists: in each pair of modes, no key has two commands, and a
key has a command iff a line of the table `[section.mode]` for these modes is for that key; the last such line counts. The conversions are those of
the table `[conversion]`. -/
theorem text_in_effect (x : Xkb) (read : Str → Option Bytes) (path s : Str) (d : Doc) (h : read path = some (Cskk.Utf8.encode s))
    (hd : IsDocument s d) (hf : IsRuleFile d) (r : RuleLoad.Rule) (hr : ruleAt x read path = some r) :
    (∀ m im, ((r.cmds m im).map (·.1)).Nodup ∧ ∀ ev is, (ev, is) ∈ r.cmds m im ↔ ∃ es, HasEntry d m im es ∧ Lists x es ev is) ∧
    ∃ conv, ([c%"conversion"], conv.map fun e => (e.1, Value.list [e.2.1, e.2.2])) ∈ d.tables ∧ r.kana = KanaBuilder.fromRule x conv := by
  obtain ⟨t, ht, _, hc⟩ := ruleOf_isSome hd.1 hf
  have hl : RuleText.load x t = .ok (some r) := by
    unfold ruleAt at hr
    rw [fileAt_text h, (document_iff s d).mpr hd] at hr
    simp only [Option.bind_eq_bind, Option.bind_some, ht] at hr
    cases hl : RuleText.load x t with
    | error p => rw [hl] at hr; cases hr
    | ok o => rw [hl] at hr; simp only at hr; rw [hr]
  refine ⟨fun m im => ?_, ?_⟩
  · have := RuleFile.commands_in_effect t r (ruleOf_proper hd.1 ht) hl m im
    simp only [hasTable_iff ht] at this
    exact this
  · unfold RuleText.load at hl
    cases hcm : RuleText.commands x t.sections with
    | error p => rw [hcm] at hl; cases hl
    | ok o =>
      rw [hcm] at hl
      cases o with
      | none => cases hl
      | some us =>
        cases hv : t.conversion with
        | none => rw [hv] at hl; cases hl
        | some conv =>
          rw [hv] at hl
          cases hl
          exact ⟨conv, (hc conv).mp hv, rfl⟩

/-- C86: the order of the tables does not matter. -/
theorem table_order (x : Xkb) (read : Str → Option Bytes) (path path' s s' : Str) (d d' : Doc)
    (h : read path = some (Cskk.Utf8.encode s)) (h' : read path' = some (Cskk.Utf8.encode s')) (hd : IsDocument s d) (hd' : IsDocument s' d')
    (hf : IsRuleFile d) (hf' : IsRuleFile d') (hp : ∀ t, t ∈ d.tables ↔ t ∈ d'.tables) (r r' : RuleLoad.Rule) (hr : ruleAt x read path = some r)
    (hr' : ruleAt x read path' = some r') (m : CompositionMode) (im : InputMode) (ev : KeyEvent) (is : List Instruction) :
    (ev, is) ∈ r.cmds m im ↔ (ev, is) ∈ r'.cmds m im := by
  rw [((text_in_effect x read path s d h hd hf r hr).1 m im).2, ((text_in_effect x read path' s' d' h' hd' hf' r' hr').1 m im).2]
  have : ∀ es, HasEntry d m im es ↔ HasEntry d' m im es := by
    intro es
    unfold HasEntry
    simp only [hp]
  simp only [this]

end Cskk.Props.TomlText

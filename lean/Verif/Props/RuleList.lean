import Verif.Model.RuleList
import Verif.Props.TomlLines
import Verif.Props.CRules

/-!
# C87: the rules which are listed are those which can be chosen
-/

namespace Cskk.Props.RuleList

open Cskk.TomlText Cskk.Spec.TomlText Cskk.Props.TomlText

theorem texts_iff (es : List (Str × Value)) (ts : List (Str × Str)) :
    texts es = some ts ↔ es = ts.map fun e => (e.1, Value.text e.2) := by
  induction es generalizing ts with
  | nil => cases ts <;> simp [texts]
  | cons e es ih =>
    obtain ⟨k, v⟩ := e
    unfold texts
    constructor
    · intro h
      cases v with
      | list l => cases h
      | text s =>
        cases hl : texts es with
        | none => rw [hl] at h; cases h
        | some ms => rw [hl] at h; cases h; simp [(ih ms).mp hl]
    · intro h
      cases ts with
      | nil => cases h
      | cons e' ts =>
        simp only [List.map_cons, List.cons.injEq, Prod.mk.injEq] at h
        obtain ⟨⟨rfl, rfl⟩, h⟩ := h
        rw [(ih ts).mpr h]; rfl

theorem texts_isSome (es : List (Str × Value)) (h : ∀ e ∈ es, ∃ s, e.2 = .text s) : ∃ ts, texts es = some ts := by
  induction es with
  | nil => exact ⟨[], rfl⟩
  | cons e es ih =>
    obtain ⟨ts, ht⟩ := ih fun e' he' => h e' (by simp [he'])
    obtain ⟨s, hs⟩ := h e (by simp)
    obtain ⟨k, v⟩ := e
    simp only at hs
    subst hs
    exact ⟨(k, s) :: ts, by unfold texts; rw [ht]; rfl⟩

theorem assocGet_mem {es : List (Str × Str)} (hn : (es.map (·.1)).Nodup) (k v : Str) : assocGet es k = some v ↔ (k, v) ∈ es := by
  unfold assocGet
  constructor
  · intro h
    obtain ⟨e, he, rfl⟩ := Option.map_eq_some_iff.mp h
    have h1 := List.mem_of_find?_eq_some he
    have h2 := List.find?_some he
    simp only [decide_eq_true_eq] at h2
    subst h2; exact h1
  · intro h
    cases hf : es.find? (fun e => decide (e.1 = k)) with
    | none =>
      have := List.find?_eq_none.mp hf _ h
      simp at this
    | some e =>
      have h1 := List.mem_of_find?_eq_some hf
      have h2 := List.find?_some hf
      simp only [decide_eq_true_eq] at h2
      obtain ⟨a, b⟩ := e
      simp only at h2
      subst h2
      rw [Option.map_some, RuleFile.nodup_unique hn h1 h]

/-- The metadata read are those which the tables describe. -/
theorem metadataTables_mem {ds : List (List Str × List (Str × Value))} {m : List (Str × Str × Str × Str)} (h : metadataTables ds = some m)
    (hk : ∀ t ∈ ds, (t.2.map (·.1)).Nodup) (id name desc path : Str) :
    ((id, name, desc, path) ∈ m ↔ ∃ es, ([id], es) ∈ ds ∧ (c%"name", Value.text name) ∈ es ∧ (c%"description", Value.text desc) ∈ es ∧
      (c%"path", Value.text path) ∈ es) ∧ ds.map (·.1) = m.map fun e => [e.1] := by
  induction ds generalizing m with
  | nil => cases h; simp
  | cons d ds ih =>
    obtain ⟨p, vs⟩ := d
    unfold metadataTables at h
    split at h
    · rename_i heq; cases heq
    · rename_i id' es' ds' heq
      cases heq
      cases ht : texts vs with
      | none => rw [ht] at h; cases h
      | some ts =>
        rw [ht] at h
        simp only [Option.bind_eq_bind, Option.bind_some] at h
        cases he : metadataEntry id' ts with
        | none => rw [he] at h; cases h
        | some e =>
          rw [he] at h
          simp only [Option.bind_some] at h
          cases hr : metadataTables ds with
          | none => rw [hr] at h; cases h
          | some r =>
            rw [hr] at h
            cases h
            obtain ⟨ih1, ih2⟩ := ih hr fun t ht => hk t (by simp [ht])
            have hv := (texts_iff vs ts).mp ht
            have hn : (ts.map (·.1)).Nodup := by
              have := hk _ (List.mem_cons_self ..)
              rw [hv] at this
              simpa [List.map_map, Function.comp_def] using this
            have hmem : ∀ k v : Str, (k, Value.text v) ∈ vs ↔ assocGet ts k = some v := by
              intro k v
              rw [assocGet_mem hn, hv, List.mem_map]
              constructor
              · rintro ⟨e, hm, h⟩; cases h; exact hm
              · exact fun h => ⟨_, h, rfl⟩
            unfold metadataEntry at he
            cases h1 : assocGet ts c%"name" with
            | none => rw [h1] at he; cases he
            | some n =>
              cases h2 : assocGet ts c%"description" with
              | none => rw [h1, h2] at he; cases he
              | some de =>
                cases h3 : assocGet ts c%"path" with
                | none => rw [h1, h2, h3] at he; cases he
                | some pa =>
                  rw [h1, h2, h3] at he
                  cases he
                  refine ⟨?_, by simp [ih2]⟩
                  rw [List.mem_cons, ih1]
                  constructor
                  · rintro (h | ⟨es, hm, h⟩)
                    · cases h
                      exact ⟨vs, by simp, (hmem _ _).mpr h1, (hmem _ _).mpr h2, (hmem _ _).mpr h3⟩
                    · exact ⟨es, by simp [hm], h⟩
                  · rintro ⟨es, hm, ha, hb, hc⟩
                    rcases List.mem_cons.mp hm with h | h
                    · cases h
                      have e1 := (hmem _ _).mp ha
                      have e2 := (hmem _ _).mp hb
                      have e3 := (hmem _ _).mp hc
                      rw [h1] at e1; rw [h2] at e2; rw [h3] at e3
                      cases e1; cases e2; cases e3
                      exact .inl rfl
                    · exact .inr ⟨es, h, ha, hb, hc⟩
    · cases h

theorem metadata_isSome {d : Doc} (hd : Lawful d) (hm : IsMetadata d) : ∃ m, metadataOf d = some m := by
  unfold metadataOf
  rw [if_pos hm.root]
  have h := hm.tables
  have hk := hd.keys
  generalize d.tables = ds at h hk
  induction ds with
  | nil => exact ⟨[], rfl⟩
  | cons t ds ih =>
    obtain ⟨m, hm⟩ := ih (fun t ht => h t (by simp [ht])) (fun t ht => hk t (by simp [ht]))
    obtain ⟨⟨id, hid⟩, htx, hf⟩ := h t (by simp)
    obtain ⟨p, vs⟩ := t
    simp only at hid htx hf
    subst hid
    obtain ⟨ts, hts⟩ := texts_isSome vs htx
    have hv := (texts_iff vs ts).mp hts
    have hn : (ts.map (·.1)).Nodup := by
      have := hk _ (List.mem_cons_self ..)
      rw [hv] at this
      simpa [List.map_map, Function.comp_def] using this
    have hget : ∀ k ∈ [c%"name", c%"description", c%"path"], ∃ v, assocGet ts k = some v := by
      intro k hk'
      obtain ⟨e, he, rfl⟩ := hf k hk'
      rw [hv] at he
      obtain ⟨e', he', rfl⟩ := List.mem_map.mp he
      exact ⟨e'.2, (assocGet_mem hn _ _).mpr he'⟩
    obtain ⟨n, h1⟩ := hget c%"name" (by simp)
    obtain ⟨de, h2⟩ := hget c%"description" (by simp)
    obtain ⟨pa, h3⟩ := hget c%"path" (by simp)
    refine ⟨(id, n, de, pa) :: m, ?_⟩
    unfold metadataTables
    simp only [hts, metadataEntry, h1, h2, h3, hm, Option.bind_eq_bind, Option.bind_some]
    rfl

theorem insert_mem {V : Type} (m : SMap V) (k : Str) (v : V) (hk : k ∉ m.map (·.1)) (k' : Str) (v' : V) :
    (k', v') ∈ SMap.insert m k v ↔ (k' = k ∧ v' = v) ∨ (k', v') ∈ m := by
  induction m with
  | nil => simp [SMap.insert]
  | cons p m ih =>
    obtain ⟨a, b⟩ := p
    simp only [List.map_cons, List.mem_cons, not_or] at hk
    unfold SMap.insert
    rw [if_neg hk.1]
    split
    · simp
    · simp only [List.mem_cons, ih hk.2]
      constructor
      · rintro (h | h | h)
        · exact .inr (.inl h)
        · exact .inl h
        · exact .inr (.inr h)
      · rintro (h | h | h)
        · exact .inr (.inl h)
        · exact .inl h
        · exact .inr (.inr h)

theorem insert_sorted {V : Type} (m : SMap V) (k : Str) (v : V) (hk : k ∉ m.map (·.1)) (hs : m.Pairwise fun a b => strLt a.1 b.1 = true) :
    (SMap.insert m k v).Pairwise fun a b => strLt a.1 b.1 = true := by
  induction m with
  | nil => simp [SMap.insert]
  | cons p m ih =>
    obtain ⟨a, b⟩ := p
    have hk' := hk
    simp only [List.map_cons, List.mem_cons, not_or] at hk
    obtain ⟨h1, h2⟩ := List.pairwise_cons.mp hs
    unfold SMap.insert
    rw [if_neg hk.1]
    split
    · rename_i hlt
      refine List.pairwise_cons.mpr ⟨fun q hq => ?_, hs⟩
      rcases List.mem_cons.mp hq with rfl | hq
      · exact hlt
      · exact strLt_trans hlt (h1 q hq)
    · rename_i hlt
      refine List.pairwise_cons.mpr ⟨fun q hq => ?_, ih hk.2 h2⟩
      obtain ⟨c, e⟩ := q
      rcases (insert_mem m k v hk.2 c e).mp hq with ⟨rfl, rfl⟩ | hq
      · rcases strLt_total a c with h | h | h
        · exact h
        · exact absurd h.symm hk.1
        · exact absurd h hlt
      · exact h1 _ hq

theorem insert_length {V : Type} (m : SMap V) (k : Str) (v : V) (hk : k ∉ m.map (·.1)) : (SMap.insert m k v).length = m.length + 1 := by
  induction m with
  | nil => rfl
  | cons p m ih =>
    obtain ⟨a, b⟩ := p
    simp only [List.map_cons, List.mem_cons, not_or] at hk
    unfold SMap.insert
    rw [if_neg hk.1]
    split
    · rfl
    · simp only [List.length_cons, ih hk.2]

theorem fold_sorted (m : List (Str × Str × Str × Str)) (s : SMap (Str × Str)) (hs : s.Pairwise fun a b => strLt a.1 b.1 = true)
    (hn : (m.map (·.1)).Nodup) (hd : ∀ e ∈ m, e.1 ∉ s.map (·.1)) :
    (m.foldl (fun s e => SMap.insert s e.1 (e.2.1, e.2.2.1)) s).Pairwise (fun a b => strLt a.1 b.1 = true) ∧
      (∀ id name desc, (id, name, desc) ∈ m.foldl (fun s e => SMap.insert s e.1 (e.2.1, e.2.2.1)) s ↔
        ((id, name, desc) ∈ s ∨ ∃ path, (id, name, desc, path) ∈ m)) ∧
      (m.foldl (fun s e => SMap.insert s e.1 (e.2.1, e.2.2.1)) s).length = s.length + m.length := by
  induction m generalizing s with
  | nil => exact ⟨hs, by simp, by simp⟩
  | cons e m ih =>
    obtain ⟨h1, h2⟩ := List.nodup_cons.mp hn
    have he := hd e (by simp)
    have key : ∀ e' ∈ m, e'.1 ∉ (SMap.insert s e.1 (e.2.1, e.2.2.1)).map (·.1) := by
      intro e' he' hm
      obtain ⟨⟨a, b⟩, hq, hqa⟩ := List.mem_map.mp hm
      simp only at hqa
      subst hqa
      rcases (insert_mem s e.1 _ he _ _).mp hq with ⟨h, _⟩ | h
      · exact h1 (List.mem_map.mpr ⟨e', he', h⟩)
      · exact hd e' (by simp [he']) (List.mem_map.mpr ⟨_, h, rfl⟩)
    obtain ⟨i1, i2, i3⟩ := ih (SMap.insert s e.1 (e.2.1, e.2.2.1)) (insert_sorted s e.1 _ he hs) h2 key
    refine ⟨i1, fun id name desc => ?_, by rw [List.foldl_cons, i3, insert_length s e.1 _ he, List.length_cons]; omega⟩
    rw [List.foldl_cons, i2, insert_mem s e.1 _ he]
    obtain ⟨a, b, c, p⟩ := e
    simp only [List.mem_cons, Prod.mk.injEq]
    constructor
    · rintro ((⟨rfl, rfl, rfl⟩ | h) | ⟨path, h⟩)
      · exact .inr ⟨p, .inl ⟨rfl, rfl, rfl, rfl⟩⟩
      · exact .inl h
      · exact .inr ⟨path, .inr h⟩
    · rintro (h | ⟨path, ⟨rfl, rfl, rfl, rfl⟩ | h⟩)
      · exact .inl (.inr h)
      · exact .inl (.inl ⟨rfl, rfl, rfl⟩)
      · exact .inr ⟨path, h⟩

/-- **C87.** The rules which are listed are those which the text of the metadata file describes, each once, in the order of their identifiers. -/
theorem rules_listed (read : Str → Option Bytes) (dir s : Str) (d : Doc) (h : read (RuleLoad.push dir c%"metadata.toml") = some (Cskk.Utf8.encode s))
    (hd : IsDocument s d) (hm : IsMetadata d) :
    ∃ l, availableRules read (some dir) = some l ∧ l.length = d.tables.length ∧ l.Pairwise (fun a b => strLt a.1 b.1 = true) ∧
      ∀ id name desc, (id, name, desc) ∈ l ↔ ∃ path, Describes d id name desc path := by
  obtain ⟨m, hmd⟩ := metadata_isSome hd.1 hm
  have hmt : metadataTables d.tables = some m := by
    unfold metadataOf at hmd
    rw [if_pos hm.root] at hmd; exact hmd
  have hn : (m.map (·.1)).Nodup := by
    have h1 := (metadataTables_mem hmt hd.1.keys [] [] [] []).2
    have h2 := hd.1.tables
    rw [h1] at h2
    have h3 : (m.map fun e => [e.1]) = (m.map (·.1)).map fun i => [i] := by simp
    rw [h3] at h2
    exact List.Pairwise.of_map (S := (· ≠ ·)) _ (fun a b hab he => hab (by rw [he])) h2
  obtain ⟨h1, h2, h3⟩ := fold_sorted m [] List.Pairwise.nil hn (by simp)
  have hlen : d.tables.length = m.length := by
    have := congrArg List.length (metadataTables_mem hmt hd.1.keys [] [] [] []).2
    simpa using this
  refine ⟨_, ?_, by rw [h3, hlen]; simp, h1, fun id name desc => ?_⟩
  · unfold availableRules
    simp only [Option.bind_eq_bind, Option.bind_some, fileAt_text h, (document_iff s d).mpr hd, hmd]
    rfl
  · rw [h2]
    simp only [List.not_mem_nil, false_or]
    exact exists_congr fun path => (metadataTables_mem hmt hd.1.keys id name desc path).1

/-- **C87.** `set_rule` with an identifier takes the rule from the path which the table of that identifier gives: it succeeds iff the identifier is
listed and the rule file in that directory can be read. -/
theorem rule_chosen (x : Xkb) (read : Str → Option Bytes) (dir s : Str) (d : Doc) (h : read (RuleLoad.push dir c%"metadata.toml") = some (Cskk.Utf8.encode s))
    (hd : IsDocument s d) (hm : IsMetadata d) (c : Ctx) (id : Str) :
    (∀ r, RuleLoad.loadRule (filesOf x read) dir id = some r ↔ ∃ name desc path, Describes d id name desc path ∧
      ruleAt x read (RuleLoad.push (RuleLoad.push dir path) c%"rule.toml") = some r) ∧
    ((RuleLoad.setRule (filesOf x read) (some dir) c id).2 = true → ∃ l name desc, availableRules read (some dir) = some l ∧ (id, name, desc) ∈ l) := by
  obtain ⟨m, hmd⟩ := metadata_isSome hd.1 hm
  have hmt : metadataTables d.tables = some m := by
    unfold metadataOf at hmd
    rw [if_pos hm.root] at hmd; exact hmd
  have hn : (m.map (·.1)).Nodup := by
    have h1 := (metadataTables_mem hmt hd.1.keys [] [] [] []).2
    have h2 := hd.1.tables
    rw [h1] at h2
    have h3 : (m.map fun e => [e.1]) = (m.map (·.1)).map fun i => [i] := by simp
    rw [h3] at h2
    exact List.Pairwise.of_map (S := (· ≠ ·)) _ (fun a b hab he => hab (by rw [he])) h2
  have hmeta : (filesOf x read).metadata dir = some (m.map fun e => (e.1, e.2.2.2)) := by
    show (do
      let d ← fileAt read (RuleLoad.push dir c%"metadata.toml")
      let m ← metadataOf d
      return m.map fun (e : Str × Str × Str × Str) => (e.1, e.2.2.2)) = _
    simp only [Option.bind_eq_bind, Option.bind_some, fileAt_text h, (document_iff s d).mpr hd, hmd]
    rfl
  have first : ∀ r, RuleLoad.loadRule (filesOf x read) dir id = some r ↔ ∃ name desc path, Describes d id name desc path ∧
      ruleAt x read (RuleLoad.push (RuleLoad.push dir path) c%"rule.toml") = some r := by
    intro r
    unfold RuleLoad.loadRule
    rw [hmeta]
    simp only [Option.bind_eq_bind, Option.bind_some]
    constructor
    · intro hr
      cases hf : (m.map fun e => (e.1, e.2.2.2)).find? (fun r => decide (r.1 = id)) with
      | none => rw [hf] at hr; cases hr
      | some p =>
        rw [hf] at hr
        have h1 := List.mem_of_find?_eq_some hf
        have h2 := List.find?_some hf
        simp only [decide_eq_true_eq] at h2
        obtain ⟨⟨a, b, c', p'⟩, he, rfl⟩ := List.mem_map.mp h1
        simp only at h2
        subst h2
        exact ⟨b, c', p', (metadataTables_mem hmt hd.1.keys _ _ _ _).1.mp he, hr⟩
    · rintro ⟨name, desc, path, hds, hr⟩
      have he := (metadataTables_mem hmt hd.1.keys _ _ _ _).1.mpr hds
      cases hf : (m.map fun e => (e.1, e.2.2.2)).find? (fun r => decide (r.1 = id)) with
      | none =>
        have := List.find?_eq_none.mp hf _ (List.mem_map.mpr ⟨_, he, rfl⟩)
        simp at this
      | some p =>
        have h1 := List.mem_of_find?_eq_some hf
        have h2 := List.find?_some hf
        simp only [decide_eq_true_eq] at h2
        obtain ⟨⟨a, b, c', p'⟩, he', rfl⟩ := List.mem_map.mp h1
        simp only at h2
        subst h2
        have := RuleFile.nodup_unique hn he' he
        simp only [Prod.mk.injEq] at this
        obtain ⟨_, _, rfl⟩ := this
        exact hr
  refine ⟨first, fun hs => ?_⟩
  unfold RuleLoad.setRule at hs
  simp only [Option.bind_some] at hs
  cases hl : RuleLoad.loadRule (filesOf x read) dir id with
  | none => rw [hl] at hs; cases hs
  | some r =>
    obtain ⟨name, desc, path, hds, _⟩ := (first r).mp hl
    obtain ⟨l, h1, _, _, h2⟩ := rules_listed read dir s d h hd hm
    exact ⟨l, name, desc, h1, (h2 id name desc).mpr ⟨path, hds⟩⟩

/-- **C87.** What a C program gets from `skk_get_rules`: if the metadata describe a rule and none of their texts has a NUL, an array with one element for each
rule which the text describes, in the order of the identifiers, with its identifier, name and description. -/
theorem c_rules_listed (read : Str → Option Bytes) (dir s : Str) (d : Doc) (h : read (RuleLoad.push dir c%"metadata.toml") = some (Cskk.Utf8.encode s))
    (hd : IsDocument s d) (hm : IsMetadata d) (hne : d.tables ≠ []) (hl : d.tables.length < 2 ^ 32)
    (hn : ∀ id name desc path, Describes d id name desc path → Spec.NoNul id ∧ Spec.NoNul name ∧ Spec.NoNul desc)
    (m : Cskk.CRules.CMem) (hmem : Spec.MemOk m) (len : Nat) :
    ∃ m' ptr cap fs l, Cskk.CRules.getRules m (availableRules read (some dir)) len = .ok (m', ptr, d.tables.length) ∧
      m'.array ptr = some (cap, fs) ∧ Spec.All2 (Spec.DescribesRule m'.strings) l fs ∧ l.Pairwise (fun a b => strLt a.1 b.1 = true) ∧
      ∀ id name desc, (id, name, desc) ∈ l ↔ ∃ path, Describes d id name desc path := by
  obtain ⟨l, h1, h2, h3, h4⟩ := rules_listed read dir s d h hd hm
  have hlne : l ≠ [] := by
    rintro rfl
    exact hne (List.length_eq_zero_iff.mp h2.symm)
  obtain ⟨m', ptr, cap, fs, g1, _, g3, g4, _⟩ := CRules.rules_described m hmem l len hlne (by omega) (by
    rintro ⟨id, name, desc⟩ hr w hw
    obtain ⟨path, hds⟩ := (h4 id name desc).mp hr
    obtain ⟨n1, n2, n3⟩ := hn id name desc path hds
    simp only [Spec.ruleTexts, List.mem_cons, List.not_mem_nil, or_false] at hw
    rcases hw with rfl | rfl | rfl
    · exact n1
    · exact n2
    · exact n3)
  exact ⟨m', ptr, cap, fs, l, by rw [h1, g1, h2], g3, g4, h3, h4⟩

set_option maxRecDepth 100000 in
/-- C87: with the shipped files the list has AZIK and the default rule, and both can be chosen. -/
theorem shipped_list (read : Str → Option Bytes) (dir : Str) (h : Shipped read dir) (c : Ctx) :
    availableRules read (some dir) = some CRules.shippedRules ∧
      ∀ e ∈ [c%"azik", c%"default"], (RuleLoad.setRule (filesOf Assets.xkb read) (some dir) c e).2 = true := by
  constructor
  · unfold availableRules
    simp only [Option.bind_eq_bind, Option.bind_some, fileAt_text h.metadata]
    have := metadata_file
    cases hd : document Assets.metadataFile with
    | none => rw [hd] at this; cases this
    | some d =>
      rw [hd] at this
      simp only [Option.bind_some] at this
      simp only [Option.bind_some, this]
      decide +kernel
  · obtain ⟨_, h1, h2, _⟩ := shipped_rules read dir h .hiragana .direct [] c
    intro e he
    simp only [List.mem_cons, List.not_mem_nil, or_false] at he
    rcases he with rfl | rfl
    · rw [h1]
    · rw [h2]

/-- The hypotheses are met by the shipped metadata file. -/
theorem shipped_metadata : ∃ d, IsDocument Assets.metadataFile d ∧ IsMetadata d := by
  have hf := metadata_file
  cases hd : document Assets.metadataFile with
  | none => rw [hd] at hf; cases hf
  | some d =>
    refine ⟨d, (document_iff _ _).mp hd, ?_⟩
    rw [hd] at hf
    simp only [Option.bind_some, metadataOf] at hf
    split at hf
    · rename_i hroot
      refine ⟨hroot, ?_⟩
      generalize d.tables = ds at hf
      generalize hm : [(c%"default", c%"Default", c%"default rule", c%"default"), (c%"azik", c%"AZIK", c%"AZIKルール", c%"azik")] = m at hf
      clear hm
      induction ds generalizing m with
      | nil => simp
      | cons t ds ih =>
        obtain ⟨p, vs⟩ := t
        unfold metadataTables at hf
        split at hf
        · rename_i heq; cases heq
        · rename_i id' es' ds' heq
          cases heq
          cases ht : texts vs with
          | none => rw [ht] at hf; cases hf
          | some ts =>
            rw [ht] at hf
            simp only [Option.bind_eq_bind, Option.bind_some] at hf
            cases he : metadataEntry id' ts with
            | none => rw [he] at hf; cases hf
            | some e =>
              rw [he] at hf
              simp only [Option.bind_some] at hf
              cases hr : metadataTables ds with
              | none => rw [hr] at hf; cases hf
              | some r =>
                have hv := (texts_iff vs ts).mp ht
                have hget : ∀ k v, assocGet ts k = some v → ∃ e ∈ vs, e.1 = k := by
                  intro k v h
                  unfold assocGet at h
                  obtain ⟨e, he, rfl⟩ := Option.map_eq_some_iff.mp h
                  have h1 := List.mem_of_find?_eq_some he
                  have h2 := List.find?_some he
                  simp only [decide_eq_true_eq] at h2
                  exact ⟨(e.1, .text e.2), by rw [hv]; exact List.mem_map.mpr ⟨e, h1, rfl⟩, h2⟩
                rw [List.forall_mem_cons]
                refine ⟨⟨⟨id', rfl⟩, ?_, ?_⟩, ih r hr⟩
                · intro e' hm
                  simp only [hv] at hm
                  obtain ⟨e'', _, rfl⟩ := List.mem_map.mp hm
                  exact ⟨_, rfl⟩
                · unfold metadataEntry at he
                  cases h1 : assocGet ts c%"name" with
                  | none => rw [h1] at he; cases he
                  | some n =>
                    cases h2 : assocGet ts c%"description" with
                    | none => rw [h1, h2] at he; cases he
                    | some de =>
                      cases h3 : assocGet ts c%"path" with
                      | none => rw [h1, h2, h3] at he; cases he
                      | some pa =>
                        intro k hk
                        simp only [List.mem_cons, List.not_mem_nil, or_false] at hk
                        rcases hk with rfl | rfl | rfl
                        · exact hget _ _ h1
                        · exact hget _ _ h2
                        · exact hget _ _ h3
        · cases hf
    · cases hf

end Cskk.Props.RuleList

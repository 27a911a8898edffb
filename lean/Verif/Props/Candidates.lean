import Verif.Spec.UserDict
import Verif.Lemmas.Dedup
import Verif.Lemmas.DictEntry
import Verif.Props.UserDict
import Verif.Props.Numeric

/-!
# What is offered for a key: properties C07, C29, C35
-/

namespace Cskk.Props.Candidates
open Cskk.Spec Cskk.Spec.UserDict Cskk.Dicts Cskk.Props.UserDict

/-! ## Specification -/

/-- The dictionary key of a reading with okurigana: the reading followed by the okuri letter, if the first kana of the
okurigana has one. -/
def DictKey (k : CompositeKey) (key : Str) : Prop :=
  match k.okuri with
  | none => key = k.toComposite
  | some [] => False
  | some (c :: _) => key = k.toComposite ++ (KanaFormChanger.okuriPrefix c).toList

/-- What one dictionary lists for a key, in its own order: with okurigana, first the words of exactly this okurigana,
then the general ones; only okuri-ari entries are consulted with okurigana, only okuri-nashi ones without. -/
def answers (d : CskkDict) (okuri : Option Str) (key : Str) : List DictCand :=
  match okuri with
  | none => (listed (maps d) false key []).getD []
  | some o => (listed (maps d) true key o).getD [] ++ (listed (maps d) true key []).getD []

/-- Some dictionary lists word `w` for the key. -/
def Known (ds : List CskkDict) (okuri : Option Str) (key w : Str) : Prop :=
  ∃ d ∈ ds, ∃ c ∈ answers d okuri key, c.kouho = w

/-! ## Lookup -/

theorem dictKey_ok {k : CompositeKey} {key : Str} (h : k.getDictKey = .ok key) : DictKey k key := by
  unfold CompositeKey.getDictKey at h
  unfold DictKey
  split at h
  · rename_i h1; rw [h1]; cases h; rfl
  · cases h
  · rename_i c t h1
    rw [h1]
    simp only
    cases ho : KanaFormChanger.okuriPrefix c with
    | some o => rw [ho] at h; cases h; rfl
    | none => rw [ho] at h; cases h; simp

theorem dictKey_some (k : CompositeKey) (h : k.okuri ≠ some []) : ∃ key, k.getDictKey = .ok key := by
  unfold CompositeKey.getDictKey
  split
  · exact ⟨_, rfl⟩
  · contradiction
  · split <;> exact ⟨_, rfl⟩

theorem lookup_maps (d : CskkDict) (k : CompositeKey) (key : Str) (h : k.getDictKey = .ok key) :
    d.lookup k = .ok ((side (maps d) k.hasOkuri).find key) := by
  have : ∀ m : DictMaps, m.lookup k = .ok ((side m k.hasOkuri).find key) := by
    intro m
    simp only [DictMaps.lookup, h, bind, Except.bind, pure, Except.pure, side]
    cases k.hasOkuri <;> rfl
  unfold CskkDict.lookup maps
  cases d.kind with
  | static m => exact this _
  | user m b => exact this _
  | empty => simp only [side]; cases k.hasOkuri <;> rfl

theorem candsOf_answers (d : CskkDict) (k : CompositeKey) (key : Str) :
    candsOf ((side (maps d) k.hasOkuri).find key) k = answers d k.okuri key := by
  unfold answers CompositeKey.hasOkuri
  cases ho : k.okuri with
  | none =>
    simp only [Option.isSome_none, listed]
    cases (side (maps d) false).find key <;> simp [candsOf, CompositeKey.hasOkuri, ho, DictEntry.getCandidates]
  | some o =>
    simp only [Option.isSome_some, listed]
    cases (side (maps d) true).find key <;> simp [candsOf, CompositeKey.hasOkuri, ho, DictEntry.getCandidates]

/-- **C29.** The words found for a key are the concatenation, in dictionary order, of what each dictionary lists on the
side (okuri-ari or okuri-nashi) determined by the presence of okurigana. -/
theorem inOrder_answers (ds : List CskkDict) (k : CompositeKey) (key : Str) (h : k.getDictKey = .ok key) :
    inOrder ds k = .ok (ds.flatMap fun d => answers d k.okuri key) := by
  induction ds with
  | nil => rfl
  | cons d ds ih =>
    simp only [inOrder, lookup_maps d k key h, ih, bind, Except.bind, pure, Except.pure, candsOf_answers, List.flatMap_cons]

theorem mapM_ok {α β} (f : α → R β) (g : α → β) (l : List α) (h : ∀ x, f x = .ok (g x)) : l.mapM f = .ok (l.map g) := by
  induction l with
  | nil => rfl
  | cons x l ih => simp only [List.mapM_cons, h, ih, bind, Except.bind, pure, Except.pure, List.map_cons]

/-- The candidate made of a dictionary word. -/
def mk (k : CompositeKey) (key : Str) (d : DictCand) : Candidate := ⟨key, k.okuri, k.hasOkuri, d.kouho, d.annotation, d.kouho⟩

theorem exact_eq (ds : List CskkDict) (k : CompositeKey) (key : Str) (h : k.getDictKey = .ok key) :
    exact ds k = .ok ((dedup candLt (·.kouho) (ds.flatMap fun d => answers d k.okuri key)).map (mk k key)) := by
  simp only [exact, inOrder_answers ds k key h, bind, Except.bind]
  apply mapM_ok
  intro x
  simp only [Candidate.fromDictionaryCandidate, h, bind, Except.bind, pure, Except.pure, mk]

theorem cand_contig (x y z : DictCand) (h1 : candLt x y = false) (h2 : candLt y z = false) (h : x.kouho = z.kouho) :
    y.kouho = x.kouho := by
  unfold candLt at h1 h2
  rw [Bool.or_eq_false_iff] at h1 h2
  apply strLt_strictTotal.antisymm
  · rw [h]; exact h2.1
  · exact h1.1

/-- **C07/C35 for a list of dictionary words**: removing duplicates keeps the order, keeps every word once, and of
several entries of a word keeps one that no other entry of the word exceeds (an annotated one is greater than one without). -/
theorem dedup_spec (l : List DictCand) :
    (dedup candLt (·.kouho) l).Sublist l ∧
    ((dedup candLt (·.kouho) l).map (·.kouho)).Nodup ∧
    (∀ c ∈ l, ∃ d ∈ dedup candLt (·.kouho) l, d.kouho = c.kouho ∧ candLt d c = false) := by
  obtain ⟨h1, h2⟩ := dedup_eq candLt_strictTotal (fun c : DictCand => c.kouho) l
  obtain ⟨h3, h4⟩ := survivors_covers candLt_strictTotal (fun c : DictCand => c.kouho) l
  rw [h1]
  refine ⟨firstOcc_sublist _ _, ?_, ?_⟩
  · have hs : (sort candLt l).reverse.Pairwise fun a b => candLt a b = false :=
      List.pairwise_reverse.mpr (sort_sorted candLt_strictTotal l)
    have hk := dedupBy_keys_nodup (fun c : DictCand => c.kouho) cand_contig _ hs
    have hk2 : ((survivors candLt (fun c : DictCand => c.kouho) l).map (·.kouho)).Nodup := by
      unfold survivors
      rw [List.map_reverse]
      exact (List.reverse_perm _).nodup_iff.mpr hk
    have hinj : ∀ x ∈ survivors candLt (fun c : DictCand => c.kouho) l, ∀ y ∈ survivors candLt (fun c : DictCand => c.kouho) l,
        x.kouho = y.kouho → x = y := by
      generalize survivors candLt (fun c : DictCand => c.kouho) l = S at hk2
      induction S with
      | nil => intro x hx; cases hx
      | cons a S ih =>
        rw [List.map_cons, List.nodup_cons] at hk2
        intro x hx y hy hxy
        rcases List.mem_cons.mp hx with rfl | hx'
        · rcases List.mem_cons.mp hy with h' | hy'
          · exact h'.symm
          · exact absurd (List.mem_map.mpr ⟨y, hy', hxy.symm⟩) hk2.1
        · rcases List.mem_cons.mp hy with h' | hy'
          · exact absurd (List.mem_map.mpr ⟨x, hx', h' ▸ hxy⟩) hk2.1
          · exact ih hk2.2 x hx' y hy' hxy
    have hnd := firstOcc_nodup _ l h2
    have hmem : ∀ x ∈ firstOcc (survivors candLt (fun c : DictCand => c.kouho) l) l,
        x ∈ survivors candLt (fun c : DictCand => c.kouho) l := fun x hx => ((mem_firstOcc _ l h2 x).mp hx).1
    generalize firstOcc (survivors candLt (fun c : DictCand => c.kouho) l) l = F at hnd hmem
    induction F with
    | nil => exact List.nodup_nil
    | cons a F ih =>
      rw [List.nodup_cons] at hnd
      rw [List.map_cons, List.nodup_cons]
      refine ⟨?_, ih hnd.2 fun x hx => hmem x (by simp [hx])⟩
      intro hm
      obtain ⟨b, hb, he⟩ := List.mem_map.mp hm
      have := hinj b (hmem b (by simp [hb])) a (hmem a (by simp)) he
      subst this; exact hnd.1 hb
  · intro c hc
    obtain ⟨y, hy, hk, hlt⟩ := h4 c hc
    exact ⟨y, (mem_firstOcc _ l h2 y).mpr ⟨hy, h3 y hy⟩, hk, hlt⟩

/-- **C07.** For a reading without digits, the offered list never shows a word twice, shows exactly the words some
dictionary lists for the key, and the lookup does not panic as long as the okurigana is not the empty text. -/
theorem offered_words (ds : List CskkDict) (k : CompositeKey) (hk : k.okuri ≠ some [])
    (hnum : (Numeric.numericKey k.toComposite).1 = k.toComposite) :
    ∃ cs key, getAll ds k = .ok cs ∧ DictKey k key ∧ (cs.map (·.output)).Nodup ∧
      ∀ w, w ∈ cs.map (·.output) ↔ Known ds k.okuri key w := by
  obtain ⟨key, hkey⟩ := dictKey_some k hk
  obtain ⟨h1, h2, h3⟩ := dedup_spec (ds.flatMap fun d => answers d k.okuri key)
  refine ⟨(dedup candLt (·.kouho) (ds.flatMap fun d => answers d k.okuri key)).map (mk k key), key, ?_, dictKey_ok hkey, ?_, ?_⟩
  · simp only [getAll, exact_eq ds k key hkey, bind, Except.bind]
    rw [if_pos]
    · rfl
    · rw [hnum]
  · rw [List.map_map]; exact h2
  · intro w
    rw [List.map_map]
    constructor
    · intro hw
      obtain ⟨d, hd, rfl⟩ := List.mem_map.mp hw
      obtain ⟨e, he, hde⟩ := List.mem_flatMap.mp (h1.mem hd)
      exact ⟨e, he, d, hde, rfl⟩
    · rintro ⟨e, he, d, hde, rfl⟩
      obtain ⟨y, hy, hyk, _⟩ := h3 d (List.mem_flatMap.mpr ⟨e, he, hde⟩)
      exact List.mem_map.mpr ⟨y, hy, hyk⟩

/-- **C07, with numbers.** In general the offered words are those of the reading itself followed by the filled-in
templates of the reading with `#` for each number. -/
theorem offered_words_numeric (ds : List CskkDict) (k : CompositeKey) (hk : k.okuri ≠ some []) (cs : List Candidate)
    (h : getAll ds k = .ok cs) (hnum : (Numeric.numericKey k.toComposite).1 ≠ k.toComposite) :
    ∃ key nkey, DictKey k key ∧ DictKey ⟨(Numeric.numericKey k.toComposite).1, k.okuri⟩ nkey ∧
      ∀ w, w ∈ cs.map (·.output) ↔ Known ds k.okuri key w ∨
        ∃ template outs, Known ds k.okuri nkey template ∧
          Numeric.replaceNumericString (relookup ds) template (Numeric.numericKey k.toComposite).2 = .ok outs ∧ w ∈ outs := by
  obtain ⟨key, hkey⟩ := dictKey_some k hk
  obtain ⟨nkey, hnkey⟩ := dictKey_some ⟨(Numeric.numericKey k.toComposite).1, k.okuri⟩ hk
  obtain ⟨h1, h2, h3⟩ := dedup_spec (ds.flatMap fun d => answers d k.okuri key)
  obtain ⟨h1', h2', h3'⟩ := dedup_spec (ds.flatMap fun d => answers d k.okuri nkey)
  refine ⟨key, nkey, dictKey_ok hkey, dictKey_ok hnkey, ?_⟩
  have hne : (⟨(Numeric.numericKey k.toComposite).1, k.okuri⟩ : CompositeKey) ≠ k := by
    intro e; apply hnum; exact congrArg CompositeKey.toComposite e
  simp only [getAll, exact_eq ds k key hkey, exact_eq ds _ nkey hnkey, bind, Except.bind] at h
  rw [if_neg hne] at h
  have known_iff : ∀ key w, Known ds k.okuri key w ↔
      ∃ d ∈ dedup candLt (·.kouho) (ds.flatMap fun d => answers d k.okuri key), d.kouho = w := by
    intro key w
    obtain ⟨g1, _, g3⟩ := dedup_spec (ds.flatMap fun d => answers d k.okuri key)
    constructor
    · rintro ⟨e, he, d, hde, rfl⟩
      obtain ⟨y, hy, hyk, _⟩ := g3 d (List.mem_flatMap.mpr ⟨e, he, hde⟩)
      exact ⟨y, hy, hyk⟩
    · rintro ⟨d, hd, rfl⟩
      obtain ⟨e, he, hde⟩ := List.mem_flatMap.mp (g1.mem hd)
      exact ⟨e, he, d, hde, rfl⟩
  have hmapM : ∀ (l : List DictCand) parts, (l.map (mk ⟨(Numeric.numericKey k.toComposite).1, k.okuri⟩ nkey)).mapM
      (replaceNumericMatch ds (Numeric.numericKey k.toComposite).2) = .ok parts →
      ∀ w, w ∈ parts.flatten.map (·.output) ↔ ∃ d ∈ l, ∃ outs,
        Numeric.replaceNumericString (relookup ds) d.kouho (Numeric.numericKey k.toComposite).2 = .ok outs ∧ w ∈ outs := by
    intro l
    induction l with
    | nil => intro parts hp w; cases hp; simp
    | cons a l ih =>
      intro parts hp w
      simp only [List.map_cons, List.mapM_cons, bind, Except.bind] at hp
      split at hp
      · cases hp
      · rename_i v hv
        split at hp
        · cases hp
        · rename_i vs hvs
          cases hp
          simp only [replaceNumericMatch, bind, Except.bind] at hv
          split at hv
          · cases hv
          · rename_i outs houts
            cases hv
            have houts' : Numeric.replaceNumericString (relookup ds) a.kouho (Numeric.numericKey k.toComposite).2 = .ok outs := houts
            rw [List.flatten_cons, List.map_append, List.mem_append, ih _ hvs w, List.map_map]
            constructor
            · rintro (hw | ⟨d, hd, o, ho, hw⟩)
              · refine ⟨a, by simp, outs, houts', ?_⟩
                simpa [Function.comp_def] using hw
              · exact ⟨d, by simp [hd], o, ho, hw⟩
            · rintro ⟨d, hd, o, ho, hw⟩
              rcases List.mem_cons.mp hd with rfl | hd
              · rw [houts'] at ho; cases ho
                left; simpa [Function.comp_def] using hw
              · exact .inr ⟨d, hd, o, ho, hw⟩
  split at h
  · cases h
  · rename_i parts hparts
    cases h
    intro w
    rw [List.map_append, List.mem_append, hmapM _ _ hparts w, known_iff]
    constructor
    · rintro (hw | ⟨d, hd, o, ho, hw⟩)
      · left; simpa [mk, Function.comp_def] using hw
      · exact .inr ⟨d.kouho, o, (known_iff _ _).mpr ⟨d, hd, rfl⟩, ho, hw⟩
    · rintro (⟨d, hd, rfl⟩ | ⟨t, o, ht, ho, hw⟩)
      · left; rw [List.map_map]; exact List.mem_map.mpr ⟨d, hd, rfl⟩
      · obtain ⟨d, hd, rfl⟩ := (known_iff _ _).mp ht
        exact .inr ⟨d, hd, o, ho, hw⟩

/-- The recursive lookup of `#4` finds exactly the words listed for the number itself. -/
theorem relookup_words (ds : List CskkDict) (n w : Str) : w ∈ relookup ds n ↔ Known ds none n w := by
  have hk : (⟨n, none⟩ : CompositeKey).getDictKey = .ok n := rfl
  obtain ⟨h1, _, h3⟩ := dedup_spec (ds.flatMap fun d => answers d none n)
  simp only [relookup, exact_eq ds ⟨n, none⟩ n hk]
  rw [List.map_map]
  constructor
  · intro hw
    obtain ⟨d, hd, rfl⟩ := List.mem_map.mp hw
    obtain ⟨e, he, hde⟩ := List.mem_flatMap.mp (h1.mem hd)
    exact ⟨e, he, d, hde, rfl⟩
  · rintro ⟨e, he, d, hde, rfl⟩
    obtain ⟨y, hy, hyk, _⟩ := h3 d (List.mem_flatMap.mpr ⟨e, he, hde⟩)
    exact List.mem_map.mpr ⟨y, hy, hyk⟩

/-! ## Order (C35) -/

/-- **C35.** The offered list follows the dictionary order: if the dictionaries are split into earlier and later ones, the
offered list splits into a part whose entries the earlier ones list and a part whose entries the later ones list. -/
theorem offered_order (es fs : List CskkDict) (k : CompositeKey) (hk : k.okuri ≠ some []) :
    ∃ key as bs, exact (es ++ fs) k = .ok (as ++ bs) ∧ DictKey k key ∧
      (as.map fun c => (⟨c.kouho, c.annotation⟩ : DictCand)).Sublist (es.flatMap fun d => answers d k.okuri key) ∧
      (bs.map fun c => (⟨c.kouho, c.annotation⟩ : DictCand)).Sublist (fs.flatMap fun d => answers d k.okuri key) := by
  obtain ⟨key, hkey⟩ := dictKey_some k hk
  obtain ⟨h1, _, _⟩ := dedup_spec ((es ++ fs).flatMap fun d => answers d k.okuri key)
  rw [List.flatMap_append] at h1
  obtain ⟨l1, l2, he, s1, s2⟩ := List.sublist_append_iff.mp h1
  refine ⟨key, l1.map (mk k key), l2.map (mk k key), ?_, dictKey_ok hkey, ?_, ?_⟩
  · rw [exact_eq _ k key hkey, ← List.map_append, ← he, List.flatMap_append]
  · simpa [List.map_map, Function.comp_def, mk] using s1
  · simpa [List.map_map, Function.comp_def, mk] using s2

/-- **C35, okurigana.** Within one dictionary the words of exactly the typed okurigana come before the general ones. -/
theorem strict_okuri_first (d : CskkDict) (k : CompositeKey) (o : Str) (ho : k.okuri = some o) (hne : o ≠ []) :
    ∃ key as bs, exact [d] k = .ok (as ++ bs) ∧ DictKey k key ∧
      (as.map fun c => (⟨c.kouho, c.annotation⟩ : DictCand)).Sublist ((listed (maps d) true key o).getD []) ∧
      (bs.map fun c => (⟨c.kouho, c.annotation⟩ : DictCand)).Sublist ((listed (maps d) true key []).getD []) := by
  obtain ⟨key, hkey⟩ := dictKey_some k (by rw [ho]; simpa using hne)
  obtain ⟨h1, _, _⟩ := dedup_spec ([d].flatMap fun d => answers d k.okuri key)
  have ha : ([d].flatMap fun d => answers d k.okuri key)
      = (listed (maps d) true key o).getD [] ++ (listed (maps d) true key []).getD [] := by simp [answers, ho]
  rw [ha] at h1
  obtain ⟨l1, l2, he, s1, s2⟩ := List.sublist_append_iff.mp h1
  refine ⟨key, l1.map (mk k key), l2.map (mk k key), ?_, dictKey_ok hkey, ?_, ?_⟩
  · rw [exact_eq _ k key hkey, ← List.map_append, ← he, ha]
  · simpa [List.map_map, Function.comp_def, mk] using s1
  · simpa [List.map_map, Function.comp_def, mk] using s2

/-- Two dictionaries for the counterexamples. -/
def dictA : CskkDict := ⟨true, .user ⟨[(c%"おおk", ⟨c%"おおk", true, [([], [⟨c%"大", none⟩])]⟩)],
  [(c%"あい", ⟨c%"あい", false, [([], [⟨c%"愛", none⟩, ⟨c%"哀", none⟩])]⟩), (c%"#", ⟨c%"#", false, [([], [⟨c%"#5", none⟩])]⟩)]⟩ false⟩
def dictB : CskkDict := ⟨true, .static ⟨[(c%"おおk", ⟨c%"おおk", true, [([], [⟨c%"大", none⟩]), (c%"き", [⟨c%"多", none⟩])]⟩)],
  [(c%"あい", ⟨c%"あい", false, [([], [⟨c%"愛", some c%"love"⟩])]⟩)]⟩⟩

/-- Contrary to the comment in the code, a strict match of a later dictionary comes after the general words of an
earlier one. -/
theorem strict_okuri_not_global :
    (exact [dictA, dictB] ⟨c%"おお", some c%"き"⟩).map (·.map (·.kouho)) = .ok [c%"大", c%"多"] := by decide +kernel

/-- A word of the first dictionary is moved behind others by an annotated copy in a later dictionary … -/
theorem annotation_moves_word :
    (exact [dictA, dictB] ⟨c%"あい", none⟩).map (·.map (·.kouho)) = .ok [c%"哀", c%"愛"] := by decide +kernel

/-- … and confirming it again does not help: the word just confirmed is still not the first one offered. -/
theorem confirmed_word_not_first :
    (exact [dictA.confirm ⟨c%"あい", none, false, c%"愛", some c%"love", c%"愛"⟩, dictB] ⟨c%"あい", none⟩).map
      (·.map (·.kouho)) = .ok [c%"哀", c%"愛"] := by decide +kernel

/-- Numeric templates can offer the same text twice (`#5` has two styles, which agree for some numbers). -/
theorem numeric_duplicates :
    (getAll [dictA] ⟨c%"6", none⟩).map (·.map (·.output)) = .ok [c%"六", c%"六"] := by decide +kernel

/-- **C08, as seen by the user.** If the user dictionary is consulted first, a confirmed candidate is the first one
offered for its key, provided the user dictionary did not already list the word with another annotation and no
dictionary lists the word with a greater one. -/
theorem confirmed_offered_first (u : CskkDict) (m : DictMaps) (b : Bool) (hu : u.kind = .user m b) (rest : List CskkDict)
    (k : CompositeKey) (key : Str) (hkey : k.getDictKey = .ok key) (c : Candidate)
    (hc : c.midashi = key ∧ c.okuri = k.hasOkuri ∧ c.strictOkuri = k.okuri)
    (hsame : ∀ d ∈ answers u k.okuri key, d.kouho = c.kouho → d.annotation = c.annotation)
    (hmax : ∀ e ∈ rest, ∀ d ∈ answers e k.okuri key, d.kouho = c.kouho → candLt ⟨c.kouho, c.annotation⟩ d = false) :
    ∃ first others, exact (u.confirm c :: rest) k = .ok (first :: others) ∧ first.output = c.kouho := by
  have hmaps : maps (u.confirm c) = m.select c := by simp [CskkDict.confirm, hu, maps]
  have hmaps0 : maps u = m := by simp [hu, maps]
  -- every entry of the word listed after the confirmation carries the annotation of `c`
  have hall : ∀ g, recordedIn c.strictOkuri g → ∀ l, listed (m.select c) c.okuri c.midashi g = some l →
      (∀ d ∈ (listed m c.okuri c.midashi g).getD [], d.kouho = c.kouho → d.annotation = c.annotation) →
      (∃ t, l = ⟨c.kouho, c.annotation⟩ :: t) ∧ ∀ d ∈ l, d.kouho = c.kouho → d.annotation = c.annotation := by
    intro g hg l hl hold
    obtain ⟨new, h1, h2⟩ := confirm_moves_to_front m c g hg
    rw [hl] at h1; cases h1
    generalize (listed m c.okuri c.midashi g).getD [] = old at h2 hold
    cases h2 with
    | known hw hd hp =>
      rename_i d rest
      have hda := hold d (hp.mem_iff.mp (by simp)) hd
      refine ⟨⟨rest, ?_⟩, ?_⟩
      · cases d; simp_all
      · intro x hx hxk; exact hold x (hp.mem_iff.mp hx) hxk
    | added hw =>
      refine ⟨⟨_, rfl⟩, ?_⟩
      intro x hx hxk
      rcases List.mem_cons.mp hx with rfl | hx
      · rfl
      · exact hold x hx hxk
  -- the answers of the user dictionary start with the word
  have hans : (∃ t, answers (u.confirm c) k.okuri key = ⟨c.kouho, c.annotation⟩ :: t) ∧
      ∀ d ∈ answers (u.confirm c) k.okuri key, d.kouho = c.kouho → d.annotation = c.annotation := by
    unfold answers at hsame ⊢
    rw [hmaps]
    rw [hmaps0] at hsame
    obtain ⟨e1, e2, e3⟩ := hc
    cases ho : k.okuri with
    | none =>
      rw [ho] at hsame
      simp only at hsame ⊢
      have e2' : c.okuri = false := by rw [e2]; simp [CompositeKey.hasOkuri, ho]
      obtain ⟨d, t, hl, _⟩ := confirmed_first m c [] (.inl rfl)
      have := hall [] (.inl rfl) _ hl (by rw [e2', e1]; exact hsame)
      rw [e2', e1] at hl
      rw [hl]
      simpa using this
    | some o =>
      rw [ho] at hsame
      simp only at hsame ⊢
      have e2' : c.okuri = true := by rw [e2]; simp [CompositeKey.hasOkuri, ho]
      obtain ⟨d, t, hl, _⟩ := confirmed_first m c o (.inr (by rw [e3, ho]))
      obtain ⟨d', t', hl', _⟩ := confirmed_first m c [] (.inl rfl)
      have h1 := hall o (.inr (by rw [e3, ho])) _ hl (by
        rw [e2', e1]; intro x hx; exact hsame x (List.mem_append.mpr (.inl hx)))
      have h2 := hall [] (.inl rfl) _ hl' (by
        rw [e2', e1]; intro x hx; exact hsame x (List.mem_append.mpr (.inr hx)))
      rw [e2', e1] at hl hl'
      rw [hl, hl']
      simp only [Option.getD_some]
      obtain ⟨⟨t, ht⟩, h1⟩ := h1
      refine ⟨⟨t ++ (d' :: t'), by rw [ht]; rfl⟩, ?_⟩
      intro x hx
      rcases List.mem_append.mp hx with hx | hx
      · exact h1 x hx
      · exact h2.2 x hx
  obtain ⟨⟨t, ht⟩, hann⟩ := hans
  rw [exact_eq _ k key hkey, List.flatMap_cons]
  obtain ⟨q1, q2⟩ := dedup_eq candLt_strictTotal (fun c : DictCand => c.kouho)
    (answers (u.confirm c) k.okuri key ++ rest.flatMap fun d => answers d k.okuri key)
  obtain ⟨q3, q4⟩ := survivors_covers candLt_strictTotal (fun c : DictCand => c.kouho)
    (answers (u.confirm c) k.okuri key ++ rest.flatMap fun d => answers d k.okuri key)
  obtain ⟨y, hy, hyk, hylt⟩ := q4 ⟨c.kouho, c.annotation⟩ (by rw [ht]; simp)
  have hy' := q3 y hy
  have hle : candLt ⟨c.kouho, c.annotation⟩ y = false := by
    rcases List.mem_append.mp hy' with h | h
    · have := hann y h hyk
      have : y = ⟨c.kouho, c.annotation⟩ := by
        have hyk' : y.kouho = c.kouho := hyk
        cases y; simp_all
      rw [this]; exact candLt_strictTotal.irrefl _
    · obtain ⟨e, he, hde⟩ := List.mem_flatMap.mp h
      exact hmax e he y hde hyk
  have : y = ⟨c.kouho, c.annotation⟩ := candLt_strictTotal.antisymm hylt hle
  subst this
  rw [q1]
  generalize survivors candLt (fun c : DictCand => c.kouho)
    (answers (u.confirm c) k.okuri key ++ rest.flatMap fun d => answers d k.okuri key) = S at hy
  rw [ht, List.cons_append, firstOcc, if_pos hy]
  exact ⟨_, _, rfl, rfl⟩

/-- Non-vacuity of `confirmed_offered_first`: a word of the second dictionary, confirmed, comes first. -/
example : (exact [dictA.confirm ⟨c%"おおk", some c%"き", true, c%"多", none, c%"多"⟩, dictB] ⟨c%"おお", some c%"き"⟩).map
    (·.map (·.output)) = .ok [c%"多", c%"大"] := by decide +kernel

/-- Non-vacuity of `offered_words`. -/
example : (getAll [dictA, dictB] ⟨c%"おお", some c%"き"⟩).map (·.map (·.output)) = .ok [c%"大", c%"多"] ∧
    (Numeric.numericKey c%"おお").1 = c%"おお" := by decide +kernel

/-- **C29 (okuri-ari and okuri-nashi words do not mix).** What a dictionary answers with okurigana depends only on its
okuri-ari entries, without okurigana only on its okuri-nashi ones. -/
theorem sides_do_not_mix (d d' : CskkDict) (k : CompositeKey) (key : Str)
    (h : side (maps d) k.hasOkuri = side (maps d') k.hasOkuri) : answers d k.okuri key = answers d' k.okuri key := by
  unfold answers listed
  unfold CompositeKey.hasOkuri at h
  cases ho : k.okuri with
  | none => rw [ho] at h; simp only [Option.isSome_none] at h; rw [h]
  | some o => rw [ho] at h; simp only [Option.isSome_some] at h; rw [h]

/-- **C09, as seen by the user.** After a candidate of a well-formed user dictionary has been purged, this dictionary does
not answer with its word for the key. -/
theorem purged_not_answered (u : CskkDict) (m : DictMaps) (b : Bool) (hu : u.kind = .user m b) (hm : WellFormed m)
    (k : CompositeKey) (key : Str) (c : Candidate) (hc : c.midashi = key ∧ c.okuri = k.hasOkuri) :
    ¬ HasWord (answers (u.purge k c) k.okuri key) c.kouho := by
  have hmaps : maps (u.purge k c) = m.purge k c := by simp [CskkDict.purge, hu, maps]
  have hno : ∀ g, recordedIn k.okuri g → ¬ HasWord ((listed (m.purge k c) c.okuri c.midashi g).getD []) c.kouho := by
    intro g hg
    rw [purge_removes m hm k c g hg]
    rintro ⟨d, hd, he⟩
    cases hl : listed m c.okuri c.midashi g with
    | none => rw [hl] at hd; cases hd
    | some l =>
      rw [hl] at hd
      have := (List.mem_filter.mp hd).2
      simp [he] at this
  unfold answers
  rw [hmaps]
  obtain ⟨rfl, h2⟩ := hc
  cases ho : k.okuri with
  | none =>
    have e2' : c.okuri = false := by rw [h2]; simp [CompositeKey.hasOkuri, ho]
    have := hno [] (.inl rfl)
    rw [e2'] at this; exact this
  | some o =>
    have e2' : c.okuri = true := by rw [h2]; simp [CompositeKey.hasOkuri, ho]
    have h3 := hno [] (.inl rfl)
    have h4 := hno o (.inr ho)
    rw [e2'] at h3 h4
    rintro ⟨d, hd, he⟩
    rcases List.mem_append.mp hd with hd | hd
    · exact h4 ⟨d, hd, he⟩
    · exact h3 ⟨d, hd, he⟩

end Cskk.Props.Candidates

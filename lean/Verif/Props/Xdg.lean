import Verif.Spec.Xdg
import Verif.Props.Boot

/-!
# C91: from the environment of a program to its files
-/

namespace Cskk.Props.Xdg

open Spec.Xdg Cskk.Xdg Cskk.Boot Cskk.TomlText Cskk.Session Cskk.DictFile
open Cskk.Spec (ColonList dataDirectories)
open Cskk.RuleLoad (push searchPath firstIn)
open Cskk.Spec.Boot (Installed Starts)
open Cskk.CSession Spec.Machine Spec.CLife
open Cskk.Props.Machine (shipped names start fresh)
open Cskk.Spec.UserDict (WellFormed)
open Cskk.Props.UserDict (maps)
open Cskk.Props.CSession (Holds)
open Spec.Front (Gives)

/-! ## Spellings of paths -/

theorem squeeze_slashes (a b : Str) : squeeze (a ++ '/' :: '/' :: b) = squeeze (a ++ '/' :: b) := by
  induction a with
  | nil => simp [squeeze]
  | cons c a ih =>
    cases a with
    | nil =>
      simp only [List.nil_append, List.cons_append] at ih ⊢
      rw [squeeze, ih]
      conv => rhs; rw [squeeze]
    | cons d a =>
      simp only [List.cons_append] at ih ⊢
      rw [squeeze, squeeze, ih]

theorem squeeze_head (d : Char) (a : Str) : ∃ x, squeeze (d :: a) = d :: x := by
  induction a generalizing d with
  | nil => exact ⟨[], rfl⟩
  | cons e a ih =>
    rw [squeeze]
    split
    · rename_i h
      obtain ⟨x, hx⟩ := ih e
      exact ⟨x, by rw [hx, h.1, h.2]⟩
    · exact ⟨_, rfl⟩

theorem squeeze_append (a t : Str) : squeeze (a ++ t) = squeeze (squeeze a ++ t) := by
  induction a with
  | nil => rfl
  | cons c a ih =>
    cases a with
    | nil => rfl
    | cons d a =>
      obtain ⟨x, hx⟩ := squeeze_head d a
      have e1 : squeeze (c :: d :: a) = if c = '/' ∧ d = '/' then squeeze (d :: a) else c :: squeeze (d :: a) := by rw [squeeze]
      have e2 : squeeze (c :: d :: a ++ t) = if c = '/' ∧ d = '/' then squeeze (d :: a ++ t) else c :: squeeze (d :: a ++ t) := by
        simp only [List.cons_append]; rw [squeeze]
      rw [e1, e2]
      split
      · exact ih
      · rename_i h
        rw [ih, hx]
        simp only [List.cons_append]
        conv => rhs; rw [squeeze]
        rw [if_neg h]

theorem SamePath.append {p q : Str} (h : SamePath p q) (t : Str) : SamePath (p ++ t) (q ++ t) := by
  unfold SamePath at *
  rw [squeeze_append p, squeeze_append q, h]

theorem SamePath.ne {p q : Str} (h : SamePath p q) (hq : q ≠ []) : p ≠ [] := by
  rintro rfl
  cases q with
  | nil => exact hq rfl
  | cons c q =>
    obtain ⟨x, hx⟩ := squeeze_head c q
    unfold SamePath at h
    rw [hx] at h
    cases h

theorem push_relative {d f : Str} (hd : d ≠ []) (hf : f.head? ≠ some '/') : SamePath (push d f) (d ++ '/' :: f) := by
  unfold push
  rw [if_neg hf]
  by_cases h : d.getLast? = some '/'
  · rw [if_pos (.inr h)]
    obtain ⟨e, rfl⟩ : ∃ e, d = e ++ ['/'] := by
      rw [List.getLast?_eq_some_iff] at h
      exact h
    unfold SamePath
    have h1 : e ++ ['/'] ++ f = e ++ '/' :: f := by simp
    have h2 : e ++ ['/'] ++ '/' :: f = e ++ '/' :: '/' :: f := by simp
    rw [h1, h2, squeeze_slashes]
  · rw [if_neg (by simp [hd, h])]
    rfl

theorem push_empty {d : Str} (hd : d ≠ []) : ∃ e, push d [] = e ++ ['/'] ∧ (d = e ∨ d = e ++ ['/']) := by
  unfold push
  rw [if_neg (by simp)]
  by_cases h : d.getLast? = some '/'
  · rw [if_pos (.inr h)]
    obtain ⟨e, rfl⟩ := List.getLast?_eq_some_iff.mp h
    exact ⟨e, by simp, .inr rfl⟩
  · rw [if_neg (by simp [hd, h])]
    exact ⟨d, rfl, .inl rfl⟩

/-- The path the crate looks at, up to repeated slashes. -/
theorem joined {d f : Str} (hd : d ≠ []) (hf : f.head? ≠ some '/') : SamePath (push (push d []) f) (d ++ '/' :: f) := by
  obtain ⟨e, he, h⟩ := push_empty hd
  have h0 : push (push d []) f = e ++ '/' :: f := by
    rw [he]
    unfold push
    rw [if_neg hf, if_pos (.inr (by simp))]
    simp
  rw [h0]
  unfold SamePath
  rcases h with rfl | rfl
  · rfl
  · have h2 : e ++ ['/'] ++ '/' :: f = e ++ '/' :: '/' :: f := by simp
    rw [h2, squeeze_slashes]

theorem absolute_iff (d : Str) : isAbsolute d = true ↔ Absolute d := by
  unfold isAbsolute Absolute
  cases d <;> simp

theorem absolute_ne {d : Str} (h : Absolute d) : d ≠ [] := by
  obtain ⟨t, rfl⟩ := h; simp

/-! ## Searching -/

section
variable {dirs : Str → Bool} {fs : FS}

theorem exists_same (ht : Tidy dirs fs) {p q : Str} (h : SamePath p q) : exists_ dirs fs p = exists_ dirs fs q := by
  obtain ⟨h1, h2⟩ := ht.same p q h
  unfold exists_
  rw [h1, h2]

/-- Lists of the same places, spelled differently. -/
inductive Alike (f : Str) : List Str → List Str → Prop
  | nil : Alike f [] []
  | cons {d d' l l'} : d ≠ [] → SamePath (d ++ '/' :: f) (d' ++ '/' :: f) → Alike f l l' → Alike f (d :: l) (d' :: l')

theorem Alike.refl (f : Str) (l : List Str) (h : ∀ d ∈ l, d ≠ []) : Alike f l l := by
  induction l with
  | nil => exact .nil
  | cons d l ih => exact .cons (h d (by simp)) rfl (ih fun x hx => h x (by simp [hx]))

/-- Two searches through the same places, spelled differently. -/
theorem firsts_agree (ht : Tidy dirs fs) {f : Str} (hf : f.head? ≠ some '/') {l l' : List Str} (h : Alike f l l') :
    (firstOf (exists_ dirs fs) f l).map squeeze = (firstIn (exists_ dirs fs) f l').map squeeze := by
  induction h with
  | nil => rfl
  | @cons d d' l l' hd hp _ ih =>
    have hs : SamePath (push (push d []) f) (d' ++ '/' :: f) := (joined hd hf).trans hp
    rw [firstOf, firstIn]
    rw [exists_same ht hs]
    split
    · simp only [Option.map_some]; rw [hs]
    · exact ih

theorem any_colon_list (s : Str) : ColonList (splitOn ':' s) s := by
  induction s with
  | nil => exact ⟨rfl, by simp [splitOn], by simp [splitOn]⟩
  | cons c s ih =>
    obtain ⟨h1, h2, h3⟩ := ih
    rw [splitOn]
    cases hw : splitOn ':' s with
    | nil => exact absurd hw h2
    | cons w ws =>
      rw [hw] at h1 h3
      by_cases hc : c = ':'
      · rw [if_pos hc]
        refine ⟨?_, by simp, ?_⟩
        · conv => lhs; rw [h1, hc]
          simp [List.intercalate, List.intersperse]
        · intro d hd
          rcases List.mem_cons.mp hd with rfl | hd
          · simp
          · exact h3 d hd
      · rw [if_neg hc]
        refine ⟨?_, by simp, ?_⟩
        · conv => lhs; rw [h1]
          cases ws <;> simp [List.intercalate, List.intersperse]
        · intro d hd
          rcases List.mem_cons.mp hd with rfl | hd
          · simp only [List.mem_cons, not_or]
            exact ⟨fun h => hc h.symm, h3 w (by simp)⟩
          · exact h3 d (by simp [hd])

theorem colon_unique {s : Str} {es : List Str} (h : ColonList es s) : es = splitOn ':' s := (RuleLoad.split_colon es s h).symm

/-- The directories of the crate are those of the specification. -/
theorem system_dirs (v : Vars) (ds : List Str) : SystemDirs v ds ↔ ds = dataDirList v := by
  have hf : ∀ es : List Str, es.filter (fun d => decide (d.head? = some '/')) = es.filter isAbsolute := by
    intro es; rfl
  unfold SystemDirs dataDirList
  cases hv : v.dataDirs with
  | none =>
    constructor
    · rintro (⟨s, es, h, -⟩ | ⟨-, h⟩)
      · cases h
      · exact h
    · intro h
      exact .inr ⟨fun s es h => (by cases h), h⟩
  | some s =>
    simp only
    by_cases he : (splitOn ':' s).filter isAbsolute = []
    · rw [if_pos he]
      constructor
      · rintro (⟨s', es, h, hc, hd, hne⟩ | ⟨-, h⟩)
        · cases h
          rw [hf, colon_unique hc, he] at hd
          exact absurd hd hne
        · exact h
      · intro h
        refine .inr ⟨?_, h⟩
        intro s' es hs' hc d hd ha
        cases hs'
        have : d ∈ (splitOn ':' s).filter isAbsolute := List.mem_filter.mpr ⟨by rw [← colon_unique hc]; exact hd, (absolute_iff d).mpr ha⟩
        rw [he] at this; cases this
    · rw [if_neg he]
      constructor
      · rintro (⟨s', es, h, hc, hd, hne⟩ | ⟨hn, h⟩)
        · cases h
          rw [hf, colon_unique hc] at hd
          exact hd
        · exfalso
          obtain ⟨d, hd⟩ := List.exists_mem_of_ne_nil _ he
          obtain ⟨h1, h2⟩ := List.mem_filter.mp hd
          exact hn s _ rfl (any_colon_list s) d h1 ((absolute_iff d).mp h2)
      · intro h
        exact .inl ⟨s, _, rfl, any_colon_list s, by rw [hf]; exact h, by rw [h]; exact he⟩

theorem user_dir {v : Vars} {u h : Str} (hu : v.userHome = some u) (hh : UserDir v h) (f : Str) :
    dataHomeDir v u ≠ [] ∧ SamePath (dataHomeDir v u ++ '/' :: f) (h ++ '/' :: f) := by
  rcases hh with ⟨h1, h2⟩ | ⟨h1, u', hu', ha, rfl⟩
  · unfold dataHomeDir
    rw [h1]
    simp only
    rw [if_pos ((absolute_iff h).mpr h2)]
    exact ⟨absolute_ne h2, rfl⟩
  · rw [hu] at hu'
    cases hu'
    have hd : dataHomeDir v u = push u c%".local/share" := by
      unfold dataHomeDir
      cases hv : v.dataHome with
      | none => rfl
      | some d =>
        simp only
        rw [if_neg]
        rw [absolute_iff]
        exact h1 d hv
    rw [hd]
    have hne := absolute_ne ha
    unfold push
    rw [if_neg (by decide)]
    by_cases hl : u.getLast? = some '/'
    · rw [if_pos (.inr hl)]
      obtain ⟨e, rfl⟩ := List.getLast?_eq_some_iff.mp hl
      refine ⟨by simp, ?_⟩
      unfold SamePath
      have e1 : e ++ ['/'] ++ c%".local/share" ++ '/' :: f = e ++ '/' :: (c%".local/share" ++ '/' :: f) := by simp
      have e2 : e ++ ['/'] ++ c%"/.local/share" ++ '/' :: f = e ++ '/' :: '/' :: (c%".local/share" ++ '/' :: f) := by simp
      rw [e1, e2, squeeze_slashes]
    · rw [if_neg (by simp [hne, hl])]
      exact ⟨by simp [hne], rfl⟩

theorem firstIn_squeezed (ht : Tidy dirs fs) (f : Str) (l : List Str) (p : Str) :
    (firstIn (exists_ dirs fs) f l).map squeeze = some (squeeze p) ↔ ∃ before d after, l = before ++ d :: after ∧ SamePath p (d ++ '/' :: f) ∧
      exists_ dirs fs p = true ∧ ∀ d' ∈ before, exists_ dirs fs (d' ++ '/' :: f) = false := by
  constructor
  · intro h
    obtain ⟨q, hq, hs⟩ := Option.map_eq_some_iff.mp h
    obtain ⟨b, d, a, h1, h2, h3, h4⟩ := (RuleLoad.firstIn_iff _ _ _ _).mp hq
    exact ⟨b, d, a, h1, by rw [← h2]; exact hs.symm, by rw [← exists_same ht (p := q) hs]; exact h3, h4⟩
  · rintro ⟨b, d, a, h1, h2, h3, h4⟩
    have := (RuleLoad.firstIn_iff (exists_ dirs fs) f l (d ++ '/' :: f)).mpr ⟨b, d, a, h1, rfl, by rw [← exists_same ht h2]; exact h3, h4⟩
    rw [this]
    simp only [Option.map_some]
    rw [h2]

/-- **C91.** The directory of the rules is looked for as the specification says: in the user's directory, then in those of the system, and the first one which has it
counts. Variables whose paths do not begin at the root do not count. -/
theorem rules_found (ht : Tidy dirs fs) (v : Vars) (l : List Str) (hl : Dirs v l) (f : Str) (hf : f.head? ≠ some '/') (p : Str) :
    (∃ q, findData (exists_ dirs fs) f v = some q ∧ SamePath q p) ↔ ∃ before d after, l = before ++ d :: after ∧ SamePath p (d ++ '/' :: f) ∧
      exists_ dirs fs p = true ∧ ∀ d' ∈ before, exists_ dirs fs (d' ++ '/' :: f) = false := by
  obtain ⟨hu, h, ds, h1, h2, rfl⟩ := hl
  obtain ⟨u, hu⟩ := Option.ne_none_iff_exists'.mp hu
  rw [system_dirs] at h2
  subst h2
  have hne : ∀ d ∈ dataDirList v, d ≠ [] := by
    intro d hd
    unfold dataDirList at hd
    simp only at hd
    have hdef : d ∈ [c%"/usr/local/share", c%"/usr/share"] → d ≠ [] := by
      intro h
      simp only [List.mem_cons, List.not_mem_nil, or_false] at h
      rcases h with rfl | rfl <;> simp
    split at hd
    · split at hd
      · exact hdef hd
      · exact absolute_ne ((absolute_iff d).mp (List.mem_filter.mp hd).2)
    · exact hdef hd
  obtain ⟨k1, k2⟩ := user_dir hu h1 f
  rw [← firstIn_squeezed ht]
  have e := firsts_agree ht hf (Alike.cons k1 k2 (Alike.refl f _ hne))
  rw [← e]
  unfold findData
  rw [hu]
  simp only [Option.bind_eq_bind, Option.bind_some, Option.map_eq_some_iff]
  rfl

/-- **C91.** Without a home directory nothing is found, whatever the other variables say. -/
theorem no_home (exist : Str → Bool) (f : Str) (v : Vars) (h : v.userHome = none) : findData exist f v = none := by
  unfold findData; rw [h]; rfl

/-- **C91.** In a proper environment both ways of searching, that of the rules and that of the tables of forms, find a file at the same place. -/
theorem same_place (ht : Tidy dirs fs) (v : Vars) (hv : Proper v) (f : Str) (hf : f.head? ≠ some '/') :
    (findData (exists_ dirs fs) f v).map squeeze = (searchPath (exists_ dirs fs) f v.home v.dataHome v.dataDirs).map squeeze := by
  obtain ⟨u, hu, hh, ha⟩ := hv.home
  have hd : UserDir v ((v.dataHome).getD (u ++ c%"/.local/share")) := by
    cases h : v.dataHome with
    | none => exact .inr ⟨fun d hd => (by rw [h] at hd; cases hd), u, hu, ha, rfl⟩
    | some d => exact .inl ⟨h, hv.dataHome d h⟩
  obtain ⟨k1, k2⟩ := user_dir hu hd f
  have hs : ∃ es, ColonList es (v.dataDirs.getD c%"/usr/local/share/:/usr/share/") ∧ Alike f (dataDirList v) es := by
    cases h : v.dataDirs with
    | none =>
      refine ⟨[c%"/usr/local/share/", c%"/usr/share/"], ⟨by decide, by simp, by decide⟩, ?_⟩
      unfold dataDirList
      rw [h]
      refine .cons (by simp) ?_ (.cons (by simp) ?_ .nil)
      · have e1 : c%"/usr/local/share/" ++ '/' :: f = c%"/usr/local/share" ++ '/' :: '/' :: f := by simp
        unfold SamePath; rw [e1, squeeze_slashes]
      · have e1 : c%"/usr/share/" ++ '/' :: f = c%"/usr/share" ++ '/' :: '/' :: f := by simp
        unfold SamePath; rw [e1, squeeze_slashes]
    | some s =>
      obtain ⟨es, he, hab⟩ := hv.dataDirs s h
      refine ⟨es, he, ?_⟩
      have : dataDirList v = es := by
        unfold dataDirList
        rw [h]
        simp only
        rw [← colon_unique he, List.filter_eq_self.mpr fun d hd => (absolute_iff d).mpr (hab d hd)]
        rw [if_neg he.2.1]
      rw [this]
      exact .refl f es fun d hd => absolute_ne (hab d hd)
  obtain ⟨es, he, hal⟩ := hs
  rw [RuleLoad.search_eq _ _ _ _ _ es he]
  have hdd : dataDirectories v.home v.dataHome es = (v.dataHome).getD (u ++ c%"/.local/share") :: es := by
    unfold dataDirectories
    rw [hh]
    cases v.dataHome <;> rfl
  rw [hdd, ← firsts_agree ht hf (.cons k1 k2 hal)]
  unfold findData
  rw [hu]
  rfl

/-- **C91.** The package is found where it is installed: in the first of the directories which has any of it, whichever of them that is. -/
theorem package_found (ht : Tidy dirs fs) (v : Vars) (hv : Proper v) (before after : List Str) (d : Str) (hl : Dirs v (before ++ d :: after))
    (hp : PackageIn fs d) (hb : ∀ d' ∈ before, NothingIn dirs fs d') : Installed fs (places (exists_ dirs fs) v) := by
  have hex : ∀ p, fs p ≠ none → exists_ dirs fs p = true := by
    intro p h
    unfold exists_
    obtain ⟨b, hb⟩ := Option.ne_none_iff_exists'.mp h
    rw [hb]; simp
  have find : ∀ f, f.head? ≠ some '/' → exists_ dirs fs (d ++ '/' :: f) = true → (∀ d' ∈ before, exists_ dirs fs (d' ++ '/' :: f) = false) →
      ∃ q, findData (exists_ dirs fs) f v = some q ∧ SamePath q (d ++ '/' :: f) := fun f hf h1 h2 =>
    (rules_found ht v _ hl f hf (d ++ '/' :: f)).mpr ⟨before, d, after, rfl, rfl, h1, h2⟩
  have form : ∀ f, f.head? ≠ some '/' → exists_ dirs fs (d ++ '/' :: f) = true → (∀ d' ∈ before, exists_ dirs fs (d' ++ '/' :: f) = false) →
      ∃ q, searchPath (exists_ dirs fs) f v.home v.dataHome v.dataDirs = some q ∧ SamePath q (d ++ '/' :: f) := by
    intro f hf h1 h2
    obtain ⟨q, h3, h4⟩ := find f hf h1 h2
    have := same_place ht v hv f hf
    rw [h3] at this
    obtain ⟨q', h5, h6⟩ := Option.map_eq_some_iff.mp this.symm
    exact ⟨q', h5, h6.trans h4⟩
  have hrules : exists_ dirs fs (d ++ '/' :: c%"libcskk/rules") = true := by
    apply ht.parent _ c%"metadata.toml" (by simp)
    have e : d ++ '/' :: c%"libcskk/rules" ++ '/' :: c%"metadata.toml" = d ++ c%"/libcskk/rules/metadata.toml" := by simp
    rw [e, hp.metadata]; simp
  obtain ⟨q, hq, hs⟩ := find c%"libcskk/rules" (by decide) hrules fun d' h => (hb d' h).1
  obtain ⟨qa, ha, hsa⟩ := form c%"libcskk/rule/ascii_form.toml" (by decide) (hex _ (by have := hp.ascii; rw [this]; simp)) fun d' h => (hb d' h).2.1
  obtain ⟨qk, hk, hsk⟩ := form c%"libcskk/rule/kana_form.toml" (by decide) (hex _ (by have := hp.kana; rw [this]; simp)) fun d' h => (hb d' h).2.2
  refine ⟨⟨q, hq, ?_⟩, ⟨qa, ha, ?_⟩, ⟨qk, hk, ?_⟩⟩
  · have go : ∀ (a b f : Str), SamePath a b → b ≠ [] → f.head? ≠ some '/' → SamePath (push a f) (b ++ '/' :: f) := fun a b f h hb hf =>
      (push_relative (SamePath.ne h hb) hf).trans (SamePath.append h _)
    have g1 := go q _ c%"metadata.toml" hs (by simp) (by decide)
    have g2 := go _ _ c%"rule.toml" (go q _ c%"default" hs (by simp) (by decide)) (by simp) (by decide)
    have g3 := go _ _ c%"rule.toml" (go q _ c%"azik" hs (by simp) (by decide)) (by simp) (by decide)
    refine ⟨?_, ?_, ?_⟩
    · rw [(ht.same _ _ g1).2, ← hp.metadata]; congr 1; simp
    · rw [(ht.same _ _ g2).2, ← hp.default]; congr 1; simp
    · rw [(ht.same _ _ g3).2, ← hp.azik]; congr 1; simp
  · rw [(ht.same _ _ hsa).2]; exact hp.ascii
  · rw [(ht.same _ _ hsk).2]; exact hp.kana

end

/-! ## Lives -/

theorem push_ends {f : Str} (hf : f.head? ≠ some '/') (d : Str) : f <:+ push d f := by
  unfold push
  rw [if_neg hf]
  split
  · exact List.suffix_append _ _
  · exact ⟨d ++ ['/'], by simp⟩

theorem firstOf_ends {exist : Str → Bool} {f : Str} (hf : f.head? ≠ some '/') : ∀ {l : List Str} {q : Str}, firstOf exist f l = some q → f <:+ q := by
  intro l q h
  induction l with
  | nil => cases h
  | cons d l ih =>
    rw [firstOf] at h
    split at h
    · cases h; exact push_ends hf _
    · exact ih h

theorem firstOf_kept {ex ex' : Str → Bool} {f : Str} (hf : f.head? ≠ some '/') (he : ∀ p, f <:+ p → ex' p = ex p) (l : List Str) :
    firstOf ex' f l = firstOf ex f l := by
  induction l with
  | nil => rfl
  | cons d l ih =>
    rw [firstOf, firstOf]
    rw [he _ (push_ends hf _), ih]

theorem firstIn_kept {ex ex' : Str → Bool} {f : Str} (he : ∀ p, f <:+ p → ex' p = ex p) (l : List Str) :
    firstIn ex' f l = firstIn ex f l := by
  induction l with
  | nil => rfl
  | cons d l ih =>
    rw [firstIn, firstIn, he _ ⟨d ++ ['/'], by simp⟩, ih]

theorem search_kept {ex ex' : Str → Bool} {f : Str} (he : ∀ p, f <:+ p → ex' p = ex p) (home dh dd : Option Str) :
    searchPath ex' f home dh dd = searchPath ex f home dh dd := by
  rw [RuleLoad.search_eq ex' f home dh dd _ (any_colon_list _), RuleLoad.search_eq ex f home dh dd _ (any_colon_list _), firstIn_kept he]

theorem firstIn_ends {ex : Str → Bool} {f : Str} {l : List Str} {q : Str} (h : firstIn ex f l = some q) : f <:+ q := by
  obtain ⟨b, d, a, -, rfl, -⟩ := (RuleLoad.firstIn_iff _ _ _ _).mp h
  exact ⟨d ++ ['/'], by simp⟩

theorem search_ends {ex : Str → Bool} {f : Str} {home dh dd : Option Str} {q : Str} (h : searchPath ex f home dh dd = some q) : f <:+ q := by
  rw [RuleLoad.search_eq ex f home dh dd _ (any_colon_list _)] at h
  exact firstIn_ends h

/-- What is looked for is not touched by saves. -/
theorem apart_path {ss : List Source} (ha : Spec.Xdg.Apart ss) {f p : Str}
    (hf : f ∈ [c%"libcskk/rules", c%"libcskk/rule/ascii_form.toml", c%"libcskk/rule/kana_form.toml", c%"metadata.toml", c%"rule.toml"]) (hp : f <:+ p) :
    ∀ s ∈ ss, s.wanted = .user → p ≠ s.path ∧ p ≠ bak s.path := by
  intro s hs hu
  refine ⟨fun e => ha s hs hu f hf (e ▸ hp), fun e => ?_⟩
  obtain ⟨a, rfl⟩ := hp
  have h1 : (a ++ f).getLast? = some 'K' := by rw [e]; simp [bak]
  rw [List.getLast?_append] at h1
  simp only [List.mem_cons, List.not_mem_nil, or_false] at hf
  rcases hf with rfl | rfl | rfl | rfl | rfl <;> exact absurd h1 (by simp)

theorem apart_safe {ss : List Source} (ha : Spec.Xdg.Apart ss) (ex : Str → Bool) (v : Vars) : Spec.Boot.Safe ss (places ex v) := by
  intro p hp
  have key : ∃ f ∈ [c%"libcskk/rules", c%"libcskk/rule/ascii_form.toml", c%"libcskk/rule/kana_form.toml", c%"metadata.toml", c%"rule.toml"], f <:+ p := by
    unfold Spec.Boot.paths at hp
    rcases List.mem_append.mp hp with hp | hp
    · rcases List.mem_append.mp hp with hp | hp
      · split at hp
        · simp only [List.mem_cons, List.not_mem_nil, or_false] at hp
          rcases hp with rfl | rfl | rfl
          · exact ⟨_, by simp, push_ends (by decide) _⟩
          · exact ⟨_, by simp, push_ends (by decide) _⟩
          · exact ⟨_, by simp, push_ends (by decide) _⟩
        · cases hp
      · exact ⟨c%"libcskk/rule/ascii_form.toml", by simp, search_ends (Option.mem_toList.mp hp)⟩
    · exact ⟨c%"libcskk/rule/kana_form.toml", by simp, search_ends (Option.mem_toList.mp hp)⟩
  obtain ⟨f, hf, hs⟩ := key
  exact apart_path ha hf hs

theorem places_kept {ss : List Source} (ha : Spec.Xdg.Apart ss) (dirs : Str → Bool) (fs fs' : FS) (v : Vars)
    (h : ∀ p, (∀ s ∈ ss, s.wanted = .user → p ≠ s.path ∧ p ≠ bak s.path) → fs' p = fs p) :
    places (exists_ dirs fs') v = places (exists_ dirs fs) v := by
  have he : ∀ f ∈ [c%"libcskk/rules", c%"libcskk/rule/ascii_form.toml", c%"libcskk/rule/kana_form.toml", c%"metadata.toml", c%"rule.toml"], ∀ p, f <:+ p →
      exists_ dirs fs' p = exists_ dirs fs p := by
    intro f hf p hp
    unfold exists_
    rw [h p (apart_path ha hf hp)]
  have h1 : findData (exists_ dirs fs') c%"libcskk/rules" v = findData (exists_ dirs fs) c%"libcskk/rules" v := by
    unfold findData
    cases v.userHome with
    | none => rfl
    | some u =>
      simp only [Option.bind_eq_bind, Option.bind_some]
      exact firstOf_kept (by decide) (he _ (by simp)) _
  unfold places
  rw [h1, search_kept (he c%"libcskk/rule/ascii_form.toml" (by simp)), search_kept (he c%"libcskk/rule/kana_form.toml" (by simp))]

/-- Programs which look for their files each time they start always find them at the same places. -/
theorem runs_fixed {pr : Bool} {dirs : Str → Bool} {v : Vars} {ss : List Source} (ha : Spec.Xdg.Apart ss) {fs fs' : FS} {ps : List Spec.CLife.Program}
    (hr : Spec.Xdg.Runs pr dirs v ss fs ps fs') (hi : Installed fs (places (exists_ dirs fs) v)) :
    Spec.Boot.Runs pr (places (exists_ dirs fs) v) ss fs ps fs' ∧ places (exists_ dirs fs') v = places (exists_ dirs fs) v := by
  induction hr with
  | done fs => exact ⟨.done fs, rfl⟩
  | @program fs e c x s l ps fs' hs hu _ ih =>
    obtain ⟨rfl, ds, ho, rfl⟩ := (Boot.program_starts pr fs _ ss hi _ _ _ e c).mp hs
    have hp : places (exists_ dirs s.fs) v = places (exists_ dirs fs) v :=
      places_kept ha dirs fs s.fs v fun p hp => Boot.others_stay _ fs ss _ ho s l _ hu p hp
    have hi' : Installed s.fs (places (exists_ dirs s.fs) v) := by
      rw [hp]
      exact Boot.files_stay _ fs _ ss hi (apart_safe ha _ v) _ ho s l _ hu
    obtain ⟨h1, h2⟩ := ih hi'
    rw [hp] at h1 h2
    exact ⟨.program hs hu h1, h2⟩

/-- **C91.** C89 from the environment on: the package is installed in one of the directories which the specification names, and those before it have nothing of it.
Each program looks for its files anew when it starts; whatever was done before, it finds them, and all that C89 says holds of it. -/
theorem life_from_environment (pr : Bool) (dirs : Str → Bool) (v : Vars) (ss : List Source) (fs fs' : FS) (ht : Tidy dirs fs) (hv : Proper v)
    (before after : List Str) (d : Str) (hl : Dirs v (before ++ d :: after)) (hp : PackageIn fs d) (hb : ∀ d' ∈ before, NothingIn dirs fs d')
    (hx : Spec.Xdg.Apart ss) (ds ds' : List CskkDict) (ho : openAll fs ss = some ds) (hw : ∀ d ∈ ds, WellFormed (maps d))
    (ha : Spec.Session.Apart ss) (hsa : Spec.Session.StaticApart ss) (htot : ∀ s ∈ ss, Persist.Total s.cd)
    (ps : List Program) (hr : Spec.Xdg.Runs pr dirs v ss fs ps fs') (hm : Remembers pr ds ps ds') :
    ∀ (azik : Bool) (g : Config) (m : InputMode), ∃ e c, Starts pr fs' (places (exists_ dirs fs') v) ss azik g m e c ∧ Spec.SameWords.AllSame ds' c.dicts ∧
      ∀ (t : List (Call × Val)) (s : CState) (l : List (Nat × Str)) (Z Z' : Spec.Machine.Seat) (cl : Call) (r : Spec.Front.Reply),
        Spec.CSession.Uses e ss ⟨c, fs', ⟨1, []⟩⟩ [] t s l → Spec.CLife.Follows pr (start azik g m ds') (t.map (·.1)) Z → Spec.CSession.Allowed l cl →
        Spec.CLife.Says pr Z cl Z' r →
        ∃ s' v, CSession.step e ss s cl = .ok (s', v) ∧ Gives s'.heap r v ∧ Holds s'.heap (Spec.CSession.ledger e s.ctx l cl v) := by
  have hi := package_found ht v hv before after d hl hp hb
  obtain ⟨h1, h2⟩ := runs_fixed hx hr hi
  rw [h2]
  exact Boot.life_from_files pr _ ss fs fs' hi (apart_safe hx _ v) ds ds' ho hw ha hsa htot ps h1 hm

/-! ## Where it fails -/

/-- **C91, exception.** `XDG_DATA_HOME` is set to the empty text, which the specification takes for not set: the rules of the user are found at home, but the tables of forms
are not, although they may lie in the same directory; so the program does not write katakana as it should. -/
theorem empty_variable_splits (exist : Str → Bool) (h1 : exist c%"/home/u/.local/share/libcskk/rules" = true)
    (h2 : ∀ p, exist p = true → c%"/home/u/" <+: p) :
    let v : Vars := ⟨some c%"/home/u", some [], none, some c%"/home/u"⟩
    (places exist v).rules = some c%"/home/u/.local/share/libcskk/rules" ∧ (places exist v).ascii = none ∧ (places exist v).kana = none := by
  have hn : ∀ p : Str, ¬ c%"/home/u/" <+: p → exist p = false := by
    intro p h
    cases he : exist p with
    | false => rfl
    | true => exact absurd (h2 p he) h
  have form : ∀ f : Str, ¬ c%"/home/u/" <+: '/' :: f → searchPath exist f (some c%"/home/u") (some []) none = none := by
    intro f hf
    apply RuleLoad.empty_variable_hides_home
    · exact hn _ hf
    · exact hn _ (by intro h; have := h.getElem (i := 1) (by decide); simp at this)
    · exact hn _ (by intro h; have := h.getElem (i := 1) (by decide); simp at this)
  refine ⟨?_, form _ (by decide), form _ (by decide)⟩
  show findData exist c%"libcskk/rules" _ = _
  unfold findData
  simp only [Option.bind_eq_bind, Option.bind_some, firstOf]
  have e : push (push (dataHomeDir ⟨some c%"/home/u", some [], none, some c%"/home/u"⟩ c%"/home/u") []) c%"libcskk/rules" = c%"/home/u/.local/share/libcskk/rules" := by
    decide +kernel
  rw [e, if_pos h1]

/-- **C91, exception.** A directory `libcskk/rules` of the user without `metadata.toml` hides the rules of the system: no context. -/
theorem empty_directory_hides (exist : Str → Bool) (v : Vars) (p : Profile) (x : Xkb) (names : Keysym → Str) (read : Str → Option Bytes) (im : InputMode)
    (cm : CompositionMode) (ds : List CskkDict) (d : Str) (hd : (places exist v).rules = some d) (hm : read (push d c%"metadata.toml") = none) :
    newProgram p x names read (places exist v) im cm ds = none := by
  unfold newProgram
  rw [hd]
  have : RuleLoad.newContext (filesOf x read) (some d) im cm ds = none := by
    have h1 : (filesOf x read).metadata d = none := by
      show (fileAt read (push d c%"metadata.toml")).bind _ = none
      unfold fileAt
      rw [hm]; rfl
    unfold RuleLoad.newContext RuleLoad.loadRule
    simp only [Option.bind_eq_bind, Option.bind_some]
    rw [h1]; rfl
  rw [this]; rfl

/-- **C91, exception.** Without a home directory there is no context, even if all variables of the specification are set. -/
theorem homeless (exist : Str → Bool) (v : Vars) (hv : v.userHome = none) (p : Profile) (x : Xkb) (names : Keysym → Str) (read : Str → Option Bytes) (im : InputMode)
    (cm : CompositionMode) (ds : List CskkDict) : newProgram p x names read (places exist v) im cm ds = none := by
  have h : (places exist v).rules = none := no_home exist _ v hv
  unfold newProgram
  rw [h]
  rfl

/-! ## The hypotheses are met -/

/-- The files of the package under `/usr/share`, and the dictionaries of the sample of C89. -/
def tree : List (Str × Bytes) :=
  [(c%"/usr/share/libcskk/rules/metadata.toml", Cskk.Utf8.encode Assets.metadataFile),
   (c%"/usr/share/libcskk/rules/default/rule.toml", Cskk.Utf8.encode Assets.defaultFile),
   (c%"/usr/share/libcskk/rules/azik/rule.toml", Cskk.Utf8.encode Assets.azikFile),
   (c%"/usr/share/libcskk/rule/ascii_form.toml", Cskk.Utf8.encode Assets.asciiFormFile),
   (c%"/usr/share/libcskk/rule/kana_form.toml", Cskk.Utf8.encode Assets.kanaFormFile)]

/-- The disk: repeated slashes do not matter. -/
def disk : FS := fun p =>
  match tree.find? fun e => decide (e.1 = squeeze p) with
  | some e => some e.2
  | none => Session.files (squeeze p)

/-- Its directories. -/
def folders (p : Str) : Bool := tree.any fun e => decide (squeeze (p ++ ['/']) <+: e.1)

/-- The usual environment: only `HOME` is set. -/
def usual : Vars := ⟨some c%"/home/u", none, none, some c%"/home/u"⟩

theorem squeeze_prefix (a t : Str) : squeeze a <+: squeeze (a ++ t) := by
  induction a with
  | nil => exact List.nil_prefix
  | cons c a ih =>
    cases a with
    | nil =>
      cases t with
      | nil => exact List.prefix_refl _
      | cons d t =>
        simp only [List.cons_append, List.nil_append]
        obtain ⟨x, hx⟩ := squeeze_head c (d :: t)
        rw [hx]
        exact ⟨x, rfl⟩
    | cons d a =>
      simp only [List.cons_append] at ih ⊢
      rw [squeeze, squeeze]
      split
      · exact ih
      · obtain ⟨y, hy⟩ := ih
        exact ⟨y, by rw [← hy]; rfl⟩

theorem disk_tidy : Tidy folders disk := by
  constructor
  · intro p q h
    constructor
    · unfold folders
      rw [show squeeze (p ++ ['/']) = squeeze (q ++ ['/']) from SamePath.append h _]
    · unfold disk
      rw [show squeeze p = squeeze q from h]
  · intro p q hp h
    unfold exists_
    have : folders p = true := by
      unfold folders
      have hpre := squeeze_prefix (p ++ ['/']) q
      have e : p ++ ['/'] ++ q = p ++ '/' :: q := by simp
      rw [e] at hpre
      unfold disk at h
      split at h
      · rename_i e he
        have h1 := List.mem_of_find?_eq_some he
        have h2 := List.find?_some he
        simp only [decide_eq_true_eq] at h2
        refine List.any_eq_true.mpr ⟨e, h1, ?_⟩
        rw [h2]
        exact decide_eq_true hpre
      · exfalso
        have hm : '/' ∈ squeeze (p ++ '/' :: q) := by
          refine hpre.subset ?_
          have : ∀ a : Str, '/' ∈ squeeze (a ++ ['/']) := by
            intro a
            induction a with
            | nil => decide
            | cons c a ih =>
              cases a with
              | nil =>
                simp only [List.cons_append, List.nil_append]
                rw [squeeze]
                split
                · decide
                · simp [squeeze]
              | cons d a =>
                simp only [List.cons_append] at ih ⊢
                rw [squeeze]
                split
                · exact ih
                · exact List.mem_cons_of_mem _ ih
          exact this p
        apply h
        unfold Session.files
        rw [if_neg (by intro e; rw [e] at hm; exact absurd hm (by decide)), if_neg (by intro e; rw [e] at hm; exact absurd hm (by decide))]
    rw [this]; rfl

theorem usual_proper : Proper usual := ⟨⟨_, rfl, rfl, _, rfl⟩, fun _ h => (by cases h), fun _ h => (by cases h)⟩

theorem usual_dirs : Dirs usual ([c%"/home/u/.local/share", c%"/usr/local/share"] ++ c%"/usr/share" :: []) :=
  ⟨by simp [usual], _, _, .inr ⟨fun _ h => (by cases h), _, rfl, ⟨_, rfl⟩, rfl⟩, .inr ⟨fun _ _ h => (by cases h), rfl⟩, rfl⟩

theorem package_there : PackageIn disk c%"/usr/share" := by
  have h : ∀ p : Str, disk p = match tree.find? (fun e => decide (e.1 = squeeze p)) with | some e => some e.2 | none => Session.files (squeeze p) := fun _ => rfl
  constructor
  · rw [h]; rfl
  · rw [h]; rfl
  · rw [h]; rfl
  · rw [h]; rfl
  · rw [h]; rfl

theorem nothing_before : ∀ d ∈ [c%"/home/u/.local/share", c%"/usr/local/share"], NothingIn folders disk d := by
  intro d hd
  simp only [List.mem_cons, List.not_mem_nil, or_false] at hd
  rcases hd with rfl | rfl <;> exact ⟨by decide +kernel, by decide +kernel, by decide +kernel⟩

theorem sources_away : Spec.Xdg.Apart Session.sources := by
  intro s hs hu
  have : s = Session.userFile c%"d" ∨ s = ⟨c%"jisyo", Utf8.utf8, true, .static⟩ ∨ s = ⟨[], Utf8.utf8, true, .empty⟩ := by simpa [Session.sources] using hs
  rcases this with rfl | rfl | rfl
  · have : (Session.userFile c%"d").path = c%"d" := rfl
    rw [this]; decide +kernel
  · cases hu
  · cases hu

/-- The first program of the sample of C89 on this system. -/
def onDisk : Option (CState × List (Nat × Str) × List (Call × Val)) :=
  CSession.play (Assets.env ⟨true⟩) Session.sources ⟨fresh false Config.default .hiragana Session.openedDicts, disk, ⟨1, []⟩⟩ [] CLife.whole

/-- **The theorem applied.** With nothing but `HOME` set and the package under `/usr/share`, a first program registers ブック for ほん and saves; the next program
can start, in the AZIK rule, and knows the word. -/
theorem found_and_remembered : ∃ ps fs', ps.length = 1 ∧ Spec.Xdg.Runs true folders usual Session.sources disk ps fs' ∧
    Remembers true Session.openedDicts ps CLife.kept ∧
    ∃ e c, Starts true fs' (places (exists_ folders fs') usual) Session.sources true Config.default .hiragana e c ∧ Spec.SameWords.AllSame CLife.kept c.dicts := by
  have h1 : onDisk.isSome = true := by decide +kernel
  have hopen : openAll disk Session.sources = some Session.openedDicts := by decide +kernel
  obtain ⟨⟨s1, l1, t1⟩, p1⟩ := Option.isSome_iff_exists.mp h1
  have hi := package_found disk_tidy usual usual_proper _ _ _ usual_dirs package_there nothing_before
  have hr : Spec.Xdg.Runs true folders usual Session.sources disk [⟨false, Config.default, .hiragana, t1⟩] s1.fs :=
    .program ((Boot.program_starts true disk _ Session.sources hi _ _ _ _ _).mpr ⟨rfl, _, hopen, rfl⟩) (CSession.play_uses _ _ _ _ _ _ _ _ p1) (.done _)
  have hm := Boot.sample_remembers p1
  have hall := life_from_environment true folders usual Session.sources disk s1.fs disk_tidy usual_proper _ _ _ usual_dirs package_there nothing_before sources_away
    Session.openedDicts CLife.kept hopen Boot.sample_good.1 Session.sources_apart.1 Session.sources_apart.2 Boot.sample_good.2 _ hr hm
  obtain ⟨e, c, k1, k2, -⟩ := hall true Config.default .hiragana
  exact ⟨_, _, rfl, hr, hm, e, c, k1, k2⟩

end Cskk.Props.Xdg

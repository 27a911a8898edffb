import Verif.Lemmas.Numeric
import Verif.Lemmas.Numeric2
import Verif.Props.Numeric
import Verif.Model.Context

/-!
# Lookups do not panic while numbers are short
-/

namespace Cskk.Props.NoPanic
open Cskk Cskk.Numeric Cskk.Spec.Numeric

/-- The number of decimal digits in a text. -/
def digits (s : Str) : Nat := s.countP isNd

/-- The decimal digits of a text are ASCII digits. -/
def AsciiDigits (s : Str) : Prop := ∀ c ∈ s, isNd c = true → isAsciiDigit c = true

theorem AsciiDigits.append {a b : Str} (ha : AsciiDigits a) (hb : AsciiDigits b) : AsciiDigits (a ++ b) := by
  intro c hc h
  rcases List.mem_append.mp hc with hc | hc
  · exact ha c hc h
  · exact hb c hc h

theorem AsciiDigits.dropLast {a : Str} (ha : AsciiDigits a) : AsciiDigits a.dropLast :=
  fun c hc h => ha c ((List.dropLast_sublist a).subset hc) h

theorem AsciiDigits.nil : AsciiDigits [] := by intro c hc; cases hc

theorem AsciiDigits.none {a : Str} (h : digits a = 0) : AsciiDigits a := by
  intro c hc hn
  rw [digits, List.countP_eq_zero] at h
  exact absurd hn (h c hc)

theorem digits_append (a b : Str) : digits (a ++ b) = digits a + digits b := by simp [digits]

theorem digits_dropLast (a : Str) : digits a.dropLast ≤ digits a := (List.dropLast_sublist a).countP_le

theorem digits_nil : digits [] = 0 := rfl

theorem run_facts {s : Str} {rs : List Str} (h : RunSplit isNd s rs) :
    ∀ r ∈ rs, r ≠ [] ∧ (∀ c ∈ r, isNd c = true) ∧ r.length ≤ digits s ∧ ∀ c ∈ r, c ∈ s := by
  induction h with
  | none => intro r hr; cases hr
  | run n r s rs hn hr hrd _ _ ih =>
    intro q hq
    rcases List.mem_cons.mp hq with e | hq
    · subst e
      refine ⟨hr, hrd, ?_, fun c hc => by simp [hc]⟩
      have : digits q = q.length := by rw [digits, List.countP_eq_length]; exact hrd
      rw [digits_append, digits_append]; omega
    · obtain ⟨h1, h2, h3, h4⟩ := ih q hq
      refine ⟨h1, h2, ?_, fun c hc => by simp [h4 c hc]⟩
      rw [digits_append]; omega

theorem asciiVal_lt (s : Str) (h : s.all isAsciiDigit = true) : asciiVal s < 10 ^ s.length := by
  have : ∀ (s : Str) (a : Nat), s.all isAsciiDigit = true →
      s.foldl (fun a c => a * 10 + (c.toNat - 48)) a < (a + 1) * 10 ^ s.length := by
    intro s
    induction s with
    | nil => intro a _; simp
    | cons c s ih =>
      intro a h
      simp only [List.all_cons, Bool.and_eq_true] at h
      have hc := h.1
      simp only [isAsciiDigit, Bool.and_eq_true, decide_eq_true_eq] at hc
      rw [List.foldl_cons, List.length_cons]
      have := ih (a * 10 + (c.toNat - 48)) h.2
      refine Nat.lt_of_lt_of_le this ?_
      have e : (a + 1) * 10 ^ (s.length + 1) = (a + 1) * 10 * 10 ^ s.length := by
        rw [Nat.pow_succ, Nat.mul_comm _ 10, ← Nat.mul_assoc]
      rw [e]
      exact Nat.mul_le_mul_right _ (by omega)
  have := this s 0 h
  simpa [asciiVal] using this

theorem parse_short (r : Str) (h : r.all isAsciiDigit = true) (hne : r ≠ []) (hl : r.length ≤ 19) :
    ∃ n, parseU64 r = some n := by
  have h1 := asciiVal_lt r h
  have h2 : 10 ^ r.length ≤ 10 ^ 19 := Nat.pow_le_pow_right (by omega) hl
  refine ⟨asciiVal r, ?_⟩
  cases r with
  | nil => exact absurd rfl hne
  | cons c cs =>
    rw [parseU64, h]
    simp only [List.isEmpty_cons, Bool.not_false, Bool.and_self, if_true]
    rw [if_pos (by have : (10:Nat) ^ 19 < 2 ^ 64 := by decide
                   omega)]

theorem marker_ok (lookup : Str → List Str) (r : Str) (h : r.all isAsciiDigit = true) (hne : r ≠ [])
    (hl : r.length ≤ 19) (d : Char) : ∃ ts, markerTexts lookup d r = .ok ts := by
  obtain ⟨n, hp⟩ := parse_short r h hne hl
  have hk : ∃ t, simpleKanji r = .ok t := by
    rw [simpleKanji, replaceFirstRun_all (all_isNd_of_ascii h) hne, hp]; exact ⟨_, rfl⟩
  have hd : ∀ legal, ∃ t, daijiNum r legal = .ok t := by
    intro legal
    rw [daijiNum, replaceFirstRun_all (all_isNd_of_ascii h) hne, hp]; exact ⟨_, rfl⟩
  obtain ⟨a, ha⟩ := hd false
  obtain ⟨b, hb⟩ := hd true
  obtain ⟨k, hk⟩ := hk
  simp only [markerTexts]
  split <;> try exact ⟨_, rfl⟩
  split <;> try exact ⟨_, rfl⟩
  split <;> try exact ⟨_, rfl⟩
  split
  · rw [hk]; exact ⟨_, rfl⟩
  · split <;> try exact ⟨_, rfl⟩
    split
    · rw [ha, hb]; exact ⟨_, rfl⟩
    · exact ⟨_, rfl⟩

/-- A text whose digits are ASCII and at most 19. -/
def Short (s : Str) : Prop := AsciiDigits s ∧ digits s ≤ 19

theorem replace_ok (lookup : Str → List Str) (s w : Str) (h : Short s) :
    ∃ ts, replaceNumericString lookup w (digitRuns s) = .ok ts := by
  have hf := run_facts (digitRuns_split s)
  have hok : ∀ r ∈ digitRuns s, ∀ d, ∃ ts, markerTexts lookup d r = .ok ts := by
    intro r hr d
    obtain ⟨h1, h2, h3, h4⟩ := hf r hr
    have ha : r.all isAsciiDigit = true := by
      rw [List.all_eq_true]; exact fun c hc => h.1 c (h4 c hc) (h2 c hc)
    exact marker_ok lookup r ha h1 (Nat.le_trans h3 h.2) d
  have : ∀ (nums : List Str), (∀ r ∈ nums, ∀ d, ∃ ts, markerTexts lookup d r = .ok ts) →
      ∀ (ds : List Char) (texts : List Str), ∃ ts, replaceLoop lookup ds nums texts = .ok ts := by
    intro nums
    induction nums with
    | nil => intro _ ds texts; cases ds <;> exact ⟨_, rfl⟩
    | cons r nums ih =>
      intro hn ds texts
      cases ds with
      | nil => exact ⟨_, rfl⟩
      | cons d ds =>
        rw [replaceLoop]
        split
        · exact ih (fun q hq => hn q (by simp [hq])) ds []
        · obtain ⟨ts, hts⟩ := hn r (by simp) d
          rw [hts]
          exact ih (fun q hq => hn q (by simp [hq])) ds _
  exact this _ hok _ _

/-! ## Dictionaries -/

/-- The key has no empty okurigana. -/
def OkKey (k : CompositeKey) : Prop := k.okuri ≠ some []

theorem getDictKey_ok {k : CompositeKey} (h : OkKey k) : ∃ s, k.getDictKey = .ok s := by
  unfold CompositeKey.getDictKey
  split
  · exact ⟨_, rfl⟩
  · rename_i e; exact absurd e h
  · split <;> exact ⟨_, rfl⟩

theorem lookup_ok (d : CskkDict) {k : CompositeKey} (h : OkKey k) : ∃ e, d.lookup k = .ok e := by
  obtain ⟨s, hs⟩ := getDictKey_ok h
  unfold CskkDict.lookup
  split
  · rw [DictMaps.lookup, hs]; exact ⟨_, rfl⟩
  · rw [DictMaps.lookup, hs]; exact ⟨_, rfl⟩
  · exact ⟨_, rfl⟩

theorem inOrder_ok (ds : List CskkDict) {k : CompositeKey} (h : OkKey k) : ∃ l, Dicts.inOrder ds k = .ok l := by
  induction ds with
  | nil => exact ⟨_, rfl⟩
  | cons d ds ih =>
    obtain ⟨e, he⟩ := lookup_ok d h
    obtain ⟨l, hl⟩ := ih
    rw [Dicts.inOrder, he]
    simp only [bind, Except.bind, hl]
    exact ⟨_, rfl⟩

theorem mapM_ok {α β} (f : α → R β) (l : List α) (h : ∀ a ∈ l, ∃ b, f a = .ok b) : ∃ bs, l.mapM f = .ok bs := by
  induction l with
  | nil => exact ⟨[], rfl⟩
  | cons a l ih =>
    obtain ⟨b, hb⟩ := h a (by simp)
    obtain ⟨bs, hbs⟩ := ih (fun x hx => h x (by simp [hx]))
    rw [List.mapM_cons, hb]
    simp only [bind, Except.bind, hbs]
    exact ⟨_, rfl⟩

theorem exact_ok (ds : List CskkDict) {k : CompositeKey} (h : OkKey k) : ∃ l, Dicts.exact ds k = .ok l := by
  obtain ⟨l, hl⟩ := inOrder_ok ds h
  obtain ⟨s, hs⟩ := getDictKey_ok h
  rw [Dicts.exact, hl]
  exact mapM_ok _ _ fun a _ => by rw [Candidate.fromDictionaryCandidate, hs]; exact ⟨_, rfl⟩

theorem getAll_ok (ds : List CskkDict) {k : CompositeKey} (h : OkKey k) (hs : Short k.toComposite) :
    ∃ l, Dicts.getAll ds k = .ok l := by
  obtain ⟨l, hl⟩ := exact_ok ds h
  unfold Dicts.getAll
  rw [hl]
  simp only [bind, Except.bind]
  split
  · exact ⟨_, rfl⟩
  · have h' : OkKey ⟨(numericKey k.toComposite).1, k.okuri⟩ := h
    obtain ⟨l', hl'⟩ := exact_ok ds h'
    rw [hl']
    simp only
    obtain ⟨ps, hps⟩ := mapM_ok (Dicts.replaceNumericMatch ds (numericKey k.toComposite).2) l' (by
      intro a _
      obtain ⟨ts, hts⟩ := replace_ok (Dicts.relookup ds) k.toComposite a.kouho hs
      rw [Dicts.replaceNumericMatch, show (numericKey k.toComposite).2 = digitRuns k.toComposite from rfl, hts]
      exact ⟨_, rfl⟩)
    rw [hps]
    exact ⟨_, rfl⟩

theorem complete_ok (d : CskkDict) {k : CompositeKey} (h : OkKey k) : ∃ e, d.complete k = .ok e := by
  obtain ⟨s, hs⟩ := getDictKey_ok h
  have : ∀ m : DictMaps, ∃ e, m.complete k = .ok e := by
    intro m
    unfold DictMaps.complete
    split
    · exact ⟨_, rfl⟩
    · rw [hs]; exact ⟨_, rfl⟩
  unfold CskkDict.complete
  split
  · exact this _
  · exact this _
  · exact ⟨_, rfl⟩

theorem getAllComplete_ok (ds : List CskkDict) {k : CompositeKey} (h : OkKey k) :
    ∃ l, Dicts.getAllComplete ds k = .ok l := by
  have : ∃ l, Dicts.completeInner ds k = .ok l := by
    induction ds with
    | nil => exact ⟨_, rfl⟩
    | cons d ds ih =>
      obtain ⟨l, hl⟩ := ih
      obtain ⟨e, he⟩ := complete_ok d h
      rw [Dicts.completeInner]
      split <;> simp only [bind, Except.bind, hl, he] <;> exact ⟨_, rfl⟩
  obtain ⟨l, hl⟩ := this
  rw [Dicts.getAllComplete, hl]
  exact ⟨_, rfl⟩

theorem registered_ok (ds : List CskkDict) (s : State) (w : Str) (h : Short s.cands.toComposite.toComposite) :
    ∃ cs, Ctx.registered ds s w = .ok cs := by
  unfold Ctx.registered
  simp only
  split
  · obtain ⟨ts, hts⟩ := replace_ok (Dicts.relookup ds) s.cands.toComposite.toComposite w h
    rw [show (numericKey s.cands.toComposite.toComposite).2 = digitRuns s.cands.toComposite.toComposite from rfl, hts]
    exact ⟨_, rfl⟩
  · exact ⟨_, rfl⟩

end Cskk.Props.NoPanic

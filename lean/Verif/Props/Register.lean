import Verif.Props.Cursor
import Verif.Props.Confirm
import Verif.Props.Candidates

/-!
# C30: a registered word is offered for its reading
-/

namespace Cskk.Props.Register
open Spec Spec.UserDict Candidates UserDict Cskk.Spec.Numeric

/-! ## Dictionaries after a confirmation -/

theorem answers_confirm_other (d : CskkDict) (x : Candidate) (okuri : Option Str) (key : Str)
    (h : x.okuri ≠ okuri.isSome ∨ x.midashi ≠ key) : answers (d.confirm x) okuri key = answers d okuri key := by
  have hl : ∀ o g, (x.okuri ≠ o ∨ x.midashi ≠ key) → listed (maps (d.confirm x)) o key g = listed (maps d) o key g := by
    intro o g h
    unfold CskkDict.confirm maps
    cases hk : d.kind with
    | user m b =>
      dsimp only
      refine confirm_changes_nothing_else m x o key g ?_
      rcases h with h | h
      · exact .inl (Ne.symm h)
      · exact .inr (.inl (Ne.symm h))
    | _ => simp only [hk]
  unfold answers
  cases okuri with
  | none => dsimp only; rw [hl false [] h]
  | some o => dsimp only; rw [hl true o h, hl true [] h]

theorem flatMap_confirm_other (ds : List CskkDict) (x : Candidate) (okuri : Option Str) (key : Str)
    (h : x.okuri ≠ okuri.isSome ∨ x.midashi ≠ key) :
    ((ds.map fun (d : CskkDict) => d.confirm x).flatMap fun d => answers d okuri key) = ds.flatMap fun d => answers d okuri key := by
  induction ds with
  | nil => rfl
  | cons d ds ih => simp only [List.map_cons, List.flatMap_cons, ih, answers_confirm_other d x okuri key h]

theorem exact_confirm_other (ds : List CskkDict) (x : Candidate) (k : CompositeKey) (key : Str) (hk : k.getDictKey = .ok key)
    (h : x.okuri ≠ k.okuri.isSome ∨ x.midashi ≠ key) :
    Dicts.exact (ds.map fun (d : CskkDict) => d.confirm x) k = Dicts.exact ds k := by
  rw [exact_eq _ k key hk, exact_eq _ k key hk, flatMap_confirm_other ds x k.okuri key h]

theorem relookup_confirm_other (ds : List CskkDict) (x : Candidate) (n : Str) (h : x.okuri = true ∨ x.midashi ≠ n) :
    Dicts.relookup (ds.map fun (d : CskkDict) => d.confirm x) n = Dicts.relookup ds n := by
  unfold Dicts.relookup
  rw [exact_confirm_other ds x ⟨n, none⟩ n rfl]
  rcases h with h | h
  · left; simp [h]
  · exact .inr h

theorem known_confirmed (ds : List CskkDict) (x : Candidate) (ho : x.okuri = false) (hs : x.strictOkuri = none)
    (hu : ∃ d ∈ ds, ∃ m b, d.kind = .user m b) : Known (ds.map fun (d : CskkDict) => d.confirm x) none x.midashi x.kouho := by
  obtain ⟨d, hd, m, b, hk⟩ := hu
  refine ⟨d.confirm x, List.mem_map_of_mem hd, ?_⟩
  obtain ⟨y, rest, h1, h2⟩ := confirmed_first m x [] (.inl rfl)
  refine ⟨y, ?_, h2⟩
  unfold answers CskkDict.confirm maps
  rw [hk]
  rw [ho] at h1
  simp [h1]

/-! ## Numbers -/

theorem replaceLoop_congr {f g : Str → List Str} (ds : List Char) (ns : List Str) (ts : List Str) (h : ∀ n ∈ ns, f n = g n) :
    Numeric.replaceLoop f ds ns ts = Numeric.replaceLoop g ds ns ts := by
  induction ds generalizing ns ts with
  | nil => cases ns <;> rfl
  | cons d ds ih =>
    cases ns with
    | nil => rfl
    | cons n ns =>
      unfold Numeric.replaceLoop
      have hm : Numeric.markerTexts f d n = Numeric.markerTexts g d n := by
        unfold Numeric.markerTexts; rw [h n List.mem_cons_self]
      rw [hm, ih ns _ fun n hn => h n (List.mem_cons_of_mem _ hn)]
      split
      · rfl
      · cases Numeric.markerTexts g d n with
        | error p => rfl
        | ok reps => exact ih ns _ fun n hn => h n (List.mem_cons_of_mem _ hn)

theorem run_digits {p : Char → Bool} {s : Str} {rs : List Str} (h : RunSplit p s rs) : ∀ r ∈ rs, ∀ c ∈ r, p c = true := by
  induction h with
  | none n hn => intro r hr; cases hr
  | run n r s rs _ _ hr _ _ ih =>
    intro q hq
    rcases List.mem_cons.mp hq with h | h
    · subst h; exact hr
    · exact ih q h

theorem run_has_digit {p : Char → Bool} {s : Str} {rs : List Str} (h : RunSplit p s rs) (hne : rs ≠ []) : ∃ c ∈ s, p c = true := by
  cases h with
  | none n hn => exact absurd rfl hne
  | run n r s rs _ hr hrd _ _ =>
    cases r with
    | nil => exact absurd rfl hr
    | cons c r => exact ⟨c, by simp, hrd c (by simp)⟩

theorem hashRuns_no_digit (s : Str) (b : Bool) : ∀ c ∈ hashRuns isNd b s, isNd c = false := by
  induction s generalizing b with
  | nil => intro c hc; cases b <;> cases hc
  | cons x s ih =>
    intro c hc
    unfold hashRuns at hc
    split at hc
    · split at hc
      · exact ih _ c hc
      · rcases List.mem_cons.mp hc with h | h
        · subst h; exact Cskk.Numeric.hash_not_digit
        · exact ih _ c h
    · rename_i hx
      rcases List.mem_cons.mp hc with h | h
      · subst h; simpa using hx
      · exact ih _ c h

/-- A reading with a number is not its own numeric key, and the numeric key is not a number. -/
theorem numericKey_facts (r : Str) (h : digitRuns r ≠ []) :
    (Numeric.numericKey r).1 ≠ r ∧ ∀ n ∈ (Numeric.numericKey r).2, (Numeric.numericKey r).1 ≠ n := by
  obtain ⟨h1, h2⟩ := Numeric.numeric_key_correct r
  obtain ⟨c, hc, hd⟩ := run_has_digit h2 h
  constructor
  · intro he
    rw [h1] at he
    have := hashRuns_no_digit r false c (by rw [he]; exact hc)
    rw [hd] at this; cases this
  · intro n hn he
    have hcount := Numeric.numeric_key_count r
    have hpos : 0 < (Numeric.numericKey r).1.count '#' := by
      refine Nat.lt_of_lt_of_le ?_ hcount
      exact List.length_pos_iff.mpr h
    have hm := List.count_pos_iff.mp hpos
    rw [he] at hm
    have := run_digits h2 n hn _ hm
    rw [Cskk.Numeric.hash_not_digit] at this; cases this

theorem okuri_letter_no_digit {a l : Char} (h : KanaFormChanger.okuriPrefix a = some l) : isNd l = false := by
  unfold KanaFormChanger.okuriPrefix at h
  cases hf : KanaFormChanger.kanaRomMap.find? (fun g => g.1.contains a) with
  | none => rw [hf] at h; cases h
  | some g =>
    rw [hf] at h
    have hg := List.mem_of_find?_eq_some hf
    have hl : g.2 = l := by simpa using h
    subst hl
    have : ∀ g ∈ KanaFormChanger.kanaRomMap, isNd g.2 = false := by decide +kernel
    exact this g hg

/-! ## Registration -/

theorem adjust_nil (f : KanaFormChanger) (im : InputMode) : f.adjust im [] = [] := by cases im <;> rfl

/-- What leaving the registration does: the first of the candidates made of the word is confirmed. -/
theorem exit_confirms (e : Env) (c c' : Ctx) (s : State) (rest : List State) (w : Str) (hb : c.below = s :: rest) (hw : w ≠ [])
    (h : c.exitRegister e w = .ok c') :
    (∃ x xs, Ctx.registered c.dicts s w = .ok (x :: xs) ∧ c'.below = rest ∧
      c'.top = Confirm.committed s (x.output ++ e.kanaForm.adjust s.inputMode s.okuri) ∧
      c'.dicts = c.dicts.map fun (d : CskkDict) => d.confirm x) ∨
    (Ctx.registered c.dicts s w = .ok [] ∧ c'.below = rest ∧ c'.top.confirmed = s.confirmed ∧ c'.dicts = c.dicts) := by
  unfold Ctx.exitRegister at h
  rw [hb] at h
  have hw' : w.isEmpty = false := by cases w <;> simp_all
  simp only [hw', Ctx.mapTop, Bool.false_eq_true, if_false] at h
  have hreg : Ctx.registered c.dicts { s with mode := .direct } w = Ctx.registered c.dicts s w := rfl
  rw [hreg] at h
  cases hr : Ctx.registered c.dicts s w with
  | error p => rw [hr] at h; cases h
  | ok cs =>
    rw [hr] at h
    simp only [bind, Except.bind, pure, Except.pure, Except.ok.injEq] at h
    have hcur : (State.addCandidates { s with mode := .direct } cs).cands.cands[
        (State.addCandidates { s with mode := .direct } cs).cands.cursor]? = cs[0]? := by
      simp only [State.addCandidates, CandidateList.addNew, List.length_append, Nat.add_sub_cancel]
      rw [List.getElem?_append_right (Nat.le_refl _), Nat.sub_self]
    cases cs with
    | cons x xs =>
      left
      have := Confirm.confirmCurrent_commits e
        { c with below := rest, top := State.addCandidates { s with mode := .direct } (x :: xs) } x hcur (.inr (.inr rfl))
      rw [this] at h
      subst h
      exact ⟨x, xs, rfl, rfl, rfl, rfl⟩
    | nil =>
      right
      have hn : (State.addCandidates { s with mode := .direct } []).cands.current = none := hcur
      unfold Ctx.confirmCurrent at h
      simp only [hn] at h
      subst h
      exact ⟨rfl, rfl, rfl, rfl⟩

/-- **C30.** A word which is registered for a reading without okurigana is offered for the reading from then on: when the
registration is left with the word `w`, a text `t` is committed one level below (the word itself, or, if it has as many
number markers as the reading has numbers, the word with the numbers filled in), and converting the reading with the
dictionaries as they are afterwards offers `t`.
The only other possibility needs a word with the marker `#4`: nothing is registered, nothing is committed. -/
theorem registered_word_offered (e : Env) (c c' : Ctx) (s : State) (rest : List State) (w r : Str) (hb : c.below = s :: rest)
    (hw : w ≠ []) (hr : s.cands.toComposite = ⟨r, none⟩) (ho : s.okuri = [])
    (hu : ∃ d ∈ c.dicts, ∃ m b, d.kind = .user m b) (h : c.exitRegister e w = .ok c') :
    (∃ t, c'.below = rest ∧ c'.top.confirmed = s.confirmed ++ t ∧
      (Numeric.markers w = [] ∨ (Numeric.markers w).length ≠ (digitRuns r).length → t = w) ∧
      ∀ cs, Dicts.getAll c'.dicts ⟨r, none⟩ = .ok cs → t ∈ cs.map (·.output)) ∨
    (c%"#4" <:+: w ∧ c'.below = rest ∧ c'.top.confirmed = s.confirmed ∧ c'.dicts = c.dicts) := by
  have hadj : e.kanaForm.adjust s.inputMode s.okuri = [] := by rw [ho]; exact adjust_nil _ _
  rcases exit_confirms e c c' s rest w hb hw h with ⟨x, xs, hreg, h1, h2, h3⟩ | ⟨hreg, h1, h2, h3⟩
  · left
    refine ⟨x.output, h1, by rw [h2, hadj]; simp [Confirm.committed], ?_⟩
    rw [h3]
    unfold Ctx.registered at hreg
    simp only [hr, ho, List.isEmpty_nil, Bool.not_true] at hreg
    split at hreg
    · rename_i hcond
      obtain ⟨hn0, hneq⟩ := hcond
      unfold Numeric.numericEntryCount Numeric.numericStringCount at *
      refine ⟨?_, ?_⟩
      · rintro (hm | hm)
        · rw [hm] at hn0; exact absurd rfl hn0
        · exact absurd hneq hm
      intro cs hcs
      have hne : digitRuns r ≠ [] := by
        intro hd; rw [hd] at hneq; exact hn0 hneq
      obtain ⟨hk1, hk2⟩ := numericKey_facts r hne
      cases hrep : Numeric.replaceNumericString (Dicts.relookup c.dicts) w (Numeric.numericKey r).2 with
      | error p => rw [hrep] at hreg; cases hreg
      | ok outs =>
        rw [hrep] at hreg
        simp only [bind, Except.bind, pure, Except.pure, Except.ok.injEq] at hreg
        cases outs with
        | nil => cases hreg
        | cons o os =>
          simp only [List.map_cons, List.cons.injEq] at hreg
          obtain ⟨hx, -⟩ := hreg
          subst hx
          obtain ⟨key, nkey, hkey, hnkey, hall⟩ := offered_words_numeric _ ⟨r, none⟩ (by simp) cs hcs hk1
          refine (hall _).mpr (.inr ⟨w, o :: os, ?_, ?_, by simp⟩)
          · have : nkey = (Numeric.numericKey r).1 := hnkey
            rw [this]
            exact known_confirmed c.dicts _ rfl rfl hu
          · rw [← hrep]
            apply replaceLoop_congr
            intro n hn
            exact relookup_confirm_other c.dicts _ n (.inr (hk2 n hn))
    · simp only [pure, Except.pure, Except.ok.injEq, List.cons.injEq] at hreg
      obtain ⟨hx, -⟩ := hreg
      subst hx
      refine ⟨fun _ => rfl, ?_⟩
      intro cs hcs
      have hkn := known_confirmed c.dicts ⟨r, none, false, w, none, w⟩ rfl rfl hu
      by_cases hnum : (Numeric.numericKey r).1 = r
      · obtain ⟨cs', key, hg, hkey, -, hall⟩ := offered_words (c.dicts.map fun (d : CskkDict) => d.confirm ⟨r, none, false, w, none, w⟩)
          ⟨r, none⟩ (by simp) hnum
        rw [hcs] at hg
        cases hg
        have : key = r := hkey
        subst this
        exact (hall _).mpr hkn
      · obtain ⟨key, nkey, hkey, -, hall⟩ := offered_words_numeric _ ⟨r, none⟩ (by simp) cs hcs hnum
        have : key = r := hkey
        subst this
        exact (hall _).mpr (.inl hkn)
  · right
    refine ⟨?_, h1, h2, h3⟩
    apply Classical.byContradiction
    intro hno
    exact Cursor.registered_ne_nil hno hreg rfl

/-- **Exception to C30.** A word registered for a reading with okurigana is never found again: the conversion of the same
reading and okurigana offers after the registration exactly what it offered before.  (The word is recorded for the reading
without the consonant letter which is part of the key of every okuri-ari entry.) -/
theorem okurigana_registration_not_found (e : Env) (c c' : Ctx) (s : State) (rest : List State) (w r o : Str) (a l : Char)
    (hb : c.below = s :: rest) (hw : w ≠ []) (hr : s.cands.toComposite = ⟨r, some (a :: o)⟩) (ho : s.okuri ≠ [])
    (ha : KanaFormChanger.okuriPrefix a = some l) (hm : Numeric.markers w = []) (h : c.exitRegister e w = .ok c') :
    Dicts.getAll c'.dicts ⟨r, some (a :: o)⟩ = Dicts.getAll c.dicts ⟨r, some (a :: o)⟩ := by
  rcases exit_confirms e c c' s rest w hb hw h with ⟨x, xs, hreg, -, -, h3⟩ | ⟨-, -, -, h3⟩
  · rw [h3]
    unfold Ctx.registered at hreg
    have hn : ¬ (Numeric.numericEntryCount w ≠ 0 ∧
        Numeric.numericEntryCount w = Numeric.numericStringCount s.cands.toComposite.toComposite) := by
      simp [Numeric.numericEntryCount, hm]
    have ho' : s.okuri.isEmpty = false := by simpa using ho
    dsimp only at hreg
    rw [if_neg hn] at hreg
    simp only [hr, ho', Bool.not_false, pure, Except.pure, Except.ok.injEq, List.cons.injEq] at hreg
    obtain ⟨hx, -⟩ := hreg
    have hkey : ∀ q : Str, (⟨q, some (a :: o)⟩ : CompositeKey).getDictKey = .ok (q ++ [l]) := by
      intro q; simp [CompositeKey.getDictKey, ha]
    have h1 : Dicts.exact (c.dicts.map fun (d : CskkDict) => d.confirm x) ⟨r, some (a :: o)⟩ = Dicts.exact c.dicts ⟨r, some (a :: o)⟩ := by
      refine exact_confirm_other _ _ _ _ (hkey r) (.inr ?_)
      rw [← hx]
      simp
    have h2 : Dicts.relookup (c.dicts.map fun (d : CskkDict) => d.confirm x) = Dicts.relookup c.dicts := by
      funext n
      exact relookup_confirm_other _ _ _ (.inl (by rw [← hx]))
    unfold Dicts.getAll
    rw [h1]
    cases Dicts.exact c.dicts ⟨r, some (a :: o)⟩ with
    | error p => rfl
    | ok ex =>
      simp only [bind, Except.bind]
      split
      · rfl
      · rename_i hk
        have hne : digitRuns r ≠ [] := by
          intro hd
          apply hk
          simp [Numeric.numericKey, hd]
        have h4 : Dicts.exact (c.dicts.map fun (d : CskkDict) => d.confirm x) ⟨(Numeric.numericKey r).1, some (a :: o)⟩ =
            Dicts.exact c.dicts ⟨(Numeric.numericKey r).1, some (a :: o)⟩ := by
          refine exact_confirm_other _ _ _ _ (hkey _) (.inr ?_)
          rw [← hx]
          intro he
          obtain ⟨d, hd, hdig⟩ := run_has_digit (Numeric.numeric_key_correct r).2 hne
          have he' : r = (Numeric.numericKey r).1 ++ [l] := he
          rw [he'] at hd
          rcases List.mem_append.mp hd with hd | hd
          · rw [(Numeric.numeric_key_correct r).1] at hd
            have := hashRuns_no_digit r false d hd
            rw [hdig] at this; cases this
          · have hd' : d = l := by simpa using hd
            rw [hd', okuri_letter_no_digit ha] at hdig
            cases hdig
        rw [h4]
        have h5 : Dicts.replaceNumericMatch (c.dicts.map fun (d : CskkDict) => d.confirm x) (Numeric.numericKey r).2 =
            Dicts.replaceNumericMatch c.dicts (Numeric.numericKey r).2 := by
          funext y
          unfold Dicts.replaceNumericMatch
          rw [h2]
        rw [h5]
  · rw [h3]

/-- **Exception to C30.** Neither is a word found which is registered for a conversion started by a punctuation mark: the
mark counts as okurigana when the word is recorded, but not when the reading is looked up. -/
theorem punctuation_registration_not_found (e : Env) (c c' : Ctx) (s : State) (rest : List State) (w r : Str)
    (hb : c.below = s :: rest) (hw : w ≠ []) (hr : s.cands.toComposite = ⟨r, none⟩) (ho : s.okuri ≠ [])
    (h : c.exitRegister e w = .ok c') :
    Dicts.getAll c'.dicts ⟨r, none⟩ = Dicts.getAll c.dicts ⟨r, none⟩ := by
  rcases exit_confirms e c c' s rest w hb hw h with ⟨x, xs, hreg, -, -, h3⟩ | ⟨-, -, -, h3⟩
  · rw [h3]
    have ho' : s.okuri.isEmpty = false := by simpa using ho
    have hx : x.okuri = true := by
      unfold Ctx.registered at hreg
      simp only [ho'] at hreg
      split at hreg
      · cases hrep : Numeric.replaceNumericString (Dicts.relookup c.dicts) w
            (Numeric.numericKey s.cands.toComposite.toComposite).2 with
        | error p => rw [hrep] at hreg; cases hreg
        | ok outs =>
          rw [hrep] at hreg
          cases outs with
          | nil => cases hreg
          | cons o os => cases hreg; rfl
      · cases hreg; rfl
    have h1 : ∀ q : Str, Dicts.exact (c.dicts.map fun (d : CskkDict) => d.confirm x) ⟨q, none⟩ = Dicts.exact c.dicts ⟨q, none⟩ := by
      intro q
      exact exact_confirm_other _ _ _ q rfl (.inl (by simp [hx]))
    have h5 : Dicts.replaceNumericMatch (c.dicts.map fun (d : CskkDict) => d.confirm x) (Numeric.numericKey r).2 =
        Dicts.replaceNumericMatch c.dicts (Numeric.numericKey r).2 := by
      funext y
      unfold Dicts.replaceNumericMatch
      have h2 : Dicts.relookup (c.dicts.map fun (d : CskkDict) => d.confirm x) = Dicts.relookup c.dicts := by
        funext n
        exact relookup_confirm_other _ _ _ (.inl hx)
      rw [h2]
    unfold Dicts.getAll
    dsimp only
    rw [h1 r, h1 (Numeric.numericKey r).1, h5]
  · rw [h3]

/-! ## The same, by keys -/

/-- An empty user dictionary. -/
def emptyUser : CskkDict := ⟨true, .user ⟨[], []⟩ false⟩

/-- What is shown after typing, `↵` is the Return key. -/
def shownAfter (p : Bool) (text : Str) : Option Str :=
  ((Ctx.new Assets.defaultCommands Assets.defaultKana .hiragana .direct [emptyUser]).processKeyEvents (Assets.env ⟨p⟩)
    ((typed text).map fun ev => if ev = ⟨'↵'.toNat, 0⟩ then ⟨0xff0d, 0⟩ else ev)).toOption.map
    fun c => c.preedit (Assets.env ⟨p⟩)

/-- Registered words are found: a plain one, and a template for another number. -/
example : shownAfter true c%"Ai aiai↵Ai " = some c%"あいあい▼あいあい" := by decide +kernel
example : shownAfter true c%"Dai5 #1↵Dai7 " = some c%"５▼７" := by decide +kernel

/-- With okurigana the word is committed, but the next conversion asks for registration again … -/
example : shownAfter true c%"OoSi" = some c%"▼おお*し【】" := by decide +kernel
example : shownAfter true c%"OoSia↵OoSi" = some c%"▼おお*し【】" := by decide +kernel

/-- … and so it does after a punctuation mark. -/
example : shownAfter true c%"Ai.a↵Ai." = some c%"▼あい。【】" := by decide +kernel

end Cskk.Props.Register

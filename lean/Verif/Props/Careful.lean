import Verif.Spec.Careful
import Verif.Props.Life
import Verif.Props.Merge

/-! # The words a careful user learns can be saved -/

namespace Cskk.Props.Careful
open Cskk Dicts Spec Spec.UserDict Spec.Persist Spec.DictText Spec.Machine Spec.Careful Spec.Session UserDict
open Cskk.Props.Machine (shipped names start)

/-! ## The words of plain dictionaries are plain -/

theorem plain_answers {d : CskkDict} (h : PlainDict (maps d)) {o : Option Str} (ho : ∀ g, o = some g → ∀ x ∈ g, OkuriKana x) {key : Str} {c : DictCand}
    (hc : c ∈ Candidates.answers d o key) : PlainCandidate ⟨key, o, o.isSome, c.kouho, c.annotation, c.kouho⟩ := by
  have hw : ∃ e g l, (key, e) ∈ side (maps d) o.isSome ∧ SMap.get e.cands g = some l ∧ c ∈ l := by
    unfold Candidates.answers listed at hc
    cases hf : (side (maps d) o.isSome).find key with
    | none => cases o <;> simp_all
    | some e =>
      refine ⟨e, ?_⟩
      have hm := Life.mem_of_find hf
      cases o with
      | none =>
        simp only [Option.isSome_none] at hf hc hm
        rw [hf] at hc
        simp only [Option.bind_some] at hc
        cases hl : SMap.get e.cands [] with
        | none => simp [hl] at hc
        | some l => exact ⟨[], l, hm, hl, by simpa [hl] using hc⟩
      | some o =>
        simp only [Option.isSome_some] at hf hc hm
        rw [hf] at hc
        simp only [Option.bind_some, List.mem_append] at hc
        rcases hc with hc | hc
        · cases hl : SMap.get e.cands o with
          | none => simp [hl] at hc
          | some l => exact ⟨o, l, hm, hl, by simpa [hl] using hc⟩
        · cases hl : SMap.get e.cands [] with
          | none => simp [hl] at hc
          | some l => exact ⟨[], l, hm, hl, by simpa [hl] using hc⟩
  obtain ⟨e, g, l, h1, h2, h3⟩ := hw
  have hp := h.entries _ _ h1
  have hr := h.wf.reading _ _ h1
  simp only at hp hr
  have hg := hp.groups g l h2
  refine ⟨by rw [← hr]; exact hp.reading, hg.words c h3, ?_, ?_⟩
  · intro h; cases o with
    | none => rfl
    | some o => cases h
  · intro h
    exact ⟨by rw [← hr]; exact hp.ari h, (hg.ari h).2.2 c h3, ho⟩

theorem plain_exact {ds : List CskkDict} (h : AllPlain ds) {k : CompositeKey} (hk : k.okuri ≠ some []) (ho : ∀ g, k.okuri = some g → ∀ x ∈ g, OkuriKana x)
    {cs : List Candidate} (he : exact ds k = .ok cs) : ∀ c ∈ cs, PlainCandidate c := by
  obtain ⟨key, hkey⟩ := Candidates.dictKey_some k hk
  rw [Candidates.exact_eq ds k key hkey] at he
  injection he with he
  subst he
  intro c hc
  obtain ⟨d, hd, rfl⟩ := List.mem_map.mp hc
  have hd := (Candidates.dedup_spec _).1.subset hd
  obtain ⟨x, hx, hd⟩ := List.mem_flatMap.mp hd
  exact plain_answers (h x hx) ho hd

theorem plain_output {c : Candidate} (h : PlainCandidate c) (o : Str) : PlainCandidate { c with output := o } := ⟨h.reading, h.word, h.nashi, h.ari⟩

theorem mapM_mem {A B : Type} (f : A → R B) : ∀ {l : List A} {r : List B}, l.mapM f = .ok r → ∀ b ∈ r, ∃ a ∈ l, f a = .ok b := by
  intro l
  induction l with
  | nil => intro r h b hb; cases h; cases hb
  | cons a l ih =>
    intro r h b hb
    rw [List.mapM_cons] at h
    cases ha : f a with
    | error e => rw [ha] at h; cases h
    | ok x =>
      rw [ha] at h
      cases hl : l.mapM f with
      | error e => rw [hl] at h; cases h
      | ok y =>
        rw [hl] at h
        cases h
        rcases List.mem_cons.mp hb with rfl | hb
        · exact ⟨a, by simp, ha⟩
        · obtain ⟨a', h1, h2⟩ := ih hl b hb
          exact ⟨a', by simp [h1], h2⟩

/-- Every word a plain dictionary offers is plain, with numbers too. -/
theorem plain_getAll {ds : List CskkDict} (h : AllPlain ds) {k : CompositeKey} (hk : k.okuri ≠ some []) (ho : ∀ g, k.okuri = some g → ∀ x ∈ g, OkuriKana x)
    {cs : List Candidate} (he : getAll ds k = .ok cs) : ∀ c ∈ cs, PlainCandidate c := by
  unfold getAll at he
  cases h1 : exact ds k with
  | error e => rw [h1] at he; cases he
  | ok ex =>
    rw [h1] at he
    simp only [bind, Except.bind] at he
    have hex := plain_exact h hk ho h1
    split at he
    · cases he; exact hex
    · cases h2 : exact ds ⟨(Numeric.numericKey k.toComposite).1, k.okuri⟩ with
      | error e => rw [h2] at he; cases he
      | ok num =>
        rw [h2] at he
        simp only at he
        have hnum := plain_exact h (k := ⟨(Numeric.numericKey k.toComposite).1, k.okuri⟩) hk ho h2
        cases h3 : num.mapM (replaceNumericMatch ds (Numeric.numericKey k.toComposite).2) with
        | error e => rw [h3] at he; cases he
        | ok parts =>
          rw [h3] at he
          cases he
          intro c hc
          rcases List.mem_append.mp hc with hc | hc
          · exact hex c hc
          · obtain ⟨p, hp, hc⟩ := List.mem_flatten.mp hc
            obtain ⟨a, ha, hr⟩ := mapM_mem _ h3 p hp
            unfold replaceNumericMatch at hr
            cases h4 : Numeric.replaceNumericString (relookup ds) a.kouho (Numeric.numericKey k.toComposite).2 with
            | error e => rw [h4] at hr; cases hr
            | ok outs =>
              rw [h4] at hr
              cases hr
              obtain ⟨o, _, rfl⟩ := List.mem_map.mp hc
              exact plain_output (hnum a ha) o

theorem mem_completeInner {text : Str} : ∀ {ds : List CskkDict} {cs : List CompletionCand}, (∀ d ∈ ds, WellFormed (maps d)) → completeInner ds ⟨text, none⟩ = .ok cs → ∀ c ∈ cs,
    c.okuri = none ∧ ∃ d ∈ ds, ∃ e, (c.midashi, e) ∈ side (maps d) false ∧ ∃ l, SMap.get e.cands [] = some l ∧ ⟨c.kouho, c.annotation⟩ ∈ l := by
  intro ds
  induction ds with
  | nil => intro cs _ h c hc; cases h; cases hc
  | cons d ds ih =>
    intro cs hw h c hc
    obtain ⟨es, h1, h2, -⟩ := Completion.complete_exact d (hw d (by simp)) ⟨text, none⟩ text rfl
    have hrest : ∀ rest, completeInner ds ⟨text, none⟩ = .ok rest → c ∈ rest → _ := fun rest hr hc => ih (fun x hx => hw x (by simp [hx])) hr c hc
    have key : ∀ es', (es' = es ∨ es' = []) → ∀ rest, completeInner ds ⟨text, none⟩ = .ok rest → c ∈ completionsOf es' ⟨text, none⟩ ++ rest →
        c.okuri = none ∧ ∃ d' ∈ d :: ds, ∃ e, (c.midashi, e) ∈ side (maps d') false ∧ ∃ l, SMap.get e.cands [] = some l ∧ ⟨c.kouho, c.annotation⟩ ∈ l := by
      intro es' hes rest hr hc
      rcases List.mem_append.mp hc with hc | hc
      · obtain ⟨e, he, hce⟩ := List.mem_flatMap.mp hc
        obtain ⟨x, hx, rfl⟩ := List.mem_map.mp hce
        rcases hes with rfl | rfl
        · obtain ⟨hm, -⟩ := (h2 e).mp he
          refine ⟨rfl, d, by simp, e, hm, ?_⟩
          simp only [DictEntry.getCandidates] at hx
          cases hl : SMap.get e.cands [] with
          | none => rw [hl] at hx; cases hx
          | some l => rw [hl] at hx; exact ⟨l, rfl, hx⟩
        · cases he
      · obtain ⟨h1, d', hd', r⟩ := hrest rest hr hc
        exact ⟨h1, d', by simp [hd'], r⟩
    unfold completeInner at h
    cases hr : completeInner ds ⟨text, none⟩ with
    | error e =>
      split at h
      · rw [h1, hr] at h; cases h
      · rw [hr] at h; cases h
    | ok rest =>
      split at h
      · rw [h1, hr] at h; cases h; exact key es (.inl rfl) rest hr hc
      · rw [hr] at h; cases h; exact key [] (.inr rfl) rest hr hc

theorem plain_complete {ds : List CskkDict} (h : AllPlain ds) {text : Str} {cs : List Candidate} (he : getAllComplete ds ⟨text, none⟩ = .ok cs) : ∀ c ∈ cs, PlainCandidate c := by
  unfold getAllComplete at he
  cases h1 : completeInner ds ⟨text, none⟩ with
  | error e => rw [h1] at he; cases he
  | ok l =>
    rw [h1] at he
    cases he
    intro c hc
    obtain ⟨x, hx, rfl⟩ := List.mem_map.mp hc
    have hx : x ∈ l := by
      rw [(Dicts.dedup_eq Dicts.completionLt_strictTotal (fun c : CompletionCand => c.kouho) l).1] at hx
      exact (Dicts.firstOcc_sublist _ _).subset hx
    obtain ⟨ho, d, hd, e, h2, w, h3, h4⟩ := mem_completeInner (fun d hd => (h d hd).wf) h1 x hx
    have hp := (h d hd).entries _ _ h2
    have hr := (h d hd).wf.reading _ _ h2
    simp only at hp hr
    refine ⟨?_, (hp.groups _ w h3).words _ h4, ?_, ?_⟩
    · show PlainReading x.midashi
      rw [← hr]; exact hp.reading
    · intro _; exact ho
    · intro hc
      exfalso
      have : x.okuri.isSome = true := hc
      rw [ho] at this; cases this

/-! ## What the machine has -/

/-- The words of a list are plain (if their okurigana are). -/
def Fine (a : Asked) (words : List Candidate) : Prop := Proper a → ∀ x ∈ words, PlainCandidate x

/-- Everything but the list of the present phase. -/
structure Sound (D : Desk) : Prop where
  dicts : AllPlain D.dicts
  waiting : ∀ W ∈ D.waiting, Fine W.asked W.words

/-- The list of a phase. -/
def Listed : Phase → Prop
  | .choosing a words _ => Fine a words
  | .completing _ _ _ words _ => ∀ x ∈ words, PlainCandidate x
  | _ => True

/-- Everything. -/
structure Good (D : Desk) : Prop where
  sound : Sound D
  listed : Listed D.phase

variable {S : Setup} {D D' : Desk} {a : Asked}

theorem good_of (h : Sound D) (hd : D'.dicts = D.dicts) (hw : D'.waiting = D.waiting) (hl : Listed D'.phase) : Good D' :=
  ⟨⟨by rw [hd]; exact h.dicts, by rw [hw]; exact h.waiting⟩, hl⟩

theorem listed_typing (w : Str) (u : List Keysym) (short shift : Bool) : Listed (typing w u short shift) := by
  cases short <;> exact True.intro

theorem sound_leave (h : Sound D) (m : CompositionMode) : Sound (D.leave m) := ⟨h.dicts, h.waiting⟩

theorem key_okuri (a : Asked) : a.key.okuri ≠ some [] ∧ (Proper a → ∀ g, a.key.okuri = some g → ∀ x ∈ g, OkuriKana x) := by
  unfold Asked.key
  constructor
  · simp only
    split
    · rename_i h; intro e; injection e with e; exact h.2 e
    · simp
  · intro hp g hg
    simp only at hg
    split at hg
    · rename_i h; injection hg with hg; subst hg; exact hp h.1
    · cases hg

theorem convert_good (h : Sound D) (hc : D.convert a = some D') : Good D' := by
  unfold Desk.convert at hc
  split at hc
  · cases hc
  · split at hc
    · injection hc with hc; subst hc
      refine ⟨⟨h.dicts, ?_⟩, True.intro⟩
      intro W hW
      rcases List.mem_cons.mp hW with rfl | hW
      · intro _ x hx; cases hx
      · exact h.waiting W hW
    · split at hc
      · injection hc with hc; subst hc; exact good_of h rfl rfl True.intro
      · split at hc
        · injection hc with hc; subst hc; exact good_of h rfl rfl (listed_typing ..)
        · cases hc
  · rename_i x xs hg
    injection hc with hc; subst hc
    exact good_of h rfl rfl fun hp => plain_getAll h.dicts (key_okuri a).1 ((key_okuri a).2 hp) hg

theorem confirm_plain {ds : List CskkDict} (h : AllPlain ds) {x : Candidate} (hx : PlainCandidate x) : AllPlain (ds.map fun d => d.confirm x) := by
  intro d hd
  obtain ⟨y, hy, rfl⟩ := List.mem_map.mp hd
  have := h y hy
  unfold CskkDict.confirm maps at *
  cases hk : y.kind <;> rw [hk] at this <;> simp only <;> first | exact Persist.plain_select this hx | (rw [hk]; exact this)

theorem settle_good (h : Sound D) {x : Candidate} (hx : PlainCandidate x) : Good (D.settle S a x) := ⟨⟨confirm_plain h.dicts hx, h.waiting⟩, True.intro⟩

theorem resume_good (h : Sound D) (hr : D.resume = some D') : Good D' := by
  unfold Desk.resume at hr
  split at hr
  · cases hr
  · rename_i W rest hw
    have hs : ∀ V ∈ rest, Fine V.asked V.words := fun V hV => h.waiting V (by rw [hw]; simp [hV])
    split at hr
    · injection hr with hr; subst hr
      exact ⟨⟨h.dicts, hs⟩, h.waiting W (by rw [hw]; simp)⟩
    · split at hr
      · injection hr with hr; subst hr; exact ⟨⟨h.dicts, hs⟩, True.intro⟩
      · split at hr
        · injection hr with hr; subst hr; exact ⟨⟨h.dicts, hs⟩, listed_typing ..⟩
        · cases hr

theorem mem_hashRuns (p : Char → Bool) : ∀ (w : Str) (b : Bool) (x : Char), x ∈ Spec.Numeric.hashRuns p b w → x = '#' ∨ x ∈ w := by
  intro w
  induction w with
  | nil => intro b x h; cases h
  | cons c w ih =>
    intro b x h
    unfold Spec.Numeric.hashRuns at h
    split at h
    · split at h
      · rcases ih _ _ h with h | h <;> simp [h]
      · rcases List.mem_cons.mp h with h | h
        · exact .inl h
        · rcases ih _ _ h with h | h <;> simp [h]
    · rcases List.mem_cons.mp h with h | h
      · simp [h]
      · rcases ih _ _ h with h | h <;> simp [h]

theorem numericKey_plain {w : Str} (h : PlainReading w) : PlainReading (Numeric.numericKey w).1 := by
  rw [(Props.Numeric.numeric_key_correct w).1]
  obtain ⟨h0, h1, h2, h3, h4⟩ := h
  have key : ∀ x, x ≠ '#' → x ∉ w → x ∉ Spec.Numeric.hashRuns isNd false w := by
    intro x hx hw hm
    rcases mem_hashRuns _ _ _ _ hm with h | h
    · exact hx h
    · exact hw h
  refine ⟨?_, key _ (by decide) h1, key _ (by decide) h2, key _ (by decide) h3, key _ (by decide) h4⟩
  cases w with
  | nil => exact absurd rfl h0
  | cons c w =>
    unfold Spec.Numeric.hashRuns
    split <;> simp

/-- The words which are registered for a plain reading without okurigana are plain. -/
theorem registers_plain {ds : List CskkDict} {w : Str} (ht : a.tail = []) (hr : PlainReading a.stem) (hw : CandOk ⟨w, none⟩) {xs : List Candidate}
    (h : a.registers ds w = .ok xs) : ∀ x ∈ xs, PlainCandidate x := by
  have hk : a.key.okuri = none := by unfold Asked.key; simp [ht]
  unfold Asked.registers at h
  split at h
  · cases ho : Numeric.replaceNumericString (relookup ds) w (Numeric.numericKey a.stem).2 with
    | error e => rw [ho] at h; cases h
    | ok outs =>
      rw [ho] at h
      cases h
      intro x hx
      obtain ⟨o, _, rfl⟩ := List.mem_map.mp hx
      exact ⟨numericKey_plain hr, hw, fun _ => hk, fun h => by simp [ht] at h⟩
  · cases h
    intro x hx
    rw [List.mem_singleton] at hx
    subst hx
    exact ⟨hr, hw, fun _ => hk, fun h => by simp [Asked.word, ht] at h⟩

theorem register_good (h : Sound D)
    (hc : ∀ W, D.waiting.head? = some W → W.asked.tail = [] ∧ PlainReading W.asked.stem ∧ CandOk ⟨D.written, none⟩) (hr : D.register S = some D') : Good D' := by
  unfold Desk.register at hr
  split at hr
  · cases hr
  · rename_i W rest hw
    obtain ⟨h1, h2, h3⟩ := hc W (by rw [hw]; rfl)
    split at hr
    · rename_i x xs hx
      injection hr with hr; subst hr
      have hs : Sound (⟨W.written, W.mode, .direct [] false, rest, D.dicts, []⟩ : Desk) := ⟨h.dicts, fun V hV => h.waiting V (by rw [hw]; exact List.mem_cons_of_mem _ hV)⟩
      exact settle_good hs (registers_plain h1 h2 h3 hx x (by simp))
    · cases hr

theorem typeDirect_good (h : Sound D) (u : List Keysym) (shift : Bool) (ch : Char) : Good (D.typeDirect S u shift ch) := good_of h rfl rfl True.intro

theorem seek_good (h : Sound D) {d} {tail : Str} (hs : D.seek S d tail = some D') : Good D' := convert_good h hs

theorem read_good (h : Sound D) {d} (hr : D.read S d = some D') : Good D' := by
  unfold Desk.read at hr
  split at hr
  · injection hr with hr; subst hr; exact good_of h rfl rfl True.intro
  · exact seek_good h hr

/-- The result is one of the good ones. -/
macro "same" h:ident hr:ident : tactic => `(tactic| (injection $hr:ident with $hr:ident; subst $hr:ident; exact good_of $h:ident rfl rfl True.intro))

theorem startWord_good (h : Sound D) {u : List Keysym} {shift : Bool} {ch : Char} (hr : D.startWord S u shift ch = some D') : Good D' := by
  unfold Desk.startWord at hr
  simp only at hr
  repeat' split at hr
  all_goals first
    | exact read_good (sound_leave h _) hr
    | (injection hr with hr; subst hr; exact typeDirect_good h ..)
    | same h hr

theorem inputDirect_good (h : Sound D) {u : List Keysym} {shift : Bool} {ch : Char} (hr : D.inputDirect S u shift ch = some D') : Good D' := by
  unfold Desk.inputDirect at hr
  split at hr
  · injection hr with hr; subst hr; exact typeDirect_good h ..
  · exact startWord_good h hr
  · cases hr

theorem typeOn_good (h : Sound D) {u : List Keysym} {ch : Char} (hr : D.typeOn S u ch = some D') : Good D' := by
  unfold Desk.typeOn at hr
  repeat' split at hr
  · exact inputDirect_good h hr
  · same h hr
  · exact inputDirect_good h hr

theorem commandDirect_good (h : Sound D) {u : List Keysym} {shift : Bool} {ch : Char} (hr : D.commandDirect S u shift ch = some D') : Good D' := by
  unfold Desk.commandDirect at hr
  repeat' split at hr
  all_goals first | same h hr | cases hr

theorem directChar_good (h : Sound D) {u : List Keysym} {shift : Bool} {ch : Char} (hp : Listed D.phase) (hr : D.directChar S u shift ch = some D') : Good D' := by
  unfold Desk.directChar at hr
  repeat' split at hr
  · injection hr with hr; subst hr; exact good_of h rfl rfl hp
  · injection hr with hr; subst hr; exact good_of h rfl rfl hp
  · exact commandDirect_good h hr
  · exact inputDirect_good h hr

theorem back_good (h : Sound D) (hr : D.back = some D') : Good D' := by
  unfold Desk.back at hr
  repeat' split at hr
  all_goals first | same h hr | cases hr

theorem ask_good (h : Sound D) {d} (hr : D.ask S d = some D') : Good D' := by
  unfold Desk.ask at hr
  repeat' split at hr
  all_goals first | same h hr | exact seek_good h hr

theorem startOkuri_good (h : Sound D) {d} {ch : Char} (hr : D.startOkuri S d ch = some D') : Good D' := by
  unfold Desk.startOkuri at hr
  simp only at hr
  repeat' split at hr
  all_goals first
    | exact read_good h hr
    | exact convert_good (sound_leave h _) hr
    | same h hr
    | cases hr

theorem inputReading_good (h : Sound D) {d} {ch : Char} (hr : D.inputReading S d ch = some D') : Good D' := by
  unfold Desk.inputReading at hr
  split at hr
  · exact read_good h hr
  · exact startOkuri_good h hr
  · cases hr

theorem commit_good (h : Sound D) (w : Str) : Good (D.commit w) := good_of h rfl rfl True.intro

theorem readingChar_good (h : Sound D) {d} {ch : Char} (hp : Listed D.phase) (hr : D.readingChar S d ch = some D') : Good D' := by
  unfold Desk.readingChar at hr
  repeat' split at hr
  · exact ask_good h hr
  · injection hr with hr; subst hr; exact commit_good h _
  · injection hr with hr; subst hr; exact ⟨h, hp⟩
  · cases hr
  · exact inputReading_good h hr

theorem typeOkuri_good (h : Sound D) {stem tail : Str} {u : List Keysym} {shift : Bool} {ch : Char} (hr : D.typeOkuri S stem tail u shift ch = some D') : Good D' := by
  unfold Desk.typeOkuri at hr
  simp only at hr
  split at hr
  · exact convert_good h hr
  · same h hr

theorem okuriChar_good (h : Sound D) {stem tail : Str} {u : List Keysym} {shift : Bool} {ch : Char} (hp : Listed D.phase)
    (hr : D.okuriChar S stem tail u shift ch = some D') : Good D' := by
  unfold Desk.okuriChar at hr
  repeat' split at hr
  · exact convert_good h hr
  · injection hr with hr; subst hr; exact commit_good h _
  · injection hr with hr; subst hr; exact ⟨h, hp⟩
  · cases hr
  · unfold Desk.inputOkuri at hr
    split at hr
    · exact typeOkuri_good h hr
    · exact typeOkuri_good h hr
    · cases hr

theorem shortChar_good (h : Sound D) {text : Str} {u : List Keysym} {shift : Bool} {ch : Char} (hp : Listed D.phase)
    (hr : D.shortChar text u shift ch = some D') : Good D' := by
  unfold Desk.shortChar at hr
  repeat' split at hr
  all_goals first
    | exact convert_good h hr
    | (injection hr with hr; subst hr; exact ⟨h, hp⟩)
    | same h hr

theorem complete_good (h : Sound D) {text : Str} {u : List Keysym} {short shift : Bool} (hr : D.complete S text u short shift = some D') : Good D' := by
  unfold Desk.complete at hr
  split at hr
  · split at hr
    · cases hr
    · injection hr with hr; subst hr; exact good_of h rfl rfl (listed_typing ..)
    · rename_i x xs hg
      injection hr with hr; subst hr
      exact good_of h rfl rfl (plain_complete h.dicts hg)
  · cases hr

theorem purge_plain {ds : List CskkDict} (h : AllPlain ds) {k : CompositeKey} {x : Candidate} (hx : ∀ d ∈ ds, kindOf d = .user → Spares d k x) :
    AllPlain (ds.map fun d => d.purge k x) := by
  intro d hd
  obtain ⟨y, hy, rfl⟩ := List.mem_map.mp hd
  have h1 := h y hy
  have h2 := hx y hy
  unfold Spares at h2
  unfold CskkDict.purge maps at *
  unfold kindOf at h2
  cases hk : y.kind with
  | static m => rw [hk] at h1; simp only; rw [hk]; exact h1
  | empty => rw [hk] at h1; simp only; rw [hk]; exact h1
  | user m b =>
    rw [hk] at h1 h2
    simp only at h1 h2 ⊢
    apply Persist.plain_purge h1
    intro ho g hg hne
    obtain ⟨z, hz, hzx⟩ := h2 (by trivial) ho g hg hne
    unfold purged
    rw [if_pos ⟨ho.symm, rfl, hg⟩]
    intro e
    rw [List.filter_eq_nil_iff] at e
    exact e z hz (decide_eq_true hzx)

/-! ## A careful key -/

theorem getElem_mem' {words : List Candidate} {i : Nat} {x : Candidate} (h : words[i]? = some x) : x ∈ words := List.mem_of_getElem? h

theorem choosingChar_good (h : Good D) {words : List Candidate} {i : Nat} {ch : Char} (hp : D.phase = .choosing a words i) (ha : Proper a)
    (he : ch = 'X' → ∀ x, words[i]? = some x → ∀ d ∈ D.dicts, kindOf d = .user → Spares d a.key x) (hr : D.choosingChar S a words i ch = some D') : Good D' := by
  have hl : Fine a words := by have := h.listed; rw [hp] at this; exact this
  unfold Desk.choosingChar at hr
  split at hr
  · repeat' split at hr
    · injection hr with hr; subst hr; exact good_of h.sound rfl rfl hl
    · injection hr with hr; subst hr
      refine ⟨⟨h.sound.dicts, ?_⟩, True.intro⟩
      intro W hW
      rcases List.mem_cons.mp hW with rfl | hW
      · exact hl
      · exact h.sound.waiting W hW
    · injection hr with hr; subst hr; exact h
  · split at hr
    · injection hr with hr; subst hr
      split
      · exact good_of h.sound rfl rfl True.intro
      · exact good_of h.sound rfl rfl hl
    · split at hr
      · cases hr
      · rename_i x hx
        have hx' := hl ha x (getElem_mem' hx)
        split at hr
        · rename_i hX
          injection hr with hr; subst hr
          exact ⟨⟨purge_plain h.sound.dicts (he hX x hx), h.sound.waiting⟩, True.intro⟩
        · split at hr
          · injection hr with hr; subst hr
            exact good_of (settle_good (S := S) (a := a) h.sound hx').sound rfl rfl True.intro
          · exact typeOn_good (settle_good h.sound hx').sound hr

theorem completingChar_good (h : Good D) {text : Str} {u : List Keysym} {short : Bool} {words : List Candidate} {i : Nat} {ch : Char}
    (hp : D.phase = .completing text u short words i) (hr : D.completingChar S text u short words i ch = some D') : Good D' := by
  have hl : ∀ x ∈ words, PlainCandidate x := by have := h.listed; rw [hp] at this; exact this
  unfold Desk.completingChar at hr
  split at hr
  · injection hr with hr; subst hr; exact good_of h.sound rfl rfl hl
  · split at hr
    · injection hr with hr; subst hr; exact good_of h.sound rfl rfl hl
    · split at hr
      · cases hr
      · rename_i x hx
        exact typeOn_good (settle_good h.sound (hl x (getElem_mem' hx))).sound hr

theorem plain_good (h : Good D) {k : Key} {b : Bool}
    (hd : ∀ u s, D.phase = .direct u s → k = .enter → D.written ≠ [] → ∀ W, D.waiting.head? = some W → W.asked.tail = [] ∧ PlainReading W.asked.stem ∧ CandOk ⟨D.written, none⟩)
    (hc : ∀ a words i, D.phase = .choosing a words i → Proper a ∧ (k = .char 'X' → ∀ x, words[i]? = some x → ∀ d ∈ D.dicts, kindOf d = .user → Spares d a.key x))
    (hr : D.plain S k = some (D', b)) : Good D' := by
  have hs := h.sound
  have hl := h.listed
  unfold Desk.plain at hr
  split at hr
  all_goals rename_i hp
  all_goals try (rw [hp] at hl)
  -- direct
  · split at hr
    · obtain ⟨E, hE, hr⟩ := Option.map_eq_some_iff.mp hr
      injection hr with h1 h2; subst h1
      exact directChar_good hs h.listed hE
    · cases hr
  · injection hr with hr; injection hr with h1 h2; subst h1; exact good_of hs rfl rfl True.intro
  · repeat' split at hr
    · injection hr with hr; injection hr with h1 h2; subst h1; exact h
    · obtain ⟨E, hE, hr⟩ := Option.map_eq_some_iff.mp hr
      injection hr with h1 h2; subst h1
      exact resume_good hs hE
    · rename_i hw
      obtain ⟨E, hE, hr⟩ := Option.map_eq_some_iff.mp hr
      injection hr with h1 h2; subst h1
      exact register_good hs (hd _ _ hp rfl hw) hE
  · injection hr with hr; injection hr with h1 h2; subst h1
    split
    · exact h
    · exact good_of hs rfl rfl h.listed
  · injection hr with hr; injection hr with h1 h2; subst h1; exact h
  · obtain ⟨E, hE, hr⟩ := Option.map_eq_some_iff.mp hr
    injection hr with h1 h2; subst h1
    split at hE
    · exact back_good hs hE
    · exact resume_good hs hE
  -- reading
  · split at hr
    · obtain ⟨E, hE, hr⟩ := Option.map_eq_some_iff.mp hr
      injection hr with h1 h2; subst h1
      exact readingChar_good hs h.listed hE
    · cases hr
  · injection hr with hr; injection hr with h1 h2; subst h1
    refine good_of hs rfl rfl ?_
    show Listed (if _ then _ else _)
    split <;> exact True.intro
  · injection hr with hr; injection hr with h1 h2; subst h1; exact h
  · injection hr with hr; injection hr with h1 h2; subst h1; exact commit_good hs _
  · split at hr
    · injection hr with hr; injection hr with h1 h2; subst h1; exact h
    · obtain ⟨E, hE, hr⟩ := Option.map_eq_some_iff.mp hr
      injection hr with h1 h2; subst h1
      exact complete_good hs hE
  · obtain ⟨E, hE, hr⟩ := Option.map_eq_some_iff.mp hr
    injection hr with h1 h2; subst h1
    exact back_good hs hE
  -- okuri
  · split at hr
    · obtain ⟨E, hE, hr⟩ := Option.map_eq_some_iff.mp hr
      injection hr with h1 h2; subst h1
      exact okuriChar_good hs h.listed hE
    · cases hr
  · repeat' split at hr
    · cases hr
    all_goals (injection hr with hr; injection hr with h1 h2; subst h1; exact good_of hs rfl rfl True.intro)
  · obtain ⟨E, hE, hr⟩ := Option.map_eq_some_iff.mp hr
    injection hr with h1 h2; subst h1
    exact back_good (D := { D with trail := D.trail.dropLast }) ⟨hs.dicts, hs.waiting⟩ hE
  · injection hr with hr; injection hr with h1 h2; subst h1; exact commit_good hs _
  · injection hr with hr; injection hr with h1 h2; subst h1; exact h
  · injection hr with hr; injection hr with h1 h2; subst h1; exact h
  -- short
  · split at hr
    · obtain ⟨E, hE, hr⟩ := Option.map_eq_some_iff.mp hr
      injection hr with h1 h2; subst h1
      exact shortChar_good hs h.listed hE
    · cases hr
  · injection hr with hr; injection hr with h1 h2; subst h1
    refine good_of hs rfl rfl ?_
    show Listed (if _ then _ else _)
    split
    · exact True.intro
    · split <;> exact True.intro
  · injection hr with hr; injection hr with h1 h2; subst h1; exact h
  · injection hr with hr; injection hr with h1 h2; subst h1; exact commit_good hs _
  · injection hr with hr; injection hr with h1 h2; subst h1; exact h
  · split at hr
    · obtain ⟨E, hE, hr⟩ := Option.map_eq_some_iff.mp hr
      injection hr with h1 h2; subst h1
      exact complete_good hs hE
    · injection hr with hr; injection hr with h1 h2; subst h1; exact h
  -- choosing
  · split at hr
    · obtain ⟨E, hE, hr⟩ := Option.map_eq_some_iff.mp hr
      injection hr with h1 h2; subst h1
      obtain ⟨k1, k2⟩ := hc _ _ _ hp
      exact choosingChar_good h hp k1 (fun hX => k2 (by rw [hX])) hE
    · cases hr
  · obtain ⟨x, hx, hr⟩ := Option.map_eq_some_iff.mp hr
    injection hr with h1 h2; subst h1
    exact good_of (settle_good (S := S) (a := ⟨[], [], false, false, false, []⟩) hs (hl (hc _ _ _ hp).1 x (getElem_mem' hx))).sound rfl rfl True.intro
  · obtain ⟨x, hx, hr⟩ := Option.map_eq_some_iff.mp hr
    injection hr with h1 h2; subst h1
    exact settle_good hs (hl (hc _ _ _ hp).1 x (getElem_mem' hx))
  · obtain ⟨x, hx, hr⟩ := Option.map_eq_some_iff.mp hr
    injection hr with h1 h2; subst h1
    exact settle_good hs (hl (hc _ _ _ hp).1 x (getElem_mem' hx))
  · injection hr with hr; injection hr with h1 h2; subst h1; exact good_of hs rfl rfl (listed_typing ..)
  · injection hr with hr; injection hr with h1 h2; subst h1; exact h
  -- completing
  · split at hr
    · obtain ⟨E, hE, hr⟩ := Option.map_eq_some_iff.mp hr
      injection hr with h1 h2; subst h1
      exact completingChar_good h hp hE
    · cases hr
  · obtain ⟨x, hx, hr⟩ := Option.map_eq_some_iff.mp hr
    injection hr with h1 h2; subst h1
    exact good_of (settle_good (S := S) (a := ⟨[], [], false, false, false, []⟩) hs (hl x (getElem_mem' hx))).sound rfl rfl True.intro
  · obtain ⟨x, hx, hr⟩ := Option.map_eq_some_iff.mp hr
    injection hr with h1 h2; subst h1
    exact settle_good hs (hl x (getElem_mem' hx))
  · obtain ⟨x, hx, hr⟩ := Option.map_eq_some_iff.mp hr
    injection hr with h1 h2; subst h1
    exact settle_good hs (hl x (getElem_mem' hx))
  · injection hr with hr; injection hr with h1 h2; subst h1; exact good_of hs rfl rfl (listed_typing ..)
  · injection hr with hr; injection hr with h1 h2; subst h1; exact good_of hs rfl rfl hl
  · cases hr

theorem careful_direct {k : Key} (hc : Careful D (.key k)) {u : List Keysym} {sh : Bool} (hp : D.phase = .direct u sh) (he : Enters k) (hw : D.written ≠ []) :
    ∀ W, D.waiting.head? = some W → W.asked.tail = [] ∧ PlainReading W.asked.stem ∧ CandOk ⟨D.written, none⟩ := by
  unfold Careful at hc
  rw [hp] at hc
  exact hc he hw

theorem careful_choosing {k : Key} (hc : Careful D (.key k)) {words : List Candidate} {i : Nat} (hp : D.phase = .choosing a words i) :
    Proper a ∧ (Erases k → ∀ x, words[i]? = some x → ∀ d ∈ D.dicts, kindOf d = .user → Spares d a.key x) := by
  unfold Careful at hc
  rw [hp] at hc
  exact hc

theorem press_good (h : Good D) {k : Key} {b : Bool} (hc : Careful D (.key k)) (hr : D.press S k = some (D', b)) : Good D' := by
  have hs := h.sound
  have hl := h.listed
  -- a key which stands for another one
  have other : ∀ k', (k' = .enter → Enters k) → (k' = .char 'X' → Erases k) → D.plain S k' = some (D', b) → Good D' := by
    intro k' h1 h2 hr
    refine plain_good h ?_ ?_ hr
    · intro u sh hp hk hw; exact careful_direct hc hp (h1 hk) hw
    · intro a words i hp
      obtain ⟨g1, g2⟩ := careful_choosing hc hp
      exact ⟨g1, fun hk => g2 (h2 hk)⟩
  have none' : ∀ {k'}, D.plain S k' = some (D', b) → k' ≠ .enter → k' ≠ .char 'X' → Good D' := fun hr h1 h2 =>
    other _ (fun e => absurd e h1) (fun e => absurd e h2) hr
  unfold Desk.press at hr
  split at hr
  · split at hr
    · exact none' hr (by simp) (by simp)
    · exact none' hr (by simp) (by simp)
    · injection hr with hr; injection hr with h1 h2; subst h1; exact h
  · split at hr
    · rename_i hp
      rw [hp] at hl
      injection hr with hr; injection hr with h1 h2; subst h1; exact good_of hs rfl rfl hl
    · injection hr with hr; injection hr with h1 h2; subst h1; exact h
  · split at hr
    · exact other _ (by simp) (fun e => .inr (by injection e with e; rw [e])) hr
    · cases hr
  · split at hr
    · rename_i ch _
      unfold Desk.control at hr
      split at hr
      · exact none' hr (by simp) (by simp)
      split at hr
      · exact none' hr (by simp) (by simp)
      split at hr
      · rename_i hp
        rw [hp] at hl
        split at hr
        · exact none' hr (by simp) (by simp)
        split at hr
        · rename_i hm
          exact other _ (fun _ => .inr (by rw [hm])) (by simp) hr
        split at hr
        · exact none' hr (by simp) (by simp)
        split at hr
        · injection hr with hr; injection hr with h1 h2; subst h1; exact good_of hs rfl rfl True.intro
        · injection hr with hr; injection hr with h1 h2; subst h1; exact h
      · split at hr
        · exact none' hr (by simp) (by simp)
        split at hr
        · injection hr with hr; injection hr with h1 h2; subst h1; exact commit_good hs _
        · injection hr with hr; injection hr with h1 h2; subst h1; exact h
      · split at hr
        · exact none' hr (by simp) (by simp)
        split at hr
        · injection hr with hr; injection hr with h1 h2; subst h1; exact commit_good hs _
        · injection hr with hr; injection hr with h1 h2; subst h1; exact h
      · split at hr
        · exact none' hr (by simp) (by simp)
        split at hr
        · injection hr with hr; injection hr with h1 h2; subst h1; exact commit_good hs _
        · injection hr with hr; injection hr with h1 h2; subst h1; exact h
      · rename_i hp
        rw [hp] at hl
        split at hr
        · exact none' hr (by simp) (by simp)
        split at hr
        · obtain ⟨x, hx, hr⟩ := Option.map_eq_some_iff.mp hr
          injection hr with h1 h2; subst h1
          exact good_of (settle_good (S := S) (a := ⟨[], [], false, false, false, []⟩) hs (hl (careful_choosing hc hp).1 x (getElem_mem' hx))).sound rfl rfl True.intro
        · injection hr with hr; injection hr with h1 h2; subst h1; exact h
      · injection hr with hr; injection hr with h1 h2; subst h1; exact h
    · cases hr
  · split at hr
    · injection hr with hr; injection hr with h1 h2; subst h1; exact h
    · cases hr
  · exact other _ (fun e => .inl e) (fun e => .inl e) hr

/-! ## A careful act -/

theorem taken_good (h : Good D) : Good D.taken := by
  unfold Desk.taken
  split
  · exact good_of h.sound rfl rfl h.listed
  · rename_i W l hw
    refine ⟨⟨h.sound.dicts, ?_⟩, h.listed⟩
    intro V hV
    have hwait : ∀ V ∈ W :: l, Fine V.asked V.words := by rw [← hw]; exact h.sound.waiting
    rcases List.mem_append.mp hV with hV | hV
    · exact hwait V (List.dropLast_sublist _ |>.subset hV)
    · rw [List.mem_singleton] at hV
      subst hV
      exact hwait ((W :: l).getLast (List.cons_ne_nil W l)) (List.getLast_mem _)

theorem select_good (h : Good D) {n : Int} {b : Bool} (hr : D.select n = some (D', b)) : Good D' := by
  have hs := h.sound
  have hl := h.listed
  unfold Desk.select at hr
  split at hr
  · rename_i hp
    rw [hp] at hl
    repeat' split at hr
    all_goals (injection hr with hr; injection hr with h1 h2; subst h1)
    · exact good_of hs rfl rfl True.intro
    · exact good_of hs rfl rfl hl
    · refine ⟨⟨hs.dicts, ?_⟩, True.intro⟩
      intro W hW
      rcases List.mem_cons.mp hW with rfl | hW
      · exact hl
      · exact hs.waiting W hW
    · exact good_of hs rfl rfl hl
  · rename_i hp
    rw [hp] at hl
    split at hr
    · injection hr with hr; injection hr with h1 h2; subst h1; exact good_of hs rfl rfl hl
    · cases hr
  · injection hr with hr; injection hr with h1 h2; subst h1; exact h

theorem confirm_good (h : Good D) {n : Nat} (hc : Careful D (.confirm n)) : Good (D.confirm S n).1 := by
  have hs := h.sound
  have hl := h.listed
  unfold Desk.confirm
  unfold Careful at hc
  split
  · rename_i hp
    rw [hp] at hl hc
    split
    · rename_i x hx; exact settle_good hs (hl hc x (getElem_mem' hx))
    · exact h
  · rename_i hp
    rw [hp] at hl
    split
    · rename_i x hx; exact settle_good hs (hl x (getElem_mem' hx))
    · exact h
  · exact h

theorem setMode_good (h : Good D) {m : InputMode} (hr : D.setMode m = some D') : Good D' := by
  unfold Desk.setMode at hr
  split at hr
  · injection hr with hr; subst hr; exact good_of h.sound rfl rfl h.listed
  · split at hr
    · injection hr with hr; subst hr; exact good_of h.sound rfl rfl h.listed
    · cases hr

theorem reset_good (h : Good D) (hr : D.reset = some D') : Good D' := by
  unfold Desk.reset at hr
  repeat' split at hr
  all_goals first | (injection hr with hr; subst hr; exact good_of h.sound rfl rfl True.intro) | cases hr

/-- A careful act keeps everything savable. -/
theorem act_good {rules : Bool → Config → Setup} {Z Z' : Seat} {x : Act} {ans : Answer} (h : Good Z.desk) (hk : Spec.Life.Keeps x) (hc : Careful Z.desk x)
    (hr : Z.act rules x = some (Z', ans)) : Good Z'.desk := by
  unfold Seat.act at hr
  split at hr
  · obtain ⟨r, h1, h2⟩ := Option.map_eq_some_iff.mp hr
    injection h2 with h2 _; subst h2
    exact press_good h hc h1
  · injection hr with hr; injection hr with h2 _; subst h2; exact taken_good h
  · obtain ⟨r, h1, h2⟩ := Option.map_eq_some_iff.mp hr
    injection h2 with h2 _; subst h2
    exact select_good h h1
  · injection hr with hr; injection hr with h2 _; subst h2; exact confirm_good h hc
  · obtain ⟨r, h1, h2⟩ := Option.map_eq_some_iff.mp hr
    injection h2 with h2 _; subst h2
    exact setMode_good h h1
  · obtain ⟨r, h1, h2⟩ := Option.map_eq_some_iff.mp hr
    injection h2 with h2 _; subst h2
    exact reset_good h h1
  all_goals first | exact hk.elim | (injection hr with hr; injection hr with h2 _; subst h2; exact h)

/-! ## A careful life -/

theorem tells_told {pr : Bool} : ∀ {l : List Spec.Life.Event} {Z Z' : Seat} {got : List (Answer × View)}, Good Z.desk → Prudent pr Z l → tells pr Z l = some (Z', got) →
    Spec.Life.Told pr Z l Z' got ∧ Good Z'.desk := by
  intro l
  induction l with
  | nil => intro Z Z' got h _ ht; injection ht with ht; injection ht with h1 h2; subst h1; subst h2; exact ⟨.done _, h⟩
  | cons ev l ih =>
    intro Z Z' got h hp ht
    cases ev with
    | act x =>
      obtain ⟨h1, h2, h3⟩ := hp
      unfold tells at ht
      obtain ⟨r, hr, ht⟩ := Option.bind_eq_some_iff.mp ht
      obtain ⟨q, hq, ht⟩ := Option.map_eq_some_iff.mp ht
      obtain ⟨Z1, ans⟩ := r
      injection ht with e1 e2
      subst e1; subst e2
      obtain ⟨k1, k2⟩ := ih (act_good h h1 h2 hr) (h3 _ hr) hq
      exact ⟨.act h1 hr k1, k2⟩
    | save os =>
      obtain ⟨k1, k2⟩ := ih h hp.2 ht
      exact ⟨.save hp.1 k1, k2⟩
    | refresh =>
      obtain ⟨k1, k2⟩ := ih h hp ht
      exact ⟨.refresh (fun d hd _ => h.sound.dicts d hd) k1, k2⟩

theorem start_good {azik : Bool} {g : Config} {m : InputMode} {ds : List CskkDict} (h : AllPlain ds) : Good (start azik g m ds).desk :=
  ⟨⟨h, by intro W hW; cases hW⟩, True.intro⟩

theorem tells_lived {pr : Bool} : ∀ {l : List Spec.Life.Chapter} {ds ds' : List CskkDict} {gots : List (List (Answer × View))}, AllPlain ds → PrudentLife pr ds l →
    tellsLife pr ds l = some (ds', gots) → Spec.Life.Lived pr ds l ds' gots ∧ AllPlain ds' := by
  intro l
  induction l with
  | nil => intro ds ds' gots h _ ht; injection ht with ht; injection ht with h1 h2; subst h1; subst h2; exact ⟨.done _, h⟩
  | cons x l ih =>
    intro ds ds' gots h hp ht
    unfold tellsLife at ht
    obtain ⟨r, hr, ht⟩ := Option.bind_eq_some_iff.mp ht
    obtain ⟨q, hq, ht⟩ := Option.map_eq_some_iff.mp ht
    obtain ⟨Z, got⟩ := r
    injection ht with e1 e2
    subst e1; subst e2
    obtain ⟨k1, k2⟩ := tells_told (start_good h) hp.1 hr
    obtain ⟨j1, j2⟩ := ih k2.sound.dicts (hp.2 _ hr) hq
    exact ⟨.chapter k1 (fun d hd _ => k2.sound.dicts d hd) j1, j2⟩

/-- **C83.** Whatever a careful user does, whose dictionaries once could be saved, every word of every dictionary can be saved at any time. -/
theorem words_stay_plain (pr : Bool) (ds : List CskkDict) (hd : AllPlain ds) (azik : Bool) (g : Config) (m : InputMode) (l : List Spec.Life.Event)
    (hp : Prudent pr (start azik g m ds) l) (Z : Seat) (got : List (Answer × View)) (ht : tells pr (start azik g m ds) l = some (Z, got)) : AllPlain Z.desk.dicts :=
  (tells_told (start_good hd) hp ht).2.sound.dicts

/-- **C83.** And the user never loses a word: what is answered and shown in all programs, in each of which the words were read from the files which the one before has
saved, is what the machine says, which has no files and does not forget; and in the end the files hold the words it knows. -/
theorem careful_life (pr : Bool) (ss : List Source) (fs : DictFile.FS) (ds ds' : List CskkDict) (ho : Session.openAll fs ss = some ds) (hd : AllPlain ds) (ha : Apart ss)
    (hsa : StaticApart ss) (ht : ∀ s ∈ ss, Persist.Total s.cd) (l : List Spec.Life.Chapter) (gots : List (List (Answer × View))) (hp : PrudentLife pr ds l)
    (hl : tellsLife pr ds l = some (ds', gots)) :
    ∃ fs' ds'', Spec.Life.lives (Assets.env ⟨pr⟩) ss fs l = some (fs', gots) ∧ Session.openAll fs' ss = some ds'' ∧ Spec.SameWords.AllSame ds' ds'' ∧ AllPlain ds' := by
  obtain ⟨h1, h2⟩ := tells_lived hd hp hl
  obtain ⟨fs', ds'', k1, k2, k3⟩ := Life.life_told pr ss fs ds ds' ho (fun d h => (hd d h).wf) ha hsa ht l gots h1
  exact ⟨fs', ds'', k1, k2, k3, h2⟩

end Cskk.Props.Careful

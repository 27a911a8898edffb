import Verif.Props.Careful
import Verif.Props.CLife

/-! # A careful user with C programs, and an example -/

namespace Cskk.Props.Careful
open Cskk Dicts Spec Spec.UserDict Spec.Persist Spec.DictText Spec.Machine Spec.Careful Spec.Session UserDict
open Cskk.Props.Machine (shipped names start)

/-! ## C programs -/

theorem acts_good {pr : Bool} : ∀ {ks : List Key} {Z Z' : Seat} {got : List (Answer × View)}, Good Z.desk → Prudent pr Z (ks.map fun k => .act (.key k)) →
    Z.use (shipped pr) (names pr) (ks.map .key) = some (Z', got) → Good Z'.desk := by
  intro ks
  induction ks with
  | nil => intro Z Z' got h _ hu; injection hu with hu; injection hu with h1 h2; subst h1; exact h
  | cons k ks ih =>
    intro Z Z' got h hp hu
    rw [List.map_cons] at hu hp
    unfold Seat.use at hu
    obtain ⟨r, hr, hu⟩ := Option.bind_eq_some_iff.mp hu
    obtain ⟨q, hq, hu⟩ := Option.map_eq_some_iff.mp hu
    injection hu with e1 e2
    subst e1
    obtain ⟨Z1, ans⟩ := r
    exact ih (act_good h hp.1 hp.2.1 hr) (hp.2.2 _ hr) hq

theorem says_good {pr : Bool} {Z Z' : Seat} {cl : CSession.Call} {r : Spec.Front.Reply} (h : Good Z.desk) (hm : Minds pr Z cl) (hs : Spec.CLife.Says pr Z cl Z' r) :
    Good Z'.desk := by
  cases hs with
  | save _ => exact h
  | other hsl hf =>
    cases hf with
    | act hw hr =>
      refine act_good h ?_ (hm.1 _ hw) hr
      cases hw <;> trivial
    | keys h1 h2 h3 => exact acts_good h (hm.2 _ _ _ rfl h1 h2) h3
    | save => exact absurd rfl (hsl _)
    | _ => exact h

/-- **C83.** The same for a C program: whatever calls it makes, with a careful user, the words can be saved at any time. -/
theorem c_words_stay_plain (pr : Bool) (ds : List CskkDict) (hd : AllPlain ds) (azik : Bool) (g : Config) (m : InputMode) (calls : List CSession.Call) (Z : Seat)
    (hm : Heeds pr (start azik g m ds) calls) (hf : Spec.CLife.Follows pr (start azik g m ds) calls Z) : AllPlain Z.desk.dicts ∧ Spec.Life.Writable Z.desk.dicts := by
  suffices key : ∀ {Z Z' : Seat} {calls : List CSession.Call}, Spec.CLife.Follows pr Z calls Z' → Good Z.desk → Heeds pr Z calls → Good Z'.desk by
    have h := (key hf (start_good hd) hm).sound.dicts
    exact ⟨h, fun d hd _ => h d hd⟩
  intro Z Z' calls hf
  induction hf with
  | done Z => intro h _; exact h
  | call hs _ ih => intro h hm; exact ih (says_good h hm.1 hs) (hm.2 _ _ hs)

theorem recalls_remembers {pr : Bool} {ds ds' : List CskkDict} {ps : List Spec.CLife.Program} (h : Recalls pr ds ps ds') (hd : AllPlain ds) :
    Spec.CLife.Remembers pr ds ps ds' ∧ AllPlain ds' := by
  induction h with
  | done ds => exact ⟨.done ds, hd⟩
  | saved h1 h2 h3 h4 h5 _ ih =>
    obtain ⟨k1, k2⟩ := c_words_stay_plain pr _ hd _ _ _ _ _ h3 h2
    obtain ⟨i1, i2⟩ := ih k1
    exact ⟨.saved h1 h2 k2 h4 h5 i1, i2⟩
  | lost h1 h2 _ ih =>
    obtain ⟨i1, i2⟩ := ih hd
    exact ⟨.lost h1 h2 i1, i2⟩

/-- **C83.** With a careful user, C programs which save whenever they like and end by surprise never lose a word they had when they saved: the next program can open the
dictionaries, they hold the words the machine remembers, and what every call says is what the machine says. -/
theorem careful_c_life (pr : Bool) (ss : List Source) (fs fs' : DictFile.FS) (ds ds' : List CskkDict) (ho : Session.openAll fs ss = some ds) (hd : AllPlain ds)
    (ha : Apart ss) (hsa : StaticApart ss) (ht : ∀ s ∈ ss, Persist.Total s.cd) (ps : List Spec.CLife.Program) (hr : Spec.CLife.Runs pr ss fs ps fs')
    (hm : Recalls pr ds ps ds') :
    ∃ dsE, Session.openAll fs' ss = some dsE ∧ Spec.SameWords.AllSame ds' dsE ∧ AllPlain ds' ∧
      ∀ (azik : Bool) (g : Config) (m : InputMode) (t : List (CSession.Call × CSession.Val)) (s : CState) (l : List (Nat × Str)) (Z Z' : Seat) (cl : CSession.Call)
        (r : Spec.Front.Reply),
        CSession.Uses (Assets.env ⟨pr⟩) ss ⟨Machine.fresh azik g m dsE, fs', ⟨1, []⟩⟩ [] t s l → Spec.CLife.Follows pr (start azik g m ds') (t.map (·.1)) Z →
        CSession.Allowed l cl → Spec.CLife.Says pr Z cl Z' r →
        ∃ s' v, CSession.step (Assets.env ⟨pr⟩) ss s cl = .ok (s', v) ∧ Spec.Front.Gives s'.heap r v ∧
          Props.CSession.Holds s'.heap (CSession.ledger (Assets.env ⟨pr⟩) s.ctx l cl v) := by
  obtain ⟨h1, h2⟩ := recalls_remembers hm hd
  obtain ⟨dsE, k1, k2, k3⟩ := CLife.c_life pr ss fs fs' ds ds' ho (fun d h => (hd d h).wf) ha hsa ht ps hr h1
  exact ⟨dsE, k1, k2, h2, k3⟩

/-! ## A careful life -/

/-- A reading, tested. -/
def readingOk (w : Str) : Bool := !w.isEmpty && w.all fun ch => !decide (ch = ' ' ∨ ch = '\n' ∨ ch = '/' ∨ ch = ';')

/-- A word, tested. (Words with separators are refused.) -/
def wordOk (w : Str) : Bool := !w.isEmpty && (w.all fun ch => !decide (Special ch ∨ ch = '[' ∨ ch = ']' ∨ ch = '\n')) && !LispFun.occurs c%"(concat " w

theorem readingOk_plain {w : Str} (h : readingOk w = true) : PlainReading w := by
  unfold readingOk at h
  simp only [Bool.and_eq_true, Bool.not_eq_true', List.isEmpty_eq_false_iff, List.all_eq_true, decide_eq_false_iff_not, not_or] at h
  obtain ⟨h0, h1⟩ := h
  exact ⟨h0, fun h => (h1 _ h).1 rfl, fun h => (h1 _ h).2.1 rfl, fun h => (h1 _ h).2.2.1 rfl, fun h => (h1 _ h).2.2.2 rfl⟩

theorem wordOk_ok {w : Str} (h : wordOk w = true) : CandOk ⟨w, none⟩ := by
  unfold wordOk at h
  simp only [Bool.and_eq_true, Bool.not_eq_true', List.isEmpty_eq_false_iff, List.all_eq_true, decide_eq_false_iff_not, not_or] at h
  obtain ⟨⟨h0, h1⟩, h2⟩ := h
  refine Persist.candOk_plain w h0 ?_ h2 (fun h => (h1 _ h).2.1 rfl) (fun h => (h1 _ h).2.2.1 rfl) (fun h => (h1 _ h).2.2.2 rfl)
  rw [List.all_eq_true]
  intro ch hc
  simp only [Bool.not_eq_true', decide_eq_false_iff_not]
  exact (h1 ch hc).1

/-- An act, tested. (Words with okurigana are never erased.) -/
def carefully (D : Desk) : Act → Bool
  | .key k =>
    match D.phase with
    | .direct _ _ =>
      match D.waiting with
      | [] => true
      | W :: _ => !decide (k = .enter ∨ k = .ctrl 'm') || D.written.isEmpty || (W.asked.tail.isEmpty && readingOk W.asked.stem && wordOk D.written)
    | .choosing a words i => (!a.strict || a.tail.all fun x => decide (OkuriKana x)) && (!decide (k = .char 'X' ∨ k = .shifted 'X') || words[i]?.all fun x => !x.okuri)
    | _ => true
  | .confirm _ =>
    match D.phase with
    | .choosing a _ _ => !a.strict || a.tail.all fun x => decide (OkuriKana x)
    | _ => true
  | .setDictionaries _ => false
  | _ => true

theorem proper_of {a : Asked} (h : (!a.strict || a.tail.all fun x => decide (OkuriKana x)) = true) : Proper a := by
  intro hs x hx
  rw [hs, Bool.not_true, Bool.false_or, List.all_eq_true] at h
  exact of_decide_eq_true (h x hx)

theorem carefully_careful {D : Desk} {x : Act} (h : carefully D x = true) : Spec.Life.Keeps x ∧ Careful D x := by
  cases x with
  | key k =>
    refine ⟨trivial, ?_⟩
    unfold carefully at h
    unfold Careful
    cases hp : D.phase with
    | direct u s =>
      simp only [hp] at h ⊢
      intro he hw W hW
      cases hwt : D.waiting with
      | nil => rw [hwt] at hW; cases hW
      | cons V l =>
        rw [hwt] at hW h
        injection hW with hW; subst hW
        have he : (decide (k = .enter ∨ k = .ctrl 'm')) = true := decide_eq_true he
        have hw : D.written.isEmpty = false := by rw [List.isEmpty_eq_false_iff]; exact hw
        simp only [he, hw, Bool.not_true, Bool.false_or, Bool.and_eq_true, List.isEmpty_iff] at h
        exact ⟨h.1.1, readingOk_plain h.1.2, wordOk_ok h.2⟩
    | choosing a words i =>
      simp only [hp, Bool.and_eq_true] at h ⊢
      refine ⟨proper_of h.1, ?_⟩
      intro he x hx d hd hk ho
      have he : (decide (k = .char 'X' ∨ k = .shifted 'X')) = true := decide_eq_true he
      rw [he, hx] at h
      have := h.2
      simp only [Bool.not_true, Bool.false_or, Option.all_some, Bool.not_eq_true'] at this
      rw [ho] at this; cases this
    | _ => trivial
  | confirm n =>
    refine ⟨trivial, ?_⟩
    unfold carefully at h
    unfold Careful
    cases hp : D.phase with
    | choosing a words i => simp only [hp] at h ⊢; exact proper_of h
    | _ => trivial
  | setDictionaries ds => cases h
  | _ => exact ⟨trivial, trivial⟩

/-- Events, tested. -/
def prudently (pr : Bool) (Z : Seat) : List Spec.Life.Event → Bool
  | [] => true
  | .act x :: l => carefully Z.desk x && (Z.act (shipped pr) x).all fun r => prudently pr r.1 l
  | .save _ :: _ => false
  | .refresh :: l => prudently pr Z l

theorem prudently_prudent {pr : Bool} : ∀ {l : List Spec.Life.Event} {Z : Seat}, prudently pr Z l = true → Prudent pr Z l := by
  intro l
  induction l with
  | nil => intro Z _; trivial
  | cons ev l ih =>
    intro Z h
    cases ev with
    | act x =>
      unfold prudently at h
      rw [Bool.and_eq_true] at h
      obtain ⟨h1, h2⟩ := carefully_careful h.1
      refine ⟨h1, h2, ?_⟩
      intro r hr
      rw [hr] at h
      exact ih h.2
    | save os => cases h
    | refresh => exact ih (Z := Z) h

/-- The files of the example: an empty user dictionary, and a dictionary with okurigana. -/
def files : DictFile.FS := fun p =>
  if p = c%"d" then some []
  else if p = c%"jisyo" then Utf8.utf8.enc c%";; okuri-ari entries.\nうごk /動/\n;; okuri-nasi entries.\nあい /愛/哀/\n" else none

/-- The dictionaries of the example. -/
def opened : List CskkDict := (Session.openAll files Session.sources).getD []

/-- In the first program 動く is written, ブック registered for ほん, 哀 preferred to 愛 and 愛 chosen and erased; in the second, with the AZIK rule, the words are asked for again. -/
def chapters : List Spec.Life.Chapter :=
  [⟨false, Config.default, .hiragana, (Machine.keys c%"UgoKu" ++ [Act.key .enter] ++ Machine.keys c%"Hon qbukku" ++ [Act.key .enter] ++ Machine.keys c%"Ai  " ++ [Act.key .enter] ++
      Machine.keys c%"Ai  " ++ [Act.key .enter] ++ Machine.keys c%"Ai X" ++ [Act.poll]).map .act ++ [.refresh]⟩,
   ⟨true, Config.default, .katakana, (Machine.keys c%"Hoq " ++ [Act.key .ctrlJ] ++ Machine.keys c%"UgoKu" ++ [Act.key .ctrlJ] ++ Machine.keys c%"Ai ").map .act⟩]

/-- A life, tested. -/
def prudentLife (pr : Bool) (ds : List CskkDict) : List Spec.Life.Chapter → Bool
  | [] => true
  | x :: l => prudently pr (start x.azik x.config x.mode ds) x.events &&
    (tells pr (start x.azik x.config x.mode ds) x.events).all fun r => prudentLife pr r.1.desk.dicts l

theorem prudentLife_prudent {pr : Bool} : ∀ {l : List Spec.Life.Chapter} {ds : List CskkDict}, prudentLife pr ds l = true → PrudentLife pr ds l := by
  intro l
  induction l with
  | nil => intro ds _; trivial
  | cons x l ih =>
    intro ds h
    unfold prudentLife at h
    rw [Bool.and_eq_true] at h
    refine ⟨prudently_prudent h.1, ?_⟩
    intro r hr
    rw [hr] at h
    exact ih h.2

/-- 哀 for あい, and 動 for うごk. -/
def ai2 : Candidate := ⟨c%"あい", none, false, c%"哀", none, c%"哀"⟩
def ugo : Candidate := ⟨c%"うごk", none, true, c%"動", none, c%"動"⟩

theorem ai2_plain : PlainCandidate ai2 :=
  ⟨readingOk_plain (by decide), wordOk_ok (by decide), fun _ => rfl, fun h => by cases h⟩

theorem ugo_plain : PlainCandidate ugo := by
  refine ⟨readingOk_plain (by decide), wordOk_ok (by decide), fun _ => rfl, fun _ => ⟨?_, by decide, fun g hg => by cases hg⟩⟩
  refine ⟨⟨'k', by decide, by decide, by decide⟩, ?_⟩
  intro x hx
  cases hx
  decide

/-- The words of the dictionary with okurigana. -/
def shelf : DictMaps := (((⟨[], []⟩ : DictMaps).select ai2).select Persist.ai).select ugo

theorem shelf_plain : PlainDict shelf := Persist.plain_select (Persist.plain_select (Persist.plain_select Life.empty_plain ai2_plain) Persist.ai_plain) ugo_plain

theorem opened_eq : opened = [⟨true, .user ⟨[], []⟩ false⟩, ⟨true, .static shelf⟩, ⟨false, .empty⟩] := by decide +kernel

theorem opened_plain : AllPlain opened := by
  rw [opened_eq]
  intro d hd
  simp only [List.mem_cons, List.not_mem_nil, or_false] at hd
  rcases hd with rfl | rfl | rfl
  · exact Life.empty_plain
  · exact shelf_plain
  · exact Life.empty_plain

/-- The theorem applied: the second program shows what was learnt in the first. -/
theorem careful_seen : ∃ fs' gots, Spec.Life.lives (Assets.env ⟨true⟩) Session.sources files chapters = some (fs', gots) ∧
    gots.map (·.map (·.2.line)) =
      [[c%"▽う", c%"▽うg", c%"▽うご", c%"▽うご*k", c%"▼動く", c%"動く", c%"動く▽h", c%"動く▽ほ", c%"動く▽ほn", c%"▼ほん【】", c%"▼ほん【】", c%"▼ほん【b】",
        c%"▼ほん【ブ】", c%"▼ほん【ブk】", c%"▼ほん【ブッk】", c%"▼ほん【ブック】", c%"動くブック", c%"動くブック▽あ", c%"動くブック▽あい", c%"動くブック▼愛", c%"動くブック▼哀",
        c%"動くブック哀", c%"動くブック哀▽あ", c%"動くブック哀▽あい", c%"動くブック哀▼哀", c%"動くブック哀▼愛", c%"動くブック哀愛", c%"動くブック哀愛▽あ", c%"動くブック哀愛▽あい",
        c%"動くブック哀愛▼愛", [], []],
       [c%"▽h", c%"▽ホ", c%"▽ホン", c%"▼ブック", c%"ブック", c%"ブック▽ウ", c%"ブック▽ウg", c%"ブック▽ウゴ", c%"ブック▽ウゴ*k", c%"ブック▼動ク", c%"ブック動ク", c%"ブック動ク▽ア",
        c%"ブック動ク▽アイ", c%"ブック動ク▼哀"]] := by
  have hopen : Session.openAll files Session.sources = some opened := by
    have : (Session.openAll files Session.sources).isSome = true := by decide +kernel
    obtain ⟨x, hx⟩ := Option.isSome_iff_exists.mp this
    unfold opened
    rw [hx]; rfl
  have hp : PrudentLife true opened chapters := prudentLife_prudent (by decide +kernel)
  have ht : ((tellsLife true opened chapters).map fun r => r.2.map (·.map (·.2.line))) = some
      [[c%"▽う", c%"▽うg", c%"▽うご", c%"▽うご*k", c%"▼動く", c%"動く", c%"動く▽h", c%"動く▽ほ", c%"動く▽ほn", c%"▼ほん【】", c%"▼ほん【】", c%"▼ほん【b】",
        c%"▼ほん【ブ】", c%"▼ほん【ブk】", c%"▼ほん【ブッk】", c%"▼ほん【ブック】", c%"動くブック", c%"動くブック▽あ", c%"動くブック▽あい", c%"動くブック▼愛", c%"動くブック▼哀",
        c%"動くブック哀", c%"動くブック哀▽あ", c%"動くブック哀▽あい", c%"動くブック哀▼哀", c%"動くブック哀▼愛", c%"動くブック哀愛", c%"動くブック哀愛▽あ", c%"動くブック哀愛▽あい",
        c%"動くブック哀愛▼愛", [], []],
       [c%"▽h", c%"▽ホ", c%"▽ホン", c%"▼ブック", c%"ブック", c%"ブック▽ウ", c%"ブック▽ウg", c%"ブック▽ウゴ", c%"ブック▽ウゴ*k", c%"ブック▼動ク", c%"ブック動ク", c%"ブック動ク▽ア",
        c%"ブック動ク▽アイ", c%"ブック動ク▼哀"]] := by decide +kernel
  obtain ⟨⟨ds', gots⟩, hl, hg⟩ := Option.map_eq_some_iff.mp ht
  obtain ⟨fs', _, h1, _, _, _⟩ := careful_life true Session.sources files opened ds' hopen opened_plain Session.sources_apart.1 Session.sources_apart.2
    (by intro s hm
        have : s = Session.userFile c%"d" ∨ s = ⟨c%"jisyo", Utf8.utf8, true, .static⟩ ∨ s = ⟨[], Utf8.utf8, true, .empty⟩ := by simpa [Session.sources] using hm
        rcases this with rfl | rfl | rfl <;> exact Persist.total_utf8)
    chapters gots hp hl
  exact ⟨fs', gots, h1, hg⟩

/-! ## Careful programs -/

/-- The keys which send an event. -/
def keysOf (ev : KeyEvent) : List Key :=
  [.char (Char.ofNat ev.symbol), .back, .enter, .ctrlJ, .ctrlG, .tab, .escape, .shiftTab, .shifted (Char.ofNat ev.symbol), .ctrl (Char.ofNat ev.symbol), .other ev].filter
    fun k => decide (k.event = ev)

theorem mem_keysOf (k : Key) : k ∈ keysOf k.event := by
  unfold keysOf
  rw [List.mem_filter]
  refine ⟨?_, by simp⟩
  cases k <;> simp [Key.event, Char.ofNat_toNat]

/-- Calls, tested. -/
def wary (pr : Bool) (Z : Seat) : List Act → Bool
  | [] => true
  | .key k :: l => (keysOf (KeyEvent.fromFcitx k.event.symbol k.event.modifiers false)).all fun k' =>
      carefully Z.desk (.key k') && (Z.act (shipped pr) (.key k')).all fun r => wary pr r.1 l
  | .poll :: l => (Z.act (shipped pr) .poll).all fun r => wary pr r.1 l
  | _ => false

theorem wary_heeds {pr : Bool} : ∀ {l : List Act} {Z : Seat}, wary pr Z l = true → Heeds pr Z (CLife.calls l) := by
  intro l
  induction l with
  | nil => intro Z _; trivial
  | cons x l ih =>
    intro Z h
    have hin : ∀ y, Spec.Front.Wants (CLife.callOf x).1 y → Careful Z.desk y ∧ ∀ r, Z.act (shipped pr) y = some r → wary pr r.1 l = true := by
      intro y hy
      cases x with
      | key k =>
        cases hy with
        | key k' _ _ _ hk =>
          unfold wary at h
          rw [hk] at h
          have := List.all_eq_true.mp h k' (mem_keysOf k')
          rw [Bool.and_eq_true] at this
          refine ⟨(carefully_careful this.1).2, fun r hr => ?_⟩
          have h2 := this.2
          rw [hr] at h2
          exact h2
      | poll =>
        cases hy
        unfold wary at h
        refine ⟨trivial, fun r hr => ?_⟩
        rw [hr] at h
        exact h
      | _ => cases h
    have hk : (CLife.callOf x).1 = .poll ∨ ∃ a b c, (CLife.callOf x).1 = .key a b c := by cases x <;> simp [CLife.callOf]
    refine ⟨⟨fun y hy => (hin y hy).1, ?_⟩, ?_⟩
    · intro bytes t ks he
      have he : (CLife.callOf x).1 = .keys bytes := he
      rcases hk with hk | ⟨a, b, c, hk⟩ <;> rw [hk] at he <;> cases he
    · intro Z' r hs
      have hs : Spec.CLife.Says pr Z (CLife.callOf x).1 Z' r := hs
      generalize (CLife.callOf x).1 = cl at hin hk hs
      cases hs with
      | save _ => rcases hk with hk | ⟨a, b, c, hk⟩ <;> cases hk
      | other _ hs =>
        cases hs with
        | act hw ha => exact ih ((hin _ hw).2 _ ha)
        | _ => rcases hk with hk | ⟨a, b, c, hk⟩ <;> cases hk

/-- **The theorem applied** to the programs of `CLife.life_applies`: the user of the first one was careful. -/
theorem careful_programs : ∃ ps fs' dsE, ps.length = 2 ∧ Spec.CLife.Runs true Session.sources Session.files ps fs' ∧ Recalls true Session.openedDicts ps CLife.kept ∧
    Session.openAll fs' Session.sources = some dsE ∧ Spec.SameWords.AllSame CLife.kept dsE := by
  have hopen : Session.openAll Session.files Session.sources = some Session.openedDicts := Session.sample_end.1
  have hod : Session.openedDicts = [⟨true, .user ⟨[], []⟩ false⟩, ⟨true, .static Session.learnt⟩, ⟨false, .empty⟩] := by decide +kernel
  obtain ⟨r, hrun⟩ := Option.isSome_iff_exists.mp CLife.programs_run
  unfold CLife.programs at hrun
  simp only [Option.bind_eq_bind, Option.bind_eq_some_iff] at hrun
  obtain ⟨d1, o1, ⟨s1, l1, t1⟩, p1, d2, o2, ⟨s2, l2, t2⟩, p2, d3, o3, ⟨s3, l3, t3⟩, p3, -⟩ := hrun
  have hr : Spec.CLife.Runs true Session.sources Session.files [⟨false, Config.default, .hiragana, t1⟩, ⟨false, Config.default, .hiragana, t2⟩] s2.fs :=
    .program o1 (CSession.play_uses _ _ _ _ _ _ _ _ p1) (.program o2 (CSession.play_uses _ _ _ _ _ _ _ _ p2) (.done _))
  have m1 : ((start false Config.default .hiragana Session.openedDicts).use (shipped true) (names true) CLife.first).map (fun r => r.1.desk.dicts) = some CLife.kept := by
    decide +kernel
  have m1' : ((start false Config.default .hiragana Session.openedDicts).use (shipped true) (names true) (CLife.first ++ CLife.firstAfter)).isSome = true := by decide +kernel
  have m2 : ((start false Config.default .hiragana CLife.kept).use (shipped true) (names true) CLife.second).isSome = true := by decide +kernel
  obtain ⟨⟨Z1, g1⟩, u1, u2⟩ := Option.map_eq_some_iff.mp m1
  obtain ⟨r1, v1⟩ := Option.isSome_iff_exists.mp m1'
  obtain ⟨r2, v2⟩ := Option.isSome_iff_exists.mp m2
  obtain ⟨Z1', _, _, w1, w2, -⟩ := Life.use_append CLife.first CLife.firstAfter v1
  rw [u1] at w1
  injection w1 with w1
  injection w1 with w1 _
  subst w1
  dsimp only at u2
  have hwary : wary true (start false Config.default .hiragana Session.openedDicts) CLife.first = true := by decide +kernel
  have hq : ∀ l : List Act, ∀ cl ∈ CLife.calls l, Spec.CLife.Saveless cl := by
    intro l cl hc os he
    obtain ⟨x, -, hx⟩ := List.mem_map.mp hc
    rw [he] at hx
    cases x <;> cases hx
  have hm : Recalls true Session.openedDicts [⟨false, Config.default, .hiragana, t1⟩, ⟨false, Config.default, .hiragana, t2⟩] CLife.kept := by
    refine .saved (before := CLife.calls CLife.first) (after := CLife.calls CLife.firstAfter) (Z := Z1) (Front.play_calls _ p1)
      (CLife.use_follows CLife.first (CLife.wants (by decide +kernel)) u1) (wary_heeds hwary)
      (hq CLife.firstAfter) (CLife.use_follows CLife.firstAfter (CLife.wants (by decide +kernel)) w2) ?_
    rw [u2]
    refine .lost (Z := r2.1) ?_ ?_ (.done _)
    · rw [Front.play_calls _ p2]; exact hq CLife.second
    · rw [Front.play_calls _ p2]; exact CLife.use_follows CLife.second (CLife.wants (by decide +kernel)) v2
  obtain ⟨dsE, k1, k2, -⟩ := careful_c_life true Session.sources Session.files s2.fs Session.openedDicts CLife.kept hopen
    (by intro d hd
        rw [hod] at hd
        simp only [List.mem_cons, List.not_mem_nil, or_false] at hd
        rcases hd with rfl | rfl | rfl
        · exact Life.empty_plain
        · exact Session.learnt_plain
        · exact Life.empty_plain)
    Session.sources_apart.1 Session.sources_apart.2
    (by intro s hm
        have : s = Session.userFile c%"d" ∨ s = ⟨c%"jisyo", Utf8.utf8, true, .static⟩ ∨ s = ⟨[], Utf8.utf8, true, .empty⟩ := by simpa [Session.sources] using hm
        rcases this with rfl | rfl | rfl <;> exact Persist.total_utf8)
    _ hr hm
  exact ⟨_, s2.fs, dsE, rfl, hr, hm, k1, k2⟩

end Cskk.Props.Careful

import Verif.Spec.Screen
import Verif.Props.Output
import Verif.Props.Taken

/-!
# C74: the moments of the polls do not matter to the user
-/

namespace Cskk.Props.Screens
open Spec Output

variable {w : Str}

/-- The two results are the same apart from the credit; or the deletion found nothing in the one, and the last character of the credit in the other. -/
def Same (w : Str) (r r' : R (Ctx × Bool)) : Prop :=
  Credit.Comm2 w r r' ∨ ∃ c', r' = .ok (c', false) ∧ c'.below = [] ∧ c'.top.confirmed = [] ∧ r = .ok (c'.credit w.dropLast, !w.isEmpty)

theorem delete_same (c : Ctx) : Same w (.ok ({ c.credit w with top := (c.credit w).top.delete.1 }, (c.credit w).top.delete.2))
    (.ok ({ c with top := c.top.delete.1 }, c.top.delete.2)) := by
  rcases Credit.cases c with ⟨t, cm, k, d, cf, rfl⟩ | ⟨s, r, t, cm, k, d, cf, rfl⟩
  · by_cases h : t.mode = .direct → t.pre = [] → t.confirmed ≠ []
    · left
      have := Credit.delete (w := w) t h
      simp only [Ctx.credit, this]
      rfl
    · right
      have hm : t.mode = .direct := Classical.byContradiction fun hm => h fun h' => absurd h' hm
      have hp : t.pre = [] := Classical.byContradiction fun hp => h fun _ h' => absurd h' hp
      have hc : t.confirmed = [] := Classical.byContradiction fun hc => h fun _ _ => hc
      have hd : ∀ u : Str, (t.credit u).delete = (t.credit u.dropLast, !u.isEmpty) := by
        intro u
        unfold State.delete State.credit
        simp only [hm, hp, hc, List.append_nil, ne_eq, not_true_eq_false, if_false]
      have h0 : t.credit [] = t := rfl
      have hd0 := hd []
      rw [h0] at hd0
      refine ⟨⟨[], t, cm, k, d, cf⟩, ?_, rfl, hc, ?_⟩
      · rw [hd0]; rfl
      · simp only [Ctx.credit, hd]
  · left; rfl

theorem run_same (e : Env) (cm : CompositionMode) (im : InputMode) (b : Bool) (is : List Instruction) (c : Ctx)
    (h : Instruction.purge ∉ is ∧ Instruction.clearKanaConvertedInputs ∉ is) :
    Same w (Ctx.runInstructions e cm im b (c.credit w) is) (Ctx.runInstructions e cm im b c is) ∧
    (Instruction.delete ∉ is → Credit.Comm2 w (Ctx.runInstructions e cm im b (c.credit w) is) (Ctx.runInstructions e cm im b c is)) := by
  induction is generalizing c with
  | nil => exact ⟨.inl rfl, fun _ => rfl⟩
  | cons i is ih =>
    have hi : i ≠ .purge ∧ i ≠ .clearKanaConvertedInputs := ⟨fun hh => h.1 (by simp [hh]), fun hh => h.2 (by simp [hh])⟩
    have his := ih (h := ⟨fun hh => h.1 (by simp [hh]), fun hh => h.2 (by simp [hh])⟩)
    by_cases hd : i = .delete
    · subst hd
      exact ⟨delete_same c, fun hh => absurd List.mem_cons_self hh⟩
    · have hk : Keeps c i := ⟨hi.2, fun _ => ⟨hi.1, fun hh => absurd hh hd⟩⟩
      unfold Ctx.runInstructions
      have h := Credit.instruction (w := w) e c i hk cm im
      rw [h]
      cases hr : c.instruction e i cm im with
      | error p => exact ⟨.inl rfl, fun _ => rfl⟩
      | ok x =>
        obtain ⟨c', o⟩ := x
        cases o with
        | some b => exact ⟨.inl rfl, fun _ => rfl⟩
        | none => exact ⟨(his c').1, fun hh => (his c').2 (fun h' => hh (List.mem_cons_of_mem _ h'))⟩

/-- A key, with and without the credit. In the second case it is bound to a deletion. -/
theorem key_same (e : Env) (c : Ctx) (hg : Credit.G c) (ev : KeyEvent) (hk : Gentle c.cmds (.key ev)) :
    Credit.Comm2 w ((c.credit w).processKeyEvent e ev) (c.processKeyEvent e ev) ∨
    (Same w ((c.credit w).processKeyEvent e ev) (c.processKeyEvent e ev) ∧
      ∃ cm im, ∃ k ∈ c.cmds cm im, KeyMatches k.1 ev ∧ Instruction.delete ∈ k.2) := by
  unfold Ctx.processKeyEvent
  split
  · exact .inl rfl
  · unfold Ctx.processInner
    have hs : (c.credit w).skipCommand ev = c.skipCommand ev := by
      unfold Ctx.skipCommand; rw [Credit.tim, Credit.tmode, Credit.kanaConv, Credit.tpre]
    rw [hs, Credit.cmds, Credit.tim, Credit.tmode]
    split
    · exact .inl (Credit.charInput e c hg ev)
    · cases ho : c.cmds.getInstruction e.prof ev c.top.inputMode c.top.mode with
      | error p => exact .inl rfl
      | ok o =>
        cases o with
        | none => exact .inl (Credit.charInput e c hg ev)
        | some is =>
          obtain ⟨k, hkm, hm, rfl⟩ := Taken.instruction_of ho
          have := run_same (w := w) e c.top.mode c.top.inputMode (!k.2.isEmpty) k.2 c (hk _ _ k hkm hm)
          by_cases hd : Instruction.delete ∈ k.2
          · exact .inr ⟨this.1, _, _, k, hkm, hm, hd⟩
          · exact .inl (this.2 hd)

theorem admissible_of_not (e : Env) (cm : CompositionMode) (im : InputMode) (is : List Instruction) (c : Ctx)
    (h : Instruction.clearKanaConvertedInputs ∉ is) : c.Admissible e (fun c => NoClearKana c.top) cm im is := by
  induction is generalizing c with
  | nil => trivial
  | cons i is ih => exact ⟨fun hh => h (by simp [hh]), fun c' _ => ih c' (fun hh => h (by simp [hh]))⟩

theorem gentle_good {e : Env} {c c' : Ctx} {op : Op} (hg : Credit.G c) (h : Gentle c.cmds op) (hs : c.step e op = .ok c') : Credit.G c' := by
  refine (RawLe.inv.step (r := True) (fun _ _ _ => Nat.le_refl 0) hg op ?_).out c' hs
  cases op <;> try trivial
  case key ev =>
    intro is his
    obtain ⟨k, hkm, hm, rfl⟩ := Taken.instruction_of his
    exact admissible_of_not e _ _ _ c (h _ _ k hkm hm).2

/-! ## All the text in one place -/

/-- The context as if nothing of the text had been polled. -/
def paper (s : Screen) : Ctx := s.ctx.credit s.text

/-- The program's reaction to a key, made on the text of the outermost level. -/
def edit (g : Str → Str) (c : Ctx) : Ctx := c.mapBottom fun s => { s with confirmed := g s.confirmed }

theorem edit_credit {c : Ctx} (hc : pendingOutput c = []) (g : Str → Str) (w : Str) : edit g (c.credit w) = c.credit (g w) := by
  rw [← bottom_confirmed] at hc
  unfold edit
  rcases Credit.cases c with ⟨t, cm, k, d, cf, rfl⟩ | ⟨s, r, t, cm, k, d, cf, rfl⟩
  · have hc : t.confirmed = [] := hc
    simp [Ctx.credit, mapBottom_nil, State.credit, hc]
  · have hc : ((s :: r).getLast (by simp)).confirmed = [] := by
      rw [Ctx.bottom, List.getLast?_eq_some_getLast (by simp : s :: r ≠ [])] at hc
      exact hc
    have hne : mapLast (State.credit w) (s :: r) ≠ [] := by
      intro h; have := congrArg List.length h; rw [mapLast_length] at this; simp at this
    rw [Credit.nested, Credit.nested]
    obtain ⟨a, l, hal⟩ := List.exists_cons_of_ne_nil hne
    rw [hal, mapBottom_cons, ← hal, mapLast_mapLast, mapLast_eq _ _ (by simp : s :: r ≠ []), mapLast_eq _ _ (by simp : s :: r ≠ [])]
    simp [State.credit, hc]

theorem pending_poll (c : Ctx) : pendingOutput c.pollOutput.1 = [] := by
  unfold pendingOutput
  rw [(poll_changes_only_output c).1]
  cases c.states <;> rfl

theorem paper_polled (s : Screen) : paper s.polled = paper s := by
  unfold paper Screen.polled
  dsimp only
  rw [← credit_credit, ← credit_of_poll]

/-- A call on the paper. -/
def write (e : Env) (f : KeyEvent → Str → Str) (c : Ctx) : Op → R Ctx
  | .poll => .ok c
  | .key ev => do
    let r ← c.processKeyEvent e ev
    if r.2 then return r.1 else return edit (f ev) r.1
  | op => c.step e op

def writes (e : Env) (f : KeyEvent → Str → Str) : Ctx → List Op → R Ctx
  | c, [] => .ok c
  | c, op :: ops => do
    let c' ← write e f c op
    writes e f c' ops

theorem act_write (e : Env) (f : KeyEvent → Str → Str) (s : Screen) (hg : Credit.G s.ctx) (op : Op) (h : Gentle s.ctx.cmds op)
    (hf : Deletes s.ctx.cmds f) : write e f (paper s) op = (s.act e f op).map paper := by
  obtain ⟨c, text⟩ := s
  have back : ∀ (c' : Ctx) ev, paper ⟨(⟨c', text⟩ : Screen).polled.ctx, f ev (⟨c', text⟩ : Screen).polled.text⟩ = edit (f ev) (c'.credit text) := by
    intro c' ev
    show (c'.pollOutput.1).credit (f ev (text ++ c'.pollOutput.2.getD [])) = _
    conv => rhs; rw [credit_of_poll c', credit_credit]
    rw [edit_credit (pending_poll c')]
  by_cases hp : op = .poll
  · subst hp
    show Except.ok (paper ⟨c, text⟩) = Except.ok (paper (Screen.polled ⟨c, text⟩))
    rw [paper_polled]
  by_cases hk : ∃ ev, op = .key ev
  · obtain ⟨ev, rfl⟩ := hk
    unfold write Screen.act paper
    dsimp only
    rcases key_same (w := text) e c hg ev h with hcm | ⟨hcm | ⟨c', h1, h2, h3, h4⟩, cm, im, k, hkm, hm, hd⟩
    · rw [hcm]
      cases c.processKeyEvent e ev with
      | error p => rfl
      | ok r =>
        obtain ⟨c', b⟩ := r
        cases b with
        | true => rfl
        | false => exact congrArg Except.ok (back c' ev).symm
    · rw [hcm]
      cases c.processKeyEvent e ev with
      | error p => rfl
      | ok r =>
        obtain ⟨c', b⟩ := r
        cases b with
        | true => rfl
        | false => exact congrArg Except.ok (back c' ev).symm
    · rw [h4, h1]
      have hfe := hf ev cm im k hkm hm hd
      have hpe : pendingOutput c' = [] := by
        rw [← bottom_confirmed, Ctx.bottom, h2]; exact h3
      have := back c' ev
      rw [edit_credit hpe, hfe] at this
      have hfin : (if (!text.isEmpty) = true then (Except.ok (c'.credit text.dropLast) : R Ctx) else .ok (edit (f ev) (c'.credit text.dropLast))) =
          .ok (c'.credit text.dropLast) := by
        split
        · rfl
        · rename_i hte
          have : text = [] := by simpa using hte
          subst this
          rw [edit_credit hpe, hfe]; rfl
      refine Eq.trans hfin ?_
      refine congrArg Except.ok ?_
      rw [← this, hfe]
      rfl
  · have hk' : KeepsOp e c op := by
      cases op <;> first | trivial | exact absurd ⟨_, rfl⟩ hk | exact absurd h id
    have hst := Credit.step (w := text) e c hg op hk' hp
    have hw : write e f (paper ⟨c, text⟩) op = (c.credit text).step e op := by
      cases op <;> first | rfl | exact absurd ⟨_, rfl⟩ hk | exact absurd rfl hp
    have ha : (⟨c, text⟩ : Screen).act e f op = (c.step e op).map fun c => ⟨c, text⟩ := by
      cases op <;> first | exact absurd ⟨_, rfl⟩ hk | exact absurd rfl hp | rfl
    rw [hw, ha, hst]
    cases c.step e op <;> rfl

theorem step_rules {e : Env} {c c' : Ctx} {op : Op} {r : CommandRule} (h : Gentle r op) (hs : c.step e op = .ok c') : c'.cmds = c.cmds := by
  by_cases hp : Frame.Plain op
  · exact (((rules_frame c).step ⟨rfl, rfl, rfl⟩ op hp).out c' hs).1
  · cases op <;> first | exact absurd trivial hp | exact absurd h id | (cases hs; rfl)

theorem poll_good {c : Ctx} (hg : Credit.G c) : Credit.G c.pollOutput.1 ∧ c.pollOutput.1.cmds = c.cmds :=
  ⟨gentle_good (e := Assets.env ⟨true⟩) (op := .poll) hg trivial rfl,
    (poll_changes_only_output c).2.1⟩

theorem act_good (e : Env) (f : KeyEvent → Str → Str) (s s' : Screen) (hg : Credit.G s.ctx) (op : Op) (h : Gentle s.ctx.cmds op)
    (ha : s.act e f op = .ok s') : Credit.G s'.ctx ∧ s'.ctx.cmds = s.ctx.cmds := by
  by_cases hp : op = .poll
  · subst hp
    cases ha
    exact poll_good hg
  by_cases hk : ∃ ev, op = .key ev
  · obtain ⟨ev, rfl⟩ := hk
    unfold Screen.act at ha
    dsimp only at ha
    cases hr : s.ctx.processKeyEvent e ev with
    | error p => rw [hr] at ha; cases ha
    | ok r =>
      obtain ⟨c', b⟩ := r
      have hst : s.ctx.step e (.key ev) = .ok c' := by unfold Ctx.step; dsimp only; rw [hr]; rfl
      have h1 := gentle_good hg h hst
      have h2 := step_rules h hst
      rw [hr] at ha
      cases b with
      | true => cases ha; exact ⟨h1, h2⟩
      | false =>
        cases ha
        exact ⟨(poll_good h1).1, (poll_good h1).2.trans h2⟩
  · have ha' : s.act e f op = (s.ctx.step e op).map fun c => ⟨c, s.text⟩ := by
      cases op <;> first | exact absurd ⟨_, rfl⟩ hk | exact absurd rfl hp | rfl
    rw [ha'] at ha
    cases hr : s.ctx.step e op with
    | error p => rw [hr] at ha; cases ha
    | ok c' =>
      rw [hr] at ha
      cases ha
      exact ⟨gentle_good hg h hr, step_rules h hr⟩

theorem acts_writes (e : Env) (f : KeyEvent → Str → Str) (ops : List Op) (s : Screen) (hg : Credit.G s.ctx) (h : ∀ op ∈ ops, Gentle s.ctx.cmds op)
    (hf : Deletes s.ctx.cmds f) : writes e f (paper s) ops = (s.acts e f ops).map paper := by
  induction ops generalizing s with
  | nil => rfl
  | cons op ops ih =>
    unfold writes Screen.acts
    rw [act_write e f s hg op (h op List.mem_cons_self) hf]
    cases hs : s.act e f op with
    | error p => rfl
    | ok s' =>
      obtain ⟨h1, h2⟩ := act_good e f s s' hg op (h op List.mem_cons_self) hs
      exact ih s' h1 (fun o ho => by rw [h2]; exact h o (List.mem_cons_of_mem _ ho)) (by rw [h2]; exact hf)

theorem writes_withoutPolls (e : Env) (f : KeyEvent → Str → Str) (ops : List Op) (c : Ctx) : writes e f c ops = writes e f c (withoutPolls ops) := by
  induction ops generalizing c with
  | nil => rfl
  | cons op ops ih =>
    by_cases hp : op = .poll
    · subst hp
      exact ih c
    · have hw : withoutPolls (op :: ops) = op :: withoutPolls ops := by
        cases op <;> first | rfl | exact absurd rfl hp
      rw [hw]
      unfold writes
      cases write e f c op with
      | error p => rfl
      | ok c' => exact ih c'

theorem all_paper (s : Screen) : s.all = pendingOutput (paper s) := (pendingOutput_credit _ _).symm

theorem polled_paper (s : Screen) : s.ctx.pollOutput.1 = edit (fun _ => []) (paper s) := by
  unfold paper
  conv => rhs; rw [credit_of_poll s.ctx, credit_credit]
  rw [edit_credit (pending_poll _), credit_nil]

theorem mem_withoutPolls {ops : List Op} {op : Op} (h : op ∈ ops) : op = .poll ∨ op ∈ withoutPolls ops := by
  induction ops with
  | nil => cases h
  | cons o ops ih =>
    by_cases hp : o = .poll
    · subst hp
      rcases List.mem_cons.mp h with h | h
      · exact .inl h
      · exact ih h
    · have hw : withoutPolls (o :: ops) = o :: withoutPolls ops := by
        cases o <;> first | rfl | exact absurd rfl hp
      rw [hw]
      rcases List.mem_cons.mp h with h | h
      · exact .inr (by rw [h]; simp)
      · exact (ih h).imp_right (List.mem_cons_of_mem _)

theorem withoutPolls_subset {ops : List Op} {op : Op} (h : op ∈ withoutPolls ops) : op ∈ ops := by
  induction ops with
  | nil => cases h
  | cons o ops ih =>
    by_cases hp : o = .poll
    · subst hp; exact List.mem_cons_of_mem _ (ih h)
    · have hw : withoutPolls (o :: ops) = o :: withoutPolls ops := by
        cases o <;> first | rfl | exact absurd rfl hp
      rw [hw] at h
      rcases List.mem_cons.mp h with h | h
      · rw [h]; simp
      · exact List.mem_cons_of_mem _ (ih h)

/-- **C74.** A program which gives the keys to the library, acts itself on those that are handed back, and polls whenever it likes: for the same keys
and other calls, with deletions among them, the user ends up with the same text, and the same is composed, whatever the moments of the polls. A
deletion takes away the last character of the text, be it in the library or in the program. -/
theorem schedules_agree (e : Env) (f : KeyEvent → Str → Str) (s : Screen) (ops₁ ops₂ : List Op)
    (hg : ∀ t ∈ s.ctx.states, t.raw.length ≤ t.kana.length) (h : ∀ op ∈ ops₁, Gentle s.ctx.cmds op) (hf : Deletes s.ctx.cmds f)
    (hsame : withoutPolls ops₁ = withoutPolls ops₂) (s₁ : Screen) (h₁ : s.acts e f ops₁ = .ok s₁) :
    ∃ s₂, s.acts e f ops₂ = .ok s₂ ∧ s₂.all = s₁.all ∧ s₂.ctx.pollOutput.1 = s₁.ctx.pollOutput.1 := by
  have hg' : Credit.G s.ctx := ⟨hg _ (by simp [Ctx.states]), fun t ht => hg t (by simp [Ctx.states, ht])⟩
  have h₂ : ∀ op ∈ ops₂, Gentle s.ctx.cmds op := by
    intro op hop
    rcases mem_withoutPolls hop with rfl | hop
    · trivial
    · exact h op (withoutPolls_subset (hsame ▸ hop))
  have a := acts_writes e f ops₁ s hg' h hf
  have b := acts_writes e f ops₂ s hg' h₂ hf
  rw [writes_withoutPolls, hsame, ← writes_withoutPolls, b, h₁] at a
  cases hs : s.acts e f ops₂ with
  | error p => rw [hs] at a; cases a
  | ok s₂ =>
    rw [hs] at a
    have a : paper s₂ = paper s₁ := Except.ok.inj a
    exact ⟨s₂, rfl, by rw [all_paper, all_paper, a], by rw [polled_paper, polled_paper, a]⟩

/-- BackSpace and Control-h, which delete the last character of a text. -/
def Rubout (ev : KeyEvent) : Prop := ev.symbol = 0xff08 ∨ ((ev.symbol = 0x68 ∨ ev.symbol = 0x48) ∧ ev.modifiers.getLsbD 2 = true)

/-- A program in which BackSpace and Control-h delete the last character; other keys insert something or do something else. -/
def Sane (f : KeyEvent → Str → Str) : Prop := ∀ ev, Rubout ev → f ev = List.dropLast

theorem shipped_deletes {r : CommandRule} (h : Taken.Shipped r) {f : KeyEvent → Str → Str} (hf : Sane f) : Deletes r f := by
  have : ∀ r, Taken.Shipped r → ∀ cm im, ∀ k ∈ r cm im, Instruction.delete ∈ k.2 →
      (k.1.symbol = 0xff08 ∨ ((k.1.symbol = 0x68 ∨ k.1.symbol = 0x48) ∧ k.1.modifiers.getLsbD 2 = true)) := by
    rintro r (rfl | rfl) cm im <;> cases cm <;> cases im <;> decide +kernel
  intro ev cm im k hk hm hd
  have := this r h cm im k hk hd
  rw [hm.1, hm.2.1 2 (by decide)] at this
  exact hf ev this

/-- All keys but `X`. -/
theorem shipped_gentle {r : CommandRule} (h : Taken.Shipped r) (ev : KeyEvent) (hx : ev.symbol ≠ 0x58) : Gentle r (.key ev) := by
  have : ∀ r, Taken.Shipped r → ∀ cm im, ∀ k ∈ r cm im,
      (Instruction.purge ∉ k.2 ∧ Instruction.clearKanaConvertedInputs ∉ k.2) ∨ k.1.symbol = 0x58 := by
    rintro r (rfl | rfl) cm im <;> cases cm <;> cases im <;> decide +kernel
  intro cm im k hk hm
  rcases this r h cm im k hk with h | h
  · exact h
  · exact absurd (hm.1.symm.trans h) hx

/-! ## Examples -/

/-- A program in which the other keys which are handed back do nothing. -/
def editor (ev : KeyEvent) (t : Str) : Str :=
  if ev.symbol = 0xff08 ∨ ((ev.symbol = 0x68 ∨ ev.symbol = 0x48) ∧ ev.modifiers.getLsbD 2 = true) then t.dropLast else t

theorem editor_sane : Sane editor := by
  intro ev h
  funext t
  exact if_pos h

def bs : KeyEvent := ⟨0xff08, 0⟩

/-- `a i` BackSpace BackSpace BackSpace `u`, polled never … -/
def never : List Op := [.key ⟨0x61, 0⟩, .key ⟨0x69, 0⟩, .key bs, .key bs, .key bs, .key ⟨0x75, 0⟩]

/-- … or after every key. -/
def always : List Op := never.flatMap fun op => [op, .poll]

/-- What the user has, what is polled by the program, and what is composed. -/
def seen (pr : Bool) (r : R Screen) : R (Str × Str × Str) := r.map fun s => (s.all, s.text, s.ctx.preedit (Assets.env ⟨pr⟩))

theorem never_gentle : ∀ op ∈ never, Gentle Assets.defaultCommands op := by
  intro op h
  simp only [never, List.mem_cons, List.not_mem_nil, or_false] at h
  rcases h with rfl | rfl | rfl | rfl | rfl | rfl <;> exact shipped_gentle (.inl rfl) _ (by decide)

example (pr : Bool) : seen pr ((⟨Document.blank, c%"古い"⟩ : Screen).acts (Assets.env ⟨pr⟩) editor never) = .ok (c%"古う", c%"古", c%"う") := by
  cases pr <;> decide +kernel

example (pr : Bool) : seen pr ((⟨Document.blank, c%"古い"⟩ : Screen).acts (Assets.env ⟨pr⟩) editor always) = .ok (c%"古う", c%"古う", []) := by
  cases pr <;> decide +kernel

example (pr : Bool) (s₁ : Screen) (h : (⟨Document.blank, c%"古い"⟩ : Screen).acts (Assets.env ⟨pr⟩) editor never = .ok s₁) :
    ∃ s₂, (⟨Document.blank, c%"古い"⟩ : Screen).acts (Assets.env ⟨pr⟩) editor always = .ok s₂ ∧ s₂.all = s₁.all ∧
      s₂.ctx.pollOutput.1 = s₁.ctx.pollOutput.1 :=
  schedules_agree _ editor ⟨Document.blank, c%"古い"⟩ never always (by decide +kernel) never_gentle (shipped_deletes (.inl rfl) editor_sane) rfl s₁ h

/-! ## Where the text of the program is hit -/

/-- In a registration whose text is still empty, BackSpace is handed back: the program deletes a character of its own text, behind the registration
which the user sees and in which nothing is deleted. -/
theorem registration_leaks (pr : Bool) :
    seen pr ((⟨Document.blank, c%"大事"⟩ : Screen).acts (Assets.env ⟨pr⟩) editor ((typed c%"Ahoge ").map .key)) = .ok (c%"大事", c%"大事", c%"▼あほげ【】") ∧
      seen pr ((⟨Document.blank, c%"大事"⟩ : Screen).acts (Assets.env ⟨pr⟩) editor ((typed c%"Ahoge ").map .key ++ [.key bs])) =
        .ok (c%"大", c%"大", c%"▼あほげ【】") := by
  cases pr <;> exact ⟨by decide +kernel, by decide +kernel⟩

end Cskk.Props.Screens

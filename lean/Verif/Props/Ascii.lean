import Verif.Props.WillProcess

/-!
# C36: typing in the modes without romaji conversion
-/

namespace Cskk.Spec

/-- The event types the character: printable key, no modifier but SHIFT, no command of the active rule. -/
def Types (e : Env) (c : Ctx) (ev : KeyEvent) (ch : Char) : Prop :=
  Printable ev ∧ ¬ HasOtherModifier ev ∧ e.xkb.toChar ev.symbol = some ch ∧ NoCommand c ev

end Cskk.Spec

namespace Cskk.Props.Ascii
open Spec

theorem step_direct (e : Env) (c : Ctx) (ev : KeyEvent) (ch : Char) (hm : c.top.mode = .direct)
    (hi : c.top.inputMode = .ascii ∨ c.top.inputMode = .zenkaku) (h : Types e c ev ch) :
    c.processKeyEvent e ev = .ok (c.mapTop fun s => { s with confirmed := s.confirmed ++
      if c.top.inputMode = .ascii then [ch] else e.asciiForm.adjustChar ch }, true) := by
  obtain ⟨hp, hmod, hc, hn⟩ := h
  have hrel : ¬ IsRelease ev := fun hr => hmod ⟨30, by decide, hr⟩
  rw [WillProcess.process_no_command e c ev (by rw [hm]; simp) hrel hn]
  have h1 := (modifierless_iff ev).mpr hmod
  have h2 : hasRom2kanaConversion c.top.inputMode c.top.mode = false := by
    rw [hm]; rcases hi with h | h <;> rw [h] <;> rfl
  have h3 : ¬ ((c.top.mode = .compositionSelection ∨ c.top.mode = .completion) ∧ c.willBeProcessed ev c.top.pre) := by
    rw [hm]; simp
  have hc' : ev.symbolChar e.xkb = some ch := hc
  unfold Ctx.charInput
  simp only [h1, Bool.not_true, Bool.false_eq_true, if_false, if_neg h3, h2, (WillProcess.printable_iff ev).mpr hp, if_true]
  unfold Ctx.plainInput
  rcases hi with h | h
  · simp only [hm, hc', h, if_true]
    unfold Ctx.mapTop State.push
    simp only [hm, State.pushFor]
  · simp only [hm, hc', h]
    unfold Ctx.appendConverted Ctx.mapTop State.push
    simp only [hm, h, State.pushFor, KanaFormChanger.adjust]
    rfl

theorem step_abbreviation (e : Env) (c : Ctx) (ev : KeyEvent) (ch : Char) (hm : c.top.mode = .abbreviation)
    (h : Types e c ev ch) :
    c.processKeyEvent e ev = .ok (c.mapTop fun s => { s with kana := s.kana ++ [ch], raw := s.raw ++ [ch] }, true) := by
  obtain ⟨hp, hmod, hc, hn⟩ := h
  have hrel : ¬ IsRelease ev := fun hr => hmod ⟨30, by decide, hr⟩
  rw [WillProcess.process_no_command e c ev (by rw [hm]; simp) hrel hn]
  have h1 := (modifierless_iff ev).mpr hmod
  have h2 : hasRom2kanaConversion c.top.inputMode c.top.mode = false := by rw [hm]; rfl
  have h3 : ¬ ((c.top.mode = .compositionSelection ∨ c.top.mode = .completion) ∧ c.willBeProcessed ev c.top.pre) := by
    rw [hm]; simp
  have hc' : ev.symbolChar e.xkb = some ch := hc
  unfold Ctx.charInput
  simp only [h1, Bool.not_true, Bool.false_eq_true, if_false, if_neg h3, h2, (WillProcess.printable_iff ev).mpr hp, if_true]
  unfold Ctx.plainInput
  simp only [hm, hc']
  unfold Ctx.mapTop State.push
  simp only [hm, State.pushFor]

theorem pke_cons (e : Env) (c c' : Ctx) (ev : KeyEvent) (evs : List KeyEvent) (b : Bool)
    (h : c.processKeyEvent e ev = .ok (c', b)) : c.processKeyEvents e (ev :: evs) = c'.processKeyEvents e evs := by
  rw [Ctx.processKeyEvents, h]; rfl

/-- **C36.** In direct Ascii input every typed text is appended to the committed text verbatim, in direct Zenkaku input
each character in its full-width form; nothing else changes. -/
theorem typed_verbatim (e : Env) (l : List (KeyEvent × Char)) (c : Ctx) (hm : c.top.mode = .direct)
    (hi : c.top.inputMode = .ascii ∨ c.top.inputMode = .zenkaku) (h : ∀ x ∈ l, Types e c x.1 x.2) :
    c.processKeyEvents e (l.map Prod.fst) = .ok (c.mapTop fun s =>
      { s with
        confirmed := s.confirmed ++
          if c.top.inputMode = .ascii then l.map Prod.snd else (l.map Prod.snd).flatMap e.asciiForm.adjustChar }) := by
  induction l generalizing c with
  | nil => simp [Ctx.processKeyEvents, Ctx.mapTop]
  | cons x l ih =>
    rw [List.map_cons, pke_cons e c _ _ _ true (step_direct e c x.1 x.2 hm hi (h x (by simp))),
      ih _ (by exact hm) (by exact hi) fun y hy => (by exact h y (List.mem_cons_of_mem _ hy))]
    rcases hi with hi | hi <;> simp [Ctx.mapTop, hi]

/-- **C36 for the application.** Outside a registration the next poll returns what was pending followed by the typed
text. -/
theorem typed_is_polled (e : Env) (l : List (KeyEvent × Char)) (c : Ctx) (hm : c.top.mode = .direct)
    (hb : c.below = []) (hi : c.top.inputMode = .ascii ∨ c.top.inputMode = .zenkaku)
    (h : ∀ x ∈ l, Types e c x.1 x.2) (c' : Ctx) (hc : c.processKeyEvents e (l.map Prod.fst) = .ok c') :
    c'.pollOutput.2.getD [] = pendingOutput c ++
      (if c.top.inputMode = .ascii then l.map Prod.snd else (l.map Prod.snd).flatMap e.asciiForm.adjustChar) := by
  rw [typed_verbatim e l c hm hi h] at hc
  cases hc
  unfold Ctx.pollOutput Ctx.retrieveOutput Ctx.bottom pendingOutput Ctx.states
  simp only [Ctx.mapTop, hb, List.getLast?_nil, Option.getD_none, List.reverse_nil, List.nil_append, List.head?_cons,
    Option.map_some, Option.getD_some]
  generalize (if c.top.inputMode = .ascii then l.map Prod.snd else (l.map Prod.snd).flatMap e.asciiForm.adjustChar) = t
  cases hx : c.top.confirmed ++ t with
  | nil => rfl
  | cons a l => rfl

/-- **Abbreviation.** The same holds of the reading while an abbreviation is typed. -/
theorem abbreviation_verbatim (e : Env) (l : List (KeyEvent × Char)) (c : Ctx) (hm : c.top.mode = .abbreviation)
    (h : ∀ x ∈ l, Types e c x.1 x.2) :
    c.processKeyEvents e (l.map Prod.fst) = .ok (c.mapTop fun s => { s with
      kana := s.kana ++ l.map Prod.snd, raw := s.raw ++ l.map Prod.snd }) := by
  induction l generalizing c with
  | nil => simp [Ctx.processKeyEvents, Ctx.mapTop]
  | cons x l ih =>
    rw [List.map_cons, pke_cons e c _ _ _ true (step_abbreviation e c x.1 x.2 hm (h x (by simp))),
      ih _ (by exact hm) fun y hy => (by exact h y (List.mem_cons_of_mem _ hy))]
    simp [Ctx.mapTop]

/-- With the shipped rules every printable character is typed by its key in direct Ascii and Zenkaku input. -/
theorem shipped_types (p : Bool) (c : Ctx) (hr : c.cmds = Assets.defaultCommands ∨ c.cmds = Assets.azikCommands)
    (hm : c.top.mode = .direct) (hi : c.top.inputMode = .ascii ∨ c.top.inputMode = .zenkaku) (ch : Char)
    (h1 : 0x20 ≤ ch.toNat) (h2 : ch.toNat ≤ 0x7e) : Types (Assets.env ⟨p⟩) c ⟨ch.toNat, 0⟩ ch := by
  refine ⟨⟨h1, h2⟩, ?_, ?_, ?_⟩
  · rintro ⟨i, _, hb⟩; simp at hb
  · show Assets.xkb.toChar ch.toNat = some ch
    unfold Assets.xkb
    simp only [h1, h2, and_self, if_true, Char.ofNat_toNat]
  · intro k hk hx
    have key : ∀ r : CommandRule, (r = Assets.defaultCommands ∨ r = Assets.azikCommands) → ∀ im, (im = .ascii ∨ im = .zenkaku) →
        ∀ k ∈ r .direct im, (k.1.symbol < 0x20 ∨ 0x7e < k.1.symbol) ∨ k.1.modifiers ≠ 0 := by
      rintro r (rfl | rfl) im (rfl | rfl) <;> decide +kernel
    have := key c.cmds hr c.top.inputMode hi k (by rw [← hm]; exact hk)
    rw [← matchingKey_iff] at hx
    have hs : k.1.symbol = ch.toNat := by
      rw [hx]; unfold CommandRule.matchingKey; split <;> rfl
    rcases this with h | h
    · rw [hs] at h; exact h.elim (fun h => absurd h1 (Nat.not_le_of_lt h)) (fun h => absurd h2 (Nat.not_le_of_lt h))
    · apply h
      rw [hx]; unfold CommandRule.matchingKey
      split
      · show (0 : Modifier) &&& _ = 0
        exact BitVec.zero_and
      · rfl

/-- C36 with the shipped rules: any printable text typed in direct Ascii input. -/
theorem shipped_ascii_typing (p : Bool) (c : Ctx) (hr : c.cmds = Assets.defaultCommands ∨ c.cmds = Assets.azikCommands)
    (hm : c.top.mode = .direct) (hi : c.top.inputMode = .ascii) (t : Str)
    (ht : ∀ ch ∈ t, 0x20 ≤ ch.toNat ∧ ch.toNat ≤ 0x7e) :
    c.processKeyEvents (Assets.env ⟨p⟩) (typed t) =
      .ok (c.mapTop fun s => { s with confirmed := s.confirmed ++ t }) := by
  have := typed_verbatim (Assets.env ⟨p⟩) (t.map fun ch => (⟨ch.toNat, 0⟩, ch)) c hm (Or.inl hi) (by
    intro x hx
    obtain ⟨ch, hch, rfl⟩ := List.mem_map.mp hx
    exact shipped_types p c hr hm (Or.inl hi) ch (ht ch hch).1 (ht ch hch).2)
  simp only [List.map_map, hi, if_true] at this
  have h1 : (Prod.fst ∘ fun ch : Char => ((⟨ch.toNat, 0⟩ : KeyEvent), ch)) =
    fun ch => ⟨ch.toNat, 0⟩ := rfl
  have h2 : (Prod.snd ∘ fun ch : Char => ((⟨ch.toNat, 0⟩ : KeyEvent), ch)) = id := rfl
  rw [h1, h2, List.map_id] at this
  exact this

example : (((WillProcess.start .ascii).processKeyEvents (Assets.env ⟨true⟩) (typed c%"Q q~")).toOption.map
    fun c => c.pollOutput.2) = some (some c%"Q q~") := by decide +kernel

example : (((WillProcess.start .zenkaku).processKeyEvents (Assets.env ⟨true⟩) (typed c%"Ab 1")).toOption.map
    fun c => c.pollOutput.2) = some (some c%"Ａｂ　１") := by decide +kernel

end Cskk.Props.Ascii

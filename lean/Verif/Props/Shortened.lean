import Verif.Props.Vowels
import Verif.Props.ModeKeys

/-!
# Words looked up by Latin letters

`/`, the letters as they are in the dictionary, and space.
-/

namespace Cskk.Props.Wishes

open Spec Spec.Typing Spec.Document Spec.Wishes Romaji KanaBuilder Navigate Convert Typing Words ShippedTyping WordCycle Document
open Cskk.Props.TypeOn (Shown settled)

/-- The key `/` begins an empty reading of Latin letters. -/
theorem slash_opens (pr : Bool) {L : Layout} {g : Config} {B : List State} {c : Ctx} {p : Page} (h : At L g B c p) (hn : p.chosen = none) :
    c.processKeyEvent (Assets.env ⟨pr⟩) ⟨'/'.toNat, 0⟩ = .ok ({ c with top := inMode c.top .abbreviation }, true) := by
  have hf := h.fresh hn
  have hcomp : ¬ ModeKeys.Completes L.tbl c.top.pre ⟨'/'.toNat, 0⟩ := by
    rw [hf.pre]
    have hu := h.uses
    cases hu with
    | default a b => rintro ⟨_, h | h⟩ <;> (revert h; decide +kernel)
    | azik a b => rintro ⟨_, h | h⟩ <;> (revert h; decide +kernel)
  have hfind : ((c.cmds .direct c.top.inputMode).find? fun b => decide (b.1 = CommandRule.matchingKey ⟨'/'.toNat, 0⟩)).map (·.2) =
      some [.changeCompositionMode .abbreviation] := by
    rcases h.uses.cases with h1 | h1 <;> rw [h1] <;> rcases hf.rom.2 with h | h | h <;> rw [h] <;> decide +kernel
  rw [key_command _ c _ _ (by unfold IsRelease; decide) (by rw [hf.mode]; decide) (commandIs_of_find (by rw [hf.mode]; exact hfind))
    (ModeKeys.skip_iff c L.tbl _ h.uses.shipped.kana hcomp)]
  have : c.top.changeModeFrom .abbreviation c.top.mode = inMode c.top .abbreviation := changeModeFrom_eq _ _ _ hf.history
  show Except.ok (c.setCompositionMode .abbreviation, true) = _
  unfold Ctx.setCompositionMode Ctx.mapTop State.changeMode
  show Except.ok ({ c with top := c.top.changeModeFrom .abbreviation c.top.mode }, true) = _
  rw [this]

/-- In such a reading every printable character but space is typed by its key. -/
theorem letters_type (pr : Bool) (c : Ctx) (hr : c.cmds = Assets.defaultCommands ∨ c.cmds = Assets.azikCommands) (hm : c.top.mode = .abbreviation)
    (hi : c.top.inputMode = .hiragana ∨ c.top.inputMode = .katakana ∨ c.top.inputMode = .hankakuKatakana) (ch : Char) (h1 : 0x20 < ch.toNat) (h2 : ch.toNat ≤ 0x7e) :
    Spec.Types (Assets.env ⟨pr⟩) c ⟨ch.toNat, 0⟩ ch := by
  have h0 : 0x20 ≤ ch.toNat := Nat.le_of_lt h1
  refine ⟨⟨h0, h2⟩, ?_, ?_, ?_⟩
  · rintro ⟨i, _, hb⟩; simp at hb
  · show Assets.xkb.toChar ch.toNat = some ch
    unfold Assets.xkb
    simp only [h0, h2, and_self, if_true, Char.ofNat_toNat]
  · intro k hk hx
    have key : ∀ r : CommandRule, (r = Assets.defaultCommands ∨ r = Assets.azikCommands) →
        ∀ im, (im = .hiragana ∨ im = .katakana ∨ im = .hankakuKatakana) →
        ∀ k ∈ r .abbreviation im, (k.1.symbol ≤ 0x20 ∨ 0x7e < k.1.symbol) ∨ k.1.modifiers ≠ 0 := by
      rintro r (rfl | rfl) im (rfl | rfl | rfl) <;> decide +kernel
    have := key c.cmds hr c.top.inputMode hi k (by rw [← hm]; exact hk)
    rw [← matchingKey_iff] at hx
    have hs : k.1.symbol = ch.toNat := by
      rw [hx]; unfold CommandRule.matchingKey; split <;> rfl
    rcases this with h | h
    · rw [hs] at h; exact h.elim (fun h => absurd h1 (Nat.not_lt_of_le h)) (fun h => absurd h2 (Nat.not_le_of_lt h))
    · apply h
      rw [hx]; unfold CommandRule.matchingKey
      split
      · show (0 : Modifier) &&& _ = 0
        exact BitVec.zero_and
      · rfl

/-- A word looked up by Latin letters. -/
theorem writes_short (pr : Bool) {L : Layout} {g : Config} {B : List State} {c : Ctx} {p : Page} (h : At L g B c p) (hn : p.chosen = none)
    (t : Str) (n : Nat) (cs : List Candidate) (x : Candidate) (ht : ∀ ch ∈ t, 0x20 < ch.toNat ∧ ch.toNat ≤ 0x7e)
    (hcs : Dicts.getAll p.dicts ⟨t, none⟩ = .ok cs) (hx : cs[n]? = some x) :
    ∃ c', c.processKeyEvents (Assets.env ⟨pr⟩) (typed ('/' :: t) ++ List.replicate (n + 1) ⟨0x20, 0⟩) = .ok c' ∧
      At L g B c' { p with chosen := some (x, []) } := by
  have hf := h.fresh hn
  obtain ⟨hlt, _⟩ := List.getElem?_eq_some_iff.mp hx
  have k1 := slash_opens pr h hn
  have k2 := Ascii.abbreviation_verbatim (Assets.env ⟨pr⟩) (t.map fun ch => (⟨ch.toNat, 0⟩, ch)) { c with top := inMode c.top .abbreviation } rfl
    (by
      intro y hy
      obtain ⟨ch, hch, rfl⟩ := List.mem_map.mp hy
      exact letters_type pr { c with top := inMode c.top .abbreviation } h.uses.cases rfl hf.rom.2 ch (ht ch hch).1 (ht ch hch).2)
  rw [← typed_pairs, pairs_snd] at k2
  show ∃ c', c.processKeyEvents (Assets.env ⟨pr⟩) ((⟨'/'.toNat, 0⟩ : KeyEvent) :: (typed t ++ List.replicate (n + 1) ⟨0x20, 0⟩)) = .ok c' ∧ _
  rw [Ascii.pke_cons _ _ _ _ _ true k1, processKeyEvents_append _ _ _ _ _ k2]
  generalize hr : ({ inMode c.top .abbreviation with kana := t, raw := t } : State) = r
  have hc1 : (({ c with top := inMode c.top .abbreviation } : Ctx).mapTop fun s => { s with kana := s.kana ++ t, raw := s.raw ++ t }) =
      { c with top := r } := by
    subst hr
    show ({ c with top := _ } : Ctx) = _
    simp [inMode, hf.kana, hf.raw]
  rw [hc1]
  have hkm : r.inputMode ≠ .ascii ∧ r.inputMode ≠ .zenkaku := by
    subst hr
    show c.top.inputMode ≠ _ ∧ c.top.inputMode ≠ _
    obtain ⟨_, h | h | h⟩ := hf.rom <;> rw [h] <;> decide
  have hready : Ready L.tbl { c with top := r } r := by
    refine ⟨?_, hkm, ?_, .inr (.inr ⟨.inl ?_, rfl⟩), ?_⟩
    · subst hr; exact .inr (.inr rfl)
    · have hu := h.uses
      cases hu with
      | default a b => exact .inl ⟨a, b, rfl⟩
      | azik a b => exact .inr ⟨a, b, rfl⟩
    · subst hr; rfl
    · subst hr; exact remember_length _ _
  have hsp := spaces (Assets.env ⟨pr⟩) hready (cs := cs) (by
    subst hr
    have : lookupKey { inMode c.top .abbreviation with kana := t, raw := t } = ⟨t, none⟩ := by
      simp [lookupKey, inMode, hf.okuri]
    rw [this]
    show Dicts.getAll c.dicts _ = _
    rw [h.dicts]; exact hcs) n hlt
  refine ⟨_, hsp, ?_⟩
  subst hr
  refine ⟨h.uses.congr rfl rfl, h.below, h.config, h.text, h.mode, h.dicts, h.default, ?_⟩
  refine ⟨⟨.inl rfl, hx, hf.rom.2, h.default⟩, rfl, hf.pre, hf.okuri⟩

end Cskk.Props.Wishes

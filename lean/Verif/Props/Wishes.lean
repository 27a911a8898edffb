import Verif.Props.WishTables
import Verif.Props.Openings

/-!
# C93: whatever the dictionaries and the kana can express can be written
-/

namespace Cskk.Props.Wishes

open Spec Spec.Typing Spec.Document Spec.Wishes Spec.Teach Romaji KanaBuilder Navigate Convert Typing Words ShippedTyping WordCycle Document

/-- The limits which belong to a layout. -/
inductive Within : Layout → Limits → Prop where
  | default : Within defaultLayout defaultLimits
  | azik : Within azikLayout azikLimits

theorem Within.covers {L : Layout} {m : Limits} (h : Within L m) : covers L m = true := by
  cases h
  · exact default_covers
  · exact azik_covers

theorem covered {L : Layout} {m : Limits} (h : Within L m) {ch : Char} (hu : Usable m ch) :
    (∃ k, KeysOf L ch k) ∧ (ch ∉ m.okuri → ∃ k, (okuri? L k || vowel? L k) = true ∧ KeysOf L ch k) := by
  have hc := List.all_eq_true.mp h.covers ch (mem_alphabet hu.1)
  simp only [Bool.or_eq_true, Bool.and_eq_true, decide_eq_true_eq] at hc
  obtain ⟨h1, h3⟩ := hc.resolve_left hu.2
  refine ⟨?_, fun hn => found_iff (h3.resolve_left hn)⟩
  obtain ⟨k, _, hk⟩ := found_iff h1
  exact ⟨k, hk⟩

theorem to_char {s : Keysym} (h : 0x21 ≤ s ∧ s ≤ 0x7e) : (Char.ofNat s).toNat = s := by
  have hv : Nat.isValidChar s := Or.inl (Nat.lt_of_le_of_lt h.2 (by decide))
  unfold Char.ofNat
  rw [dif_pos hv]
  show (Char.ofNatAux s hv).toNat = s
  simp [Char.ofNatAux, Char.toNat]

/-- A key of a kana, as a character. -/
structure Good (L : Layout) (y : Char) : Prop where
  plain : Plain y
  direct : y ∉ L.commands .direct
  reading : y ∉ L.commands .preComposition
  okuri : y ∉ L.commands .preCompositionOkurigana
  period : y ≠ '.'
  comma : y ≠ ','

theorem KeysOf.chars {L : Layout} {ch : Char} {k : List Keysym} (h : KeysOf L ch k) :
    (k.map Char.ofNat).map Char.toNat = k ∧ ∀ y ∈ k.map Char.ofNat, Good L y := by
  constructor
  · rw [List.map_map]
    conv => rhs; rw [← List.map_id k]
    exact List.map_congr_left fun x hx => to_char ⟨(h.keys x hx).1, (h.keys x hx).2.1⟩
  · intro y hy
    obtain ⟨s, hs, rfl⟩ := List.mem_map.mp hy
    obtain ⟨a, b, c, d, e, f, g, i⟩ := h.keys s hs
    have hc := to_char ⟨a, b⟩
    refine ⟨⟨by rw [hc]; exact Nat.le_trans (by decide) a, by rw [hc]; exact b, by rw [hc]; exact c⟩, f, g, i, ?_, ?_⟩
    · intro hy; rw [hy] at hc; exact d hc.symm
    · intro hy; rw [hy] at hc; exact e hc.symm

theorem spell_one {L : Layout} {ch : Char} {k : List Keysym} (h : KeysOf L ch k) {t : Str} {ws : List Str} (ht : Spells L.tbl [] t ws) :
    Spells L.tbl [] (k.map Char.ofNat ++ t) ([ch] :: ws) := by
  refine .piece [] _ t [ch] [] ws (by simpa using h.ne) ?_ ?_ ?_ ht
  · rw [List.nil_append, h.chars.1]; exact h.value
  · rw [List.nil_append, h.chars.1]; exact h.whole
  · intro y hy
    have := h.chars.2 y (List.dropLast_subset _ hy)
    exact ⟨this.period, this.comma⟩

/-- Every text of usable kana has keys. -/
theorem spell {L : Layout} {m : Limits} (h : Within L m) (w : Str) (hw : ∀ ch ∈ w, Usable m ch) :
    ∃ t : Str, (∀ y ∈ t, Good L y) ∧ Spells L.tbl [] t (w.map fun ch => [ch]) ∧ (w ≠ [] → t ≠ []) := by
  induction w with
  | nil => exact ⟨[], by simp, .done, by simp⟩
  | cons ch w ih =>
    obtain ⟨t, h1, h2, _⟩ := ih fun x hx => hw x (List.mem_cons_of_mem _ hx)
    obtain ⟨k, hk⟩ := (covered h (hw ch (List.mem_cons_self ..))).1
    refine ⟨k.map Char.ofNat ++ t, ?_, spell_one hk h2, ?_⟩
    · intro y hy
      rcases List.mem_append.mp hy with hy | hy
      · exact hk.chars.2 y hy
      · exact h1 y hy
    · intro _ hn
      exact hk.ne (by simpa using (List.append_eq_nil_iff.mp hn).1)

/-- The capital letter of a letter. -/
def big (s : Keysym) : Char := Char.ofNat (s - 0x20)

theorem big_nat (s : Nat) (a : 0x61 ≤ s) (b : s ≤ 0x7a) : (big s).toNat = s - 0x20 ∧ 0x41 ≤ (big s).toNat ∧ (big s).toNat ≤ 0x5a ∧
    (big s).toNat + 0x20 = s := by
  have hb : (big s).toNat = s - 0x20 := to_char (s := s - 0x20) ⟨(by omega : (0x21 : Nat) ≤ s - 0x20), (by omega : s - 0x20 ≤ (0x7e : Nat))⟩
  exact ⟨hb, by rw [hb]; omega, by rw [hb]; omega, by rw [hb]; omega⟩

theorem big_small {L : Layout} {m : CompositionMode} {s : Keysym} (h : Starts L m s) :
    Initial L m (big s) ∧ (big s).toNat = s - 0x20 ∧ (big s).toNat + 0x20 = s ∧ small (big s) = Char.ofNat s := by
  obtain ⟨a, b, c, d, e⟩ := h
  obtain ⟨hb, h1, h2, hs⟩ := big_nat s a b
  refine ⟨⟨h1, h2, ?_, d, by rw [hs]; exact e⟩, hb, hs, by unfold small; rw [hs]⟩
  intro hu
  rw [hu] at hs
  exact c (by rw [← hs]; decide)

/-- Beginnings of a text, kana by kana. -/
theorem prefix_flat {r : Str} {v : List Str} (h : v <+: r.map fun ch => [ch]) : v.flatten <+: r := by
  obtain ⟨n, hn⟩ : ∃ n, v = (r.map fun ch => [ch]).take n := ⟨v.length, List.prefix_iff_eq_take.mp h⟩
  rw [hn, ← List.map_take]
  have : ∀ l : Str, (l.map fun ch => [ch]).flatten = l := by
    intro l; induction l <;> simp_all
  rw [this]
  exact List.take_prefix n r

theorem flat (l : Str) : (l.map fun ch => [ch]).flatten = l := by
  induction l <;> simp_all

/-- The keys of a readable text after the opening key. -/
theorem spell_word {L : Layout} {m : Limits} (h : Within L m) {g : Config} {r : Str} (hr : Readable m g r) :
    ∃ t : Str, (∀ y ∈ t, Good L y) ∧ Spells L.tbl [] t (r.map fun ch => [ch]) ∧ (r.map fun ch => [ch]) ≠ [] ∧
      (∀ v, v <+: (r.map fun ch => [ch]) → ∀ kw ∈ g.keywords, kw <:+ v.flatten → kw = v.flatten) ∧ (r.map fun ch => [ch]).flatten ≠ [] := by
  obtain ⟨t, h1, h2, _⟩ := spell h r hr.kana
  exact ⟨t, h1, h2, by simpa using hr.ne, fun v hv kw hkw he => hr.quiet _ (prefix_flat hv) kw hkw he, by rw [flat]; exact hr.ne⟩

/-- The page of a sheet: in hiragana, with no word shown. -/
def page (s : Sheet) : Page := ⟨s.text, .hiragana, s.dicts, none⟩

theorem form_hiragana (p : Bool) (w : Str) : (Assets.env ⟨p⟩).kanaForm.adjust .hiragana w = w := rfl

theorem writes_all_append {L : Layout} {g : Config} {form : InputMode → Str → Str} {p q r : Page} {xs ys : List Passage}
    (h : WritesAll L g form p xs q) (h' : WritesAll L g form q ys r) : WritesAll L g form p (xs ++ ys) r := by
  induction h with
  | nil => exact h'
  | cons h1 _ ih => exact .cons h1 (ih h')

/-- Kana in one of the kana modes. -/
theorem write_kana {L : Layout} {m : Limits} (h : Within L m) (p : Bool) (g : Config) (q : Page) (hq : q.chosen = none) (w : Str)
    (hw : ∀ ch ∈ w, Usable m ch) (f : Char → Char) (hf : ∀ ch ∈ w, (Assets.env ⟨p⟩).kanaForm.adjust q.mode [ch] = [f ch]) :
    ∃ xs, WritesAll L g (Assets.env ⟨p⟩).kanaForm.adjust q xs { q with text := q.text ++ w.map f } := by
  by_cases hne : w = []
  · subst hne
    exact ⟨[], by simpa using WritesAll.nil q⟩
  · obtain ⟨t, hg, hs, ht⟩ := spell h w hw
    cases t with
    | nil => exact absurd rfl (ht hne)
    | cons y t =>
      obtain ⟨b', hb, hb'⟩ := spells_text L.tbl g.period g.comma [] _ _ hs [] false
      rw [hb' (.inr rfl), List.nil_append] at hb
      refine ⟨[.kana (y :: t)], .cons (.kana q y t _ (fun x hx => ⟨(hg x hx).plain, (hg x hx).direct⟩) hb (.inl hq)) ?_⟩
      have hset : q.settled (Assets.env ⟨p⟩).kanaForm.adjust = q := by unfold Page.settled; rw [hq]
      have hr : rendered ((Assets.env ⟨p⟩).kanaForm.adjust q.mode) ((w.map fun ch => [ch]).map Piece.kana) = w.map f := by
        rw [rendered_kana, List.map_map]
        have : (w.map ((Assets.env ⟨p⟩).kanaForm.adjust q.mode ∘ fun ch => [ch])) = (w.map f).map fun ch => [ch] := by
          rw [List.map_map]
          exact List.map_congr_left fun x hx => hf x hx
        rw [this, flat]
      rw [hset, hr]
      exact .nil _

/-- Keys which lead from one page to another, whatever the context. -/
def Types (p : Bool) (L : Layout) (g : Config) (q q' : Page) : Prop :=
  ∃ keys, ∀ B c, At L g B c q →
    (∃ c', c.processKeyEvents (Assets.env ⟨p⟩) keys = .ok c' ∧ At L g B c' q') ∧
    ∀ ev ∈ keys, (∃ ch : Char, ev = ⟨ch.toNat, 0⟩ ∧ 0x20 ≤ ch.toNat ∧ ch.toNat ≤ 0x7e) ∨ ev = ⟨0x6a, 4⟩

theorem types_of_writes {p : Bool} {L : Layout} {g : Config} {q q' : Page} {xs : List Passage}
    (h : WritesAll L g (Assets.env ⟨p⟩).kanaForm.adjust q xs q') : Types p L g q q' :=
  ⟨_, fun _ _ hc => ⟨written p hc h, written_keys hc.uses h⟩⟩

theorem Types.trans {p : Bool} {L : Layout} {g : Config} {q q' q'' : Page} (h : Types p L g q q') (h' : Types p L g q' q'') : Types p L g q q'' := by
  obtain ⟨k, hk⟩ := h
  obtain ⟨k', hk'⟩ := h'
  refine ⟨k ++ k', fun B c hc => ?_⟩
  obtain ⟨⟨c1, e1, a1⟩, s1⟩ := hk B c hc
  obtain ⟨⟨c2, e2, a2⟩, s2⟩ := hk' B c1 a1
  refine ⟨⟨c2, by rw [processKeyEvents_append _ _ _ _ _ e1]; exact e2, a2⟩, fun ev hev => ?_⟩
  exact (List.mem_append.mp hev).elim (s1 ev) (s2 ev)

theorem typed_class (t : Str) (h : ∀ ch ∈ t, 0x20 ≤ ch.toNat ∧ ch.toNat ≤ 0x7e) :
    ∀ ev ∈ typed t, ∃ ch : Char, ev = ⟨ch.toNat, 0⟩ ∧ 0x20 ≤ ch.toNat ∧ ch.toNat ≤ 0x7e := by
  intro ev hev
  obtain ⟨ch, hch, rfl⟩ := List.mem_map.mp hev
  exact ⟨ch, rfl, h ch hch⟩

theorem opening_class {L : Layout} (t : Str) (h : ∀ y ∈ t, Good L y) :
    ∀ ev ∈ typed (opener L :: t), (∃ ch : Char, ev = ⟨ch.toNat, 0⟩ ∧ 0x20 ≤ ch.toNat ∧ ch.toNat ≤ 0x7e) ∨ ev = ⟨0x6a, 4⟩ := by
  intro ev hev
  refine .inl (typed_class _ ?_ ev hev)
  intro y hy
  rcases List.mem_cons.mp hy with rfl | hy
  · exact opener_printable L
  · exact ⟨(h y hy).plain.1, (h y hy).plain.2.1⟩

theorem spaces_class (n : Nat) : ∀ ev ∈ List.replicate n (⟨0x20, 0⟩ : KeyEvent),
    (∃ ch : Char, ev = ⟨ch.toNat, 0⟩ ∧ 0x20 ≤ ch.toNat ∧ ch.toNat ≤ 0x7e) ∨ ev = ⟨0x6a, 4⟩ := fun _ hev =>
  .inl ⟨' ', List.eq_of_mem_replicate hev, by decide, by decide⟩

/-- A word by its reading. -/
theorem types_word {L : Layout} {m : Limits} (h : Within L m) (p : Bool) {g : Config} (s : Sheet) (r : Str) (n : Nat) (cs : List Candidate)
    (x : Candidate) (hr : Readable m g r) (hcs : Dicts.getAll s.dicts ⟨r, none⟩ = .ok cs) (hx : cs[n]? = some x) :
    Types p L g (page s) { page s with chosen := some (x, []) } := by
  obtain ⟨t, hg, hs, ht, hq, hne⟩ := spell_word h hr
  refine ⟨typed (opener L :: t) ++ List.replicate (n + 1) ⟨0x20, 0⟩, fun B c hc => ⟨?_, fun ev hev => ?_⟩⟩
  · exact writes_opened p hc rfl t _ n cs x (fun y hy => ⟨(hg y hy).plain, (hg y hy).reading⟩) hs ht hq (by rw [flat]; exact hcs) hx
  · exact (List.mem_append.mp hev).elim (opening_class t hg ev) (spaces_class _ ev)

/-- A word by Latin letters. -/
theorem types_short (p : Bool) {L : Layout} {g : Config} (s : Sheet) (t : Str) (n : Nat) (cs : List Candidate) (x : Candidate)
    (ht : ∀ ch ∈ t, 0x20 < ch.toNat ∧ ch.toNat ≤ 0x7e) (hcs : Dicts.getAll s.dicts ⟨t, none⟩ = .ok cs) (hx : cs[n]? = some x) :
    Types p L g (page s) { page s with chosen := some (x, []) } := by
  refine ⟨typed ('/' :: t) ++ List.replicate (n + 1) ⟨0x20, 0⟩, fun B c hc => ⟨writes_short p hc rfl t n cs x ht hcs hx, fun ev hev => ?_⟩⟩
  refine (List.mem_append.mp hev).elim (fun hev => .inl (typed_class _ ?_ ev hev)) (spaces_class _ ev)
  intro y hy
  rcases List.mem_cons.mp hy with rfl | hy
  · decide
  · exact ⟨Nat.le_of_lt (ht y hy).1, (ht y hy).2⟩

/-- A word with okurigana. -/
theorem types_okuri {L : Layout} {m : Limits} (h : Within L m) (p : Bool) {g : Config} (s : Sheet) (r : Str) (k : Char) (n : Nat) (cs : List Candidate)
    (x : Candidate) (hr : Readable m g r) (hk : Usable m k) (ho : k ∉ m.okuri)
    (hcs : Dicts.getAll s.dicts ⟨r, some [k]⟩ = .ok cs) (hx : cs[n]? = some x) :
    Types p L g (page s) { page s with chosen := some (x, [k]) } := by
  obtain ⟨t, hg, hs, ht, hqq, hne⟩ := spell_word h hr
  obtain ⟨q, hbv, hq⟩ := (covered h hk).2 ho
  have hp : ∀ y ∈ t, Plain y ∧ y ∉ L.commands .preComposition := fun y hy => ⟨(hg y hy).plain, (hg y hy).reading⟩
  rw [Bool.or_eq_true] at hbv
  rcases hbv with hb | hb
  · cases q with
    | nil => exact absurd rfl hq.ne
    | cons c q =>
      simp only [okuri?, Bool.and_eq_true, bne_iff_ne, ne_eq, decide_eq_true_eq] at hb
      obtain ⟨⟨hq0, hcn⟩, hst⟩ := hb
      obtain ⟨i', _, b20, sm⟩ := big_small hst
      have hgc := hq.chars.2
      have hct := hq.chars.1
      rw [List.map_cons, List.map_cons, List.cons.injEq] at hct
      have hval : valueOf L.tbl ([c] ++ (q.map Char.ofNat).map Char.toNat) = some ([k], []) := by rw [hct.2]; exact hq.value
      have hext : extendable L.tbl ([c] ++ (q.map Char.ofNat).map Char.toNat) = false := by rw [hct.2]; exact hq.whole
      have hgood : ∀ y ∈ q.map Char.ofNat, Good L y := fun y hy => hgc y (by rw [List.map_cons]; exact List.mem_cons_of_mem _ hy)
      refine ⟨typed (opener L :: t) ++ (typed (big c :: q.map Char.ofNat) ++ List.replicate n ⟨0x20, 0⟩), fun B ctx hc => ⟨?_, fun ev hev => ?_⟩⟩
      · refine writes_opened_okuri p hc rfl t _ (big c) (q.map Char.ofNat) n [k] cs x hp hs ht hqq hne i' (by rw [b20]; exact hcn)
          (fun y hy => ⟨(hgood y hy).plain, (hgood y hy).okuri⟩) ?_ (by simp) (by rw [flat]; exact hcs) hx
        rw [b20]
        refine .last [c] _ [k] (by simpa using hq0) hval hext ?_
        intro y hy
        have := hgood y (List.dropLast_subset _ hy)
        exact ⟨this.period, this.comma⟩
      · rcases List.mem_append.mp hev with hev | hev
        · exact opening_class t hg ev hev
        · refine (List.mem_append.mp hev).elim (fun hev => .inl (typed_class _ ?_ ev hev)) (spaces_class _ ev)
          intro y hy
          rcases List.mem_cons.mp hy with rfl | hy
          · have := i'.1; have := i'.2.1; omega
          · exact ⟨(hgood y hy).plain.1, (hgood y hy).plain.2.1⟩
  · unfold vowel? at hb
    split at hb
    · rename_i c
      simp only [Bool.and_eq_true, decide_eq_true_eq, Bool.not_eq_true'] at hb
      obtain ⟨⟨b1, b2⟩, b3⟩ := hb
      obtain ⟨c1, c2, c3, c4⟩ := big_nat c b1 b2
      have hcomp : completed L.tbl [c] = some ([k], []) := by
        unfold completed; rw [hq.whole, if_neg (by simp), hq.value]
      refine ⟨typed (opener L :: t) ++ ([⟨(big c).toNat, 0⟩] ++ List.replicate n ⟨0x20, 0⟩), fun B ctx hc => ⟨?_, fun ev hev => ?_⟩⟩
      · exact writes_opened_vowel p hc rfl t _ (big c) n [k] cs x hp hs ht hqq hne ⟨c2, c3, by rw [c1]; exact b3⟩
          (by rw [c4]; exact hcomp) (by simp) (by rw [flat]; exact hcs) hx
      · rcases List.mem_append.mp hev with hev | hev
        · exact opening_class t hg ev hev
        · refine (List.mem_append.mp hev).elim (fun hev => .inl ⟨big c, List.mem_singleton.mp hev, by omega, by omega⟩) (spaces_class _ ev)
    · cases hb

/-- The chosen word is made part of the text with Ctrl-j. -/
theorem types_confirm (p : Bool) {L : Layout} {g : Config} (s : Sheet) (x : Candidate) (o : Str) :
    Types p L g { page s with chosen := some (x, o) } (page ⟨s.text ++ (x.output ++ o), s.dicts.map fun (d : CskkDict) => d.confirm x⟩) := by
  refine types_of_writes (xs := [.confirm]) (.cons (.confirm _ (x, o) rfl) ?_)
  have : ({ page s with chosen := some (x, o) } : Page).settled (Assets.env ⟨p⟩).kanaForm.adjust =
      page ⟨s.text ++ (x.output ++ o), s.dicts.map fun (d : CskkDict) => d.confirm x⟩ := by
    simp [Page.settled, page, form_hiragana]
  rw [this]
  exact .nil _

theorem granted_once {L : Layout} {m : Limits} (h : Within L m) (p : Bool) {g : Config} {s s' : Sheet} {w : Wish} (hw : Grants m g s w s') :
    Types p L g (page s) (page s') := by
  cases hw with
  | hiragana w hw =>
    obtain ⟨xs, hx⟩ := write_kana h p g (page s) rfl w hw id fun ch _ => form_hiragana p _
    exact types_of_writes (xs := xs) (by simpa [page] using hx)
  | katakana w hw =>
    obtain ⟨xs, hx⟩ := write_kana h p g { page s with mode := .katakana } rfl w hw Spec.Wishes.katakana
      fun ch hc => katakana_form p ch (mem_alphabet (hw ch hc).1)
    exact types_of_writes (.cons (.toggle (page s) rfl) (writes_all_append hx (.cons (.toggle _ rfl) (.nil _))))
  | word r n cs x hr hcs hx => simpa using (types_word h p s r n cs x hr hcs hx).trans (types_confirm p s x [])
  | okuri r k n cs x hr hk ho hcs hx => exact (types_okuri h p s r k n cs x hr hk ho hcs hx).trans (types_confirm p s x [k])
  | short t n cs x ht hcs hx => simpa using (types_short p s t n cs x ht hcs hx).trans (types_confirm p s x [])
  | latin t ht => exact types_of_writes (.cons (.latin (page s) t rfl ht) (.nil _))

theorem granted {L : Layout} {m : Limits} (h : Within L m) (p : Bool) {g : Config} {s s' : Sheet} {ws : List Wish} (hw : GrantsAll m g s ws s') :
    Types p L g (page s) (page s') := by
  induction hw with
  | nil s => exact types_of_writes (.nil _)
  | cons h1 _ ih => exact (granted_once h p h1).trans ih

/-- **C93.** Whatever is wanted — hiragana, katakana, words by their readings or by Latin letters, words with okurigana, passages of Latin letters, in any order — there
are keys (printable characters and Ctrl-j) which write exactly this, at a context with the rule, in direct hiragana input with nothing typed; and the dictionaries learn exactly the
words that were wanted. -/
theorem everything_can_be_written {L : Layout} {m : Limits} (hl : Within L m) (p : Bool) (c : Ctx) (hu : Uses c L) (hf : Fresh c)
    (hb : c.below = []) (hi : c.top.inputMode = .hiragana) (hd : c.top.defaultMode = .direct) (ws : List Wish) (s : Sheet)
    (hw : GrantsAll m c.config ⟨c.top.confirmed, c.dicts⟩ ws s) :
    ∃ keys c', c.processKeyEvents (Assets.env ⟨p⟩) keys = .ok c' ∧ c'.pollOutput.2 = (if s.text = [] then none else some s.text) ∧
      c'.dicts = s.dicts ∧
      ∀ ev ∈ keys, (∃ ch : Char, ev = ⟨ch.toNat, 0⟩ ∧ 0x20 ≤ ch.toNat ∧ ch.toNat ≤ 0x7e) ∨ ev = ⟨0x6a, 4⟩ := by
  obtain ⟨keys, hk⟩ := granted hl p hw
  obtain ⟨⟨c', h1, h'⟩, h3⟩ := hk [] c (show At L c.config [] c (page ⟨c.top.confirmed, c.dicts⟩) from ⟨hu, hb, rfl, rfl, hi, rfl, hd, hf⟩)
  refine ⟨keys, c', h1, ?_, h'.dicts, h3⟩
  rw [Output.poll_returns_pending, pending_of_at h']
  rfl

/-- With the configuration of a new context every reading of hiragana can be typed: the keywords are punctuation. -/
theorem readable_default {m : Limits} (r : Str) (h : ∀ ch ∈ r, Usable m ch) (hf : r ≠ []) :
    Readable m Config.default r := by
  refine ⟨h, hf, ?_⟩
  intro v hv kw hkw he
  exfalso
  have hone : ∃ y, kw = [y] ∧ ¬ Hiragana y := by
    simp only [Config.default, List.mem_cons, List.not_mem_nil, or_false] at hkw
    rcases hkw with rfl | rfl | rfl | rfl <;> exact ⟨_, rfl, by unfold Hiragana; decide⟩
  obtain ⟨y, rfl, hy⟩ := hone
  exact hy (h y (hv.subset (he.subset (by simp)))).1

theorem no_digits : ∀ ch ∈ alphabet, Cskk.isNd ch = false := by decide +kernel

/-- **C93.** Every word which some dictionary lists for a reading of hiragana can be written. -/
theorem every_word {L : Layout} {m : Limits} (hl : Within L m) (p : Bool) (c : Ctx) (hu : Uses c L) (hf : Fresh c) (hb : c.below = [])
    (hi : c.top.inputMode = .hiragana) (hd : c.top.defaultMode = .direct) (r w : Str) (hr : Readable m c.config r)
    (hw : Candidates.Known c.dicts none r w) (hne : w ≠ []) :
    ∃ keys c', c.processKeyEvents (Assets.env ⟨p⟩) keys = .ok c' ∧ c'.pollOutput.2 = some (c.top.confirmed ++ w) ∧
      ∀ ev ∈ keys, (∃ ch : Char, ev = ⟨ch.toNat, 0⟩ ∧ 0x20 ≤ ch.toNat ∧ ch.toNat ≤ 0x7e) ∨ ev = ⟨0x6a, 4⟩ := by
  obtain ⟨cs, key, h1, h2, _, h4⟩ := Candidates.offered_words c.dicts ⟨r, none⟩ (by simp)
    (by show (Cskk.Numeric.numericKey r).1 = r; rw [Props.Numeric.numeric_key_no_digits _ fun ch hch => no_digits ch (mem_alphabet (hr.kana ch hch).1)])
  have hk : key = r := h2
  rw [hk] at h4
  obtain ⟨x, hx, rfl⟩ := List.mem_map.mp ((h4 w).mpr hw)
  obtain ⟨n, hn⟩ := List.getElem?_of_mem hx
  obtain ⟨keys, c', k1, k2, _, k4⟩ := everything_can_be_written hl p c hu hf hb hi hd [.word r n] _ (.cons (.word _ r n cs x hr h1 hn) (.nil _))
  exact ⟨keys, c', k1, k2.trans (if_neg (by simp [hne])), k4⟩

/-- **C93.** Every word which some dictionary lists for Latin letters can be written. -/
theorem every_short {L : Layout} {m : Limits} (hl : Within L m) (p : Bool) (c : Ctx) (hu : Uses c L) (hf : Fresh c) (hb : c.below = [])
    (hi : c.top.inputMode = .hiragana) (hd : c.top.defaultMode = .direct) (t w : Str)
    (ht : ∀ ch ∈ t, 0x20 < ch.toNat ∧ ch.toNat ≤ 0x7e ∧ ¬ (0x30 ≤ ch.toNat ∧ ch.toNat ≤ 0x39))
    (hw : Candidates.Known c.dicts none t w) (hne : w ≠ []) :
    ∃ keys c', c.processKeyEvents (Assets.env ⟨p⟩) keys = .ok c' ∧ c'.pollOutput.2 = some (c.top.confirmed ++ w) ∧
      ∀ ev ∈ keys, (∃ ch : Char, ev = ⟨ch.toNat, 0⟩ ∧ 0x20 ≤ ch.toNat ∧ ch.toNat ≤ 0x7e) ∨ ev = ⟨0x6a, 4⟩ := by
  obtain ⟨cs, key, h1, h2, _, h4⟩ := Candidates.offered_words c.dicts ⟨t, none⟩ (by simp)
    (by
      show (Cskk.Numeric.numericKey t).1 = t
      refine congrArg Prod.fst (Props.Numeric.numeric_key_no_digits t fun ch hch => ?_)
      obtain ⟨a, b, d⟩ := ht ch hch
      have key : ∀ n : Fin 128, 0x20 < n.val → n.val ≤ 0x7e → ¬ (0x30 ≤ n.val ∧ n.val ≤ 0x39) → Cskk.isNd (Char.ofNat n.val) = false := by decide +kernel
      have := key ⟨ch.toNat, by omega⟩ a b d
      rwa [show Char.ofNat (⟨ch.toNat, by omega⟩ : Fin 128).val = ch from Char.ofNat_toNat ch] at this)
  have hk : key = t := h2
  rw [hk] at h4
  obtain ⟨x, hx, rfl⟩ := List.mem_map.mp ((h4 w).mpr hw)
  obtain ⟨n, hn⟩ := List.getElem?_of_mem hx
  obtain ⟨keys, c', k1, k2, _, k4⟩ := everything_can_be_written hl p c hu hf hb hi hd [.short t n] _
    (.cons (.short _ t n cs x (fun ch hch => ⟨(ht ch hch).1, (ht ch hch).2.1⟩) h1 hn) (.nil _))
  exact ⟨keys, c', k1, k2.trans (if_neg (by simp [hne])), k4⟩

/-- The hypotheses are met: α is listed for `Greek`. -/
example : Candidates.Known [⟨true, .static ⟨[], [(c%"Greek", ⟨c%"Greek", false, [([], [⟨c%"α", none⟩, ⟨c%"β", none⟩])]⟩)]⟩⟩] none c%"Greek" c%"α" := by
  have : ∃ d ∈ ([⟨true, .static ⟨[], [(c%"Greek", ⟨c%"Greek", false, [([], [⟨c%"α", none⟩, ⟨c%"β", none⟩])]⟩)]⟩⟩] : List CskkDict),
      ∃ c ∈ Candidates.answers d none c%"Greek", c.kouho = c%"α" := by decide +kernel
  exact this

/-- The hypotheses are met: 私 is listed by a dictionary of `shelf`. -/
example : Candidates.Known blank.dicts none c%"わたし" c%"私" ∧ Readable defaultLimits blank.config c%"わたし" := by
  refine ⟨?_, readable_default _ (by unfold Usable Hiragana; decide) (by decide)⟩
  have : ∃ d ∈ blank.dicts, ∃ c ∈ Candidates.answers d none c%"わたし", c.kouho = c%"私" := by decide +kernel
  exact this

/-- The hypotheses are met: 私は送るテストOK is granted with the dictionaries of `shelf`. -/
example (p : Bool) : ∃ keys c', blank.processKeyEvents (Assets.env ⟨p⟩) keys = .ok c' ∧ c'.pollOutput.2 = some c%"私は送るテストOK" := by
  have hw : GrantsAll defaultLimits Config.default ⟨[], shelf⟩
      [.word c%"わたし" 0, .hiragana c%"は", .okuri c%"おく" 'る' 1, .katakana c%"てすと", .latin c%"OK"] _ :=
    .cons (.word _ _ 0 [⟨c%"わたし", none, false, c%"私", none, c%"私"⟩] _
        (readable_default _ (by unfold Usable Hiragana; decide) (by decide)) (by decide +kernel) rfl)
    (.cons (.hiragana _ c%"は" (by unfold Usable Hiragana; decide))
    (.cons (.okuri _ _ 'る' 1 [⟨c%"おくr", some c%"る", true, c%"贈", none, c%"贈"⟩, ⟨c%"おくr", some c%"る", true, c%"送", none, c%"送"⟩] _
        (readable_default _ (by unfold Usable Hiragana; decide) (by decide)) (by unfold Usable Hiragana; decide) (by decide)
        (by decide +kernel) rfl)
    (.cons (.katakana _ c%"てすと" (by unfold Usable Hiragana; decide))
    (.cons (.latin _ c%"OK" (by decide)) (.nil _)))))
  obtain ⟨keys, c', h1, h2, _⟩ := everything_can_be_written .default p blank (.default rfl rfl) blank_at.level rfl rfl rfl _ _ hw
  exact ⟨keys, c', h1, h2.trans (by decide +kernel)⟩

/-- A context with AZIK and one word with okurigana. -/
def saying : Ctx :=
  let d : CskkDict := ⟨true, .static ⟨[(c%"いu", ⟨c%"いu", true, [([], [⟨c%"言", none⟩])]⟩)], []⟩⟩
  Ctx.new Assets.azikCommands Assets.azikKana .hiragana .direct [d]

/-- Okurigana of one vowel, under AZIK: 言うカ. -/
example (p : Bool) : ∃ keys c', saying.processKeyEvents (Assets.env ⟨p⟩) keys = .ok c' ∧ c'.pollOutput.2 = some c%"言うカ" := by
  have hw : GrantsAll azikLimits Config.default ⟨[], saying.dicts⟩ [.okuri c%"い" 'う' 0, .katakana c%"か"] _ :=
    .cons (.okuri _ _ 'う' 0 [⟨c%"いu", some c%"う", true, c%"言", none, c%"言"⟩] _
        (readable_default _ (by unfold Usable Hiragana; decide) (by decide)) (by unfold Usable Hiragana; decide) (by decide)
        (by decide +kernel) rfl)
    (.cons (.katakana _ c%"か" (by unfold Usable Hiragana; decide)) (.nil _))
  obtain ⟨keys, c', h1, h2, _⟩ := everything_can_be_written .azik p saying (.azik rfl rfl)
    ⟨⟨.inl rfl, .inl rfl⟩, rfl, rfl, rfl, rfl, rfl, rfl, by show (0 : Nat) ≤ 20; omega⟩ rfl rfl rfl _ _ hw
  exact ⟨keys, c', h1, h2.trans (by decide +kernel)⟩

/-- Texts of any length are granted. -/
example (m : Limits) (g : Config) (s : Sheet) (w : Str) (h : ∀ ch ∈ w, Usable m ch) (n : Nat) :
    ∃ s', GrantsAll m g s (List.replicate n (.hiragana w)) s' := by
  induction n generalizing s with
  | zero => exact ⟨s, .nil s⟩
  | succ n ih =>
    obtain ⟨s', hs⟩ := ih ⟨s.text ++ w, s.dicts⟩
    exact ⟨s', .cons (.hiragana s w h) hs⟩

/-- The kana which AZIK's limits leave out are in no entry of its table; so no romaji writes them. -/
theorem azik_never : ∀ x ∈ Assets.azikRomaji, ∀ ch ∈ azikLimits.never, ch ∉ x.2.1 := by decide +kernel

/-- Under AZIK a reading may begin with う and with ー, and a word may have Latin letters for a reading. -/
example (p : Bool) :
    let d : CskkDict := ⟨true, .static ⟨[], [(c%"うた", ⟨c%"うた", false, [([], [⟨c%"歌", none⟩])]⟩), (c%"ーか", ⟨c%"ーか", false, [([], [⟨c%"化", none⟩])]⟩),
      (c%"Greek", ⟨c%"Greek", false, [([], [⟨c%"α", none⟩, ⟨c%"β", none⟩])]⟩)]⟩⟩
    let c := Ctx.new Assets.azikCommands Assets.azikKana .hiragana .direct [d]
    ∃ keys c', c.processKeyEvents (Assets.env ⟨p⟩) keys = .ok c' ∧ c'.pollOutput.2 = some c%"歌化β" := by
  intro d c
  have hw : GrantsAll azikLimits Config.default ⟨[], [d]⟩ [.word c%"うた" 0, .word c%"ーか" 0, .short c%"Greek" 1] _ :=
    .cons (.word _ _ 0 [⟨c%"うた", none, false, c%"歌", none, c%"歌"⟩] _
        (readable_default _ (by unfold Usable Hiragana; decide) (by decide)) (by decide +kernel) rfl)
    (.cons (.word _ _ 0 [⟨c%"ーか", none, false, c%"化", none, c%"化"⟩] _
        (readable_default _ (by unfold Usable Hiragana; decide) (by decide)) (by decide +kernel) rfl)
    (.cons (.short _ c%"Greek" 1 [⟨c%"Greek", none, false, c%"α", none, c%"α"⟩, ⟨c%"Greek", none, false, c%"β", none, c%"β"⟩] _ (by decide)
        (by decide +kernel) rfl) (.nil _)))
  obtain ⟨keys, c', h1, h2, _⟩ := everything_can_be_written .azik p c (.azik rfl rfl)
    ⟨⟨.inl rfl, .inl rfl⟩, rfl, rfl, rfl, rfl, rfl, rfl, by show (0 : Nat) ≤ 20; omega⟩ rfl rfl rfl _ _ hw
  exact ⟨keys, c', h1, h2.trans (by decide +kernel)⟩

/-- **Violation.** A reading which begins with ー cannot be typed with a capital letter: no key for ー is a letter. After `Q` it can (here ーか). -/
theorem begins_with_mark (p : Bool) :
    let d : List CskkDict := [⟨true, .static ⟨[], [(c%"ーか", ⟨c%"ーか", false, [([], [⟨c%"化", none⟩])]⟩)]⟩⟩]
    let c := Ctx.new Assets.defaultCommands Assets.defaultKana .hiragana .direct d
    ((c.processKeyEvents (Assets.env ⟨p⟩) (typed c%"-Ka ")).toOption.map fun c => c.candidates) = some [] ∧
    ((c.processKeyEvents (Assets.env ⟨p⟩) (typed c%"Q-ka ")).toOption.map fun c => c.candidates.map Candidate.output) = some [c%"化"] := by
  cases p <;> decide +kernel

end Cskk.Props.Wishes

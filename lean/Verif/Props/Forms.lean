import Verif.Model.Forms
import Verif.Model.Assets

/-!
# Form conversion: properties C23 and C24
-/

namespace Cskk.Props.Forms

/-! ## C23: ASCII forms -/

/-- Specification: the full-width form of one character for the two parallel tables: the entry of the *last*
position holding exactly this character, the character itself if there is none or the tables do not match. -/
def formOf (hankaku zenkaku : List Str) (c : Char) (out : Str) : Prop :=
  (zenkaku.length = hankaku.length ∧
    ∃ i : Nat, hankaku[i]? = some [c] ∧ zenkaku[i]? = some out ∧ ∀ j : Nat, i < j → hankaku[j]? ≠ some [c]) ∨
  ((zenkaku.length ≠ hankaku.length ∨ [c] ∉ hankaku) ∧ out = [c])

theorem foldl_cons_eq_reverse {α} (l : List α) (acc : List α) :
    l.foldl (fun m kv => kv :: m) acc = l.reverse ++ acc := by
  induction l generalizing acc with
  | nil => rfl
  | cons a l ih => simp [ih]

theorem assocGet_append (a b : List (Str × Str)) (k : Str) :
    assocGet (a ++ b) k = (assocGet a k).or (assocGet b k) := by
  simp only [assocGet, List.find?_append]
  cases a.find? (·.1 = k) <;> simp

theorem assocGet_reverse_zip (h z : List Str) (k : Str) (hl : h.length = z.length) :
    (∃ i : Nat, h[i]? = some k ∧ z[i]? = assocGet (h.zip z).reverse k ∧ (∀ j : Nat, i < j → h[j]? ≠ some k)
      ∧ (assocGet (h.zip z).reverse k).isSome) ∨
    (k ∉ h ∧ assocGet (h.zip z).reverse k = none) := by
  induction h generalizing z with
  | nil => right; simp [assocGet]
  | cons a h ih =>
    cases z with
    | nil => simp at hl
    | cons b z =>
      simp only [List.zip_cons_cons, List.reverse_cons, assocGet_append]
      rcases ih z (by simpa using hl) with ⟨i, h1, h2, h3, h4⟩ | ⟨h1, h2⟩
      · left
        obtain ⟨v, hv⟩ := Option.isSome_iff_exists.mp h4
        refine ⟨i + 1, by simpa using h1, ?_, ?_, by simp [hv]⟩
        · simp [h2, hv]
        · intro j hj; cases j with
          | zero => omega
          | succ j => simpa using h3 j (by omega)
      · rw [h2, Option.none_or]
        by_cases e : a = k
        · subst e
          left
          refine ⟨0, rfl, by simp [assocGet], ?_, by simp [assocGet]⟩
          intro j hj; cases j with
          | zero => omega
          | succ j =>
            simp only [List.getElem?_cons_succ]
            intro hh; exact h1 (List.mem_of_getElem? hh)
        · right
          exact ⟨by simp [h1, Ne.symm e], by simp [assocGet, e]⟩

/-- **C23 (a).** Each character is converted by its table entry, or kept. -/
theorem ascii_char_form (hankaku zenkaku : List Str) (c : Char) :
    formOf hankaku zenkaku c ((AsciiFormChanger.fromLists hankaku zenkaku).adjustChar c) := by
  unfold formOf AsciiFormChanger.adjustChar AsciiFormChanger.fromLists
  by_cases hl : zenkaku.length = hankaku.length
  · simp only [hl, ne_eq, not_true, if_false, foldl_cons_eq_reverse, List.append_nil, true_and, false_or]
    rcases assocGet_reverse_zip hankaku zenkaku [c] hl.symm with ⟨i, h1, h2, h3, h4⟩ | ⟨h1, h2⟩
    · left
      obtain ⟨v, hv⟩ := Option.isSome_iff_exists.mp h4
      exact ⟨i, h1, by rw [h2, hv], h3⟩
    · right; simp [h1, h2]
  · right; simp [hl, assocGet]

/-- **C23 (b).** A text is converted character by character, in order, nothing added, dropped or merged. -/
theorem ascii_string_charwise (f : AsciiFormChanger) (s : Str) :
    f.adjustString s = s.flatMap f.adjustChar := by
  unfold AsciiFormChanger.adjustString
  suffices ∀ acc, s.foldl (fun result c => match assocGet f.zenkakuMap [c] with
      | some z => result ++ z | none => result ++ [c]) acc = acc ++ s.flatMap f.adjustChar by
    have := this []; rwa [List.nil_append] at this
  induction s with
  | nil => simp
  | cons c s ih =>
    intro acc
    rw [List.foldl_cons, ih, List.flatMap_cons, AsciiFormChanger.adjustChar]
    cases assocGet f.zenkakuMap [c] <;> simp

theorem mem_of_assocGet {m : List (Str × Str)} {k v : Str} (h : assocGet m k = some v) : (k, v) ∈ m := by
  unfold assocGet at h
  cases hf : m.find? (·.1 = k) with
  | none => rw [hf] at h; simp at h
  | some p =>
    rw [hf] at h
    have h1 := List.find?_some hf
    have h2 := List.mem_of_find?_eq_some hf
    simp at h h1
    obtain ⟨a, b⟩ := p
    simp at h h1; subst h; subst h1; exact h2

/-- **C23 (c).** If every full-width form is one character the text keeps its length, and position by position the
character is converted or kept. -/
theorem ascii_length_preserved (hankaku zenkaku : List Str) (hz : ∀ z ∈ zenkaku, z.length = 1) (s : Str) :
    ((AsciiFormChanger.fromLists hankaku zenkaku).adjustString s).length = s.length := by
  rw [ascii_string_charwise, List.length_flatMap]
  have : ∀ c, ((AsciiFormChanger.fromLists hankaku zenkaku).adjustChar c).length = 1 := by
    intro c
    rcases ascii_char_form hankaku zenkaku c with ⟨_, i, _, h, _⟩ | ⟨_, h⟩
    · exact hz _ (List.mem_of_getElem? h)
    · rw [h]; rfl
  simp only [this]
  induction s with
  | nil => rfl
  | cons a s ih => simp only [List.map_cons, List.sum_cons, List.length_cons, ih]; omega

/-- The form changer built from the tables shipped with the library. -/
def shippedAscii : AsciiFormChanger := AsciiFormChanger.fromLists Assets.hankaku Assets.zenkaku

example : (∀ z ∈ Assets.zenkaku, z.length = 1) ∧ Assets.hankaku.length = Assets.zenkaku.length := by decide

/-- With the shipped tables every printable ASCII character except the backquote becomes one full-width
(non-ASCII) character, different characters becoming different ones. -/
theorem shipped_ascii_forms :
    ∀ a, 0x20 ≤ a → a ≤ 0x7e → a ≠ 0x60 → ∀ b, 0x20 ≤ b → b ≤ 0x7e → b ≠ 0x60 →
      (∃ c, shippedAscii.adjustChar (Char.ofNat a) = [c] ∧ 0x7f < c.toNat) ∧
      (shippedAscii.adjustChar (Char.ofNat a) = shippedAscii.adjustChar (Char.ofNat b) → a = b) := by
  have h1 : ((List.range 0x7f).all fun a => decide (a < 0x20) || a == 0x60 ||
      (match shippedAscii.adjustChar (Char.ofNat a) with | [c] => decide (0x7f < c.toNat) | _ => false)) = true := by
    decide +kernel
  have h2 : ((List.range 0x7f).filter (fun a => decide (0x20 ≤ a) && a != 0x60)).Pairwise
      (fun a b => shippedAscii.adjustChar (Char.ofNat a) ≠ shippedAscii.adjustChar (Char.ofNat b)) := by
    decide +kernel
  intro a ha1 ha2 ha3 b hb1 hb2 hb3
  refine ⟨?_, ?_⟩
  · have := List.all_eq_true.mp h1 a (by simp; omega)
    simp [ha3] at this
    rcases this with h | h
    · omega
    · split at h
      · rename_i c e; exact ⟨c, e, by simpa using h⟩
      · cases h
  · intro e
    by_cases hab : a = b
    · exact hab
    · exfalso
      have ma : a ∈ (List.range 0x7f).filter (fun a => decide (0x20 ≤ a) && a != 0x60) := by
        simp [ha3]; omega
      have mb : b ∈ (List.range 0x7f).filter (fun a => decide (0x20 ≤ a) && a != 0x60) := by
        simp [hb3]; omega
      obtain ⟨i, hi, rfl⟩ := List.getElem_of_mem ma
      obtain ⟨j, hj, rfl⟩ := List.getElem_of_mem mb
      rw [List.pairwise_iff_getElem] at h2
      rcases Nat.lt_trichotomy i j with h | h | h
      · exact h2 i j hi hj h e
      · subst h; exact hab rfl
      · exact h2 j i hj hi h e.symm

/-- **Finding (C23).** The shipped table lists the apostrophe twice and the backquote never: a backquote typed in
full-width mode stays half width, and an apostrophe becomes the *left* quotation mark. -/
theorem shipped_backquote_not_converted :
    shippedAscii.adjustChar '`' = ['`'] ∧ shippedAscii.adjustChar '\'' = ['‘'] ∧
    shippedAscii.adjustChar 'a' = ['ａ'] := by decide +kernel

/-! ## C24: kana forms -/

/-- Specification of greedy longest-match rewriting by a partial map `get`. -/
inductive Greedy (get : Str → Option Str) : Str → Str → Prop
  | nil : Greedy get [] []
  /-- the longest prefix that is known is replaced -/
  | repl (pre rest v out : Str) : pre ≠ [] → get pre = some v →
      (∀ ext rest', rest = ext ++ rest' → ext ≠ [] → get (pre ++ ext) = none) →
      Greedy get rest out → Greedy get (pre ++ rest) (v ++ out)
  /-- a character is kept only if no sequence starting there is known -/
  | keep (c : Char) (rest out : Str) :
      (∀ pre rest', c :: rest = pre ++ rest' → pre ≠ [] → get pre = none) →
      Greedy get rest out → Greedy get (c :: rest) (c :: out)

theorem le_foldl_max (l : List Nat) (x acc : Nat) (h : x ∈ l ∨ x ≤ acc) : x ≤ l.foldl max acc := by
  induction l generalizing acc with
  | nil => simpa using h
  | cons a l ih =>
    rw [List.foldl_cons]
    apply ih
    rcases h with h | h
    · rcases List.mem_cons.mp h with rfl | h
      · right; omega
      · left; exact h
    · right; omega

theorem keyMaxlen_spec {m : List (Str × Str)} {k v : Str} (h : assocGet m k = some v) :
    k.length ≤ KanaFormChanger.keyMaxlen m := by
  apply le_foldl_max; left
  exact List.mem_map.mpr ⟨_, mem_of_assocGet h, rfl⟩

theorem findPrefix_some {m : List (Str × Str)} {s : Str} {n : Nat} {r rest : Str}
    (h : KanaFormChanger.findPrefix m s n = some (r, rest)) :
    ∃ i, 1 ≤ i ∧ i ≤ n ∧ assocGet m (s.take i) = some r ∧ rest = s.drop i ∧
      ∀ j, i < j → j ≤ n → assocGet m (s.take j) = none := by
  induction n with
  | zero => simp [KanaFormChanger.findPrefix] at h
  | succ n ih =>
    rw [KanaFormChanger.findPrefix] at h
    split at h
    · rename_i r' e
      simp at h
      refine ⟨n + 1, by omega, by omega, by rw [e, h.1], h.2.symm, by intro j h1 h2; omega⟩
    · rename_i e
      obtain ⟨i, h1, h2, h3, h4, h5⟩ := ih h
      refine ⟨i, h1, by omega, h3, h4, ?_⟩
      intro j hj hj'
      by_cases hjn : j = n + 1
      · subst hjn; exact e
      · exact h5 j hj (by omega)

theorem findPrefix_none {m : List (Str × Str)} {s : Str} {n : Nat}
    (h : KanaFormChanger.findPrefix m s n = none) : ∀ j, 1 ≤ j → j ≤ n → assocGet m (s.take j) = none := by
  induction n with
  | zero => intro j h1 h2; omega
  | succ n ih =>
    rw [KanaFormChanger.findPrefix] at h
    split at h
    · cases h
    · rename_i e
      intro j h1 h2
      by_cases hjn : j = n + 1
      · subst hjn; exact e
      · exact ih h j h1 (by omega)

theorem adjustAux_greedy (m : List (Str × Str)) (fuel : Nat) (s acc : Str) (hf : s.length ≤ fuel) :
    ∃ out, Greedy (assocGet m) s out ∧
      KanaFormChanger.adjustAux m (KanaFormChanger.keyMaxlen m) fuel s acc = acc ++ out := by
  induction fuel generalizing s acc with
  | zero =>
    have : s = [] := List.length_eq_zero_iff.mp (by omega)
    subst this; exact ⟨[], .nil, by simp [KanaFormChanger.adjustAux]⟩
  | succ fuel ih =>
    cases s with
    | nil => exact ⟨[], .nil, by simp [KanaFormChanger.adjustAux]⟩
    | cons c cs =>
      rw [KanaFormChanger.adjustAux]
      have hmax : ∀ k v, assocGet m k = some v → k.length ≤ KanaFormChanger.keyMaxlen m := fun _ _ => keyMaxlen_spec
      cases hp : KanaFormChanger.findPrefix m (c :: cs) (KanaFormChanger.keyMaxlen m) with
      | none =>
        obtain ⟨out, h1, h2⟩ := ih cs (acc ++ [c]) (by simp at hf; omega)
        refine ⟨c :: out, .keep c cs out ?_ h1, by simp [h2]⟩
        intro pre rest' e hpre
        have hn := findPrefix_none hp pre.length
        rw [e, List.take_left] at hn
        cases hg : assocGet m pre with
        | none => rfl
        | some v =>
          have := hn (by cases pre with | nil => simp at hpre | cons => simp) (hmax _ _ hg)
          rw [hg] at this; cases this
      | some p =>
        obtain ⟨r, rest⟩ := p
        obtain ⟨i, h1, h2, h3, h4, h5⟩ := findPrefix_some hp
        have hlen : rest.length ≤ fuel := by rw [h4, List.length_drop]; simp at hf ⊢; omega
        obtain ⟨out, g1, g2⟩ := ih rest (acc ++ r) hlen
        refine ⟨r ++ out, ?_, by simp [g2]⟩
        have hsplit : c :: cs = (c :: cs).take i ++ rest := by rw [h4, List.take_append_drop]
        rw [hsplit]
        refine .repl _ rest r out ?_ h3 ?_ g1
        · intro e; rw [List.take_eq_nil_iff] at e; simp at e; omega
        · intro ext rest' e hext
          cases hg : assocGet m ((c :: cs).take i ++ ext) with
          | none => rfl
          | some v =>
            have hle := hmax _ _ hg
            have hi : i ≤ (c :: cs).length := by
              by_cases hi : i ≤ (c :: cs).length
              · exact hi
              · exfalso
                rw [List.drop_of_length_le (by omega)] at h4
                rw [h4] at e
                exact hext (List.append_eq_nil_iff.mp e.symm).1
            have hl : ((c :: cs).take i).length = i := by rw [List.length_take]; omega
            have htake : (c :: cs).take (i + ext.length) = (c :: cs).take i ++ ext := by
              have hs : c :: cs = ((c :: cs).take i ++ ext) ++ rest' := by
                rw [List.append_assoc, ← e]; exact hsplit
              conv => lhs; rw [hs]
              rw [List.take_left' (by simp [hl])]
            have hext1 : 1 ≤ ext.length := by cases ext with | nil => simp at hext | cons => simp
            rw [List.length_append, hl] at hle
            have := h5 (i + ext.length) (by omega) hle
            rw [htake, hg] at this; cases this

/-- The specification determines the result. -/
theorem Greedy.det {get : Str → Option Str} {s o : Str} (h : Greedy get s o) : ∀ {o'}, Greedy get s o' → o = o' := by
  induction h with
  | nil =>
    intro o' h'
    generalize hs : ([] : Str) = s' at h'
    cases h' with
    | nil => rfl
    | repl pre rest v out hne => exact absurd hs.symm (by simp [hne])
    | keep => cases hs
  | repl pre rest v out hne hg hmax _ ih =>
    intro o' h'
    generalize hs : pre ++ rest = s' at h'
    cases h' with
    | nil => exact absurd hs (by simp [hne])
    | repl pre' rest' v' out' hne' hg' hmax' hr' =>
      have : pre = pre' := by
        rcases List.append_eq_append_iff.mp hs with ⟨a, h1, h2⟩ | ⟨a, h1, h2⟩
        · by_cases ha : a = []
          · subst ha; simpa using h1.symm
          · have := hmax a rest' h2 ha; rw [← h1, hg'] at this; cases this
        · by_cases ha : a = []
          · subst ha; simpa using h1
          · have := hmax' a rest h2 ha; rw [← h1, hg] at this; cases this
      subst this
      have hrest := List.append_cancel_left hs
      subst hrest
      rw [hg] at hg'; cases hg'
      rw [ih hr']
    | keep c rest' out' hnone hr' =>
      have := hnone pre rest hs.symm hne
      rw [hg] at this; cases this
  | keep c rest out hnone _ ih =>
    intro o' h'
    generalize hs : c :: rest = s' at h'
    cases h' with
    | nil => cases hs
    | repl pre' rest' v' out' hne' hg' hmax' hr' =>
      have := hnone pre' rest' hs hne'
      rw [hg'] at this; cases this
    | keep c' rest' out' hnone' hr' =>
      cases hs; rw [ih hr']

/-- **C24.** Katakana and half-width katakana conversion is exactly the greedy longest-match rewriting of the text by
the table (for every table and every text; in particular it terminates); all other modes leave the text alone. -/
theorem kana_form_greedy (f : KanaFormChanger) (s out : Str) :
    (f.adjust .katakana s = out ↔ Greedy (assocGet f.katakana) s out) ∧
    (f.adjust .hankakuKatakana s = out ↔ Greedy (assocGet f.jisx0201) s out) ∧
    f.adjust .hiragana s = s ∧ f.adjust .zenkaku s = s ∧ f.adjust .ascii s = s := by
  refine ⟨?_, ?_, rfl, rfl, rfl⟩
  · obtain ⟨o, h1, h2⟩ := adjustAux_greedy f.katakana s.length s [] (Nat.le_refl _)
    simp only [KanaFormChanger.adjust, h2, List.nil_append]
    exact ⟨fun e => e ▸ h1, fun h => h1.det h⟩
  · obtain ⟨o, h1, h2⟩ := adjustAux_greedy f.jisx0201 s.length s [] (Nat.le_refl _)
    simp only [KanaFormChanger.adjust, h2, List.nil_append]
    exact ⟨fun e => e ▸ h1, fun h => h1.det h⟩

/-- The form changer built from the shipped table. -/
def shippedKana : KanaFormChanger := ⟨Assets.katakana, Assets.jisx0201⟩

/-- The two-character sequence う゛ is replaced as a whole. -/
example : shippedKana.adjust .katakana c%"う゛ぁいきんぐABC" = c%"ヴァイキングABC" := by decide +kernel
example : shippedKana.adjust .hankakuKatakana c%"ぽん" = c%"ﾎﾟﾝ" := by decide +kernel

/-- Hiragana letters ぁ (U+3041) to ゖ (U+3096). -/
def isHiraganaLetter (c : Char) : Bool := decide (0x3041 ≤ c.toNat) && decide (c.toNat ≤ 0x3096)

theorem shipped_katakana_letter : ∀ n, 0x3041 ≤ n → n ≤ 0x3096 →
    assocGet Assets.katakana [Char.ofNat n] = some [Char.ofNat (n + 0x60)] := by
  have h : ((List.range 0x56).all fun i =>
      decide (assocGet Assets.katakana [Char.ofNat (0x3041 + i)] = some [Char.ofNat (0x3041 + i + 0x60)])) = true := by
    decide +kernel
  intro n h1 h2
  have := List.all_eq_true.mp h (n - 0x3041) (by simp; omega)
  have e : 0x3041 + (n - 0x3041) = n := by omega
  rw [e] at this
  simpa using this

/-- **C24 for the shipped table.** A text of hiragana letters becomes, letter by letter, the corresponding
katakana letter (96 code points further). -/
theorem shipped_hiragana_to_katakana (s : Str) (h : ∀ c ∈ s, isHiraganaLetter c = true) :
    shippedKana.adjust .katakana s = s.map fun c => Char.ofNat (c.toNat + 0x60) := by
  apply (kana_form_greedy shippedKana s _).1.mpr
  have h2 : ((Assets.katakana).all fun kv => decide (kv.1.length ≤ 1) || kv.1 == c%"う゛") = true := by decide
  induction s with
  | nil => exact .nil
  | cons c cs ih =>
    have hc := h c (by simp)
    simp only [isHiraganaLetter, Bool.and_eq_true, decide_eq_true_eq] at hc
    have hl := shipped_katakana_letter c.toNat hc.1 hc.2
    rw [Char.ofNat_toNat] at hl
    have := Greedy.repl (get := assocGet Assets.katakana) [c] cs _ _ (by simp) hl ?_ (ih fun d hd => h d (by simp [hd]))
    · simpa [shippedKana] using this
    · intro ext rest' e hext
      cases hg : assocGet Assets.katakana ([c] ++ ext) with
      | none => rfl
      | some v =>
        have hm := List.all_eq_true.mp h2 _ (mem_of_assocGet hg)
        cases ext with
        | nil => simp at hext
        | cons d ext =>
          simp at hm
          have hd := h d (by rw [e]; simp)
          rw [hm.2.1] at hd
          exact absurd hd (by decide)

example : ∀ c ∈ c%"かたかな", isHiraganaLetter c = true := by decide

/-- The okuri letter of every hiragana that has one is a lower-case ASCII letter. -/
theorem okuri_prefix_letter (c r : Char) (h : KanaFormChanger.okuriPrefix c = some r) :
    'a' ≤ r ∧ r ≤ 'z' := by
  unfold KanaFormChanger.okuriPrefix at h
  cases hf : KanaFormChanger.kanaRomMap.find? (fun g => g.1.contains c) with
  | none => rw [hf] at h; simp at h
  | some p =>
    rw [hf] at h; simp at h; subst h
    have := List.mem_of_find?_eq_some hf
    revert this; revert p
    have : ∀ p ∈ KanaFormChanger.kanaRomMap, 'a' ≤ p.2 ∧ p.2 ≤ 'z' := by decide
    intro p _ h; exact this p h

/-- Specification: the letter under which an okurigana is filed, by the order of the hiragana block: the small kana
ぁぃぅぇぉゃゅょゎ and ゐ, ゑ are filed under x, っ under t, ん under n, a voiced kana under its voiced consonant. -/
def okuriLetter (n : Nat) : Option Char :=
  let pick (from_ : Nat) (ls : List Char) : Option Char := ls[(n - from_) % ls.length]?
  if n < 0x3041 then none
  else if n ≤ 0x304A then (if n % 2 = 1 then some 'x' else ['a', 'i', 'u', 'e', 'o'][(n - 0x3041) / 2]?)
  else if n ≤ 0x3054 then pick 0x304B ['k', 'g']
  else if n ≤ 0x305E then pick 0x3055 ['s', 'z']
  else if n ≤ 0x3062 then pick 0x305F ['t', 'd']
  else if n = 0x3063 then some 't'
  else if n ≤ 0x3069 then pick 0x3064 ['t', 'd']
  else if n ≤ 0x306E then some 'n'
  else if n ≤ 0x307D then pick 0x306F ['h', 'b', 'p']
  else if n ≤ 0x3082 then some 'm'
  else if n ≤ 0x3088 then pick 0x3083 ['x', 'y']
  else if n ≤ 0x308D then some 'r'
  else if n ≤ 0x3093 then pick 0x308E ['x', 'w', 'x', 'x', 'w', 'n']
  else none

/-- Every character has the okuri letter of the specification. -/
theorem okuri_letter (c : Char) : KanaFormChanger.okuriPrefix c = okuriLetter c.toNat := by
  by_cases h : 0x3041 ≤ c.toNat ∧ c.toNat ≤ 0x3096
  · have key : ∀ n, 0x3041 ≤ n → n ≤ 0x3096 → KanaFormChanger.okuriPrefix (Char.ofNat n) = okuriLetter n := by
      have : ∀ i : Fin 86, KanaFormChanger.okuriPrefix (Char.ofNat (0x3041 + i)) = okuriLetter (0x3041 + i) := by
        decide +kernel
      intro n h1 h2
      have := this ⟨n - 0x3041, by omega⟩
      simpa [show 0x3041 + (n - 0x3041) = n by omega] using this
    have := key c.toNat h.1 h.2
    rwa [Char.ofNat_toNat] at this
  · have hn : okuriLetter c.toNat = none := by
      unfold okuriLetter
      by_cases h1 : c.toNat < 0x3041
      · simp [h1]
      · have : 0x3096 < c.toNat := by omega
        simp only []
        repeat (first | rw [if_neg (by omega)])
    rw [hn]
    cases hf : KanaFormChanger.kanaRomMap.find? (fun g => g.1.contains c) with
    | none => rw [KanaFormChanger.okuriPrefix, hf]; rfl
    | some p =>
      exfalso
      have h1 := List.mem_of_find?_eq_some hf
      have h2 := List.find?_some hf
      have : ∀ p ∈ KanaFormChanger.kanaRomMap, ∀ d ∈ p.1, 0x3041 ≤ d.toNat ∧ d.toNat ≤ 0x3096 := by decide +kernel
      exact h (this p h1 c (by simpa using h2))

example : okuriLetter ('っ').toNat = some 't' ∧ okuriLetter ('べ').toNat = some 'b' ∧ okuriLetter ('ア').toNat = none := by
  decide

end Cskk.Props.Forms

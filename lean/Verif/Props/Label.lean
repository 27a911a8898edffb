import Verif.Model.Label
import Verif.Props.Utf8
import Verif.Props.Persist

/-!
# C66: the encoding a dictionary is opened with
-/

namespace Cskk.Props.Label
open Cskk Cskk.DictFile Cskk.Label Cskk.Spec.Persist Cskk.Utf8
open Cskk.Spec.UserDict (side)

/-! ## Bytes of characters -/

/-- Only ASCII characters are encoded with bytes below 128, and each with one byte. -/
theorem low_byte {c : Char} {b : UInt8} (h : b ∈ encodeChar c) (hb : b.toNat < 0x80) : c.toNat = b.toNat ∧ encodeChar c = [b] := by
  have hc := Utf8.char_bounds c
  unfold encodeChar at h ⊢
  dsimp only at h ⊢
  split at h
  · rename_i h1
    rw [if_pos h1]
    simp only [List.mem_cons, List.not_mem_nil, or_false] at h
    subst h
    exact ⟨(Utf8.byte_toNat _ (by omega)).symm, rfl⟩
  · exfalso
    split at h
    · simp only [List.mem_cons, List.not_mem_nil, or_false] at h
      rcases h with rfl | rfl <;> rw [Utf8.byte_toNat _ (by omega)] at hb <;> omega
    · split at h
      · simp only [List.mem_cons, List.not_mem_nil, or_false] at h
        rcases h with rfl | rfl | rfl <;> rw [Utf8.byte_toNat _ (by omega)] at hb <;> omega
      · simp only [List.mem_cons, List.not_mem_nil, or_false] at h
        rcases h with rfl | rfl | rfl | rfl <;> rw [Utf8.byte_toNat _ (by omega)] at hb <;> omega

theorem char_eq {c d : Char} (h : c.toNat = d.toNat) : c = d := Char.toNat_inj.mp h

theorem encode_cons (c : Char) (s : Str) : encode (c :: s) = encodeChar c ++ encode s := by simp [encode]

theorem encode_append (s t : Str) : encode (s ++ t) = encode s ++ encode t := by simp [encode]

theorem zero_free {s : Str} (h : '\x00' ∉ s) : (0 : UInt8) ∉ encode s := by
  intro hm
  obtain ⟨c, hc, hb⟩ := List.mem_flatMap.mp hm
  have := (low_byte hb (by decide)).1
  exact h ((char_eq (d := '\x00') this) ▸ hc)

/-! ## Reading bytes as they are -/

theorem byteLines_skip (cur a b : Bytes) (h : (0x0A : UInt8) ∉ a) : byteLinesAux cur (a ++ b) = byteLinesAux (a.reverse ++ cur) b := by
  induction a generalizing cur with
  | nil => rfl
  | cons x a ih =>
    have hx : x ≠ 0x0A := fun e => h (by simp [e])
    have : byteLinesAux cur (x :: (a ++ b)) = byteLinesAux (x :: cur) (a ++ b) := by
      cases cur <;> simp [byteLinesAux, hx]
    rw [List.cons_append, this, ih _ fun e => h (by simp [e])]
    simp

theorem strip_bytes (cur : Str) : byteLinesAux.stripCr (encode cur.reverse).reverse = encode (linesAux.stripCr cur) := by
  cases cur with
  | nil => rfl
  | cons c cur =>
    rw [List.reverse_cons, encode_append]
    have hc : encode [c] = encodeChar c := by simp [encode]
    rw [hc, List.reverse_append]
    by_cases h : c = '\r'
    · subst h
      have : encodeChar '\r' = [0x0D] := by decide
      rw [this]
      simp [byteLinesAux.stripCr, linesAux.stripCr]
    · have h2 : linesAux.stripCr (c :: cur) = (c :: cur).reverse := by
        unfold linesAux.stripCr
        split
        · rename_i heq; cases heq; exact absurd rfl h
        · rfl
      rw [h2, List.reverse_cons, encode_append, hc]
      cases hr : (encodeChar c).reverse with
      | nil =>
        have : encodeChar c = [] := by simpa using hr
        exfalso
        unfold encodeChar at this
        dsimp only at this
        split at this <;> first | cases this | (split at this <;> first | cases this | (split at this <;> cases this))
      | cons b bs =>
        have hb : b ∈ encodeChar c := by rw [← List.mem_reverse, hr]; simp
        have hne : b ≠ 0x0D := by
          intro e
          subst e
          exact h (char_eq (low_byte hb (by decide)).1)
        have he : encodeChar c = bs.reverse ++ [b] := by
          have := congrArg List.reverse hr
          simpa using this
        rw [he]
        simp [byteLinesAux.stripCr, hne]

theorem byteLines_encode (s cur : Str) : byteLinesAux (encode cur.reverse).reverse (encode s) = (linesAux cur s).map encode := by
  induction s generalizing cur with
  | nil =>
    cases cur with
    | nil => rfl
    | cons c cur =>
      have hne : (encode (c :: cur).reverse) ≠ [] := by
        intro e
        have h1 := Utf8.decode_encode (c :: cur).reverse
        rw [e] at h1
        have h2 : decode [] = [] := by decide
        rw [h2] at h1
        simp at h1
      cases hr : (encode (c :: cur).reverse).reverse with
      | nil => exact absurd (by simpa using hr) hne
      | cons b bs =>
        show [(b :: bs).reverse] = [encode (c :: cur).reverse]
        rw [← hr, List.reverse_reverse]
  | cons c s ih =>
    rw [encode_cons]
    by_cases h : c = '\n'
    · subst h
      have h1 : encodeChar '\n' = [0x0A] := by decide
      rw [h1]
      have h2 : ∀ cur t, byteLinesAux cur (0x0A :: t) = byteLinesAux.stripCr cur :: byteLinesAux [] t := by
        intro cur t; cases cur <;> simp [byteLinesAux]
      have h3 : linesAux cur ('\n' :: s) = linesAux.stripCr cur :: linesAux [] s := by
        cases cur <;> simp [linesAux]
      rw [List.singleton_append, h2, h3, strip_bytes, List.map_cons]
      congr 1
      exact ih []
    · have hn : (0x0A : UInt8) ∉ encodeChar c := fun hm => h (char_eq (d := '\n') (low_byte hm (by decide)).1)
      rw [byteLines_skip _ _ _ hn]
      have h3 : linesAux cur (c :: s) = linesAux (c :: cur) s := by
        cases cur <;> rw [linesAux] <;> exact fun e => h e
      rw [h3, ← ih (c :: cur)]
      congr 1
      rw [List.reverse_cons, encode_append, List.reverse_append]
      simp [encode]

/-- Reading a UTF-8 file as it is gives its lines. -/
theorem plain_lines (s : Str) : (byteLinesAux [] (encode s)).map strict = (lines s).map some := by
  have h : byteLinesAux [] (encode s) = (linesAux [] s).map encode := byteLines_encode s []
  rw [h, List.map_map]
  apply List.map_congr_left
  intro l _
  show strict (encode l) = some l
  unfold strict
  rw [Utf8.decode_encode, if_pos rfl]

/-! ## Known encodings -/

theorem saveBytes_agree (e : Encoding) (cd : Codec) (m : DictMaps)
    (h1 : e.enc c%";; okuri-ari entries.\n" = cd.enc c%";; okuri-ari entries.\n")
    (h2 : e.enc c%";; okuri-nasi entries.\n" = cd.enc c%";; okuri-nasi entries.\n")
    (h : ∀ o, ∀ d ∈ side m o, e.enc (DictEntry.toLine d.2 ++ c%"\n") = cd.enc (DictEntry.toLine d.2 ++ c%"\n")) :
    Label.saveBytes e m = DictFile.saveBytes cd m := by
  unfold Label.saveBytes DictFile.saveBytes DictFile.saveParts
  have hp : ∀ o, (side m o).filterMap (fun d => Label.entryPart e d.2) = (side m o).filterMap (fun d => DictFile.entryPart cd d.2) := by
    intro o
    have : ∀ l : List (Str × DictEntry), (∀ d ∈ l, d ∈ side m o) →
        l.filterMap (fun d => Label.entryPart e d.2) = l.filterMap (fun d => DictFile.entryPart cd d.2) := by
      intro l
      induction l with
      | nil => intro _; rfl
      | cons d l ih =>
        intro hl
        have hd : Label.entryPart e d.2 = DictFile.entryPart cd d.2 := by
          unfold Label.entryPart DictFile.entryPart
          dsimp only
          rw [h o d (hl d (by simp))]
        rw [List.filterMap_cons, List.filterMap_cons, hd, ih fun x hx => hl x (by simp [hx])]
    exact this _ fun _ h => h
  have hm : ∀ o, ∀ s ∈ (side m o).filterMap (fun d => DictFile.entryPart cd d.2), e.enc s = cd.enc s := by
    intro o s hs
    obtain ⟨d, hd, hds⟩ := List.mem_filterMap.mp hs
    unfold DictFile.entryPart at hds
    dsimp only at hds
    split at hds
    · cases hds; exact h o d hd
    · cases hds
  have hmapM : ∀ l : List Str, (∀ s ∈ l, e.enc s = cd.enc s) → l.mapM e.enc = l.mapM cd.enc := by
    intro l
    induction l with
    | nil => intro _; rfl
    | cons x l ih => intro hl; rw [List.mapM_cons, List.mapM_cons, hl x (by simp), ih fun s hs => hl s (by simp [hs])]
  have e1 := hp true
  have e2 := hp false
  have m1 := hm true
  have m2 := hm false
  simp only [side] at e1 e2 m1 m2
  simp at e1 e2 m1 m2
  rw [e1, e2, hmapM]
  intro s hs
  simp only [List.mem_append, List.mem_cons, List.not_mem_nil, or_false] at hs
  rcases hs with ((rfl | hs) | rfl) | hs
  · exact h1
  · obtain ⟨d, hd, hds⟩ := List.mem_filterMap.mp hs
    exact m1 s d.1 d.2 hd hds
  · exact h2
  · obtain ⟨d, hd, hds⟩ := List.mem_filterMap.mp hs
    exact m2 s d.1 d.2 hd hds

theorem saveBytes_eq (e : Encoding) (cd : Codec) (h : e.enc = cd.enc) (m : DictMaps) : Label.saveBytes e m = DictFile.saveBytes cd m :=
  saveBytes_agree e cd m (by rw [h]) (by rw [h]) fun _ _ _ => by rw [h]

/-- **C66.** With the label of an encoding that decodes what it encodes, at least for the texts in this dictionary, loading and
saving are as in the other properties (C10, C56, …), and a save never panics. -/
theorem known_label (ls : Labels) (label : Str) (e : Encoding) (cd : Codec) (hl : ls label = some e) (hr : e.replacement = false)
    (hd : e.dec = cd.dec) (path : Str) (fs : FS) (m : DictMaps) (b : Bool)
    (h1 : e.enc c%";; okuri-ari entries.\n" = cd.enc c%";; okuri-ari entries.\n")
    (h2 : e.enc c%";; okuri-nasi entries.\n" = cd.enc c%";; okuri-nasi entries.\n")
    (he : ∀ o, ∀ d ∈ side m o, e.enc (DictEntry.toLine d.2 ++ c%"\n") = cd.enc (DictEntry.toLine d.2 ++ c%"\n")) :
    Label.new ls path label fs = (DictFile.new cd path fs).map (fun d => ⟨path, label, d.maps, d.hasChange, false⟩) ∧
    (let r := Label.save ls fs ⟨path, label, m, b, false⟩
     let r' := DictFile.save cd path fs ⟨m, b⟩
     r.1 = ⟨path, label, r'.1.maps, r'.1.hasChange, false⟩ ∧ r.2.1 = r'.2.1 ∧
     r.2.2 = match r'.2.2 with | some w => .ok w | none => .err) := by
  constructor
  · unfold Label.new DictFile.new
    cases fs path with
    | none => rfl
    | some c =>
      simp only [Option.map_some]
      unfold Label.load Label.readLines DictFile.load
      rw [hl]
      simp [hr, hd]
  · unfold Label.save DictFile.save
    cases b with
    | false => exact ⟨rfl, rfl, rfl⟩
    | true =>
      cases hf : fs path with
      | none => simp [FsOp.run, hf]
      | some c =>
        cases hs : DictFile.saveBytes cd m <;> simp [FsOp.run, hf, hl, saveBytes_agree e cd m h1 h2 he, hs]

/-- **C66.** A UTF-8 file is read correctly with any label that is not known (and with the label of the `replacement` encoding). -/
theorem unknown_label_reads_utf8 (ls : Labels) (label : Str) (hl : ∀ e, ls label = some e → e.replacement = true) (s : Str) :
    Label.load ls label (encode s) = DictFile.load Utf8.utf8 (encode s) := by
  have hd : Utf8.utf8.dec (encode s) = s := Utf8.decode_encode s
  unfold Label.load Label.readLines DictFile.load
  rw [hd]
  cases h : ls label with
  | none => simp only [plain_lines]
  | some e => simp only [hl e h, if_true, plain_lines]

/-- **C66, the boundary.** With a label that is not known no error is reported: if no line of the file is UTF-8 — as all lines with
kana in a file in EUC-JP — the dictionary is opened and is empty. -/
theorem unknown_label_drops_lines (ls : Labels) (path label : Str) (hl : ls label = none) (fs : FS) (contents : Bytes)
    (hf : fs path = some contents) (hbad : ∀ l ∈ byteLinesAux [] contents, ∀ s, l ≠ encode s) :
    Label.new ls path label fs = some ⟨path, label, ⟨[], []⟩, false, false⟩ := by
  unfold Label.new Label.load Label.readLines
  rw [hf, hl]
  have : ∀ ll : List Bytes, (∀ l ∈ ll, ∀ s, l ≠ encode s) → ∀ st, (ll.map strict).foldl loadLine st = st := by
    intro ll
    induction ll with
    | nil => intro _ st; rfl
    | cons l ll ih =>
      intro h st
      have hs : strict l = none := by
        unfold strict
        rw [if_neg fun e => h l (by simp) _ e.symm]
      rw [List.map_cons, List.foldl_cons, hs]
      exact ih (fun x hx => h x (by simp [hx])) st
  simp only [Option.map_some, loadLines]
  rw [this _ hbad]
  rfl

/-! ## Unknown labels -/

/-- **C66, the boundary.** A user dictionary can be opened with a label that is not known, but the first save with changes panics,
leaves the file empty and the dictionary behind a poisoned lock: every later use or save of it panics. -/
theorem unknown_label_save_panics (ls : Labels) (path label : Str) (hl : ls label = none) (fs : FS) (old : Bytes) (hf : fs path = some old)
    (m : DictMaps) :
    let r := Label.save ls fs ⟨path, label, m, true, false⟩
    (Label.new ls path label fs).isSome ∧
    r.2.2 = .panic ∧ r.2.1 path = some [] ∧ r.2.1 (bak path) = some old ∧
    (∀ c, Label.confirm r.1 c = none) ∧ (∀ k, Label.lookup r.1 k = none) ∧ Label.save ls r.2.1 r.1 = (r.1, r.2.1, .panic) := by
  have hne : bak path ≠ path := DictSave.bak_ne path
  simp [Label.save, FsOp.run, hf, hl, Label.new, hne, Label.confirm, Label.lookup]

/-- One day with a dictionary: it is opened, a word is confirmed, and it is saved. -/
def day (ls : Labels) (path label : Str) (c : Candidate) (fs : FS) : FS :=
  match (Label.new ls path label fs).bind (Label.confirm · c) with
  | none => fs
  | some d => (Label.save ls fs d).2.1

/-- **C66, the boundary.** After two days with a label that is not known all words are lost: the file and its backup are empty. -/
theorem unknown_label_destroys (ls : Labels) (path label : Str) (hl : ls label = none) (fs : FS) (hf : (fs path).isSome) (c c' : Candidate) :
    day ls path label c' (day ls path label c fs) path = some [] ∧ day ls path label c' (day ls path label c fs) (bak path) = some [] := by
  have hne : bak path ≠ path := DictSave.bak_ne path
  have key : ∀ (fs : FS) (old : Bytes) c, fs path = some old → day ls path label c fs path = some [] ∧ day ls path label c fs (bak path) = some old := by
    intro fs old c hf
    simp [day, Label.new, hf, Label.confirm, Label.save, FsOp.run, hl, hne]
  obtain ⟨old, hf⟩ := Option.isSome_iff_exists.mp hf
  obtain ⟨h1, -⟩ := key fs old c hf
  exact key _ [] c' h1

/-! ## UTF-16 -/

theorem units_ge {bs : Bytes} (h : (0 : UInt8) ∉ bs) : ∀ u ∈ units bs, 0x101 ≤ u ∧ u < 0x10000 := by
  induction bs using units.induct with
  | case1 => intro u hu; cases hu
  | case2 a => intro u hu; simp [units] at hu; omega
  | case3 a b s ih =>
    intro u hu
    simp only [units, List.mem_cons] at hu
    rcases hu with rfl | hu
    · have h0 : (0 : UInt8).toNat = 0 := rfl
      have ha : a.toNat ≠ 0 := fun e => h (by rw [show a = 0 from UInt8.toNat_inj.mp (e.trans h0.symm)]; simp)
      have hb : b.toNat ≠ 0 := fun e => h (by rw [show b = 0 from UInt8.toNat_inj.mp (e.trans h0.symm)]; simp)
      have := a.toNat_lt
      have := b.toNat_lt
      omega
    · exact ih (fun e => h (by simp [e])) u hu

theorem ofNat_ne {n : Nat} (h : 0x101 ≤ n) (hv : n < 0xD800 ∨ (0xDFFF < n ∧ n < 0x110000)) (c : Char) (hc : c.toNat < 0x80) : Char.ofNat n ≠ c := by
  intro e
  have hv' : n.isValidChar := by
    rcases hv with h | h
    · exact Or.inl h
    · exact Or.inr h
  have : (Char.ofNat n).toNat = n := by
    unfold Char.ofNat
    rw [dif_pos hv']
    rfl
  rw [e] at this
  omega

theorem fromUnits_high {us : List Nat} (h : ∀ u ∈ us, 0x101 ≤ u ∧ u < 0x10000) (c : Char) (hc : c.toNat < 0x80) : c ∉ fromUnits us := by
  have hr : Utf8.replacement ≠ c := by
    intro e
    rw [← e] at hc
    revert hc
    decide
  induction us using fromUnits.induct with
  | case1 => intro hm; cases hm
  | case2 u =>
    have := h u (by simp)
    unfold fromUnits
    intro hm
    simp only [List.mem_cons, List.not_mem_nil, or_false] at hm
    split at hm
    · exact hr hm.symm
    · exact ofNat_ne (n := u) (by omega) (by omega) c hc hm.symm
  | case3 u v us hp ih =>
    have := h u (by simp)
    unfold fromUnits
    rw [if_pos hp]
    intro hm
    rcases List.mem_cons.mp hm with hm | hm
    · exact ofNat_ne (by omega) (by omega) c hc hm.symm
    · exact ih (fun u hu => h u (by simp [hu])) hm
  | case4 u v us hp hq ih =>
    unfold fromUnits
    rw [if_neg hp, if_pos hq]
    intro hm
    rcases List.mem_cons.mp hm with hm | hm
    · exact hr hm.symm
    · exact ih (fun u hu => h u (List.mem_cons_of_mem _ hu)) hm
  | case5 u v us hp hq ih =>
    have := h u (by simp)
    unfold fromUnits
    rw [if_neg hp, if_neg hq]
    intro hm
    rcases List.mem_cons.mp hm with hm | hm
    · exact ofNat_ne (n := u) (by omega) (by omega) c hc hm.symm
    · exact ih (fun u hu => h u (List.mem_cons_of_mem _ hu)) hm

theorem load_no_blank (ll : List Str) (h : ∀ l ∈ ll, ' ' ∉ l) (st : LoadState) : ((ll.map some).foldl loadLine st).maps = st.maps := by
  induction ll generalizing st with
  | nil => rfl
  | cons l ll ih =>
    rw [List.map_cons, List.foldl_cons, ih fun x hx => h x (by simp [hx])]
    unfold loadLine
    simp only [DictSave.no_blank_malformed l (h l (by simp))]
    split
    · split
      · rfl
      · split <;> rfl
    · rfl

theorem mem_linesAux (s : Str) : ∀ (cur l : Str) (c : Char), l ∈ linesAux cur s → c ∈ l → c ∈ cur ∨ c ∈ s := by
  have hstrip : ∀ (cur : Str) (c : Char), c ∈ linesAux.stripCr cur → c ∈ cur := by
    intro cur c h
    unfold linesAux.stripCr at h
    split at h
    · exact List.mem_cons_of_mem _ (List.mem_reverse.mp h)
    · exact List.mem_reverse.mp h
  induction s with
  | nil =>
    intro cur l c hl hc
    cases cur with
    | nil => cases hl
    | cons x cur =>
      simp only [linesAux, List.mem_cons, List.not_mem_nil, or_false] at hl
      subst hl
      exact Or.inl (List.mem_reverse.mp hc)
  | cons x s ih =>
    intro cur l c hl hc
    by_cases hx : x = '\n'
    · subst hx
      have h3 : linesAux cur ('\n' :: s) = linesAux.stripCr cur :: linesAux [] s := by cases cur <;> simp [linesAux]
      rw [h3] at hl
      rcases List.mem_cons.mp hl with rfl | hl
      · exact Or.inl (hstrip cur c hc)
      · rcases ih [] l c hl hc with h | h
        · cases h
        · exact Or.inr (List.mem_cons_of_mem _ h)
    · have h3 : linesAux cur (x :: s) = linesAux (x :: cur) s := by
        cases cur <;> rw [linesAux] <;> exact fun e => hx e
      rw [h3] at hl
      rcases ih _ l c hl hc with h | h
      · rcases List.mem_cons.mp h with rfl | h
        · exact Or.inr (by simp)
        · exact Or.inl h
      · exact Or.inr (List.mem_cons_of_mem _ h)

/-- A file without zero bytes is an empty dictionary for UTF-16. -/
theorem utf16_no_words (ls : Labels) (label : Str) (hl : ls label = some utf16le) (bs : Bytes) (h : (0 : UInt8) ∉ bs) :
    Label.load ls label bs = ⟨[], []⟩ := by
  unfold Label.load Label.readLines loadLines
  rw [hl]
  have hb : ' ' ∉ utf16le.dec bs := fromUnits_high (units_ge h) ' ' (by decide)
  show ((List.map some (lines (utf16le.dec bs))).foldl loadLine loadInit).maps = _
  rw [load_no_blank _ fun l hl hm => ?_]
  · rfl
  · rcases mem_linesAux _ [] l ' ' hl hm with h | h
    · cases h
    · exact hb h

theorem utf16_bytes (m : DictMaps) :
    Label.saveBytes utf16le m = some (encode ((DictFile.saveParts Utf8.utf8 m).flatten)) := by
  rw [saveBytes_eq utf16le Utf8.utf8 rfl]
  unfold DictFile.saveBytes
  have : ∀ parts : List Str, parts.mapM Utf8.utf8.enc = some (parts.map encode) := by
    intro parts
    induction parts with
    | nil => rfl
    | cons p ps ih => rw [List.mapM_cons, ih]; rfl
  rw [this, Option.map_some, Utf8.flatten_encode]

/-- The code units of a character in UTF-16 (Unicode, table 3-5). -/
def utf16Char (c : Char) : List Nat :=
  if c.toNat < 0x10000 then [c.toNat] else [0xD800 + (c.toNat - 0x10000) / 1024, 0xDC00 + (c.toNat - 0x10000) % 1024]

/-- A text in UTF-16, low bytes first. -/
def utf16 (s : Str) : Bytes := (s.flatMap utf16Char).flatMap fun u => [UInt8.ofNat (u % 256), UInt8.ofNat (u / 256)]

theorem units_bytes (us : List Nat) (h : ∀ u ∈ us, u < 0x10000) : units (us.flatMap fun u => [UInt8.ofNat (u % 256), UInt8.ofNat (u / 256)]) = us := by
  induction us with
  | nil => rfl
  | cons u us ih =>
    have hu := h u (by simp)
    rw [List.flatMap_cons]
    show ((UInt8.ofNat (u % 256)).toNat + 256 * (UInt8.ofNat (u / 256)).toNat) ::
      units (us.flatMap fun u => [UInt8.ofNat (u % 256), UInt8.ofNat (u / 256)]) = _
    rw [ih fun v hv => h v (by simp [hv])]
    have h1 : (UInt8.ofNat (u % 256)).toNat = u % 256 := by simp
    have h2 : (UInt8.ofNat (u / 256)).toNat = u / 256 := by
      simp only [UInt8.toNat_ofNat']
      omega
    rw [h1, h2]
    congr 1
    omega

theorem char_range (c : Char) : c.toNat < 0xD800 ∨ (0xDFFF < c.toNat ∧ c.toNat < 0x110000) := c.valid

theorem ofNat_toNat (c : Char) : Char.ofNat c.toNat = c := by
  have hv : c.toNat.isValidChar := c.valid
  unfold Char.ofNat
  rw [dif_pos hv]
  rfl

theorem fromUnits_char (c : Char) (us : List Nat) : fromUnits (utf16Char c ++ us) = c :: fromUnits us := by
  have hr := char_range c
  unfold utf16Char
  by_cases hc : c.toNat < 0x10000
  · rw [if_pos hc]
    show fromUnits (c.toNat :: us) = _
    have hn : ¬ (0xD800 ≤ c.toNat ∧ c.toNat ≤ 0xDFFF) := by omega
    cases us with
    | nil => unfold fromUnits; rw [if_neg hn, ofNat_toNat]
    | cons v us =>
      rw [fromUnits, if_neg (by omega), if_neg hn, ofNat_toNat]
  · rw [if_neg hc]
    show fromUnits (_ :: _ :: us) = _
    have h1 : 0xD800 ≤ 0xD800 + (c.toNat - 0x10000) / 1024 ∧ 0xD800 + (c.toNat - 0x10000) / 1024 ≤ 0xDBFF ∧ 0xDC00 ≤ 0xDC00 + (c.toNat - 0x10000) % 1024 ∧
        0xDC00 + (c.toNat - 0x10000) % 1024 ≤ 0xDFFF := by omega
    rw [fromUnits, if_pos h1]
    rw [show 0x10000 + (0xD800 + (c.toNat - 0x10000) / 1024 - 0xD800) * 1024 + (0xDC00 + (c.toNat - 0x10000) % 1024 - 0xDC00) = c.toNat by omega, ofNat_toNat]

/-- C66: a text in UTF-16 is read as it is. -/
theorem utf16_read (s : Str) : utf16le.dec (utf16 s) = s := by
  show fromUnits (units (utf16 s)) = s
  unfold utf16
  rw [units_bytes]
  · induction s with
    | nil => unfold fromUnits; rfl
    | cons c s ih => rw [List.flatMap_cons, fromUnits_char, ih]
  · intro u hu
    obtain ⟨c, _, hc⟩ := List.mem_flatMap.mp hu
    have hr := char_range c
    unfold utf16Char at hc
    split at hc
    · simp only [List.mem_cons, List.not_mem_nil, or_false] at hc; omega
    · simp only [List.mem_cons, List.not_mem_nil, or_false] at hc; omega

/-- C66: so a dictionary in UTF-16 opens with the words of its text. -/
theorem utf16_opens (ls : Labels) (label : Str) (hl : ls label = some utf16le) (t : Str) :
    Label.load ls label (utf16 t) = loadLines ((lines t).map some) := by
  unfold Label.load Label.readLines
  rw [hl]
  show loadLines ((lines (utf16le.dec (utf16 t))).map some) = _
  rw [utf16_read]

example : utf16 c%"あ𩸽\n" = [0x42, 0x30, 0x67, 0xD8, 0x3D, 0xDE, 0x0A, 0x00] := by decide +kernel

/-- **C66, the boundary.** A user dictionary opened with a label of UTF-16: a save succeeds and clears the changes, but it writes
UTF-8, and when the dictionary is opened again it is empty, whatever it held. -/
theorem utf16_save_loses_all (ls : Labels) (path label : Str) (hl : ls label = some utf16le) (fs : FS) (hf : (fs path).isSome) (m : DictMaps)
    (hm : ∀ o, ∀ e ∈ side m o, '\x00' ∉ DictEntry.toLine e.2) :
    let r := Label.save ls fs ⟨path, label, m, true, false⟩
    r.2.2 = .ok true ∧ r.1.hasChange = false ∧ Label.new ls path label r.2.1 = some ⟨path, label, ⟨[], []⟩, false, false⟩ := by
  obtain ⟨old, hf⟩ := Option.isSome_iff_exists.mp hf
  have hz : (0 : UInt8) ∉ encode ((DictFile.saveParts Utf8.utf8 m).flatten) := by
    apply zero_free
    intro h
    obtain ⟨p, hp, hc⟩ := List.mem_flatten.mp h
    unfold DictFile.saveParts at hp
    have hside : ∀ o, p ∈ (side m o).filterMap (fun e => DictFile.entryPart Utf8.utf8 e.2) → False := by
      intro o hp
      obtain ⟨e, he, hpe⟩ := List.mem_filterMap.mp hp
      unfold DictFile.entryPart at hpe
      dsimp only at hpe
      split at hpe
      · cases hpe
        rcases List.mem_append.mp hc with hc | hc
        · exact hm o e he hc
        · revert hc; decide
      · cases hpe
    simp only [List.mem_append, List.mem_cons, List.not_mem_nil, or_false] at hp
    rcases hp with ((rfl | hp) | rfl) | hp
    · revert hc; decide
    · exact hside true hp
    · revert hc; decide
    · exact hside false hp
  have hs := utf16_bytes m
  have hload := utf16_no_words ls label hl _ hz
  simp [Label.save, FsOp.run, hf, hl, hs, Label.new, hload]

/-! ## The hypotheses are met -/

/-- Some labels. -/
def someLabels : Labels := fun l =>
  if l = c%"utf-8" then some ⟨false, Utf8.utf8.enc, Utf8.utf8.dec⟩
  else if l = c%"utf-16" then some utf16le
  else if l = c%"replacement" then some ⟨true, Utf8.utf8.enc, fun _ => [Utf8.replacement]⟩
  else none

/-- あい /愛/ in EUC-JP. -/
def eucLine : Bytes := [0xA4, 0xA2, 0xA4, 0xA4, 0x20, 0x2F, 0xB0, 0xA6, 0x2F, 0x0A]

theorem sample_labels :
    Label.load someLabels c%"utf-8-unix" (encode c%"あい /愛/\n") = (⟨[], []⟩ : DictMaps).select Persist.ai ∧
    Label.load someLabels c%"utf-8" (encode c%"あい /愛/\n") = (⟨[], []⟩ : DictMaps).select Persist.ai ∧
    Label.load someLabels c%"euc-jis-2004" eucLine = ⟨[], []⟩ ∧
    Label.load someLabels c%"utf-16" [0x42, 0x30, 0x44, 0x30, 0x20, 0, 0x2F, 0, 0x1B, 0x61, 0x2F, 0, 0x0A, 0] = (⟨[], []⟩ : DictMaps).select Persist.ai ∧
    (let r := Label.save someLabels (fun p => if p = c%"d" then some [] else none) ⟨c%"d", c%"utf-16", (⟨[], []⟩ : DictMaps).select Persist.ai, true, false⟩
     r.2.2 = .ok true ∧ (Label.new someLabels c%"d" c%"utf-16" r.2.1) = some ⟨c%"d", c%"utf-16", ⟨[], []⟩, false, false⟩) := by
  decide +kernel

/-- No line of the EUC-JP file is UTF-8. -/
theorem euc_not_utf8 : ∀ l ∈ byteLinesAux [] eucLine, ∀ s, l ≠ encode s := by
  intro l hl s e
  have h : (byteLinesAux [] eucLine).map strict = [none] := by decide +kernel
  have hm : strict l ∈ (byteLinesAux [] eucLine).map strict := List.mem_map.mpr ⟨l, hl, rfl⟩
  rw [h] at hm
  have : strict l = some s := by rw [e]; unfold strict; rw [Utf8.decode_encode, if_pos rfl]
  rw [this] at hm
  simp at hm

end Cskk.Props.Label

import Verif.Model.Bom
import Verif.Props.Label

/-!
# C88: byte order marks
-/

namespace Cskk.Props.Bom

open Cskk Cskk.DictFile Cskk.Label Cskk.Bom Cskk.Utf8

theorem strip_mark (m bs : Bytes) : strip m (m ++ bs) = bs := by
  unfold strip
  rw [if_pos (by simp), List.drop_left]

theorem strip_other {m bs : Bytes} (h : m.isPrefixOf bs = false) : strip m bs = bs := by
  unfold strip
  rw [if_neg (by simp [h])]

/-- A text which begins with an ASCII character has no mark in UTF-8. -/
theorem no_mark {s : Str} {c : Char} (h : s.head? = some c) (hc : c.toNat < 0x80) :
    mark8.isPrefixOf (encode s) = false ∧ mark16le.isPrefixOf (encode s) = false ∧ mark16be.isPrefixOf (encode s) = false := by
  cases s with
  | nil => cases h
  | cons d s =>
    cases h
    have e : encode (c :: s) = UInt8.ofNat c.toNat :: encode s := by
      rw [Label.encode_cons]
      unfold encodeChar
      simp [hc]
    have hb : ∀ b : UInt8, 0x80 ≤ b.toNat → (b == UInt8.ofNat c.toNat) = false := by
      intro b hb
      rw [beq_eq_false_iff_ne]
      rintro rfl
      rw [Utf8.byte_toNat _ (by omega)] at hb
      omega
    rw [e]
    refine ⟨?_, ?_, ?_⟩
    · show ((0xEF : UInt8) == _ && _) = false
      rw [hb _ (by decide)]; rfl
    · show ((0xFF : UInt8) == _ && _) = false
      rw [hb _ (by decide)]; rfl
    · show ((0xFE : UInt8) == _ && _) = false
      rw [hb _ (by decide)]; rfl

/-- UTF-8 with its mark as an encoding of dictionaries: everything which is proved for all `Codec`s holds for it. -/
def utf8Marked : Codec where
  enc := Utf8.utf8.enc
  dec := fun bs => decode (strip mark8 bs)
  round := by
    intro parts bs h hh
    have h1 := Utf8.utf8.round parts bs h hh
    have hbs : bs.flatten = encode parts.flatten := by
      have : ∀ (parts : List Str) (bs : List Bytes), parts.mapM (fun s => some (encode s)) = some bs → bs.flatten = encode parts.flatten := by
        intro parts
        induction parts with
        | nil => intro bs h; cases h; rfl
        | cons p parts ih =>
          intro bs h
          rw [List.mapM_cons] at h
          cases hm : parts.mapM (fun s => some (encode s)) with
          | none => rw [hm] at h; cases h
          | some l =>
            rw [hm] at h; cases h
            rw [List.flatten_cons, List.flatten_cons, ih l hm, Label.encode_append]
      exact this parts bs h
    show decode (strip mark8 bs.flatten) = _
    rw [strip_other (by rw [hbs]; exact (no_mark hh (by decide)).1)]
    exact h1

/-- **C88.** A dictionary in UTF-8 is read the same with the mark and without, whatever its bytes: the mark is not part of the first line. -/
theorem mark_ignored (contents : Bytes) : DictFile.load utf8Marked (0xEF :: 0xBB :: 0xBF :: contents) = DictFile.load Utf8.utf8 contents := by
  show loadLines ((lines (decode (strip mark8 (mark8 ++ contents)))).map some) = _
  rw [strip_mark]; rfl

/-- **C88.** Without a mark nothing changes. -/
theorem unmarked_same (contents : Bytes) (h : mark8.isPrefixOf contents = false) : DictFile.load utf8Marked contents = DictFile.load Utf8.utf8 contents := by
  show loadLines ((lines (decode (strip mark8 contents))).map some) = _
  rw [strip_other h]; rfl

/-- **C88.** What is saved has no mark, so a file loses its mark with the first save, and is read the same afterwards. -/
theorem saved_unmarked (m : DictMaps) (bs : Bytes) (h : DictFile.saveBytes Utf8.utf8 m = some bs) :
    mark8.isPrefixOf bs = false ∧ mark16le.isPrefixOf bs = false ∧ mark16be.isPrefixOf bs = false ∧
      DictFile.saveBytes utf8Marked m = some bs ∧ DictFile.load utf8Marked bs = DictFile.load Utf8.utf8 bs := by
  have hp : ∃ s : Str, s.head? = some ';' ∧ bs = encode s := by
    unfold DictFile.saveBytes at h
    obtain ⟨l, hl, rfl⟩ := Option.map_eq_some_iff.mp h
    refine ⟨(saveParts Utf8.utf8 m).flatten, by simp [saveParts], ?_⟩
    have hd := Utf8.utf8.round _ l hl (by simp [saveParts])
    have : ∀ (parts : List Str) (bs : List Bytes), parts.mapM (fun s => some (encode s)) = some bs → bs.flatten = encode parts.flatten := by
      intro parts
      induction parts with
      | nil => intro bs h; cases h; rfl
      | cons p parts ih =>
        intro bs h
        rw [List.mapM_cons] at h
        cases hm : parts.mapM (fun s => some (encode s)) with
        | none => rw [hm] at h; cases h
        | some l =>
          rw [hm] at h; cases h
          rw [List.flatten_cons, List.flatten_cons, ih l hm, Label.encode_append]
    exact this _ _ hl
  obtain ⟨s, hs, rfl⟩ := hp
  obtain ⟨h1, h2, h3⟩ := no_mark hs (by decide)
  exact ⟨h1, h2, h3, h, unmarked_same _ h1⟩

/-- **C88.** A file which begins with no mark is read as C66 says, with every label. -/
theorem as_without_marks (ls ls' : Labels) (label : Str) (contents : Bytes) (h8 : mark8.isPrefixOf contents = false)
    (hl : mark16le.isPrefixOf contents = false) (hb : mark16be.isPrefixOf contents = false)
    (hls : ls' label = (ls label).map (marked · []) ∨ ls' label = (ls label).map (marked · mark8) ∨ ls' label = (ls label).map (marked · mark16le) ∨
      ls' label = (ls label).map (marked · mark16be)) :
    Bom.load ls' label contents = Label.load ls label contents := by
  have hs : sniffed contents = (byteLinesAux [] contents).map strict := by
    unfold sniffed
    rw [if_neg (by simp [h8]), if_neg (by simp [hl]), if_neg (by simp [hb])]
  have he : strip [] contents = contents := by unfold strip; simp
  unfold Bom.load Label.load Bom.readLines Label.readLines
  cases hlab : ls label with
  | none =>
    have : ls' label = none := by rcases hls with h | h | h | h <;> rw [h, hlab] <;> rfl
    rw [this]; simp only [hs]
  | some e =>
    rcases hls with h | h | h | h <;> rw [h, hlab] <;> simp only [Option.map_some, marked] <;>
      simp only [hs, he, strip_other h8, strip_other hl, strip_other hb]

/-- A text in UTF-16, high bytes first. -/
def utf16be (s : Str) : Bytes := (s.flatMap Label.utf16Char).flatMap fun u => [UInt8.ofNat (u / 256), UInt8.ofNat (u % 256)]

/-- The marks are the encodings of the character U+FEFF, in UTF-8 and in both orders of UTF-16. -/
theorem marks_are_characters (t : Str) : mark8 ++ encode t = encode ('\uFEFF' :: t) ∧ mark16le ++ Label.utf16 t = Label.utf16 ('\uFEFF' :: t) ∧
    mark16be ++ utf16be t = utf16be ('\uFEFF' :: t) := by
  refine ⟨?_, ?_, ?_⟩
  · have h : mark8 = encode ['\uFEFF'] := by decide +kernel
    rw [h]; simp [encode]
  · have h : mark16le = Label.utf16 ['\uFEFF'] := by decide +kernel
    rw [h]; simp [Label.utf16]
  · have h : mark16be = utf16be ['\uFEFF'] := by decide +kernel
    rw [h]; simp [utf16be]

theorem swap_be (t : Str) : swap (utf16be t) = Label.utf16 t := by
  unfold utf16be Label.utf16
  generalize t.flatMap Label.utf16Char = us
  induction us with
  | nil => rfl
  | cons u us ih => simp only [List.flatMap_cons, List.cons_append, List.nil_append, swap, ih]

/-- **C88.** With a label which is not known the mark decides: UTF-8 and UTF-16 files which begin with their mark, the character U+FEFF, are read completely. -/
theorem unknown_label_marked (ls : Labels) (label : Str) (hl : ∀ e, ls label = some e → e.replacement = true) (t : Str) :
    Bom.load ls label (encode ('\uFEFF' :: t)) = loadLines ((lines t).map some) ∧
    Bom.load ls label (Label.utf16 ('\uFEFF' :: t)) = loadLines ((lines t).map some) ∧
    Bom.load ls label (utf16be ('\uFEFF' :: t)) = loadLines ((lines t).map some) := by
  obtain ⟨m1, m2, m3⟩ := marks_are_characters t
  rw [← m1, ← m2, ← m3]
  have hr : ∀ c, Bom.load ls label c = loadLines (sniffed c) := by
    intro c
    unfold Bom.load Bom.readLines
    cases h : ls label with
    | none => rfl
    | some e => simp only [hl e h, if_true]
  refine ⟨?_, ?_, ?_⟩
  · rw [hr]
    unfold sniffed
    rw [if_pos (by simp)]
    show loadLines ((lines (decode (encode t))).map some) = _
    rw [Utf8.decode_encode]
  · rw [hr]
    unfold sniffed
    rw [if_neg (by simp [mark8, mark16le]), if_pos (by simp)]
    show loadLines ((lines (utf16le.dec (Label.utf16 t))).map some) = _
    rw [Label.utf16_read]
  · rw [hr]
    unfold sniffed
    rw [if_neg (by simp [mark8, mark16be]), if_neg (by simp [mark16le, mark16be]), if_pos (by simp)]
    show loadLines ((lines (utf16le.dec (swap (utf16be t)))).map some) = _
    rw [swap_be, Label.utf16_read]

/-- **C88.** With the label of UTF-16 the mark of UTF-16 is no part of the text either. -/
theorem utf16_marked (ls : Labels) (label : Str) (hl : ls label = some (marked utf16le mark16le)) (t : Str) :
    Bom.load ls label (Label.utf16 ('\uFEFF' :: t)) = loadLines ((lines t).map some) := by
  rw [← (marks_are_characters t).2.1]
  unfold Bom.load Bom.readLines
  rw [hl]
  show loadLines ((lines (utf16le.dec (strip mark16le (mark16le ++ Label.utf16 t)))).map some) = _
  rw [strip_mark, Label.utf16_read]

/-- あい /愛/ in UTF-8. -/
def line : Bytes := encode c%"あい /愛/\n"

/-- C88, the boundary: only one mark is removed; a second one is text and spoils the first line: its word is not found for its
reading. -/
theorem second_mark : DictFile.load utf8Marked (mark8 ++ line) = (⟨[], []⟩ : DictMaps).select Persist.ai ∧
    DictFile.load utf8Marked (mark8 ++ (mark8 ++ line)) ≠ (⟨[], []⟩ : DictMaps).select Persist.ai := by decide +kernel

/-- The hypotheses are met: an unknown label, with and without marks. -/
theorem sample : Bom.load Label.someLabels c%"utf-8-unix" (mark8 ++ line) = (⟨[], []⟩ : DictMaps).select Persist.ai ∧
    Bom.load Label.someLabels c%"utf-8-unix" (utf16be c%"\uFEFFあい /愛/\n") = (⟨[], []⟩ : DictMaps).select Persist.ai ∧
    Bom.load Label.someLabels c%"utf-8-unix" line = (⟨[], []⟩ : DictMaps).select Persist.ai := by decide +kernel

end Cskk.Props.Bom

import Verif.Model.Utf8
import Verif.Props.DictSave

/-!
# C54: dictionaries in UTF-8
-/

namespace Cskk.Props.Utf8
open Cskk.Utf8 Cskk.Spec Cskk.Spec.UserDict Cskk.Spec.DictText Cskk.DictFile Cskk.Props.UserDict DictEntry

theorem byte_toNat (n : Nat) (h : n < 256) : (UInt8.ofNat n).toNat = n := by simp; omega

theorem char_bounds (c : Char) : c.toNat < 0xD800 ∨ (0xDFFF < c.toNat ∧ c.toNat < 0x110000) := c.valid

theorem decode_char (c : Char) (bs : Bytes) : decodeFrom idle (encodeChar c ++ bs) = c :: decodeFrom idle bs := by
  have hv := char_bounds c
  have hc : Char.ofNat c.toNat = c := Char.ofNat_toNat c
  unfold encodeChar
  simp only
  generalize hn : c.toNat = n at *
  split
  · rename_i h
    simp only [List.cons_append, List.nil_append, decodeFrom, byte_toNat n (by omega)]
    simp [step, first, idle, h, hc]
  · split
    · simp only [List.cons_append, List.nil_append, decodeFrom, byte_toNat (0xC0 + n / 64) (by omega), byte_toNat (0x80 + n % 64) (by omega)]
      have h1 : step idle (0xC0 + n / 64) = ([], ⟨1, n / 64, 0x80, 0xBF⟩) := by
        simp only [step, idle, first, if_true]
        rw [if_neg (by omega), if_pos (by omega)]
        simp
      have h2 : step ⟨1, n / 64, 0x80, 0xBF⟩ (0x80 + n % 64) = ([c], idle) := by
        simp only [step]
        rw [if_neg (by omega), if_pos (by omega)]; simp only [if_true]; rw [show n / 64 * 64 + (0x80 + n % 64 - 0x80) = n by omega, hc]
      rw [h1]; simp only; rw [h2]; simp
    · split
      · simp only [List.cons_append, List.nil_append, decodeFrom, byte_toNat (0xE0 + n / 4096) (by omega),
          byte_toNat (0x80 + n / 64 % 64) (by omega), byte_toNat (0x80 + n % 64) (by omega)]
        have h1 : step idle (0xE0 + n / 4096) =
            ([], ⟨2, n / 4096, if n / 4096 = 0 then 0xA0 else 0x80, if n / 4096 = 0xD then 0x9F else 0xBF⟩) := by
          simp only [step, idle, first, if_true]
          rw [if_neg (by omega), if_neg (by omega), if_pos (by omega)]
          have a1 : (0xE0 + n / 4096 = 0xE0) = (n / 4096 = 0) := by apply propext; omega
          have a2 : (0xE0 + n / 4096 = 0xED) = (n / 4096 = 0xD) := by apply propext; omega
          simp only [a1, a2, Nat.add_sub_cancel_left]
        have h2 : step ⟨2, n / 4096, if n / 4096 = 0 then 0xA0 else 0x80, if n / 4096 = 0xD then 0x9F else 0xBF⟩ (0x80 + n / 64 % 64) =
            ([], ⟨1, n / 64, 0x80, 0xBF⟩) := by
          simp only [step]
          rw [if_neg (by omega), if_pos (by constructor <;> split <;> omega), if_neg (by omega),
            show n / 4096 * 64 + (0x80 + n / 64 % 64 - 0x80) = n / 64 by omega]
        have h3 : step ⟨1, n / 64, 0x80, 0xBF⟩ (0x80 + n % 64) = ([c], idle) := by
          simp only [step]
          rw [if_neg (by omega), if_pos (by omega)]; simp only [if_true]; rw [show n / 64 * 64 + (0x80 + n % 64 - 0x80) = n by omega, hc]
        rw [h1]; simp only; rw [h2]; simp only; rw [h3]; simp
      · simp only [List.cons_append, List.nil_append, decodeFrom, byte_toNat (0xF0 + n / 262144) (by omega),
          byte_toNat (0x80 + n / 4096 % 64) (by omega), byte_toNat (0x80 + n / 64 % 64) (by omega), byte_toNat (0x80 + n % 64) (by omega)]
        have h1 : step idle (0xF0 + n / 262144) =
            ([], ⟨3, n / 262144, if n / 262144 = 0 then 0x90 else 0x80, if n / 262144 = 4 then 0x8F else 0xBF⟩) := by
          simp only [step, idle, first, if_true]
          rw [if_neg (by omega), if_neg (by omega), if_neg (by omega), if_pos (by omega)]
          have a1 : (0xF0 + n / 262144 = 0xF0) = (n / 262144 = 0) := by apply propext; omega
          have a2 : (0xF0 + n / 262144 = 0xF4) = (n / 262144 = 4) := by apply propext; omega
          simp only [a1, a2, Nat.add_sub_cancel_left]
        have h2 : step ⟨3, n / 262144, if n / 262144 = 0 then 0x90 else 0x80, if n / 262144 = 4 then 0x8F else 0xBF⟩
            (0x80 + n / 4096 % 64) = ([], ⟨2, n / 4096, 0x80, 0xBF⟩) := by
          simp only [step]
          rw [if_neg (by omega), if_pos (by constructor <;> split <;> omega), if_neg (by omega),
            show n / 262144 * 64 + (0x80 + n / 4096 % 64 - 0x80) = n / 4096 by omega]
        have h3 : step ⟨2, n / 4096, 0x80, 0xBF⟩ (0x80 + n / 64 % 64) = ([], ⟨1, n / 64, 0x80, 0xBF⟩) := by
          simp only [step]
          rw [if_neg (by omega), if_pos (by omega), if_neg (by omega),
            show n / 4096 * 64 + (0x80 + n / 64 % 64 - 0x80) = n / 64 by omega]
        have h4 : step ⟨1, n / 64, 0x80, 0xBF⟩ (0x80 + n % 64) = ([c], idle) := by
          simp only [step]
          rw [if_neg (by omega), if_pos (by omega)]; simp only [if_true]; rw [show n / 64 * 64 + (0x80 + n % 64 - 0x80) = n by omega, hc]
        rw [h1]; simp only; rw [h2]; simp only; rw [h3]; simp only; rw [h4]; simp

/-- C54: every text is encoded and decoded without loss. -/
theorem decode_encode (s : Str) : decode (encode s) = s := by
  unfold decode encode
  induction s with
  | nil => rfl
  | cons c s ih => rw [List.flatMap_cons, decode_char, ih]

theorem flatten_encode (parts : List Str) : (parts.map encode).flatten = encode parts.flatten := by
  induction parts with
  | nil => rfl
  | cons p parts ih => simp only [List.map_cons, List.flatten_cons, ih]; simp [encode]

/-- UTF-8 as an encoding of dictionaries. -/
def utf8 : Codec where
  enc := fun s => some (encode s)
  dec := decode
  round := by
    intro parts bs h _
    have : ∀ (parts : List Str) (bs : List Bytes), parts.mapM (fun s => some (encode s)) = some bs → bs = parts.map encode := by
      intro parts
      induction parts with
      | nil => intro bs h; cases h; rfl
      | cons p parts ih =>
        intro bs h
        rw [List.mapM_cons] at h
        cases hm : parts.mapM (fun s => some (encode s)) with
        | none => rw [hm] at h; cases h
        | some l => rw [hm] at h; cases h; rw [ih l hm]; rfl
    rw [this parts bs h]
    rw [flatten_encode, decode_encode]

/-! ## Long lines -/

theorem encodeChar_length (c : Char) : (encodeChar c).length ≤ 4 := by
  unfold encodeChar
  simp only
  repeat (first | (split; simp) | simp)

theorem encodeInto_spec (s : Str) : ∀ cap, encode s = (encodeInto cap s).1 ++ encode (encodeInto cap s).2 ∧
    (encodeInto cap s).2.length ≤ s.length ∧ (4 ≤ cap → s ≠ [] → (encodeInto cap s).2.length < s.length) := by
  induction s with
  | nil => intro cap; simp [encodeInto, encode]
  | cons c s ih =>
    intro cap
    unfold encodeInto
    have hl := encodeChar_length c
    split
    · obtain ⟨h1, h2, _⟩ := ih (cap - (encodeChar c).length)
      refine ⟨?_, ?_, ?_⟩
      · simp only [List.append_assoc, ← h1]; simp [encode]
      · simp only [List.length_cons]; omega
      · intro _ _; simp only [List.length_cons]; omega
    · refine ⟨by simp, by simp, fun h4 _ => by omega⟩

theorem encodeLoop_spec (cap : Nat) (hcap : 4 ≤ cap) : ∀ (fuel : Nat) (s : Str) (acc : Bytes), s ≠ [] → s.length < fuel →
    encodeLoop cap fuel s acc = some (acc ++ encode s) := by
  intro fuel
  induction fuel with
  | zero => intro s acc _ h; omega
  | succ fuel ih =>
    intro s acc hs hf
    obtain ⟨h1, h2, h3⟩ := encodeInto_spec s cap
    have h3 := h3 hcap hs
    unfold encodeLoop
    simp only
    rw [if_neg (by omega)]
    split
    · rename_i he
      have : (encodeInto cap s).2 = [] := by simpa using he
      rw [h1, this]; simp [encode]
    · rename_i he
      rw [ih _ _ (by simpa using he) (by omega), h1, List.append_assoc]

/-- C54: **no length limit**: the text of an entry is encoded completely however long it is, although the encoder works through a buffer of fixed
size. -/
theorem long_text_encoded (cap : Nat) (hcap : 4 ≤ cap) (s : Str) (hs : s ≠ []) : encodeString cap s = some (encode s) := by
  unfold encodeString
  rw [encodeLoop_spec cap hcap _ s [] hs (by omega)]; simp

/-- The empty text is refused; no part of a dictionary file is empty. -/
theorem empty_text_refused (cap : Nat) : encodeString cap [] = none := rfl

example : encodeString 5 c%"あいう/x" = some (encode c%"あいう/x") := by decide +kernel

/-! ## Damage -/

/-- The states which the decoder can be in. -/
def Proper (st : State) : Prop :=
  0x80 ≤ st.lo ∧ st.need ≤ 3 ∧ (st.need = 1 → 2 ≤ st.cp) ∧ (st.need = 2 → 2 ≤ st.cp * 64 + (st.lo - 0x80)) ∧
    (st.need = 3 → 1 ≤ st.cp * 64 + (st.lo - 0x80))

theorem idle_proper : Proper idle := by unfold Proper; decide

theorem first_proper (b : Nat) : Proper (first b).2 := by
  unfold first
  split
  · exact idle_proper
  · split
    · unfold Proper; simp; omega
    · split
      · unfold Proper
        simp only [Nat.reduceLeDiff, Nat.reduceEqDiff, false_imp_iff, true_and, true_imp_iff, and_true]
        constructor
        · split <;> omega
        · split <;> omega
      · split
        · unfold Proper
          simp only [Nat.reduceLeDiff, Nat.reduceEqDiff, false_imp_iff, true_and, true_imp_iff]
          constructor
          · split <;> omega
          · split <;> omega
        · exact idle_proper

theorem step_proper (st : State) (b : Nat) (h : Proper st) : Proper (step st b).2 := by
  unfold step
  split
  · exact first_proper b
  · split
    · rename_i hb
      simp only
      split
      · exact idle_proper
      · unfold Proper at h ⊢
        simp only
        obtain ⟨h1, h2, h3, h4, h5⟩ := h
        refine ⟨by omega, by omega, fun hn => ?_, fun hn => ?_, fun hn => by omega⟩
        · have := h4 (by omega); omega
        · have := h5 (by omega); omega
    · exact first_proper b

theorem newline_ofNat (n : Nat) (h : '\n' = Char.ofNat n) : n = 10 := by
  by_cases hv : n.isValidChar
  · have h0 : Char.ofNat n = Char.ofNatAux n hv := dif_pos hv
    rw [h0] at h
    have hc := congrArg (fun c : Char => c.val.toNat) h
    have h1 : (Char.ofNatAux n hv).val.toNat = n := rfl
    simp only [h1] at hc
    exact hc.symm
  · have h0 : Char.ofNat n = Char.ofNat 0 := by
      rw [show Char.ofNat n = _ from dif_neg hv]; rfl
    rw [h0] at h
    exact absurd h (by decide)

theorem first_newline (b : Nat) (h : '\n' ∈ (first b).1) : b = 0x0A := by
  unfold first at h
  split at h
  · rename_i hb
    simp only [List.mem_singleton] at h
    exact newline_ofNat b h
  · split at h
    · cases h
    · split at h
      · cases h
      · split at h
        · cases h
        · exact absurd h (by decide)

theorem step_newline (st : State) (b : Nat) (hst : Proper st) (h : '\n' ∈ (step st b).1) : b = 0x0A := by
  unfold step at h
  split at h
  · exact first_newline b h
  · split at h
    · rename_i hb
      simp only at h
      split at h
      · rename_i hn
        simp only [List.mem_singleton] at h
        have hc := newline_ofNat _ h
        have h2 := hst.2.2.1 hn
        omega
      · cases h
    · simp only [List.mem_cons] at h
      rcases h with h | h
      · exact absurd h (by decide)
      · exact first_newline b h

theorem decodeFrom_lines (st : State) (a b : Bytes) (h : Proper st) :
    decodeFrom st (a ++ 0x0A :: b) = decodeFrom st a ++ '\n' :: decodeFrom idle b := by
  induction a generalizing st with
  | nil =>
    simp only [List.nil_append, decodeFrom, step, finish]
    have hf : first (0x0A : UInt8).toNat = (['\n'], idle) := by decide
    by_cases hn : st.need = 0
    · simp only [hn, if_true, hf]; rfl
    · have hr : ¬ (st.lo ≤ (0x0A : UInt8).toNat ∧ (0x0A : UInt8).toNat ≤ st.hi) := by
        have := h.1
        have h3 : (0x0A : UInt8).toNat = 10 := rfl
        omega
      simp only [hn, if_false, hf, if_neg hr]
      simp
  | cons x a ih => simp only [List.cons_append, decodeFrom, ih _ (step_proper st _ h), List.append_assoc]

/-- C54: **line breaks are safe**: whatever bytes stand before and after it, a line break is one, and the lines before and after it are
decoded independently of each other. -/
theorem lines_independent (a b : Bytes) : decode (a ++ 0x0A :: b) = decode a ++ '\n' :: decode b :=
  decodeFrom_lines idle a b idle_proper

theorem decodeFrom_no_newline (st : State) (a : Bytes) (h : Proper st) (ha : (0x0A : UInt8) ∉ a) : '\n' ∉ decodeFrom st a := by
  induction a generalizing st with
  | nil =>
    simp only [decodeFrom, finish]
    split
    · simp
    · decide
  | cons x a ih =>
    simp only [decodeFrom, List.mem_append, not_or]
    constructor
    · intro hm
      have := step_newline st _ h hm
      apply ha
      have hx : x = 0x0A := by apply UInt8.toNat_inj.mp; rw [this]; rfl
      simp [hx]
    · exact ih _ (step_proper st _ h) fun hm => ha (by simp [hm])

theorem decode_no_newline (a : Bytes) (ha : (0x0A : UInt8) ∉ a) : '\n' ∉ decode a := decodeFrom_no_newline idle a idle_proper ha

/-- C54: **damage is confined to its line**: bytes of any kind between two line breaks which do not make up an entry or comment
have no effect on the dictionary. -/
theorem damage_confined (before bad after : Bytes) (hb : (0x0A : UInt8) ∉ bad) (hr : (decode bad).getLast? ≠ some '\r')
    (hc : (decode bad).head? ≠ some ';') (hbad : fromLine (decode bad) = none) :
    load utf8 (before ++ 0x0A :: bad ++ 0x0A :: after) = load utf8 (before ++ 0x0A :: after) := by
  refine DictSave.malformed_text_ignored utf8 _ _ (decode before) (decode bad) (decode after) ?_ ?_ (decode_no_newline bad hb) hr hc hbad
  · show decode _ = _
    rw [List.append_assoc, List.cons_append, lines_independent, lines_independent]; simp
  · show decode _ = _
    rw [lines_independent]

/-- At most one line without line breaks. -/
theorem lines_short (s : Str) (h : '\n' ∉ s) : (lines s).length ≤ 1 := by
  have : ∀ cur, '\n' ∉ s → (linesAux cur s).length ≤ 1 := by
    induction s with
    | nil => intro cur _; cases cur <;> simp [linesAux]
    | cons c s ih =>
      intro cur h
      rw [DictSave.linesAux_char _ _ _ (fun e => h (by simp [e]))]
      exact ih (fun h' => h (by simp [h'])) _ fun h' => h (by simp [h'])
  exact this [] h

theorem lines_count (s : Str) (cur : Str) : (linesAux cur (s ++ ['\n'])).length = s.count '\n' + 1 := by
  induction s generalizing cur with
  | nil => simp [DictSave.linesAux_newline, linesAux]
  | cons c s ih =>
    rw [List.cons_append]
    by_cases hc : c = '\n'
    · subst hc; rw [DictSave.linesAux_newline, List.length_cons, ih]; simp
    · rw [DictSave.linesAux_char _ _ _ hc, ih, List.count_cons_of_ne hc]

theorem split_last_newline (p : Bytes) : (0x0A : UInt8) ∉ p ∨ ∃ q r, p = q ++ 0x0A :: r ∧ (0x0A : UInt8) ∉ r := by
  induction p with
  | nil => left; simp
  | cons x p ih =>
    rcases ih with h | ⟨q, r, rfl, hr⟩
    · by_cases hx : x = 0x0A
      · right; exact ⟨[], p, by rw [hx]; rfl, h⟩
      · left; simp [h, Ne.symm hx]
    · right; exact ⟨x :: q, r, rfl, hr⟩

/-- C54: **a file which was cut off** (a crash while it was written, at any byte) still has all its complete lines; only the line which is
cut may read differently. -/
theorem truncated_file (p rest : Bytes) :
    ∃ n cut, cut.length ≤ 1 ∧ lines (decode p) = (lines (decode (p ++ rest))).take n ++ cut ∧
      (n = p.count 0x0A) := by
  rcases split_last_newline p with h | ⟨q, r, rfl, hr⟩
  · exact ⟨0, lines (decode p), lines_short _ (decode_no_newline p h), by simp, by rw [List.count_eq_zero.mpr h]⟩
  · refine ⟨(lines (decode q ++ ['\n'])).length, lines (decode r), lines_short _ (decode_no_newline r hr), ?_, ?_⟩
    · rw [List.append_assoc, List.cons_append, lines_independent, lines_independent, DictSave.lines_append (decode q) (decode r),
        DictSave.lines_append (decode q) (decode (r ++ rest)), List.take_left]
    · have hcount : ∀ (l : Bytes) (st : State), Proper st → (decodeFrom st l).count '\n' = l.count 0x0A := by
        intro l
        induction hl : l.length using Nat.strongRecOn generalizing l with
        | _ k ih =>
          intro st hst
          rcases split_last_newline l with h | ⟨q, r, rfl, hr⟩
          · rw [List.count_eq_zero.mpr h, List.count_eq_zero.mpr (decodeFrom_no_newline st l hst h)]
          · rw [decodeFrom_lines st q r hst, List.count_append, List.count_cons_self, List.count_append, List.count_cons_self,
              List.count_eq_zero.mpr hr, List.count_eq_zero.mpr (decodeFrom_no_newline idle r idle_proper hr),
              ih q.length (by rw [← hl]; simp) q rfl st hst]
      rw [lines, lines_count, List.count_append, List.count_cons_self, List.count_eq_zero.mpr hr]
      have := hcount q idle idle_proper
      unfold decode
      rw [this]

/-! ## Saving and opening -/

/-- C54: a dirty UTF-8 user dictionary whose entries are representable has the same words after it was saved and opened again: every word
can be encoded. -/
theorem utf8_save_then_open (path : Str) (fs : FS) (d : UserDict) (hd : d.hasChange = true) (hf : (fs path).isSome)
    (hwf : WellFormed d.maps) (hok : ∀ o, ∀ e ∈ side d.maps o, DictSave.Savable e.2) (hari : ∀ e ∈ d.maps.ari, looksOkuriAri e.1 = true) :
    ∃ d' fs' d2, save utf8 path fs d = (d', fs', some true) ∧ DictFile.new utf8 path fs' = some d2 ∧
      ∀ o midashi g, (listed d2.maps o midashi g).getD [] = (listed d.maps o midashi g).getD [] := by
  obtain ⟨old, hold⟩ := Option.isSome_iff_exists.mp hf
  have hb : ∃ bs, saveBytes utf8 d.maps = some bs := by
    unfold saveBytes
    have : ∀ l : List Str, ∃ bs, l.mapM utf8.enc = some bs := by
      intro l
      induction l with
      | nil => exact ⟨[], rfl⟩
      | cons x l ih => obtain ⟨bs, hbs⟩ := ih; exact ⟨encode x :: bs, by rw [List.mapM_cons, hbs]; rfl⟩
    obtain ⟨bs, hbs⟩ := this (saveParts utf8 d.maps)
    exact ⟨bs.flatten, by rw [hbs]; rfl⟩
  obtain ⟨bs, hbs⟩ := hb
  have hs : ∃ d' fs', save utf8 path fs d = (d', fs', some true) := by
    unfold save
    simp only [hd, if_true, FsOp.run, hold, hbs]
    exact ⟨_, _, rfl⟩
  obtain ⟨d', fs', hs⟩ := hs
  obtain ⟨d2, h1, h2⟩ := DictSave.save_then_open utf8 path fs d d' fs' hs hwf (fun o e he => ⟨hok o e he, rfl⟩) hari
  exact ⟨d', fs', d2, hs, h1, h2⟩

example : encode c%"あ/𠮷" = [0xE3, 0x81, 0x82, 0x2F, 0xF0, 0xA0, 0xAE, 0xB7] := by decide +kernel
example : decode [0xE3, 0x81, 0x0A, 0x82, 0x41] = c%"\uFFFD\n\uFFFDA" := by decide +kernel
example : fromLine (decode [0xE3, 0x81, 0x20]) = none ∧ (decode [0xE3, 0x81, 0x20]).head? ≠ some ';' := by decide +kernel

end Cskk.Props.Utf8

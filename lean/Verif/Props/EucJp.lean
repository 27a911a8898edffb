import Verif.Model.EucJp
import Verif.Props.Label
import Verif.Props.SameWords

/-!
# C67: dictionaries in EUC-JP
-/

namespace Cskk.Props.EucJp
open Cskk Cskk.Spec Cskk.DictFile Cskk.EucJp Cskk.Spec.Persist
open Cskk.Spec.UserDict (side)
open Cskk.DictEntry

/-- The characters EUC-JP cannot give back: ¥, ‾ and −. -/
def Lossy (c : Char) : Prop := c.toNat = 0xA5 ∨ c.toNat = 0x203E ∨ c.toNat = 0x2212

instance (c : Char) : Decidable (Lossy c) := inferInstanceAs (Decidable (_ ∨ _))

theorem ofNat_toNat (c : Char) : Char.ofNat c.toNat = c := by simp

/-- What was encoded is decoded, but for three characters. -/
theorem decode_char (J : Jis) (c : Char) (hc : ¬ Lossy c) (bs : Bytes) (h : encodeChar J c = some bs) (rest : Bytes) :
    decodeFrom J idle (bs ++ rest) = c :: decodeFrom J idle rest := by
  unfold Lossy at hc
  unfold encodeChar at h
  dsimp only at h
  by_cases h1 : c.toNat < 0x80
  · rw [if_pos h1] at h
    cases h
    have hb := Utf8.byte_toNat c.toNat (by omega)
    simp only [List.singleton_append, decodeFrom, step, idle, hb, if_true, first, if_pos h1, ofNat_toNat]
  · rw [if_neg h1, if_neg (by omega), if_neg (by omega)] at h
    by_cases h2 : 0xFF61 ≤ c.toNat ∧ c.toNat ≤ 0xFF9F
    · rw [if_pos h2] at h
      cases h
      have hb := Utf8.byte_toNat (c.toNat - 0xFF61 + 0xA1) (by omega)
      have h8 : (0x8E : UInt8).toNat = 0x8E := rfl
      have he : 0xFF61 - 0xA1 + (c.toNat - 0xFF61 + 0xA1) = c.toNat := by omega
      have hr : 0xA1 ≤ c.toNat - 0xFF61 + 0xA1 ∧ c.toNat - 0xFF61 + 0xA1 ≤ 0xDF := by omega
      simp only [List.cons_append, List.nil_append, decodeFrom, step, idle, first, h8, hb]
      simp [hr, he]
    · rw [if_neg h2, if_neg (by omega)] at h
      cases hi : J.index c with
      | none => rw [hi] at h; cases h
      | some p =>
        obtain ⟨r, k⟩ := p
        rw [hi] at h
        cases h
        obtain ⟨hj, hr1, hr2, hk1, hk2⟩ := J.inverse c r k hi
        have hb1 := Utf8.byte_toNat (r + 0xA0) (by omega)
        have hb2 := Utf8.byte_toNat (k + 0xA0) (by omega)
        have e1 : first (r + 0xA0) = ([], ⟨r + 0xA0, false⟩) := by
          unfold first
          rw [if_neg (by omega), if_pos (by omega)]
        have e2 : step J ⟨r + 0xA0, false⟩ (k + 0xA0) = ([c], idle) := by
          unfold step
          rw [if_neg (by show r + 0xA0 ≠ 0; omega), if_neg (by show ¬ (r + 0xA0 = 0x8E ∧ _); omega),
            if_neg (by show ¬ (r + 0xA0 = 0x8F ∧ _); omega), if_pos ⟨show 0xA1 ≤ r + 0xA0 by omega, show r + 0xA0 ≤ 0xFE by omega, by omega, by omega⟩]
          simp [hj]
        simp only [List.cons_append, List.nil_append, decodeFrom, hb1, hb2]
        have e0 : step J idle (r + 0xA0) = first (r + 0xA0) := rfl
        rw [e0, e1]
        simp only [e2]
        rfl

theorem encode_cons (J : Jis) (c : Char) (s : Str) (bs : Bytes) (h : encode J (c :: s) = some bs) :
    ∃ x y, encodeChar J c = some x ∧ encode J s = some y ∧ bs = x ++ y := by
  unfold encode at h ⊢
  rw [List.mapM_cons] at h
  cases hx : encodeChar J c with
  | none => simp [hx] at h
  | some x =>
    cases hy : s.mapM (encodeChar J) with
    | none => simp [hx, hy] at h
    | some y =>
      simp [hx, hy] at h
      exact ⟨x, y.flatten, rfl, rfl, h.symm⟩

theorem decode_encode_from (J : Jis) (s : Str) (hs : ∀ c ∈ s, ¬ Lossy c) (bs : Bytes) (h : encode J s = some bs) (rest : Bytes) :
    decodeFrom J idle (bs ++ rest) = s ++ decodeFrom J idle rest := by
  induction s generalizing bs with
  | nil => cases h; rfl
  | cons c s ih =>
    obtain ⟨x, y, hx, hy, rfl⟩ := encode_cons J c s bs h
    rw [List.append_assoc, decode_char J c (hs c (by simp)) x hx, ih (fun d hd => hs d (by simp [hd])) y hy]
    rfl

/-- **C67.** Text without ¥, ‾ and − that can be encoded is given back. -/
theorem decode_encode (J : Jis) (s : Str) (hs : ∀ c ∈ s, ¬ Lossy c) (bs : Bytes) (h : encode J s = some bs) : decode J bs = s := by
  have := decode_encode_from J s hs bs h []
  simpa [decode, decodeFrom, finish, idle] using this

/-- EUC-JP as an encoding of dictionaries in the sense of the other properties: three characters count as unencodable. -/
def codec (J : Jis) : Codec where
  enc := fun s => if ∀ c ∈ s, ¬ Lossy c then encode J s else none
  dec := decode J
  round := by
    intro parts
    have key : ∀ (parts : List Str) (bs : List Bytes) rest,
        parts.mapM (fun s => if ∀ c ∈ s, ¬ Lossy c then encode J s else none) = some bs →
        decodeFrom J idle (bs.flatten ++ rest) = parts.flatten ++ decodeFrom J idle rest := by
      intro parts
      induction parts with
      | nil => intro bs rest h; cases h; rfl
      | cons p parts ih =>
        intro bs rest h
        rw [List.mapM_cons] at h
        by_cases hp : ∀ c ∈ p, ¬ Lossy c
        · rw [if_pos hp] at h
          cases he : encode J p with
          | none => simp [he] at h
          | some x =>
            cases hm : parts.mapM (fun s => if ∀ c ∈ s, ¬ Lossy c then encode J s else none) with
            | none => simp [he, hm] at h
            | some l =>
              simp [he, hm] at h
              subst h
              rw [List.flatten_cons, List.append_assoc, decode_encode_from J p hp x he, ih l rest hm]
              simp
        · rw [if_neg hp] at h
          simp at h
    intro bs h _
    have := key parts bs [] h
    simpa [decode, decodeFrom, finish, idle] using this

/-! ## Three characters -/

/-- What EUC-JP makes of a character it can encode. -/
def given (c : Char) : Char :=
  if c.toNat = 0xA5 then '\\' else if c.toNat = 0x203E then '~' else if c.toNat = 0x2212 then Char.ofNat 0xFF0D else c

theorem given_same {c : Char} (h : ¬ Lossy c) : given c = c := by
  unfold Lossy at h
  unfold given
  rw [if_neg (by omega), if_neg (by omega), if_neg (by omega)]

theorem encode_given (J : Jis) (c : Char) : encodeChar J (given c) = encodeChar J c := by
  unfold given
  by_cases h1 : c.toNat = 0xA5
  · rw [if_pos h1]
    have e1 : encodeChar J '\\' = some [0x5C] := by unfold encodeChar; rfl
    have e2 : encodeChar J c = some [0x5C] := by unfold encodeChar; simp [h1]
    rw [e1, e2]
  · rw [if_neg h1]
    by_cases h2 : c.toNat = 0x203E
    · rw [if_pos h2]
      have e1 : encodeChar J '~' = some [0x7E] := by unfold encodeChar; rfl
      have e2 : encodeChar J c = some [0x7E] := by unfold encodeChar; simp [h2]
      rw [e1, e2]
    · rw [if_neg h2]
      by_cases h3 : c.toNat = 0x2212
      · rw [if_pos h3]
        have hn : (Char.ofNat 0xFF0D).toNat = 0xFF0D := by decide
        unfold encodeChar
        simp [h3]
      · rw [if_neg h3]

theorem given_ok (c : Char) : ¬ Lossy (given c) := by
  unfold given
  split
  · decide
  · split
    · decide
    · split
      · decide
      · unfold Lossy; omega

/-- **C67, the boundary.** Every text that can be encoded is given back except that ¥ becomes a backslash, ‾ a tilde and − (the minus
sign) －. -/
theorem given_back (J : Jis) (s : Str) (bs : Bytes) (h : encode J s = some bs) : decode J bs = s.map given := by
  have hs : encode J (s.map given) = some bs := by
    rw [← h]
    unfold encode
    congr 1
    clear h
    induction s with
    | nil => rfl
    | cons c s ih => rw [List.map_cons, List.mapM_cons, List.mapM_cons, ih, encode_given]
  exact decode_encode J _ (fun c hc => by obtain ⟨d, -, rfl⟩ := List.mem_map.mp hc; exact given_ok d) bs hs

/-! ## Saving and opening -/

theorem entry_kept (cd : Codec) (m : DictMaps) (bs : Bytes) (hs : DictFile.saveBytes cd m = some bs) (hm : PlainDict m)
    (o : Bool) (r g : Str) (henc : ∀ e, (side m o).find r = some e → (cd.enc (toLine e ++ c%"\n")).isSome) :
    words (DictFile.load cd bs) o r g = words m o r g := by
  have hwf := hm.wf
  unfold words
  rw [DictSave.load_saved cd m bs hs hwf (Persist.savable_all hm) (Persist.plain_ari hm)]
  have key : ∀ o, (side ⟨(DictSave.kept cd m.ari).reverse, (DictSave.kept cd m.nashi).reverse⟩ o).find r
      = Recency.find (DictSave.kept cd (side m o)) r := by
    intro o
    cases o with
    | true => exact DictSave.find_reverse _ _ (DictSave.kept_nodup cd _ (hwf.keys true))
    | false => exact DictSave.find_reverse _ _ (DictSave.kept_nodup cd _ (hwf.keys false))
  unfold Spec.UserDict.listed
  rw [key, DictSave.find_kept cd _ _ (hwf.keys o)]
  cases hf : Recency.find (side m o) r with
  | none => rfl
  | some e =>
    have hsv := Persist.savable_all hm o (r, e) (SMap.mem_of_get (m := side m o) hf)
    have hpart : (DictFile.entryPart cd e).isSome = true := by simp [DictFile.entryPart, henc e hf]
    simp only [Option.bind_some, hpart, Bool.true_and]
    rcases hsv with h | h
    · have hf2 := DictFile.line_round_trip e h
      rw [hf2]
      simp [DictSave.reread]
    · have hf2 := (DictSave.emptied_line e h).2
      have hc : e.cands = [([], [])] := h.2
      rw [hf2]
      simp only [Option.isNone_none, Bool.not_true, Bool.false_eq_true, if_false, hc]
      simp only [SMap.get, Option.bind_none, Option.getD_none]
      by_cases hg : ([] : Str) = g
      · simp [← hg]
      · simp [hg]

theorem header_encodes (J : Jis) (s : Str) (h : ∀ c ∈ s, c.toNat < 0x80) : (encode J s).isSome := by
  unfold encode
  have : ∃ l, s.mapM (encodeChar J) = some l := by
    induction s with
    | nil => exact ⟨[], rfl⟩
    | cons c s ih =>
      obtain ⟨l, hl⟩ := ih fun d hd => h d (by simp [hd])
      refine ⟨[UInt8.ofNat c.toNat] :: l, ?_⟩
      have hc : encodeChar J c = some [UInt8.ofNat c.toNat] := by unfold encodeChar; rw [if_pos (h c (by simp))]
      rw [List.mapM_cons, hc, hl]
      rfl
  obtain ⟨l, hl⟩ := this
  rw [hl]
  rfl

theorem encode_nl (J : Jis) (s : Str) : (encode J (s ++ c%"\n")).isSome = (encode J s).isSome := by
  unfold encode
  rw [List.mapM_append]
  have : List.mapM (encodeChar J) c%"\n" = some [[0x0A]] := by
    have hc : encodeChar J '\n' = some [0x0A] := by unfold encodeChar; rfl
    rw [List.mapM_cons, hc]
    rfl
  rw [this]
  cases List.mapM (encodeChar J) s <;> rfl

theorem saved_total (cd : Codec) (m : DictMaps) (h1 : (cd.enc c%";; okuri-ari entries.\n").isSome) (h2 : (cd.enc c%";; okuri-nasi entries.\n").isSome) :
    ∃ bs, DictFile.saveBytes cd m = some bs := by
  unfold DictFile.saveBytes
  have key : ∀ l : List Str, (∀ s ∈ l, (cd.enc s).isSome) → ∃ bs, l.mapM cd.enc = some bs := by
    intro l
    induction l with
    | nil => intro _; exact ⟨[], rfl⟩
    | cons x l ih =>
      intro h
      obtain ⟨bs, hbs⟩ := ih fun s hs => h s (by simp [hs])
      obtain ⟨b, hb⟩ := Option.isSome_iff_exists.mp (h x (by simp))
      exact ⟨b :: bs, by rw [List.mapM_cons, hb, hbs]; rfl⟩
  obtain ⟨bs, hbs⟩ := key (DictFile.saveParts cd m) (by
    intro s hs
    unfold DictFile.saveParts at hs
    have hpart : ∀ l : List (Str × DictEntry), s ∈ l.filterMap (fun e => DictFile.entryPart cd e.2) → (cd.enc s).isSome := by
      intro l hl
      obtain ⟨e, -, he⟩ := List.mem_filterMap.mp hl
      unfold DictFile.entryPart at he
      dsimp only at he
      split at he
      · rename_i hh; cases he; exact hh
      · cases he
    simp only [List.mem_append, List.mem_cons, List.not_mem_nil, or_false] at hs
    rcases hs with ((rfl | hs) | rfl) | hs
    · exact h1
    · exact hpart _ hs
    · exact h2
    · exact hpart _ hs)
  exact ⟨bs.flatten, by rw [hbs]; rfl⟩

/-- **C67.** A user dictionary opened as EUC-JP is saved and opened again: a save succeeds, every reading whose words can all be
written in EUC-JP has the words it had, in the same order, and every other reading is gone, without an error. -/
theorem euc_save_then_open (J : Jis) (ls : Label.Labels) (path label : Str) (hl : ls label = some (encoding J)) (fs : FS) (hf : (fs path).isSome)
    (m : DictMaps) (hm : PlainDict m) (hx : ∀ o, ∀ e ∈ side m o, ∀ c ∈ toLine e.2, ¬ Lossy c) :
    let r := Label.save ls fs ⟨path, label, m, true, false⟩
    r.2.2 = .ok true ∧ r.1.hasChange = false ∧
    ∃ d, Label.new ls path label r.2.1 = some d ∧ ∀ o reading e, (side m o).find reading = some e →
      ((encode J (toLine e)).isSome → ∀ g, words d.maps o reading g = words m o reading g) ∧
      (encode J (toLine e) = none → ∀ g, words d.maps o reading g = []) := by
  have hagree : ∀ o, ∀ e ∈ side m o, (encoding J).enc (toLine e.2 ++ c%"\n") = (codec J).enc (toLine e.2 ++ c%"\n") := by
    intro o e he
    have : ∀ c ∈ toLine e.2 ++ c%"\n", ¬ Lossy c := by
      intro c hc
      rcases List.mem_append.mp hc with hc | hc
      · exact hx o e he c hc
      · simp only [List.mem_cons, List.not_mem_nil, or_false] at hc; subst hc; decide
    show encode J _ = if _ then _ else _
    rw [if_pos this]
  have hhead : ∀ s : Str, (∀ c ∈ s, c.toNat < 0x80) → (encoding J).enc s = (codec J).enc s := by
    intro s hs
    have : ∀ c ∈ s, ¬ Lossy c := by
      intro c hc
      have := hs c hc
      unfold Lossy
      omega
    show encode J _ = if _ then _ else _
    rw [if_pos this]
  have hk1 : ∀ c ∈ c%";; okuri-ari entries.\n", c.toNat < 0x80 := by decide
  have hk2 : ∀ c ∈ c%";; okuri-nasi entries.\n", c.toNat < 0x80 := by decide
  obtain ⟨h1, h2⟩ := Label.known_label ls label (encoding J) (codec J) hl rfl rfl path fs m true
    (hhead _ hk1) (hhead _ hk2) hagree
  have h1' := fun fs => (Label.known_label ls label (encoding J) (codec J) hl rfl rfl path fs m true
    (hhead _ hk1) (hhead _ hk2) hagree).1
  obtain ⟨bs, hbs⟩ := saved_total (codec J) m (by rw [← hhead _ hk1]; exact header_encodes J _ hk1) (by rw [← hhead _ hk2]; exact header_encodes J _ hk2)
  obtain ⟨old, hf⟩ := Option.isSome_iff_exists.mp hf
  have hsave : DictFile.save (codec J) path fs ⟨m, true⟩ =
      (⟨m, false⟩, fun p => if p = path then some bs else if p = bak path then some old else if p = path then none else fs p, some true) := by
    simp [DictFile.save, FsOp.run, hf, hbs]
  rw [hsave] at h2
  obtain ⟨r1, r2, r3⟩ := h2
  refine ⟨r3, by rw [r1], ?_⟩
  rw [h1', r2]
  refine ⟨⟨path, label, DictFile.load (codec J) bs, false, false⟩, by simp [DictFile.new], ?_⟩
  intro o reading e he
  have hmem := SMap.mem_of_get (m := side m o) he
  have hline : ((codec J).enc (toLine e ++ c%"\n")).isSome = (encode J (toLine e)).isSome := by
    rw [← hagree o (reading, e) hmem]
    exact encode_nl J _
  constructor
  · intro hok g
    refine entry_kept (codec J) m bs hbs hm o reading g ?_
    intro e' he'
    rw [he] at he'
    cases he'
    rw [hline]
    exact hok
  · intro hno g
    unfold words
    rw [DictSave.unencodable_dropped (codec J) m bs hbs hm.wf (Persist.savable_all hm) (Persist.plain_ari hm) o reading g e he ?_]
    · rfl
    · rw [hno] at hline
      cases hh : (codec J).enc (toLine e ++ c%"\n") with
      | none => rfl
      | some x => rw [hh] at hline; cases hline

/-! ## Damaged files -/

theorem step_newline (J : Jis) (st : EucJp.State) : step J st 0x0A = (finish st ++ ['\n'], idle) := by
  unfold step finish
  by_cases h : st.lead = 0
  · rw [if_pos h, if_pos h]; decide
  · rw [if_neg h, if_neg h, if_neg (by omega), if_neg (by omega), if_neg (by omega)]
    simp only []
    rw [if_pos (by decide)]
    rfl

theorem decodeFrom_lines (J : Jis) (st : EucJp.State) (a b : Bytes) :
    decodeFrom J st (a ++ 0x0A :: b) = decodeFrom J st a ++ '\n' :: decodeFrom J idle b := by
  induction a generalizing st with
  | nil =>
    have h : (0x0A : UInt8).toNat = 0x0A := rfl
    simp only [List.nil_append, decodeFrom, h, step_newline]
    simp
  | cons x a ih => simp only [List.cons_append, decodeFrom, ih, List.append_assoc]

/-- **C67.** Line breaks are safe: whatever bytes stand before and after it, a line break is one, and the lines before and after it are
decoded independently of each other. -/
theorem lines_independent (J : Jis) (a b : Bytes) : decode J (a ++ 0x0A :: b) = decode J a ++ '\n' :: decode J b :=
  decodeFrom_lines J idle a b

theorem high_ne {c : Char} (h : 0x80 ≤ c.toNat) : c ≠ '\n' := by
  intro e
  subst e
  revert h
  decide

theorem ofNat_ne_newline {n : Nat} (h : n < 0x80 ∧ n ≠ 0x0A ∨ 0xFF61 ≤ n ∧ n ≤ 0xFFFF) : Char.ofNat n ≠ '\n' := by
  intro e
  have hv : n.isValidChar := by
    rcases h with h | h
    · exact Or.inl (by omega)
    · exact Or.inr (by omega)
  have h1 : (Char.ofNat n).toNat = n := by
    unfold Char.ofNat
    rw [dif_pos hv]
    rfl
  rw [e] at h1
  have : ('\n' : Char).toNat = 10 := rfl
  omega

theorem first_no_newline (b : Nat) (hb : b ≠ 0x0A) : '\n' ∉ (first b).1 := by
  unfold first
  split
  · rename_i h
    intro hm
    simp only [List.mem_cons, List.not_mem_nil, or_false] at hm
    exact ofNat_ne_newline (Or.inl ⟨h, hb⟩) hm.symm
  · split
    · simp
    · decide

theorem step_no_newline (J : Jis) (st : EucJp.State) (b : Nat) (hb : b ≠ 0x0A) : '\n' ∉ (step J st b).1 := by
  unfold step
  split
  · exact first_no_newline b hb
  · split
    · rename_i h
      intro hm
      simp only [List.mem_cons, List.not_mem_nil, or_false] at hm
      exact ofNat_ne_newline (Or.inr (by omega)) hm.symm
    · split
      · simp
      · split
        · rename_i c hc
          intro hm
          simp only [List.mem_cons, List.not_mem_nil, or_false] at hm
          subst hm
          split at hc
          · split at hc
            · exact high_ne (J.highChar2 _ _ _ hc) rfl
            · exact high_ne (J.highChar _ _ _ hc) rfl
          · cases hc
        · split
          · rename_i h
            intro hm
            simp only [List.mem_cons, List.not_mem_nil, or_false] at hm
            rcases hm with hm | hm
            · revert hm; decide
            · exact ofNat_ne_newline (Or.inl ⟨h, hb⟩) hm.symm
          · decide

theorem decode_no_newline (J : Jis) (a : Bytes) (ha : (0x0A : UInt8) ∉ a) : '\n' ∉ decode J a := by
  unfold decode
  generalize idle = st
  induction a generalizing st with
  | nil =>
    simp only [decodeFrom, finish]
    split
    · simp
    · decide
  | cons x a ih =>
    simp only [decodeFrom, List.mem_append, not_or]
    refine ⟨step_no_newline J st _ fun e => ha ?_, ih (fun h => ha (by simp [h])) _⟩
    have hx : x = 0x0A := by apply UInt8.toNat_inj.mp; rw [e]; rfl
    simp [hx]

/-- **C67.** Damage is confined to its line: bytes of any kind between two line breaks which do not make up an entry or comment have no
effect on the dictionary. -/
theorem damage_confined (J : Jis) (ls : Label.Labels) (label : Str) (hl : ls label = some (encoding J)) (before bad after : Bytes)
    (hb : (0x0A : UInt8) ∉ bad) (hr : (decode J bad).getLast? ≠ some '\r')
    (hc : (decode J bad).head? ≠ some ';') (hbad : fromLine (decode J bad) = none) :
    Label.load ls label (before ++ 0x0A :: bad ++ 0x0A :: after) = Label.load ls label (before ++ 0x0A :: after) := by
  have hload : ∀ bs, Label.load ls label bs = DictFile.load (codec J) bs := by
    intro bs
    unfold Label.load Label.readLines DictFile.load
    rw [hl]
    rfl
  rw [hload, hload]
  refine DictSave.malformed_text_ignored (codec J) _ _ (decode J before) (decode J bad) (decode J after) ?_ ?_ (decode_no_newline J bad hb) hr hc hbad
  · show decode J _ = _
    rw [List.append_assoc, List.cons_append, lines_independent, lines_independent]; simp
  · show decode J _ = _
    rw [lines_independent]

/-! ## The hypotheses are met -/

/-- A part of the tables: hiragana, －, 愛 and 海 of JIS X 0208. -/
def part : Jis where
  index := fun c =>
    if 0x3041 ≤ c.toNat ∧ c.toNat ≤ 0x3093 then some (4, c.toNat - 0x3040)
    else if c = '愛' then some (16, 6) else if c = '海' then some (19, 4) else if c = '－' then some (1, 61) else none
  char := fun r k =>
    if r = 4 ∧ 1 ≤ k ∧ k ≤ 83 then some (Char.ofNat (0x3040 + k))
    else if r = 16 ∧ k = 6 then some '愛' else if r = 19 ∧ k = 4 then some '海' else if r = 1 ∧ k = 61 then some '－' else none
  char2 := fun _ _ => none
  inverse := by
    intro c r k h
    by_cases h1 : 0x3041 ≤ c.toNat ∧ c.toNat ≤ 0x3093
    · rw [if_pos h1] at h
      cases h
      have e : 0x3040 + (c.toNat - 0x3040) = c.toNat := by omega
      rw [if_pos ⟨rfl, by omega, by omega⟩, e, ofNat_toNat]
      exact ⟨rfl, by omega, by omega, by omega, by omega⟩
    · rw [if_neg h1] at h
      by_cases h2 : c = '愛'
      · rw [if_pos h2] at h; cases h; subst h2; exact ⟨rfl, by decide, by decide, by decide, by decide⟩
      · rw [if_neg h2] at h
        by_cases h3 : c = '海'
        · rw [if_pos h3] at h; cases h; subst h3; exact ⟨rfl, by decide, by decide, by decide, by decide⟩
        · rw [if_neg h3] at h
          by_cases h4 : c = '－'
          · rw [if_pos h4] at h; cases h; subst h4; exact ⟨rfl, by decide, by decide, by decide, by decide⟩
          · rw [if_neg h4] at h; cases h
  highChar := by
    intro r k c h
    by_cases h1 : r = 4 ∧ 1 ≤ k ∧ k ≤ 83
    · rw [if_pos h1] at h
      cases h
      have : (Char.ofNat (0x3040 + k)).toNat = 0x3040 + k := by
        unfold Char.ofNat
        rw [dif_pos (Or.inl (by omega))]
        rfl
      omega
    · rw [if_neg h1] at h
      split at h
      · cases h; decide
      · split at h
        · cases h; decide
        · split at h
          · cases h; decide
          · cases h
  highChar2 := by intro r k c h; cases h

/-- EUC-JP for one label. -/
def eucLabels : Label.Labels := fun l => if l = c%"euc-jp" then some (encoding part) else none

/-- A dictionary with 海 (うみ), 愛 (あい) and 😀 (えも), which EUC-JP does not have. -/
def emoji : DictMaps :=
  (((⟨[], []⟩ : DictMaps).select ⟨c%"えも", none, false, c%"😀", none, c%"😀"⟩).select Persist.ai).select SameWords.umi

/-- A real EUC-JP line is read, 愛 and 海 are saved and found again, and 😀 is not; ¥ comes back as a backslash. -/
theorem sample_euc :
    Label.load eucLabels c%"euc-jp" Label.eucLine = (⟨[], []⟩ : DictMaps).select Persist.ai ∧
    (let r := Label.save eucLabels (fun p => if p = c%"d" then some [] else none) ⟨c%"d", c%"euc-jp", emoji, true, false⟩
     r.2.2 = .ok true ∧ ((Label.new eucLabels c%"d" c%"euc-jp" r.2.1).map fun d => d.maps) =
      some (((⟨[], []⟩ : DictMaps).select SameWords.umi).select Persist.ai)) ∧
    (let r := Label.save eucLabels (fun p => if p = c%"d" then some [] else none)
      ⟨c%"d", c%"euc-jp", (⟨[], []⟩ : DictMaps).select ⟨c%"えん", none, false, c%"¥", none, c%"¥"⟩, true, false⟩
     r.2.2 = .ok true ∧ ((Label.new eucLabels c%"d" c%"euc-jp" r.2.1).map fun d => d.maps) =
      some ((⟨[], []⟩ : DictMaps).select ⟨c%"えん", none, false, c%"\\", none, c%"\\"⟩)) := by
  decide +kernel

end Cskk.Props.EucJp

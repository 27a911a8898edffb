import Verif.Props.EntryTables

/-!
# C92: every entry of the shipped rules can be typed
-/

namespace Cskk.Props.Entries

open Spec Spec.Typing Romaji KanaBuilder Navigate Convert Typing Words ShippedTyping

theorem to_char {s : Keysym} (h : 0x20 ≤ s ∧ s ≤ 0x7e) : (Char.ofNat s).toNat = s := by
  have hv : Nat.isValidChar s := Or.inl (Nat.lt_of_le_of_lt h.2 (by decide))
  unfold Char.ofNat
  rw [dif_pos hv]
  show (Char.ofNatAux s hv).toNat = s
  simp [Char.ofNatAux, Char.toNat]

/-- The keys before the last one become pending; the last one can be typed. -/
theorem to_last (p : Bool) (c : Ctx) (tbl : Table) (ks : CompositionMode → List Char) (h : Shipped c tbl ks) (hr : RomajiMode c)
    (hpre : c.top.pre = []) (k : List Keysym) (v : Conv) (hk : Typeable ks k) (hm : c.top.mode = .direct ∨ c.top.mode = .preComposition) (hv : valueOf tbl k = some v) :
    ∃ (t : Str) (ch : Char), k = t.map Char.toNat ++ [ch.toNat] ∧ (k.map fun s => (⟨s, 0⟩ : KeyEvent)) =
        (t.map fun ch => ((⟨ch.toNat, 0⟩ : KeyEvent), ch)).map Prod.fst ++ [⟨ch.toNat, 0⟩] ∧
      (∀ x ∈ t.map fun ch => ((⟨ch.toNat, 0⟩ : KeyEvent), ch), Plain x.2 ∧ Key (Assets.env ⟨p⟩) x.1 x.2) ∧
      Undisturbed tbl c c.top.pre (t.map fun ch => ((⟨ch.toNat, 0⟩ : KeyEvent), ch)) ∧
      (∀ o b q, q <+: t → typeText tbl c.config.period c.config.comma ⟨o, [], b⟩ q = ⟨o, q.map Char.toNat, b⟩) ∧
      Key (Assets.env ⟨p⟩) ⟨ch.toNat, 0⟩ ch ∧ 0x20 ≤ ch.toNat ∧ ch.toNat ≤ 0x7e := by
  obtain ⟨hne, hp, hd⟩ := hk
  have hsplit := List.dropLast_concat_getLast hne
  generalize k.getLast hne = s at hsplit
  generalize k.dropLast = q at hsplit hd
  subst hsplit
  have hs := hp s (by simp)
  have hq : (q.map Char.ofNat).map Char.toNat = q := by
    rw [List.map_map]
    conv => rhs; rw [← List.map_id q]
    exact List.map_congr_left fun x hx => to_char (hp x (by simp [hx]))
  have plain : ∀ ch ∈ q.map Char.ofNat, Plain ch ∧ (ch ≠ '.' ∧ ch ≠ ',') ∧ ch ∉ ks c.top.mode := by
    intro ch hch
    obtain ⟨x, hx, rfl⟩ := List.mem_map.mp hch
    obtain ⟨d1, d2, d3, d4, d5⟩ := hd x hx
    have hx' := hp x (by simp [hx])
    have e := to_char hx'
    refine ⟨⟨by rw [e]; exact hx'.1, by rw [e]; exact hx'.2, by rw [e]; exact d1⟩, ⟨?_, ?_⟩, ?_⟩
    · intro h; rw [h] at e; exact d2 e.symm
    · intro h; rw [h] at e; exact d3 e.symm
    · rcases hm with hm | hm <;> rw [hm]
      · exact d4
      · exact d5
  refine ⟨q.map Char.ofNat, Char.ofNat s, by rw [hq, to_char hs], ?_, ?_, ?_, ?_, ?_, by rw [to_char hs]; exact hs.1, by rw [to_char hs]; exact hs.2⟩
  · rw [to_char hs, List.map_append, List.map_map]
    congr 1
    conv => lhs; rw [← hq]
    simp [Function.comp_def]
  · intro x hx
    obtain ⟨ch, hch, rfl⟩ := List.mem_map.mp hx
    exact ⟨(plain ch hch).1, shipped_key p ch (plain ch hch).1.1 (plain ch hch).1.2.1⟩
  · apply undisturbed_of_noCommand
    intro x hx
    obtain ⟨ch, hch, rfl⟩ := List.mem_map.mp hx
    exact h.noCommand hr ch (plain ch hch).1.1 (plain ch hch).1.2.1 (plain ch hch).2.2
  · intro o b r hpre
    obtain ⟨t, ht⟩ := hpre
    obtain ⟨x, hx, hxe⟩ := value_mem hv
    have := pending_grows tbl c.config.period c.config.comma o [] b r ⟨x, hx, t.map Char.toNat ++ [s], by simp, by
      rw [hxe, List.nil_append, ← List.append_assoc, ← List.map_append, ht, hq]⟩ fun ch hch => (plain ch (by rw [← ht]; simp [hch])).2.1
    simpa using this
  · exact shipped_key p _ (by rw [to_char hs]; exact hs.1) (by rw [to_char hs]; exact hs.2)

theorem last_key (tbl : Table) (ps : PeriodStyle) (cs : CommaStyle) (u : List Keysym) (ch : Char) (v : Conv) (b : Bool) (hv : valueOf tbl (u ++ [ch.toNat]) = some v)
    (hx : extendable tbl (u ++ [ch.toNat]) = false) :
    completed tbl (u ++ [ch.toNat]) = some v ∧ typeKey tbl ps cs ⟨[], u, b⟩ ch = ⟨[.kana v.1], v.2, b && !v.2.isEmpty⟩ := by
  have h : completed tbl (u ++ [ch.toNat]) = some v := by unfold completed; rw [hx, if_neg (by simp), hv]
  refine ⟨h, ?_⟩
  unfold typeKey
  simp only [h]
  obtain ⟨w, l⟩ := v
  rfl

/-- In direct kana input the keys of an entry write its kana. -/
theorem entry_direct (p : Bool) (c : Ctx) (tbl : Table) (ks : CompositionMode → List Char) (h : Shipped c tbl ks) (hr : RomajiMode c)
    (hm : c.top.mode = .direct) (hpre : c.top.pre = []) (k : List Keysym) (v : Conv) (hk : Typeable ks k) (hv : valueOf tbl k = some v)
    (hx : extendable tbl k = false) :
    c.processKeyEvents (Assets.env ⟨p⟩) (k.map fun s => ⟨s, 0⟩) =
      .ok { c with top := { c.top with confirmed := c.top.confirmed ++ (Assets.env ⟨p⟩).kanaForm.adjust c.top.inputMode v.1, pre := v.2,
                                       capital := c.top.capital && !v.2.isEmpty } } := by
  obtain ⟨t, ch, rfl, he, h1, h2, h3, h4, h5, h6⟩ := to_last p c tbl ks h hr hpre k v hk (.inl hm) hv
  obtain ⟨l1, l2⟩ := last_key tbl c.config.period c.config.comma _ ch v c.top.capital hv hx
  rw [he, pke_append, typing_direct (Assets.env ⟨p⟩) c tbl _ h.kana hr hm h1 h2, ShippedTyping.pairs_snd, hpre, h3 _ _ _ (List.prefix_refl _)]
  simp only [Bind.bind, Except.bind]
  have e : directly (Assets.env ⟨p⟩) c ⟨[], t.map Char.toNat, c.top.capital⟩ = { c with top := { c.top with pre := t.map Char.toNat } } := by
    simp [directly, rendered]
  rw [e]
  have hc : completed tbl (t.map Char.toNat ++ [ch.toNat]) ≠ none := by rw [l1]; simp
  have hk' : ({ c with top := { c.top with pre := t.map Char.toNat } } : Ctx).processKeyEvent (Assets.env ⟨p⟩) ⟨ch.toNat, 0⟩ =
      .ok (directly (Assets.env ⟨p⟩) { c with top := { c.top with pre := t.map Char.toNat } }
        (typeKey tbl c.config.period c.config.comma ⟨[], t.map Char.toNat, c.top.capital⟩ ch), true) :=
    (plain_key (Assets.env ⟨p⟩) { c with top := { c.top with pre := t.map Char.toNat } } tbl ⟨ch.toNat, 0⟩ ch h.kana hr h4 (.inl hc)).trans
      (direct_rom (Assets.env ⟨p⟩) { c with top := { c.top with pre := t.map Char.toNat } } tbl ⟨ch.toNat, 0⟩ ch h.kana hm ⟨⟨h5, h6⟩, .inl hc⟩ h4)
  rw [Ascii.pke_cons _ _ _ _ _ _ hk', l2]
  simp [directly, rendered, Ctx.processKeyEvents]

/-- While a reading is typed the keys of an entry append its kana to the reading. -/
theorem entry_reading (p : Bool) (c : Ctx) (tbl : Table) (ks : CompositionMode → List Char) (h : Shipped c tbl ks) (hr : RomajiMode c)
    (hm : c.top.mode = .preComposition) (ho : c.top.okuri = []) (hpre : c.top.pre = []) (k : List Keysym) (v : Conv) (hk : Typeable ks k)
    (hv : valueOf tbl k = some v) (hx : extendable tbl k = false) (hq : Quiet c c.top.raw) (hq' : Quiet c (c.top.raw ++ v.1)) :
    c.processKeyEvents (Assets.env ⟨p⟩) (k.map fun s => ⟨s, 0⟩) =
      .ok { c with top := { c.top with kana := c.top.kana ++ v.1, raw := c.top.raw ++ v.1, pre := v.2, capital := c.top.capital && !v.2.isEmpty } } := by
  obtain ⟨t, ch, rfl, he, h1, h2, h3, h4, h5, h6⟩ := to_last p c tbl ks h hr hpre k v hk (.inr hm) hv
  obtain ⟨l1, l2⟩ := last_key tbl c.config.period c.config.comma _ ch v c.top.capital hv hx
  rw [he, pke_append, typing_reading (Assets.env ⟨p⟩) c tbl _ h.kana hr hm ho h1 h2, ShippedTyping.pairs_snd, hpre, h3 _ _ _ (List.prefix_refl _)]
  · simp only [Bind.bind, Except.bind]
    have e : reading c ⟨[], t.map Char.toNat, c.top.capital⟩ = { c with top := { c.top with pre := t.map Char.toNat } } := by
      simp [reading, rendered]
    rw [e]
    have hk' : ({ c with top := { c.top with pre := t.map Char.toNat } } : Ctx).processKeyEvent (Assets.env ⟨p⟩) ⟨ch.toNat, 0⟩ =
        .ok (reading { c with top := { c.top with pre := t.map Char.toNat } }
          (typeKey tbl c.config.period c.config.comma ⟨[], t.map Char.toNat, c.top.capital⟩ ch), true) := by
      have hc : completed tbl (t.map Char.toNat ++ [ch.toNat]) ≠ none := by rw [l1]; simp
      refine (plain_key (Assets.env ⟨p⟩) { c with top := { c.top with pre := t.map Char.toNat } } tbl ⟨ch.toNat, 0⟩ ch h.kana hr h4 (.inl hc)).trans ?_
      refine (reading_rom (Assets.env ⟨p⟩) { c with top := { c.top with pre := t.map Char.toNat } } tbl ⟨ch.toNat, 0⟩ ch h.kana hm ⟨⟨h5, h6⟩, .inl hc⟩ h4).trans ?_
      rw [autoStart_quiet (Assets.env ⟨p⟩) (reading { c with top := { c.top with pre := t.map Char.toNat } }
        (typeKey tbl c.config.period c.config.comma ⟨[], t.map Char.toNat, c.top.capital⟩ ch)) hm ho]
      · rfl
      · rw [l2]
        simpa [reading, rendered, Quiet] using hq'
    rw [Ascii.pke_cons _ _ _ _ _ _ hk', l2]
    simp [reading, rendered, Ctx.processKeyEvents]
  · intro q hq1
    rw [ShippedTyping.pairs_snd] at hq1
    rw [hpre, h3 _ _ _ hq1]
    simpa [rendered] using hq

/-- **Violations of the shipped tables.** The keys which do not write what the rule's table says for them: `n` of the default rule
waits for the next key, and the keys written "nl" and "ch" in the AZIK rule are read as the single keys of those names. -/
def exceptions : List (List Keysym) := [[0x6e], [0x9e8], [0xfea0]]

theorem shipped_entries {c : Ctx} {tbl : Table} {ks : CompositionMode → List Char} (h : Shipped c tbl ks) :
    ∀ x ∈ tbl, x.1 ∉ exceptions → Typeable ks x.1 ∧ valueOf tbl x.1 = some x.2 ∧ extendable tbl x.1 = false := by
  intro x hx hn
  simp only [exceptions, List.mem_cons, List.not_mem_nil, or_false, not_or] at hn
  cases h with
  | default h1 h2 =>
    obtain ⟨a, b, c⟩ := default_entries x hx
    exact ⟨a, b, c.resolve_right hn.1⟩
  | azik h1 h2 =>
    obtain ⟨a, b, c⟩ := azik_entries x hx
    exact ⟨a.resolve_right (not_or.mpr hn.2), b, c⟩

/-- **C92.** Under either shipped rule, in direct kana input with nothing pending, pressing the keys of an entry of the rule's table
commits exactly the entry's kana, in the form of the input mode, and leaves exactly the entry's carry pending. Every entry but
`exceptions`. -/
theorem shipped_entry_direct (p : Bool) (c : Ctx) (tbl : Table) (ks : CompositionMode → List Char) (h : Shipped c tbl ks) (hr : RomajiMode c)
    (hm : c.top.mode = .direct) (hpre : c.top.pre = []) (x : List Keysym × Conv) (hx : x ∈ tbl) (hn : x.1 ∉ exceptions) :
    c.processKeyEvents (Assets.env ⟨p⟩) (x.1.map fun s => ⟨s, 0⟩) =
      .ok { c with top := { c.top with confirmed := c.top.confirmed ++ (Assets.env ⟨p⟩).kanaForm.adjust c.top.inputMode x.2.1, pre := x.2.2,
                                       capital := c.top.capital && !x.2.2.isEmpty } } := by
  obtain ⟨h1, h2, h3⟩ := shipped_entries h x hx hn
  exact entry_direct p c tbl ks h hr hm hpre x.1 x.2 h1 h2 h3

/-- **C92.** The same while a reading is typed: the kana, as hiragana, is appended to the reading. -/
theorem shipped_entry_reading (p : Bool) (c : Ctx) (tbl : Table) (ks : CompositionMode → List Char) (h : Shipped c tbl ks) (hr : RomajiMode c)
    (hm : c.top.mode = .preComposition) (ho : c.top.okuri = []) (hpre : c.top.pre = []) (x : List Keysym × Conv) (hx : x ∈ tbl)
    (hn : x.1 ∉ exceptions) (hq : Quiet c c.top.raw) (hq' : Quiet c (c.top.raw ++ x.2.1)) :
    c.processKeyEvents (Assets.env ⟨p⟩) (x.1.map fun s => ⟨s, 0⟩) =
      .ok { c with top := { c.top with kana := c.top.kana ++ x.2.1, raw := c.top.raw ++ x.2.1, pre := x.2.2,
                                       capital := c.top.capital && !x.2.2.isEmpty } } := by
  obtain ⟨h1, h2, h3⟩ := shipped_entries h x hx hn
  exact entry_reading p c tbl ks h hr hm ho hpre x.1 x.2 h1 h2 h3 hq hq'

/-- The hypotheses are met by every entry of the table, in each kana input mode: here by 541 entries of AZIK. -/
example (p : Bool) (im : InputMode) (hi : im = .hiragana ∨ im = .katakana ∨ im = .hankakuKatakana) (x : List Keysym × Conv)
    (hx : x ∈ Assets.azikRomaji) (hn : x.1 ∉ exceptions) :
    ∃ c', (Ctx.new Assets.azikCommands Assets.azikKana im .direct []).processKeyEvents (Assets.env ⟨p⟩) (x.1.map fun s => ⟨s, 0⟩) = .ok c' ∧
      c'.top.confirmed = (Assets.env ⟨p⟩).kanaForm.adjust im x.2.1 :=
  ⟨_, shipped_entry_direct p (Ctx.new Assets.azikCommands Assets.azikKana im .direct []) Assets.azikRomaji azikCommandKeys (.azik rfl rfl) ⟨Or.inl rfl, hi⟩ rfl rfl x hx hn, by simp [Ctx.new, State.new]⟩

/-- `n` of the default rule writes nothing, and waits: ん appears with the next key (C45). -/
theorem n_waits (p : Bool) (c : Ctx) (h : Shipped c Assets.defaultRomaji defaultCommandKeys) (hr : RomajiMode c) (hm : c.top.mode = .direct)
    (hpre : c.top.pre = []) :
    c.processKeyEvent (Assets.env ⟨p⟩) ⟨0x6e, 0⟩ = .ok ({ c with top := { c.top with pre := [0x6e] } }, true) := by
  have hk : Key (Assets.env ⟨p⟩) ⟨0x6e, 0⟩ 'n' := shipped_key p 'n' (by decide) (by decide)
  have hc : NoCommand c ⟨0x6e, 0⟩ := h.noCommand hr 'n' (by decide) (by decide) (by rw [hm]; decide)
  have e : ∀ ps cs b, typeKey Assets.defaultRomaji ps cs ⟨[], [], b⟩ 'n' = ⟨[], [0x6e], b⟩ := by
    intro ps cs b; cases ps <;> cases cs <;> cases b <;> decide +kernel
  rw [direct_key (Assets.env ⟨p⟩) c Assets.defaultRomaji _ 'n' h.kana hr hm ⟨by decide, by decide, by decide⟩ hk (.inr hc), hpre, e]
  simp [directly, rendered]

/-- **Violation.** In the AZIK rule `c h`, which the rule file lists as ちゅう, writes nothing and forgets the `c`: what is pending is
`h`, as if only that had been typed. -/
theorem azik_ch (p : Bool) (c : Ctx) (h : Shipped c Assets.azikRomaji azikCommandKeys) (hr : RomajiMode c) (hm : c.top.mode = .direct)
    (hpre : c.top.pre = []) :
    c.processKeyEvents (Assets.env ⟨p⟩) [⟨0x63, 0⟩, ⟨0x68, 0⟩] = .ok { c with top := { c.top with pre := [0x68], capital := false } } := by
  have hu := h.noCommand hr
  rw [hm] at hu
  have ht := typing_direct (Assets.env ⟨p⟩) c Assets.azikRomaji [(⟨0x63, 0⟩, 'c'), (⟨0x68, 0⟩, 'h')] h.kana hr hm
    (by
      intro x hx
      simp only [List.mem_cons, List.not_mem_nil, or_false] at hx
      rcases hx with rfl | rfl
      · exact ⟨⟨by decide, by decide, by decide⟩, shipped_key p 'c' (by decide) (by decide)⟩
      · exact ⟨⟨by decide, by decide, by decide⟩, shipped_key p 'h' (by decide) (by decide)⟩)
    (by
      apply undisturbed_of_noCommand
      intro x hx
      simp only [List.mem_cons, List.not_mem_nil, or_false] at hx
      rcases hx with rfl | rfl
      · exact hu 'c' (by decide) (by decide) (by decide)
      · exact hu 'h' (by decide) (by decide) (by decide))
  have e : ∀ ps cs b, typeText Assets.azikRomaji ps cs ⟨[], [], b⟩ c%"ch" = ⟨[], [0x68], false⟩ := by
    intro ps cs b; cases ps <;> cases cs <;> cases b <;> decide +kernel
  rw [hpre] at ht
  simp only [List.map_cons, List.map_nil, e] at ht
  rw [ht]
  simp [directly, rendered]

/-- **Violation.** A new context with the AZIK rule: `c h u` writes ふ, `c h` alone writes nothing; `n l`, which the rule file lists as
のん, writes nothing and changes to ascii input. With the key named `nl`, which no keyboard has, のん is written. -/
theorem azik_names (p : Bool) :
    let c := Ctx.new Assets.azikCommands Assets.azikKana .hiragana .direct []
    ((c.processKeyEvents (Assets.env ⟨p⟩) [⟨0x63, 0⟩, ⟨0x68, 0⟩]).toOption.map fun c => c.pollOutput.2) = some none ∧
    ((c.processKeyEvents (Assets.env ⟨p⟩) [⟨0x63, 0⟩, ⟨0x68, 0⟩, ⟨0x75, 0⟩]).toOption.map fun c => c.pollOutput.2) = some (some c%"ふ") ∧
    ((c.processKeyEvents (Assets.env ⟨p⟩) [⟨0x6e, 0⟩, ⟨0x6c, 0⟩]).toOption.map fun c => (c.pollOutput.2, c.top.inputMode)) =
      some (none, .ascii) ∧
    ((c.processKeyEvents (Assets.env ⟨p⟩) [⟨0x9e8, 0⟩]).toOption.map fun c => c.pollOutput.2) = some (some c%"のん") ∧
    ((c.processKeyEvents (Assets.env ⟨p⟩) [⟨0xfea0, 0⟩]).toOption.map fun c => c.pollOutput.2) = some (some c%"ちゅう") := by
  cases p <;> decide +kernel

end Cskk.Props.Entries

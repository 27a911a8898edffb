import Verif.Props.Candidates

/-!
# What is offered for a reading with numbers, candidate by candidate: properties C20, C21, C35 and C08
-/

namespace Cskk.Props.NumericOffer
open Cskk.Spec Cskk.Spec.UserDict Cskk.Dicts Cskk.Props.UserDict Cskk.Props.Candidates

/-! ## Specification -/

/-- The candidate for the word `d` listed under the heading `key`, shown as `out`. -/
def offer (okuri : Option Str) (key : Str) (d : DictCand) (out : Str) : Candidate where
  midashi := key
  strictOkuri := okuri
  okuri := okuri.isSome
  kouho := d.kouho
  annotation := d.annotation
  output := out

/-- The words which the dictionaries list under a heading, in the order of the dictionaries, each once. -/
structure Merged (ds : List CskkDict) (okuri : Option Str) (key : Str) (ws : List DictCand) : Prop where
  ordered : ws.Sublist (ds.flatMap fun d => answers d okuri key)
  once : (ws.map (·.kouho)).Nodup
  all : ∀ w, w ∈ ws.map (·.kouho) ↔ Known ds okuri key w

/-- Each template with the texts which it gives for the numbers typed (`Props.Numeric.template_filled`). -/
def Filled (ds : List CskkDict) (numbers : List Str) (ts : List DictCand) (fills : List (DictCand × List Str)) : Prop :=
  fills.map (·.1) = ts ∧
    ∀ f ∈ fills, Numeric.replaceNumericString (relookup ds) f.1.kouho numbers = .ok f.2

/-! ## Proofs -/

theorem merged (ds : List CskkDict) (okuri : Option Str) (key : Str) :
    Merged ds okuri key (dedup candLt (·.kouho) (ds.flatMap fun d => answers d okuri key)) := by
  obtain ⟨h1, h2, h3⟩ := dedup_spec (ds.flatMap fun d => answers d okuri key)
  refine ⟨h1, h2, ?_⟩
  intro w
  constructor
  · intro hw
    obtain ⟨d, hd, rfl⟩ := List.mem_map.mp hw
    obtain ⟨e, he, hde⟩ := List.mem_flatMap.mp (h1.mem hd)
    exact ⟨e, he, d, hde, rfl⟩
  · rintro ⟨e, he, d, hde, rfl⟩
    obtain ⟨y, hy, hyk, _⟩ := h3 d (List.mem_flatMap.mpr ⟨e, he, hde⟩)
    exact List.mem_map.mpr ⟨y, hy, hyk⟩

theorem mk_eq (k : CompositeKey) (key : Str) (d : DictCand) : mk k key d = offer k.okuri key d d.kouho := rfl

theorem fills_of_mapM (ds : List CskkDict) (numbers : List Str) (k : CompositeKey) (key : Str) (ts : List DictCand)
    (parts : List (List Candidate)) (h : (ts.map (mk k key)).mapM (replaceNumericMatch ds numbers) = .ok parts) :
    ∃ fills, Filled ds numbers ts fills ∧ parts.flatten = fills.flatMap fun f => f.2.map (offer k.okuri key f.1) := by
  induction ts generalizing parts with
  | nil => cases h; exact ⟨[], ⟨rfl, by simp⟩, rfl⟩
  | cons a ts ih =>
    simp only [List.map_cons, List.mapM_cons, bind, Except.bind] at h
    split at h
    · cases h
    · rename_i v hv
      split at h
      · cases h
      · rename_i vs hvs
        cases h
        obtain ⟨fills, ⟨f1, f2⟩, f3⟩ := ih vs hvs
        simp only [replaceNumericMatch, bind, Except.bind] at hv
        split at hv
        · cases hv
        · rename_i outs houts
          cases hv
          refine ⟨(a, outs) :: fills, ⟨by simp [f1], ?_⟩, ?_⟩
          · intro f hf
            rcases List.mem_cons.mp hf with rfl | hf
            · exact houts
            · exact f2 f hf
          · rw [List.flatten_cons, f3, List.flatMap_cons]
            rfl

/-- **C20/C21/C35.** The candidate list in full. First the words listed for the reading as it was typed; if there are numbers in
it, then the words listed for the reading with `#` for each number, in the order of the dictionaries, each in all the texts it gives
for the numbers typed. A candidate belongs to the heading under which it is listed, to the okuri-ari side if and only if okurigana
was typed, and keeps the template and its annotation (so that confirming it records the template). -/
theorem offered_list (ds : List CskkDict) (k : CompositeKey) (hk : k.okuri ≠ some []) (cs : List Candidate)
    (h : getAll ds k = .ok cs) :
    ∃ key ws, DictKey k key ∧ Merged ds k.okuri key ws ∧
      (((Numeric.numericKey k.toComposite).1 = k.toComposite ∧ cs = ws.map fun d => offer k.okuri key d d.kouho) ∨
       ((Numeric.numericKey k.toComposite).1 ≠ k.toComposite ∧
        ∃ nkey ts fills, DictKey ⟨(Numeric.numericKey k.toComposite).1, k.okuri⟩ nkey ∧ Merged ds k.okuri nkey ts ∧
          Filled ds (Numeric.numericKey k.toComposite).2 ts fills ∧
          cs = (ws.map fun d => offer k.okuri key d d.kouho) ++ fills.flatMap fun f => f.2.map (offer k.okuri nkey f.1))) := by
  obtain ⟨key, hkey⟩ := dictKey_some k hk
  obtain ⟨nkey, hnkey⟩ := dictKey_some ⟨(Numeric.numericKey k.toComposite).1, k.okuri⟩ hk
  refine ⟨key, _, dictKey_ok hkey, merged ds k.okuri key, ?_⟩
  simp only [getAll, exact_eq ds k key hkey, exact_eq ds _ nkey hnkey, bind, Except.bind] at h
  by_cases hn : (Numeric.numericKey k.toComposite).1 = k.toComposite
  · rw [if_pos (by rw [hn])] at h
    cases h
    exact .inl ⟨hn, rfl⟩
  · rw [if_neg (by intro e; exact hn (congrArg CompositeKey.toComposite e))] at h
    split at h
    · cases h
    · rename_i parts hparts
      cases h
      obtain ⟨fills, f1, f2⟩ := fills_of_mapM _ _ _ _ _ _ hparts
      exact .inr ⟨hn, nkey, _, fills, dictKey_ok hnkey, merged ds k.okuri nkey, f1, by rw [f2]; rfl⟩

theorem dictKey_unique {k : CompositeKey} {a b : Str} (h : DictKey k a) (h' : DictKey k b) : a = b := by
  unfold DictKey at h h'
  split at h
  · rename_i h1; simp only [h1] at h'; rw [h, h']
  · exact h.elim
  · rename_i h1; simp only [h1] at h'; rw [h, h']

theorem getDictKey_of {k : CompositeKey} {key : Str} (h : DictKey k key) : k.getDictKey = .ok key := by
  have hk : k.okuri ≠ some [] := by intro e; unfold DictKey at h; simp only [e] at h
  obtain ⟨key', h'⟩ := dictKey_some k hk
  rw [dictKey_unique h (dictKey_ok h')]; exact h'

/-- **C08 with numbers.** Confirming a filled-in template `t` (for instance `#3個` shown as 五個) records the template: for every
other reading of the same shape (any numbers) the texts made from `t` are offered first of all filled-in templates. (Provided,
as in `confirmed_offered_first`, that the annotation does not get in the way.) -/
theorem template_learned (u : CskkDict) (m : DictMaps) (b : Bool) (hu : u.kind = .user m b) (rest : List CskkDict)
    (okuri : Option Str) (shape nkey : Str) (t : DictCand) (out : Str) (hkey : DictKey ⟨shape, okuri⟩ nkey)
    (hsame : ∀ d ∈ answers u okuri nkey, d.kouho = t.kouho → d.annotation = t.annotation)
    (hmax : ∀ e ∈ rest, ∀ d ∈ answers e okuri nkey, d.kouho = t.kouho → candLt t d = false)
    (reading : Str) (hr : (Numeric.numericKey reading).1 = shape) (hne : shape ≠ reading) (cs : List Candidate)
    (h : getAll (u.confirm (offer okuri nkey t out) :: rest) ⟨reading, okuri⟩ = .ok cs) :
    ∃ key ws note outs others, DictKey ⟨reading, okuri⟩ key ∧
      Merged (u.confirm (offer okuri nkey t out) :: rest) okuri key ws ∧
      Numeric.replaceNumericString (relookup (u.confirm (offer okuri nkey t out) :: rest)) t.kouho
        (Numeric.numericKey reading).2 = .ok outs ∧
      cs = (ws.map fun d => offer okuri key d d.kouho) ++ outs.map (offer okuri nkey ⟨t.kouho, note⟩) ++ others := by
  have hkey' := getDictKey_of hkey
  obtain ⟨first, oth, hx, hf⟩ := confirmed_offered_first u m b hu rest ⟨shape, okuri⟩ nkey hkey' (offer okuri nkey t out)
    ⟨rfl, rfl, rfl⟩ hsame hmax
  rw [exact_eq _ ⟨shape, okuri⟩ nkey hkey'] at hx
  have hk : okuri ≠ some [] := by intro e; unfold DictKey at hkey; simp only [e] at hkey
  subst hr
  obtain ⟨key, hk2⟩ := dictKey_some ⟨reading, okuri⟩ hk
  simp only [getAll, exact_eq _ ⟨reading, okuri⟩ key hk2, exact_eq _ _ nkey hkey', bind, Except.bind] at h
  rw [if_neg (by intro e; exact hne (congrArg CompositeKey.toComposite e))] at h
  split at h
  · cases h
  · rename_i parts hparts
    cases h
    obtain ⟨fills, ⟨f1, f2⟩, f3⟩ := fills_of_mapM _ _ _ _ _ _ hparts
    cases fills with
    | nil =>
      simp only [List.map_nil] at f1
      rw [← f1] at hx; cases hx
    | cons f fills =>
      simp only [List.map_cons] at f1
      rw [← f1] at hx
      simp only [List.map_cons, Except.ok.injEq, List.cons.injEq] at hx
      have hft : f.1.kouho = t.kouho := by rw [← hx.1] at hf; exact hf
      have hf1 := f2 f (by simp)
      refine ⟨key, _, f.1.annotation, f.2, fills.flatMap fun g => g.2.map (offer okuri nkey g.1), dictKey_ok hk2,
        merged _ okuri key, ?_, ?_⟩
      · rw [← hft]; exact hf1
      · rw [f3, ← hft, List.append_assoc]
        rfl

/-- Two numbers, a template with both, one word for the reading as it is, two dictionaries. -/
def home : CskkDict := ⟨false, .user ⟨[], [(c%"#がつ#にち", ⟨c%"#がつ#にち", false, [([], [⟨c%"#0月#0日", none⟩])]⟩)]⟩ false⟩
def shared : CskkDict := ⟨true, .static ⟨[], [(c%"#がつ#にち", ⟨c%"#がつ#にち", false, [([], [⟨c%"#3月#3日", some c%"漢数字"⟩])]⟩),
  (c%"1がつ1にち", ⟨c%"1がつ1にち", false, [([], [⟨c%"元日", none⟩])]⟩)]⟩⟩

example : (getAll [home, shared] ⟨c%"1がつ1にち", none⟩).map (·.map fun c => (c.midashi, c.kouho, c.output)) =
    .ok [(c%"1がつ1にち", c%"元日", c%"元日"), (c%"#がつ#にち", c%"#0月#0日", c%"1月1日"),
      (c%"#がつ#にち", c%"#3月#3日", c%"一月一日")] := by decide +kernel

/-- After the kanji numerals were confirmed for the first of January they come first for the twelfth of October. -/
example : (getAll [home.confirm (offer none c%"#がつ#にち" ⟨c%"#3月#3日", some c%"漢数字"⟩ c%"一月一日"), shared]
    ⟨c%"10がつ12にち", none⟩).map (·.map (·.output)) = .ok [c%"十月十二日", c%"10月12日"] := by decide +kernel

end Cskk.Props.NumericOffer

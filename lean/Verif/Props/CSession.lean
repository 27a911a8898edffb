import Verif.Spec.CSession
import Verif.Props.Label
import Verif.Props.Session

/-!
# C68: a whole C session
-/

namespace Cskk.Props.CSession
open Spec Spec.CSession Cskk.CSession Cskk.CApi Cskk.DictFile Props.CApi

/-! ## Texts received -/

/-- **C68.** A text given as a C string is received iff it is UTF-8, and then as it was written, up to the first NUL. -/
theorem text_received (bs : Bytes) (t : Str) : cstr bs = some t ↔ Utf8.encode t = bs.takeWhile (fun b => b ≠ 0) := by
  unfold cstr Label.strict
  constructor
  · intro h
    split at h
    · rename_i he; cases h; exact he
    · cases h
  · intro h
    rw [← h, Utf8.decode_encode, if_pos rfl]

/-! ## The preedit in detail, with addresses -/

theorem cText_eq (s : Str) : cText s = clean s := by
  unfold cText clean cstring; split <;> simp

theorem cText_ok {s : Str} (h : NoNul s) : cText s = s := if_neg h

theorem orPanic_nonul {h : CHeap} {s : Str} {r : CHeap × Nat} (hr : orPanic h s = .ok r) : NoNul s := by
  unfold orPanic cstring at hr
  intro hn
  rw [if_pos hn] at hr; cases hr

theorem optOrPanic_nonul {h : CHeap} {s : Option Str} {r : CHeap × Nat} (hr : optOrPanic h s = .ok r) : ∀ t ∈ s.toList, NoNul t := by
  cases s with
  | none => simp
  | some s => intro t ht; simp at ht; subst ht; exact orPanic_nonul hr

/-- Addresses and texts of the new strings. -/
def news (n : Nat) (ws : List Str) : List (Nat × Str) := (List.range' n ws.length).zip ws

theorem news_append (n : Nat) (a b : List Str) : news n (a ++ b) = news n a ++ news (n + a.length) b := by
  unfold news
  rw [List.length_append, ← List.range'_append, List.zip_append (by simp)]
  simp

theorem news_cons (n : Nat) (w : Str) (b : List Str) : news n (w :: b) = (n, w) :: news (n + 1) b := by
  simp [news, List.range'_succ]

theorem news_nil (n : Nat) : news n [] = [] := rfl

theorem convert_pairs {h h' : CHeap} {i : StateInfo} {f : StateInfoFfi} (hc : convert h i = .ok (h', f)) :
    pointers i f = news h.next ((fieldsOf i).map (·.1)) ∧ ∀ t ∈ fragile i, NoNul t := by
  cases i with
  | direct c u =>
    simp only [convert, orEmpty_eq, bind, Except.bind, pure, Except.pure] at hc
    split at hc
    · cases hc
    · rename_i w hw
      have hn := optOrPanic_nonul hw
      obtain rfl := optOrPanic_ok hw
      cases hc
      refine ⟨?_, hn⟩
      cases u with
      | none => simp [pointers, fieldsOf, news_cons, news_nil, cText_eq, opt]
      | some u => simp [pointers, fieldsOf, news_cons, news_nil, cText_eq, opt, allocs_next, clean_ok (hn u (by simp))]
  | preComposition c k o u =>
    simp only [convert, convertPre, orEmpty_eq, optOrEmpty_eq, bind, Except.bind, pure, Except.pure] at hc
    split at hc
    · cases hc
    · rename_i w hw
      split at hw
      · cases hw
      · rename_i w2 hw2
        have hn := optOrPanic_nonul hw2
        obtain rfl := optOrPanic_ok hw2
        cases hw; cases hc
        refine ⟨?_, hn⟩
        cases o <;> cases u <;> simp [pointers, fieldsOf, news_cons, news_nil, cText_eq, opt, allocs_next] <;>
          exact clean_ok (hn _ (by simp))
  | preCompositionOkurigana c k o u =>
    simp only [convert, convertPre, orEmpty_eq, optOrEmpty_eq, bind, Except.bind, pure, Except.pure] at hc
    split at hc
    · cases hc
    · rename_i w hw
      split at hw
      · cases hw
      · rename_i w2 hw2
        have hn := optOrPanic_nonul hw2
        obtain rfl := optOrPanic_ok hw2
        cases hw; cases hc
        refine ⟨?_, hn⟩
        cases o <;> cases u <;> simp [pointers, fieldsOf, news_cons, news_nil, cText_eq, opt, allocs_next] <;>
          exact clean_ok (hn _ (by simp))
  | register c k o x =>
    simp only [convert, orEmpty_eq, optOrEmpty_eq, bind, Except.bind, pure, Except.pure] at hc
    split at hc
    · cases hc
    · rename_i w2 hw2
      have hn := optOrPanic_nonul hw2
      obtain rfl := optOrPanic_ok hw2
      cases hc
      refine ⟨?_, hn⟩
      cases o <;> cases x <;> simp [pointers, fieldsOf, news_cons, news_nil, cText_eq, opt, allocs_next] <;>
        exact clean_ok (hn _ (by simp))
  | compositionSelection c x o a =>
    simp only [convert, optOrEmpty_eq, bind, Except.bind, pure, Except.pure] at hc
    split at hc
    · cases hc
    · rename_i w hw
      have hn1 := orPanic_nonul hw
      obtain rfl := orPanic_ok hw
      split at hc
      · cases hc
      · rename_i w hw
        have hn2 := orPanic_nonul hw
        obtain rfl := orPanic_ok hw
        cases hc
        refine ⟨?_, by simp [fragile, hn1, hn2]⟩
        cases o <;> cases a <;>
          simp [pointers, fieldsOf, news_cons, news_nil, cText_ok hn1, cText_ok hn2, cText_eq, opt, allocs_next]
  | complete c o m d k a =>
    simp only [convert, bind, Except.bind, pure, Except.pure] at hc
    split at hc
    · cases hc
    · rename_i w hw
      have hn1 := orPanic_nonul hw
      obtain rfl := orPanic_ok hw
      split at hc
      · cases hc
      · rename_i w hw
        have hn2 := orPanic_nonul hw
        obtain rfl := orPanic_ok hw
        split at hc
        · cases hc
        · rename_i w hw
          have hn3 := orPanic_nonul hw
          obtain rfl := orPanic_ok hw
          split at hc
          · cases hc
          · rename_i w hw
            have hn4 := orPanic_nonul hw
            obtain rfl := orPanic_ok hw
            split at hc
            · cases hc
            · rename_i w hw
              have hn := optOrPanic_nonul hw
              obtain rfl := optOrPanic_ok hw
              cases hc
              refine ⟨?_, ?_⟩
              · cases a <;> simp [pointers, fieldsOf, news_cons, news_nil, cText_ok hn1, cText_ok hn2, cText_ok hn3, cText_ok hn4,
                  opt, allocs_next]
                exact cText_ok (hn _ (by simp))
              · intro t ht
                simp only [fragile, List.mem_append, List.mem_cons, List.not_mem_nil, or_false] at ht
                rcases ht with (rfl | rfl | rfl | rfl) | ht
                · exact hn1
                · exact hn2
                · exact hn3
                · exact hn4
                · exact hn t ht

/-- A level without a NUL in its fragile texts can be made, otherwise there is a panic. -/
theorem convert_total (h : CHeap) (i : StateInfo) :
    (∃ r, convert h i = .ok r) ∨ (convert h i = .error .panic ∧ ∃ t ∈ fragile i, '\x00' ∈ t) := by
  have p1 : ∀ h s, (∃ r, orPanic h s = .ok r) ∨ (orPanic h s = .error .panic ∧ '\x00' ∈ s) := by
    intro h s
    unfold orPanic cstring
    by_cases hn : '\x00' ∈ s
    · simp [hn]
    · simp [hn]
  have p2 : ∀ h (s : Option Str), (∃ r, optOrPanic h s = .ok r) ∨ (optOrPanic h s = .error .panic ∧ ∃ t ∈ s.toList, '\x00' ∈ t) := by
    intro h s
    cases s with
    | none => exact .inl ⟨_, rfl⟩
    | some s => simpa [optOrPanic] using p1 h s
  cases i with
  | direct c u =>
    simp only [convert, orEmpty_eq, bind, Except.bind, pure, Except.pure]
    rcases p2 (allocs h [clean c]) u with ⟨r, e⟩ | ⟨e, ht⟩ <;> simp only [e]
    · exact .inl ⟨_, rfl⟩
    · exact .inr ⟨trivial, ht⟩
  | preComposition c k o u =>
    simp only [convert, convertPre, orEmpty_eq, optOrEmpty_eq, bind, Except.bind, pure, Except.pure]
    rcases p2 (allocs (allocs (allocs h [clean c]) [clean k]) (o.toList.map clean)) u with ⟨r, e⟩ | ⟨e, ht⟩ <;> simp only [e]
    · exact .inl ⟨_, rfl⟩
    · exact .inr ⟨trivial, ht⟩
  | preCompositionOkurigana c k o u =>
    simp only [convert, convertPre, orEmpty_eq, optOrEmpty_eq, bind, Except.bind, pure, Except.pure]
    rcases p2 (allocs (allocs (allocs h [clean c]) [clean k]) (o.toList.map clean)) u with ⟨r, e⟩ | ⟨e, ht⟩ <;> simp only [e]
    · exact .inl ⟨_, rfl⟩
    · exact .inr ⟨trivial, ht⟩
  | register c k o u =>
    simp only [convert, orEmpty_eq, optOrEmpty_eq, bind, Except.bind, pure, Except.pure]
    rcases p2 (allocs (allocs (allocs h [clean c]) [clean k]) (o.toList.map clean)) u with ⟨r, e⟩ | ⟨e, ht⟩ <;> simp only [e]
    · exact .inl ⟨_, rfl⟩
    · exact .inr ⟨trivial, ht⟩
  | compositionSelection c x o a =>
    simp only [convert, optOrEmpty_eq, bind, Except.bind, pure, Except.pure]
    rcases p1 h c with ⟨r, e⟩ | ⟨e, ht⟩ <;> simp only [e]
    · rcases p1 r.1 x with ⟨r, e⟩ | ⟨e, ht⟩ <;> simp only [e]
      · exact .inl ⟨_, rfl⟩
      · exact .inr ⟨trivial, x, by simp [fragile], ht⟩
    · exact .inr ⟨trivial, c, by simp [fragile], ht⟩
  | complete c o m d k a =>
    simp only [convert, bind, Except.bind, pure, Except.pure]
    rcases p1 h c with ⟨r, e⟩ | ⟨e, ht⟩ <;> simp only [e]
    · rcases p1 r.1 o with ⟨r, e⟩ | ⟨e, ht⟩ <;> simp only [e]
      · rcases p1 r.1 m with ⟨r, e⟩ | ⟨e, ht⟩ <;> simp only [e]
        · rcases p1 r.1 d with ⟨r, e⟩ | ⟨e, ht⟩ <;> simp only [e]
          · rcases p2 r.1 a with ⟨r, e⟩ | ⟨e, t, ht, hz⟩ <;> simp only [e]
            · exact .inl ⟨_, rfl⟩
            · exact .inr ⟨trivial, t, by simp at ht; simp [fragile, ht], hz⟩
          · exact .inr ⟨trivial, d, by simp [fragile], ht⟩
        · exact .inr ⟨trivial, m, by simp [fragile], ht⟩
      · exact .inr ⟨trivial, o, by simp [fragile], ht⟩
    · exact .inr ⟨trivial, c, by simp [fragile], ht⟩

theorem convertAll_pairs {h h' : CHeap} {is : List StateInfo} {fs : List StateInfoFfi} (hh : 0 < h.next)
    (hc : convertAll h is = .ok (h', fs)) :
    (is.zip fs).flatMap (fun p => pointers p.1 p.2) = news h.next ((is.flatMap fieldsOf).map (·.1)) ∧
    (∀ i ∈ is, ∀ t ∈ fragile i, NoNul t) ∧ fs.length = is.length := by
  induction is generalizing h fs with
  | nil => cases hc; simp [news]
  | cons i is ih =>
    simp only [convertAll, bind, Except.bind] at hc
    split at hc
    · cases hc
    · rename_i v hv
      split at hc
      · cases hc
      · rename_i w hw
        cases hc
        have h1 := (convert_spec (h := h) (h' := v.1) (f := v.2) hh hv).1
        obtain ⟨h2, h3⟩ := convert_pairs (h := h) (h' := v.1) (f := v.2) hv
        obtain ⟨h4, h5, h6⟩ := ih (h := v.1) (by rw [h1, allocs_next]; omega) hw
        refine ⟨?_, ?_, by simp [h6]⟩
        · simp only [List.zip_cons_cons, List.flatMap_cons, List.map_append, news_append, h2, h4, h1, allocs_next]
        · intro j hj
          rcases List.mem_cons.mp hj with rfl | hj
          · exact h3
          · exact h5 j hj

theorem convertAll_total (h : CHeap) (is : List StateInfo) :
    (∃ r, convertAll h is = .ok r) ∨ (convertAll h is = .error .panic ∧ ∃ i ∈ is, ∃ t ∈ fragile i, '\x00' ∈ t) := by
  induction is generalizing h with
  | nil => exact .inl ⟨_, rfl⟩
  | cons i is ih =>
    simp only [convertAll, bind, Except.bind, pure, Except.pure]
    rcases convert_total h i with ⟨r, e⟩ | ⟨e, t, ht, hz⟩ <;> simp only [e]
    · rcases ih r.1 with ⟨r, e⟩ | ⟨e, j, hj, t, ht, hz⟩ <;> simp only [e]
      · exact .inl ⟨_, rfl⟩
      · exact .inr ⟨trivial, j, List.mem_cons_of_mem _ hj, t, ht, hz⟩
    · exact .inr ⟨trivial, i, List.mem_cons_self, t, ht, hz⟩

/-! ## The strings in use and the strings held -/

/-- The C strings in use are exactly those which the program holds. -/
def Holds (h : CHeap) (l : List (Nat × Str)) : Prop := HeapOk h ∧ ∀ p, p ∈ h.live ↔ p ∈ l

theorem holds_allocs {h : CHeap} {l : List (Nat × Str)} (hh : Holds h l) (ws : List Str) :
    Holds (allocs h ws) (news h.next ws ++ l) := by
  refine ⟨allocs_ok hh.1 ws, fun p => ?_⟩
  simp only [allocs, List.mem_append, List.mem_reverse, hh.2 p, news]

theorem holds_free {h : CHeap} {l : List (Nat × Str)} (hh : Holds h l) (as : List Nat) (hn : as.Nodup)
    (hm : ∀ a ∈ as, a ∈ l.map (·.1)) :
    ∃ h', freeAll h as = .ok h' ∧ Holds h' (l.filter fun p => decide (p.1 ∉ as)) := by
  have hm' : ∀ a ∈ as, a ∈ h.live.map (·.1) := by
    intro a ha
    obtain ⟨p, hp, rfl⟩ := List.mem_map.mp (hm a ha)
    exact List.mem_map_of_mem ((hh.2 p).mpr hp)
  refine ⟨_, freeAll_eq h as hn hm', ⟨hh.1.1, fun p hp => hh.1.2.1 p (List.mem_filter.mp hp).1, ?_⟩, ?_⟩
  · exact hh.1.2.2.sublist (List.Sublist.map _ List.filter_sublist)
  · intro p
    simp only [List.mem_filter, hh.2 p]

theorem read_iff {h : CHeap} (hh : HeapOk h) (a : Nat) (t : Str) : h.read a = some t ↔ (a, t) ∈ h.live := by
  obtain ⟨-, -, hn⟩ := hh
  unfold CHeap.read
  constructor
  · intro hr
    obtain ⟨p, hp, rfl⟩ := Option.map_eq_some_iff.mp hr
    have h1 := List.mem_of_find?_eq_some hp
    have h2 : p.1 = a := by simpa using List.find?_some hp
    rw [← h2]; exact h1
  · intro hm
    generalize h.live = l at hn hm
    induction l with
    | nil => cases hm
    | cons x l ih =>
      rw [List.map_cons, List.nodup_cons] at hn
      rcases List.mem_cons.mp hm with rfl | hm
      · simp
      · have : x.1 ≠ a := by
          intro he
          exact hn.1 (he ▸ List.mem_map_of_mem (f := (·.1)) hm)
        rw [List.find?_cons_of_neg (by simpa using this)]
        exact ih hn.2 hm

/-! ## One call -/

theorem lift_ok {α} {r : R α} {a : α} (h : lift r = .ok a) : r = .ok a := by
  cases r with
  | ok b => cases h; rfl
  | error p => cases h

theorem keys_acts (e : Env) (ogs : List Source) (c : Ctx) (fs : FS) (evs : List KeyEvent) :
    Session.actAll e ogs (c, fs) (evs.map fun ev => .call (.key ev)) = (c.processKeyEvents e evs).map fun c' => (c', fs) := by
  induction evs generalizing c with
  | nil => rfl
  | cons ev evs ih =>
    simp only [List.map_cons, Session.actAll, Session.act, Ctx.step, Ctx.processKeyEvents, bind, Except.bind, pure, Except.pure]
    cases c.processKeyEvent e ev with
    | error p => rfl
    | ok r => simp only [ih]

theorem keywords_eq {array : List (Option Bytes)} {l : List Str} (h : keywords array = .ok l) :
    l = if array.head? = some none then [] else array.filterMap fun b => b.bind cstr := by
  have loop : ∀ (a : List (Option Bytes)) (l : List Str), keywordLoop a = .ok l → l = a.filterMap fun b => b.bind cstr := by
    intro a
    induction a with
    | nil => intro l h; cases h; rfl
    | cons x a ih =>
      intro l h
      cases x with
      | none => cases h
      | some b =>
        simp only [keywordLoop, bind, Except.bind] at h
        split at h
        · cases h
        · rename_i v hv
          cases h
          rw [ih v hv]
          cases hb : cstr b <;> simp [hb]
  unfold keywords at h
  split at h
  · cases h; rfl
  · cases h; rfl
  · rw [loop _ _ h]; simp

/-- **C68.** One call does to the context and to the files what the Rust calls do. -/
theorem call_refines (e : Env) (ogs : List Source) (s s' : CState) (call : Call) (v : Val) (h : step e ogs s call = .ok (s', v)) :
    Session.actAll e ogs (s.ctx, s.fs) (acts e call) = .ok (s'.ctx, s'.fs) := by
  cases call with
  | key k m r =>
    simp only [step, bind, Except.bind] at h
    split at h
    · cases h
    · rename_i p hp
      cases h
      simp only [acts, Session.actAll, Session.act, Ctx.step, lift_ok hp, bind, Except.bind, pure, Except.pure]
  | keys text =>
    simp only [step] at h
    simp only [acts]
    split at h
    · rename_i ht; cases h; simp only [ht, Option.map_none]; rfl
    · rename_i t ht
      simp only [bind, Except.bind] at h
      split at h
      · cases h
      · rename_i c hc
        cases h
        have hc := lift_ok hc
        simp only [processKeyEventsString, bind, Except.bind] at hc
        split at hc
        · cases hc
        · rename_i o ho
          cases o with
          | none => cases hc
          | some evs =>
            simp only [ht, Option.map_some, ho]
            replace hc : s.ctx.processKeyEvents e evs = .ok c := hc
            rw [keys_acts, hc]; rfl
  | setRule name files dir =>
    simp only [step] at h
    simp only [acts]
    split at h
    · rename_i ht; cases h; simp only [ht, Option.bind_none]; rfl
    · rename_i n ht
      cases h
      simp only [ht, Option.bind_some, RuleLoad.setRule]
      cases (dir.bind fun d => RuleLoad.loadRule files d n) <;> rfl
  | setKeywords array =>
    simp only [step, bind, Except.bind] at h
    split at h
    · cases h
    · rename_i l hl
      cases h
      simp only [acts, keywords_eq hl]; rfl
  | detail =>
    simp only [step, bind, Except.bind] at h
    split at h
    · cases h
    · cases h; rfl
  | candidates buf size offset =>
    simp only [step, bind, Except.bind] at h
    split at h
    · cases h
    · cases h; rfl
  | freeString a =>
    simp only [step, bind, Except.bind] at h
    split at h
    · cases h
    · cases h; rfl
  | freeDetail fs =>
    simp only [step, bind, Except.bind] at h
    split at h
    · cases h
    · cases h; rfl
  | freeCandidates buf size =>
    simp only [step, bind, Except.bind] at h
    split at h
    · cases h
    · cases h; rfl
  | poll => cases h; rfl
  | preedit => cases h; rfl
  | underline => cases h; rfl
  | toComposite => cases h; rfl
  | count => cases h; rfl
  | cursor => cases h; rfl
  | selectAt i => cases h; rfl
  | confirmAt i => cases h; rfl
  | setInputMode m => cases h; rfl
  | getInputMode => cases h; rfl
  | getCompositionMode => cases h; rfl
  | setPeriod p => cases h; rfl
  | setComma p => cases h; rfl
  | reset => cases h; rfl
  | save os => cases h; rfl
  | version => cases h; rfl

/-- A single string. -/
theorem orNull_holds {h : CHeap} {l : List (Nat × Str)} (hh : Holds h l) (t : Str) :
    Holds (orNull h t).1 ((if (orNull h t).2 = 0 then [] else [((orNull h t).2, t)]) ++ l) ∧
    ((orNull h t).2 = 0 ↔ '\x00' ∈ t) := by
  by_cases hn : NoNul t
  · have he : orNull h t = (allocs h [t], h.next) := by simp [orNull, cstring_ok hn, alloc_eq]
    have hne : h.next ≠ 0 := by have := hh.1.1; omega
    rw [he]
    refine ⟨?_, by simp only [hne, false_iff]; exact hn⟩
    simp only [hne, if_false]
    have := holds_allocs hh [t]
    rwa [news_cons, news_nil] at this
  · have he : orNull h t = (h, 0) := by simp [orNull, cstring_bad hn]
    rw [he]
    exact ⟨by simpa using hh, by simp only [true_iff]; exact Classical.not_not.mp hn⟩

theorem ledger_none (e : Env) (c : Ctx) (l : List (Nat × Str)) (call : Call) (v : Val) (h : returned call = []) :
    ledger e c l call v = handed e c call v ++ l := by
  unfold ledger
  rw [List.filter_eq_self.mpr]
  intro p _
  simp [h]

theorem setRule_flag (files : RuleLoad.Files) (dir : Option Str) (c : Ctx) (n : Str) :
    (RuleLoad.setRule files dir c n).2 = (dir.bind fun d => RuleLoad.loadRule files d n).isSome := by
  unfold RuleLoad.setRule
  split <;> rename_i hl <;> rw [hl] <;> rfl

theorem candidates_holds {h : CHeap} {l : List (Nat × Str)} (hh : Holds h l) (c : Ctx) (buf : List Nat) (size offset : Nat)
    (hb : size ≤ buf.length) (hs : size < 2 ^ 31) :
    ∃ h' buf' n, getCandidates h c buf size offset = .ok (h', buf', n) ∧
      Holds h' ((buf'.take n.toNat).zip ((c.candidates.drop offset).map (·.output)) ++ l) ∧
      (((∀ w ∈ window c size offset, '\x00' ∉ w) ∧ n = min size (c.candidateCount - offset)) ∨
       ((∃ w ∈ window c size offset, '\x00' ∈ w) ∧ n = -1)) := by
  by_cases hn : ∀ w ∈ window c size offset, NoNul w
  · have hl : (window c size offset).length = min size (c.candidateCount - offset) := by
      simp [window, Ctx.candidateCount, Ctx.candidates]
    have hcopy := copyLoop_ok h buf size 0 (window c size offset) [] hn (by omega) hb
    simp only [List.append_nil, Nat.zero_add, List.take_zero, List.nil_append] at hcopy
    refine ⟨allocs h (window c size offset), List.range' h.next (window c size offset).length ++
      buf.drop (window c size offset).length, (window c size offset).length, ?_, ?_, .inl ⟨hn, by omega⟩⟩
    · unfold getCandidates
      rw [if_neg (by omega)]
      have hmap : (((c.candidates.drop offset).take size).map (·.output)) = window c size offset := rfl
      simp only [hmap, hcopy, copyLoop, bind, Except.bind, pure, Except.pure]
      have hlen : ((c.candidates.drop offset).take size).length = (window c size offset).length := by simp [window]
      simp only [if_true, hlen, asCInt]
      have h1 : (window c size offset).length % 2 ^ 32 = (window c size offset).length := Nat.mod_eq_of_lt (by omega)
      rw [h1, if_pos (by omega)]
    · have := holds_allocs hh (window c size offset)
      rw [Int.toNat_natCast, List.take_left' (by simp)]
      have hz : (List.range' h.next (window c size offset).length).zip ((c.candidates.drop offset).map (·.output)) =
          news h.next (window c size offset) := by
        unfold news
        have hw : window c size offset = ((c.candidates.drop offset).map (·.output)).take size := by simp [window, List.map_take]
        generalize (c.candidates.drop offset).map (·.output) = m at hw
        rw [hw]
        clear hw this hcopy hl hn hs hb
        generalize h.next = k
        induction m generalizing size k with
        | nil => simp
        | cons x m ih =>
          cases size with
          | zero => simp
          | succ size => simpa [List.range'_succ] using ih size (k + 1)
      rw [hz]; exact this
  · obtain ⟨w, hw, hz⟩ : ∃ w ∈ window c size offset, ¬ NoNul w := by
      simpa [Classical.not_forall] using hn
    obtain ⟨h', buf', n, h1, h2, h3, -⟩ := candidates_nul h hh.1 c buf size offset hb ⟨w, hw, hz⟩
    refine ⟨h', buf', -1, h1, ?_, .inr ⟨⟨w, hw, Classical.not_not.mp hz⟩, rfl⟩⟩
    refine ⟨h3, fun p => ?_⟩
    rw [h2, hh.2 p]
    simp

/-- **C68.** One call which keeps the rules: it fails only by a panic, exactly in the cases of `Dies`; otherwise the answer is that of the Rust API,
and afterwards the strings in use are those which the program held, without those it gave back, and with those it was given. -/
theorem call_kept (e : Env) (ogs : List Source) (s : CState) (l : List (Nat × Str)) (call : Call) (hh : Holds s.heap l)
    (ha : Allowed l call) :
    (step e ogs s call = .error .panic ∧ Dies e s.ctx call) ∨
    ∃ s' v, step e ogs s call = .ok (s', v) ∧ ¬ Dies e s.ctx call ∧ Answers e s.ctx call v ∧
      Holds s'.heap (ledger e s.ctx l call v) := by
  obtain ⟨hnd, hin, hx⟩ := ha
  cases call with
  | key k m r =>
    simp only [step, bind, Except.bind, Dies, Answers]
    cases hp : s.ctx.processKeyEvent e (KeyEvent.fromFcitx k m r) with
    | error p => exact .inl ⟨rfl, p, rfl⟩
    | ok p => exact .inr ⟨_, _, rfl, by simp, ⟨_, _, rfl, rfl⟩, by rw [ledger_none _ _ _ _ _ rfl]; simpa [handed] using hh⟩
  | keys text =>
    simp only [step, Dies, Answers]
    cases ht : cstr text with
    | none => exact .inr ⟨_, _, rfl, by simp, by simp, by rw [ledger_none _ _ _ _ _ rfl]; simpa [handed] using hh⟩
    | some t =>
      simp only [bind, Except.bind, processKeyEventsString]
      cases hd : KeyEvent.deserializeSeq e.xkb t with
      | error p => exact .inl ⟨rfl, t, rfl, by simp [hd]⟩
      | ok o =>
        cases o with
        | none => exact .inl ⟨rfl, t, rfl, by simp [hd]⟩
        | some evs =>
          dsimp only
          cases hc : s.ctx.processKeyEvents e evs with
          | error p => exact .inl ⟨rfl, t, rfl, by simp [hd, hc]⟩
          | ok c => exact .inr ⟨_, _, rfl, by simp [hd, hc], by simp, by rw [ledger_none _ _ _ _ _ rfl]; simpa [handed] using hh⟩
  | setRule name files dir =>
    simp only [step, Dies, Answers]
    cases ht : cstr name with
    | none => exact .inr ⟨_, _, rfl, by simp, by simp, by rw [ledger_none _ _ _ _ _ rfl]; simpa [handed] using hh⟩
    | some n =>
      refine .inr ⟨_, _, rfl, by simp, ?_, by rw [ledger_none _ _ _ _ _ rfl]; simpa [handed] using hh⟩
      simp only [Option.bind_some, setRule_flag]
  | setKeywords array =>
    have : ∃ l, keywords array = .ok l := by
      have loop : ∀ a : List (Option Bytes), none ∉ a → ∃ l, keywordLoop a = .ok l := by
        intro a
        induction a with
        | nil => intro _; exact ⟨_, rfl⟩
        | cons x a ih =>
          intro hn
          cases x with
          | none => simp at hn
          | some b =>
            obtain ⟨l, hl⟩ := ih (by simpa using hn)
            exact ⟨(cstr b).toList ++ l, by simp only [keywordLoop, hl, bind, Except.bind, pure, Except.pure]⟩
      unfold keywords
      split
      · exact ⟨_, rfl⟩
      · exact ⟨_, rfl⟩
      · exact loop _ (by simpa using hx)
    obtain ⟨k, hk⟩ := this
    simp only [step, bind, Except.bind, hk]
    exact .inr ⟨_, _, rfl, by simp [Dies], by simp [Answers], by rw [ledger_none _ _ _ _ _ rfl]; simpa [handed] using hh⟩
  | detail =>
    simp only [step, bind, Except.bind, Dies, Answers, preeditDetail]
    rcases convertAll_total s.heap (s.ctx.preeditDetail e) with ⟨r, hr⟩ | ⟨hr, hd⟩ <;> simp only [hr]
    · refine .inr ⟨_, _, rfl, ?_, ?_, ?_⟩
      · rintro ⟨i, hi, t, ht, hz⟩
        exact (convertAll_pairs (h' := r.1) (fs := r.2) hh.1.1 hr).2.1 i hi t ht hz
      · refine ⟨_, rfl, ?_⟩
        rw [(convertAll_pairs (h' := r.1) (fs := r.2) hh.1.1 hr).2.2]
        simp [Ctx.preeditDetail, Ctx.states, Ctx.depth]
      · have h1 := (convertAll_spec (h' := r.1) (fs := r.2) hh.1.1 hr).1
        have h2 := (convertAll_pairs (h' := r.1) (fs := r.2) hh.1.1 hr).1
        rw [ledger_none _ _ _ _ _ rfl]
        simp only [handed, h2, h1]
        exact holds_allocs hh _
    · exact .inl ⟨trivial, hd⟩
  | candidates buf size offset =>
    obtain ⟨h', buf', n, h1, h2, h3⟩ := candidates_holds hh s.ctx buf size offset hx.1 hx.2
    simp only [step, bind, Except.bind, h1]
    exact .inr ⟨_, _, rfl, by simp [Dies], ⟨_, _, rfl, h3⟩, by rw [ledger_none _ _ _ _ _ rfl]; exact h2⟩
  | freeString a =>
    simp only [step, bind, Except.bind, CApi.freeString]
    by_cases h0 : a = 0
    · simp only [h0, if_true]
      exact .inr ⟨_, _, rfl, by simp [Dies], by simp [Answers], by rw [ledger_none _ _ _ _ _ (by simp [returned])]; simpa [handed] using hh⟩
    · simp only [returned, h0, if_false] at hnd hin
      obtain ⟨h', h1, h2⟩ := holds_free hh [a] hnd hin
      have h1' : s.heap.free a = .ok h' := by
        simp only [freeAll, bind, Except.bind] at h1
        split at h1
        · cases h1
        · rename_i w hw; cases h1; exact hw
      simp only [h0, if_false, h1']
      exact .inr ⟨_, _, rfl, by simp [Dies], by simp [Answers], by simpa [ledger, handed, returned, h0] using h2⟩
  | freeDetail fs =>
    obtain ⟨h', h1, h2⟩ := holds_free hh _ hnd hin
    simp only [step, bind, Except.bind, freePreeditDetail_eq]
    simp only [returned] at h1
    simp only [h1]
    exact .inr ⟨_, _, rfl, by simp [Dies], by simp [Answers], by simpa only [ledger, handed, List.nil_append] using h2⟩
  | freeCandidates buf size =>
    cases buf with
    | none =>
      exact .inr ⟨_, _, rfl, by simp [Dies], by simp [Answers], by rw [ledger_none _ _ _ _ _ rfl]; simpa [handed] using hh⟩
    | some buf =>
      obtain ⟨h', h1, h2⟩ := holds_free hh _ hnd hin
      simp only [returned] at h1
      simp only [step, bind, Except.bind, freeCandidateList, if_neg (Nat.not_lt.mpr hx), h1]
      exact .inr ⟨_, _, rfl, by simp [Dies], by simp [Answers], by simpa only [ledger, handed, List.nil_append] using h2⟩
  | poll =>
    have := orNull_holds hh (s.ctx.pollOutput.2.getD [])
    exact .inr ⟨_, _, rfl, by simp [Dies], ⟨_, rfl, this.2⟩, by rw [ledger_none _ _ _ _ _ rfl]; exact this.1⟩
  | preedit =>
    have := orNull_holds hh (s.ctx.preedit e)
    exact .inr ⟨_, _, rfl, by simp [Dies], ⟨_, rfl, this.2⟩, by rw [ledger_none _ _ _ _ _ rfl]; exact this.1⟩
  | toComposite =>
    have := orNull_holds hh s.ctx.top.compositeKey.toComposite
    exact .inr ⟨_, _, rfl, by simp [Dies], ⟨_, rfl, this.2⟩, by rw [ledger_none _ _ _ _ _ rfl]; exact this.1⟩
  | version =>
    have := orNull_holds hh versionText
    exact .inr ⟨_, _, rfl, by simp [Dies], ⟨_, rfl, this.2⟩, by rw [ledger_none _ _ _ _ _ rfl]; exact this.1⟩
  | underline => exact .inr ⟨_, _, rfl, by simp [Dies], by simp [Answers, cInt, preeditUnderline], by rw [ledger_none _ _ _ _ _ rfl]; simpa [handed] using hh⟩
  | count =>
    refine .inr ⟨_, _, rfl, by simp [Dies], ?_, by rw [ledger_none _ _ _ _ _ rfl]; simpa [handed] using hh⟩
    intro hlt
    simp only [CApi.candidateCount, Nat.mod_eq_of_lt hlt]
  | cursor =>
    refine .inr ⟨_, _, rfl, by simp [Dies], ?_, by rw [ledger_none _ _ _ _ _ rfl]; simpa [handed] using hh⟩
    intro hlt
    have hz : s.ctx.candidateCount = 0 ↔ s.ctx.top.cands.cands.isEmpty = true := by
      simp [Ctx.candidateCount]
    by_cases h0 : s.ctx.candidateCount = 0
    · exact .inl ⟨h0, by simp [CApi.cursorPosition, Ctx.cursorPosition, hz.mp h0]⟩
    · refine .inr ⟨h0, fun hc => ?_⟩
      have : s.ctx.top.cands.cands.isEmpty = false := by simpa using fun h => h0 (hz.mpr h)
      simp only [CApi.cursorPosition, Ctx.cursorPosition, this]
      have : ¬ s.ctx.top.cands.cursor > 2 ^ 31 - 1 := by omega
      simp [this]
  | selectAt i => exact .inr ⟨_, _, rfl, by simp [Dies], rfl, by rw [ledger_none _ _ _ _ _ rfl]; simpa [handed] using hh⟩
  | confirmAt i => exact .inr ⟨_, _, rfl, by simp [Dies], rfl, by rw [ledger_none _ _ _ _ _ rfl]; simpa [handed] using hh⟩
  | setInputMode m => exact .inr ⟨_, _, rfl, by simp [Dies], rfl, by rw [ledger_none _ _ _ _ _ rfl]; simpa [handed] using hh⟩
  | getInputMode => exact .inr ⟨_, _, rfl, by simp [Dies], rfl, by rw [ledger_none _ _ _ _ _ rfl]; simpa [handed] using hh⟩
  | getCompositionMode => exact .inr ⟨_, _, rfl, by simp [Dies], rfl, by rw [ledger_none _ _ _ _ _ rfl]; simpa [handed] using hh⟩
  | setPeriod p => exact .inr ⟨_, _, rfl, by simp [Dies], rfl, by rw [ledger_none _ _ _ _ _ rfl]; simpa [handed] using hh⟩
  | setComma p => exact .inr ⟨_, _, rfl, by simp [Dies], rfl, by rw [ledger_none _ _ _ _ _ rfl]; simpa [handed] using hh⟩
  | reset => exact .inr ⟨_, _, rfl, by simp [Dies], rfl, by rw [ledger_none _ _ _ _ _ rfl]; simpa [handed] using hh⟩
  | save os => exact .inr ⟨_, _, rfl, by simp [Dies], rfl, by rw [ledger_none _ _ _ _ _ rfl]; simpa [handed] using hh⟩

/-! ## Whole sessions -/

/-- **C68.** A C program which keeps the rules drives the context and the files exactly as the Rust program does which makes the corresponding
calls. -/
theorem session_refines {e : Env} {ogs : List Source} {s s' : CState} {l l' : List (Nat × Str)} {t : List (Call × Val)}
    (h : Uses e ogs s l t s' l') :
    Session.actAll e ogs (s.ctx, s.fs) (t.flatMap fun p => acts e p.1) = .ok (s'.ctx, s'.fs) := by
  induction h with
  | done s l => rfl
  | call ha hs _ ih =>
    rw [List.flatMap_cons, Session.actAll_append, call_refines e ogs _ _ _ _ hs]
    exact ih

/-- **C68.** At any time the strings at the addresses which the program holds are those which the Rust API returned, untouched, and no other string is
in use. -/
theorem session_strings {e : Env} {ogs : List Source} {s s' : CState} {l l' : List (Nat × Str)} {t : List (Call × Val)}
    (h : Uses e ogs s l t s' l') (hh : Holds s.heap l) : Holds s'.heap l' := by
  induction h with
  | done s l => exact hh
  | call ha hs _ ih =>
    rcases call_kept e ogs _ _ _ hh ha with ⟨h1, _⟩ | ⟨s1, v1, h1, -, -, h2⟩
    · rw [hs] at h1; cases h1
    · rw [hs] at h1; cases h1
      exact ih h2

/-- The same in terms of reading: from a start without strings. -/
theorem session_reads {e : Env} {ogs : List Source} {c : Ctx} {fs : FS} {s' : CState} {l' : List (Nat × Str)} {t : List (Call × Val)}
    (h : Uses e ogs ⟨c, fs, ⟨1, []⟩⟩ [] t s' l') (a : Nat) (w : Str) : s'.heap.read a = some w ↔ (a, w) ∈ l' := by
  have hh := session_strings h ⟨⟨Nat.one_pos, by simp, by simp⟩, by simp⟩
  rw [read_iff hh.1, hh.2]

/-- **C68.** When the program has given back everything, nothing is left in use. -/
theorem session_no_leak {e : Env} {ogs : List Source} {c : Ctx} {fs : FS} {s' : CState} {t : List (Call × Val)}
    (h : Uses e ogs ⟨c, fs, ⟨1, []⟩⟩ [] t s' []) : s'.heap.live = [] := by
  have hh := session_strings h ⟨⟨Nat.one_pos, by simp, by simp⟩, by simp⟩
  exact List.eq_nil_iff_forall_not_mem.mpr fun p hp => by simpa using (hh.2 p).mp hp

/-- **C68.** The next call of a program which keeps the rules fails only by a panic, exactly in the cases of `Dies`; otherwise it answers as the Rust
API does. -/
theorem session_continues {e : Env} {ogs : List Source} {c : Ctx} {fs : FS} {s' : CState} {l' : List (Nat × Str)} {t : List (Call × Val)}
    (h : Uses e ogs ⟨c, fs, ⟨1, []⟩⟩ [] t s' l') (call : Call) (ha : Allowed l' call) :
    (step e ogs s' call = .error .panic ∧ Dies e s'.ctx call) ∨
    ∃ s'' v, step e ogs s' call = .ok (s'', v) ∧ ¬ Dies e s'.ctx call ∧ Answers e s'.ctx call v := by
  have hh := session_strings h ⟨⟨Nat.one_pos, by simp, by simp⟩, by simp⟩
  rcases call_kept e ogs s' l' call hh ha with h1 | ⟨s1, v1, h1, h2, h3, -⟩
  · exact .inl h1
  · exact .inr ⟨s1, v1, h1, h2, h3⟩

/-- **C68 with C65.** What is known of Rust sessions holds of C sessions: at every moment the dictionaries are in step with their files. -/
theorem c_session_in_step {e : Env} {ogs : List Source} {c : Ctx} {fs : FS} {s' : CState} {l' : List (Nat × Str)} {t : List (Call × Val)}
    (h : Uses e ogs ⟨c, fs, ⟨1, []⟩⟩ [] t s' l') (ho : Session.openAll fs ogs = some c.dicts) (ha : Spec.Session.Apart ogs)
    (hsa : Spec.Session.StaticApart ogs) (hc : ∀ os v, (Call.save os, v) ∈ t → ∀ i, os i ≠ .createFails) :
    Spec.Session.AllInStep ogs s'.fs s'.ctx.dicts := by
  refine Session.session_in_step e ogs fs s'.fs c s'.ctx ho ha hsa _ ?_ (session_refines h)
  intro a hm
  obtain ⟨⟨call, v⟩, hp, hm⟩ := List.mem_flatMap.mp hm
  cases call with
  | save os => simp only [acts, List.mem_singleton] at hm; subst hm; exact hc os v hp
  | keys text =>
    simp only [acts] at hm
    split at hm
    · obtain ⟨ev, -, rfl⟩ := List.mem_map.mp hm; trivial
    · cases hm
  | setRule name files dir =>
    simp only [acts] at hm
    split at hm
    · simp only [List.mem_singleton] at hm; subst hm; trivial
    · cases hm
  | key _ _ _ => simp only [acts, List.mem_singleton] at hm; subst hm; trivial
  | poll => simp only [acts, List.mem_singleton] at hm; subst hm; trivial
  | selectAt _ => simp only [acts, List.mem_singleton] at hm; subst hm; trivial
  | confirmAt _ => simp only [acts, List.mem_singleton] at hm; subst hm; trivial
  | setInputMode _ => simp only [acts, List.mem_singleton] at hm; subst hm; trivial
  | setKeywords _ => simp only [acts, List.mem_singleton] at hm; subst hm; trivial
  | setPeriod _ => simp only [acts, List.mem_singleton] at hm; subst hm; trivial
  | setComma _ => simp only [acts, List.mem_singleton] at hm; subst hm; trivial
  | reset => simp only [acts, List.mem_singleton] at hm; subst hm; trivial
  | _ => cases hm

/-! ## A session -/

instance (l : List (Nat × Str)) (call : Call) : Decidable (Allowed l call) := by
  unfold Allowed
  cases call
  case freeCandidates buf size => cases buf <;> infer_instance
  all_goals infer_instance

/-- Making calls and keeping the books. -/
def play (e : Env) (ogs : List Source) : CState → List (Nat × Str) → List Call → Option (CState × List (Nat × Str) × List (Call × Val))
  | s, l, [] => some (s, l, [])
  | s, l, call :: calls =>
    if Allowed l call then
      match step e ogs s call with
      | .ok (s', v) => (play e ogs s' (ledger e s.ctx l call v) calls).map fun r => (r.1, r.2.1, (call, v) :: r.2.2)
      | .error _ => none
    else none

theorem play_uses (e : Env) (ogs : List Source) (calls : List Call) (s : CState) (l : List (Nat × Str)) (s' : CState) (l' : List (Nat × Str))
    (t : List (Call × Val)) (h : play e ogs s l calls = some (s', l', t)) : Uses e ogs s l t s' l' := by
  induction calls generalizing s l t with
  | nil => cases h; exact .done _ _
  | cons call calls ih =>
    unfold play at h
    split at h
    · rename_i ha
      split at h
      · rename_i s1 v hs
        obtain ⟨r, hr, he⟩ := Option.map_eq_some_iff.mp h
        cases he
        exact .call ha hs (ih _ _ _ hr)
      · cases h
    · cases h

/-- A context with the default rule. -/
def start : CState := ⟨Ctx.new Assets.defaultCommands Assets.defaultKana .hiragana .direct [], fun _ => none, ⟨1, []⟩⟩

/-- A program: it types `a`, takes the text, types `I k`, looks at the preedit, and gives everything back; keywords are not all UTF-8. -/
def program : List Call :=
  [.key 0x61 0 false, .poll, .keys [0x49, 0x20, 0x6B, 0x00, 0x31], .keys [0xFF], .preedit, .detail, .freeString 1,
   .setKeywords [some [0x61], some [0xFF], some [0xE3, 0x81, 0x82]], .underline, .getCompositionMode, .setRule [0x61] ⟨fun _ => none, fun _ => none⟩ none,
   .freeString 2, .freeDetail [.preComposition 3 4 0 5], .freeString 0, .version, .count, .cursor, .candidates [7, 8] 2 0]

/-- It keeps the rules; at the end it holds the version only. -/
theorem program_runs :
    ((play (Assets.env ⟨true⟩) [] start [] program).map fun r => (r.2.1, r.2.2.map (·.2), r.1.ctx.config.keywords)) =
    some ([(6, c%"3.1.2")],
      [.bool true, .ptr 1, .bool true, .bool false, .ptr 2, .infos [.preComposition 3 4 0 5], .unit, .unit, .ints 0 0,
       .compositionMode .preComposition, .int (-1), .unit, .unit, .unit, .ptr 6, .int 0, .int (-1), .slots [7, 8] 0], [c%"a", c%"あ"]) := by
  decide +kernel

/-- Half-way it holds the polled text, the preedit and its parts. -/
theorem program_holds :
    ((play (Assets.env ⟨true⟩) [] start [] (program.take 6)).map fun r => r.2.1) =
    some [(3, []), (4, c%"い"), (5, c%"k"), (2, c%"▽いk"), (1, c%"あ")] := by
  decide +kernel

/-! ## What a C program has to know -/

/-- **C68, violation.** `skk_context_process_key_events` with a text which is not a list of keys aborts the process; with any list it says that
the keys were accepted, even if none was. -/
theorem bad_keys_abort :
    step (Assets.env ⟨true⟩) [] start (.keys [0x28, 0x61]) = .error .panic ∧
    ((step (Assets.env ⟨true⟩) [] start (.keys [0x43, 0x2D, 0x7A])).toOption.map (·.2)) = some (.bool true) ∧
    ((KeyEvent.deserializeSeq (Assets.env ⟨true⟩).xkb c%"C-z").toOption.bind fun o => o.map fun evs =>
      evs.map fun ev => (start.ctx.processKeyEvent (Assets.env ⟨true⟩) ev).toOption.map (·.2)) = some [some false] := by
  refine ⟨?_, ?_, ?_⟩
  · have h : (match step (Assets.env ⟨true⟩) [] start (.keys [0x28, 0x61]) with | .error x => some x | .ok _ => none) = some CFault.panic := by
      decide +kernel
    split at h
    · rename_i x hx; cases h; exact hx
    · cases h
  · decide +kernel
  · decide +kernel

/-- **C68, violation.** The range to underline is always empty. -/
theorem never_underlined (e : Env) (ogs : List Source) (s : CState) : step e ogs s .underline = .ok (s, .ints 0 0) := rfl

/-- **C68, violation.** A NULL as the first keyword switches all keywords off; a NULL behind is followed. -/
theorem null_keywords (e : Env) (ogs : List Source) (s : CState) (l : List (Option Bytes)) (b : Bytes) :
    step e ogs s (.setKeywords (none :: l)) = .ok ({ s with ctx := { s.ctx with config := { s.ctx.config with keywords := [] } } }, .unit) ∧
    step e ogs s (.setKeywords (some b :: none :: l)) = .error .outOfBounds := ⟨rfl, rfl⟩

end Cskk.Props.CSession

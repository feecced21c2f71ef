import Verif.Index.Props3

/-! # C42: which entry of a subset answers

Entries are stored in the order in which the filters first asked for them, not in that of the original. -/

namespace Verif.Index
open Verif.GridSpec

variable {P : Py} {order : List String} {gi go : GS} {m : List Char}

theorem hit_not_miss {e : Entry} (h : Hit P order gi go m e) (h' : Miss P order gi go m e) : False := by
  obtain ⟨n, hn, h'⟩ := h'
  obtain ⟨h1, h2, h3⟩ := h
  rcases h' with h' | h' | h'
  · exact h' (methodIs_unique hn h1)
  · rw [h2] at h'; simp at h'
  · rw [h3] at h'; simp at h'

/-- The first of the list that answers, all before it being seen not to. -/
def FirstHit (P : Py) (order : List String) (gi go : GS) (m : List Char) (l : Index) (e : Entry) : Prop :=
  ∃ pre k post, l = pre ++ (k, e) :: post ∧ Hit P order gi go m e ∧ ∀ x ∈ pre, Miss P order gi go m x.2

/-- The first filter of the list whose entry in the original answers, the entries of all before it being seen not to. -/
def FirstAsked (P : Py) (order : List String) (gi go : GS) (m : List Char) (ix : Index) (fs : List Filter) (e : Entry) : Prop :=
  ∃ pre fl post, fs = pre ++ fl :: post ∧ find P order ix fl.input fl.output fl.methodOf = .ok (some e) ∧ Hit P order gi go m e ∧
    ∀ x ∈ pre, ∀ a, find P order ix x.input x.output x.methodOf = .ok (some a) → Miss P order gi go m a

theorem first_snoc (l : Index) (x : String × Entry) (e : Entry) :
    FirstHit P order gi go m (l ++ [x]) e ↔
      FirstHit P order gi go m l e ∨ (∀ y ∈ l, Miss P order gi go m y.2) ∧ x.2 = e ∧ Hit P order gi go m e := by
  constructor
  · rintro ⟨pre, k, post, h, hh, hp⟩
    rcases List.eq_nil_or_concat post with rfl | ⟨post', z, rfl⟩
    · obtain ⟨rfl, h2⟩ := List.append_inj' h rfl
      cases h2
      exact .inr ⟨hp, rfl, hh⟩
    · rw [List.concat_eq_append, ← List.cons_append, ← List.append_assoc] at h
      obtain ⟨h1, _⟩ := List.append_inj' h rfl
      exact .inl ⟨pre, k, post', h1, hh, hp⟩
  · rintro (⟨pre, k, post, rfl, hh, hp⟩ | ⟨hp, rfl, hh⟩)
    · exact ⟨pre, k, post ++ [x], by simp, hh, hp⟩
    · exact ⟨l, x.1, [], rfl, hh, hp⟩

theorem firstAsked_cons (ix : Index) (f : Filter) (fs : List Filter) (e : Entry) :
    FirstAsked P order gi go m ix (f :: fs) e ↔
      find P order ix f.input f.output f.methodOf = .ok (some e) ∧ Hit P order gi go m e ∨
        (∀ a, find P order ix f.input f.output f.methodOf = .ok (some a) → Miss P order gi go m a) ∧ FirstAsked P order gi go m ix fs e := by
  constructor
  · rintro ⟨pre, fl, post, h, hf, hh, hp⟩
    cases pre with
    | nil => cases h; exact .inl ⟨hf, hh⟩
    | cons y ys =>
      cases h
      exact .inr ⟨hp _ (by simp), ys, fl, post, rfl, hf, hh, fun x hx => hp x (by simp [hx])⟩
  · rintro (⟨hf, hh⟩ | ⟨h0, pre, fl, post, rfl, hf, hh, hp⟩)
    · exact ⟨[], f, fs, rfl, hf, hh, by simp⟩
    · refine ⟨f :: pre, fl, post, rfl, hf, hh, fun x hx => ?_⟩
      rcases List.mem_cons.1 hx with rfl | hx
      · exact h0
      · exact hp x hx

theorem found_in {ix : Index} (hc : Clean P ix) {f : Filter} {e : Entry} (hr : find P order ix f.input f.output f.methodOf = .ok (some e)) :
    (e.name, e) ∈ ix := by
  obtain ⟨gi, go, _, _, hs⟩ := (find_ok ..).1 hr
  obtain ⟨pre, k, post, hx, _⟩ := (search_some ..).1 hs
  have hk : (k, e) ∈ ix := by rw [hx]; simp
  have := (hc.forms _ hk).1
  simp only at this
  rw [this]; exact hk

theorem subset_first (ix : Index) (b : Bool) (hc : Clean P ix) (e : Entry) : ∀ (fs : List Filter) (res res' : Index),
    (∀ x ∈ res, x ∈ ix) → (res.map Prod.fst).Nodup → subset P order ix b fs res = .ok res' →
    (FirstHit P order gi go m res' e ↔
      FirstHit P order gi go m res e ∨ (∀ y ∈ res, Miss P order gi go m y.2) ∧ FirstAsked P order gi go m ix fs e)
  | [], res, res', _, _, h => by
    unfold subset at h; cases h
    constructor
    · exact .inl
    · rintro (h | ⟨_, pre, fl, post, h, _⟩)
      · exact h
      · simp at h
  | f :: fs, res, res', h1, h2, h => by
    unfold subset at h
    rw [bind_ok] at h
    obtain ⟨r, hr, h⟩ := h
    rw [firstAsked_cons, hr]
    cases r with
    | none =>
      simp only at h
      split at h
      · cases h
      · rw [subset_first ix b hc e fs res res' h1 h2 h]
        simp
    | some a =>
      simp only at h
      have hin := found_in hc hr
      by_cases hk : a.name ∈ res.map Prod.fst
      · obtain ⟨⟨n, v⟩, hy, hye⟩ := List.mem_map.1 hk
        simp only at hye; subst hye
        have := key_unique ix _ _ _ hc.nodup (h1 _ hy) hin
        subst this
        rw [upsert_same _ _ _ h2 hy] at h
        rw [subset_first ix b hc e fs res res' h1 h2 h]
        constructor
        · rintro (h | ⟨h, h'⟩)
          · exact .inl h
          · exact .inr ⟨h, .inr ⟨fun a ha => by cases ha; exact h _ hy, h'⟩⟩
        · rintro (h | ⟨h, ⟨h', hh⟩ | ⟨_, h'⟩⟩)
          · exact .inl h
          · cases h'; exact (hit_not_miss hh (h _ hy)).elim
          · exact .inr ⟨h, h'⟩
      · have hn := upsert_nodup res a.name a h2
        rw [upsert_new _ _ _ hk] at h hn
        rw [subset_first ix b hc e fs _ res' (by
          intro x hx
          rcases List.mem_append.1 hx with hx | hx
          · exact h1 x hx
          · simp at hx; subst hx; exact hin) hn h, first_snoc]
        constructor
        · rintro ((h | ⟨hm, h', hh⟩) | ⟨h, h'⟩)
          · exact .inl h
          · simp only at h'; subst h'; exact .inr ⟨hm, .inl ⟨rfl, hh⟩⟩
          · exact .inr ⟨fun y hy => h y (by simp [hy]), .inr ⟨fun x hx => by cases hx; exact h (a.name, a) (by simp), h'⟩⟩
        · rintro (h | ⟨hm, ⟨h', hh⟩ | ⟨h', h''⟩⟩)
          · exact .inl (.inl h)
          · cases h'; exact .inl (.inr ⟨hm, rfl, hh⟩)
          · refine .inr ⟨fun y hy => ?_, h''⟩
            rcases List.mem_append.1 hy with hy | hy
            · exact hm y hy
            · simp at hy; subst hy; exact h' a rfl

/-- C42 (exact): a request is answered by the subset with the entry that the original gives to the first of the listed filters whose entry
answers it — the order of the filters decides, not that of the original. -/
theorem C42_exact (P : Py) (order : List String) (f : IndexFile) (ix res : Index) (b : Bool) (fs : List Filter)
    (hn : ∀ es, f.matrix = some es → (es.map Prod.fst).Nodup) (hl : load P f = .ok ix) (h : subset P order ix b fs [] = .ok res)
    (di dO : Dict) (m : List Char) (gi go : GS) (hgi : fromDict P di = .ok gi) (hgo : fromDict P dO = .ok go) (e : Entry) :
    find P order res di dO m = .ok (some e) ↔
      ∃ pre fl post, fs = pre ++ fl :: post ∧ find P order ix fl.input fl.output fl.methodOf = .ok (some e) ∧ Hit P order gi go m e ∧
        ∀ x ∈ pre, ∀ a, find P order ix x.input x.output x.methodOf = .ok (some a) → Miss P order gi go m a := by
  rw [C39_first_match P order res di dO m gi go hgi hgo e]
  refine (subset_first ix b (load_clean P f ix hn hl) e fs [] res (by simp) (by simp) h).trans ?_
  constructor
  · rintro (⟨pre, k, post, h, _⟩ | ⟨_, h⟩)
    · simp at h
    · exact h
  · exact fun h => .inr ⟨by simp, h⟩

/-- C42 (part): a listed filter has its own entry again if the entries of the filters before it do not answer it; so the first one has. -/
theorem C42_early_partial (P : Py) (order : List String) (f : IndexFile) (ix res : Index) (b : Bool) (pre post : List Filter) (fl : Filter)
    (hn : ∀ es, f.matrix = some es → (es.map Prod.fst).Nodup) (hl : load P f = .ok ix)
    (h : subset P order ix b (pre ++ fl :: post) [] = .ok res) (e : Entry) (gi go : GS)
    (hgi : fromDict P fl.input = .ok gi) (hgo : fromDict P fl.output = .ok go)
    (hf : find P order ix fl.input fl.output fl.methodOf = .ok (some e))
    (hp : ∀ x ∈ pre, ∀ a, find P order ix x.input x.output x.methodOf = .ok (some a) → Miss P order gi go fl.methodOf a) :
    find P order res fl.input fl.output fl.methodOf = .ok (some e) := by
  obtain ⟨_, _, _, _, hhit, _⟩ := (C39_first_match P order ix _ _ _ gi go hgi hgo e).1 hf
  exact (C42_exact P order f ix res b _ hn hl h _ _ _ gi go hgi hgo e).2 ⟨pre, fl, post, rfl, hf, hhit, hp⟩

theorem exists_first {α : Type} (p : α → Prop) : ∀ (l : List α), (∃ x ∈ l, p x) → ∃ pre x post, l = pre ++ x :: post ∧ p x ∧ ∀ y ∈ pre, ¬p y
  | [], h => by simp at h
  | a :: l, h => by
    by_cases ha : p a
    · exact ⟨[], a, l, rfl, ha, by simp⟩
    · obtain ⟨x, hx, hp⟩ := h
      rcases List.mem_cons.1 hx with rfl | hx
      · exact absurd hp ha
      · obtain ⟨pre, x, post, rfl, h1, h2⟩ := exists_first p l ⟨x, hx, hp⟩
        exact ⟨a :: pre, x, post, rfl, h1, by
          intro y hy
          rcases List.mem_cons.1 hy with rfl | hy
          · exact ha
          · exact h2 y hy⟩

/-- Entry `a` comes before entry `e` in the index. -/
def Before (ix : Index) (a e : Entry) : Prop := ∃ p k q k', ix = p ++ (k, a) :: q ∧ (k', e) ∈ q

/-- C42 (part): when the filters are listed in the order in which their entries are in the original, every filter has its entry again,
however many entries answer it. -/
theorem C42_ordered_partial (P : Py) (order : List String) (f : IndexFile) (ix res : Index) (b : Bool) (fs : List Filter)
    (hn : ∀ es, f.matrix = some es → (es.map Prod.fst).Nodup) (hl : load P f = .ok ix) (h : subset P order ix b fs [] = .ok res)
    (ho : ∀ pre x mid y post a e, fs = pre ++ x :: (mid ++ y :: post) → find P order ix x.input x.output x.methodOf = .ok (some a) →
      find P order ix y.input y.output y.methodOf = .ok (some e) → a = e ∨ Before ix a e)
    (fl : Filter) (hfl : fl ∈ fs) (e : Entry) (hf : find P order ix fl.input fl.output fl.methodOf = .ok (some e)) :
    find P order res fl.input fl.output fl.methodOf = .ok (some e) := by
  have hc := load_clean P f ix hn hl
  obtain ⟨gi, go, hgi, hgo, hs⟩ := (find_ok ..).1 hf
  obtain ⟨u, k, v, hix, hhit, hmiss⟩ := (search_some ..).1 hs
  obtain ⟨pre, x, post, hfs, hx, hp⟩ := exists_first (fun x => find P order ix x.input x.output x.methodOf = .ok (some e)) fs ⟨fl, hfl, hf⟩
  refine (C42_exact P order f ix res b fs hn hl h _ _ _ gi go hgi hgo e).2 ⟨pre, x, post, hfs, hx, hhit, fun y hy a ha => ?_⟩
  obtain ⟨p1, p2, rfl⟩ := List.append_of_mem hy
  rcases ho p1 y p2 x post a e (by rw [hfs]; simp) ha hx with rfl | ⟨p, k1, q, k2, h1, h2⟩
  · exact absurd ha (hp y hy)
  · -- names are unique, so `a` is among those before `e`
    have hea : (k1, a) ∈ u := by
      have hk : k2 = k := by
        have e1 := (hc.forms (k2, e) (by rw [h1]; simp [h2])).1
        have e2 := (hc.forms (k, e) (by rw [hix]; simp)).1
        exact e1.symm.trans e2
      subst hk
      have hnd := hc.nodup
      rw [hix] at h1
      rcases List.append_eq_append_iff.1 h1 with ⟨w, hw1, hw2⟩ | ⟨w, hw1, hw2⟩
      · exfalso
        rw [hix, List.map_append, List.map_cons, List.nodup_append, List.nodup_cons] at hnd
        apply hnd.2.1.1
        cases w with
        | nil =>
          cases hw2
          exact List.mem_map.2 ⟨_, h2, rfl⟩
        | cons z zs =>
          cases hw2
          exact List.mem_map.2 ⟨(k2, e), by simp [h2], rfl⟩
      · cases w with
        | nil =>
          exfalso
          cases hw2
          rw [hix, List.map_append, List.map_cons, List.nodup_append, List.nodup_cons] at hnd
          exact hnd.2.1.1 (List.mem_map.2 ⟨_, h2, rfl⟩)
        | cons z zs =>
          cases hw2
          rw [hw1]; simp
    exact hmiss _ hea

/-- The filters "shape 2" and "any shape". -/
def shape2 : Filter := ⟨orca (some (.int 2)), orca none, none⟩
def anyShape : Filter := ⟨orca none, orca none, none⟩

theorem any_find (P : Py) (order : List String) (ho : Enumerates order) :
    find P order twoIndex anyShape.input anyShape.output anyShape.methodOf = .ok (some (entryOf "a" (some (.int 1)))) := by
  show find P order twoIndex (orca _) (orca none) "linear".toList = _
  rw [orca_find]
  have hd : shapesDiffer (orcaSpec (some (.int 1))).d (orcaSpec none).d = false := by rw [orca_shapes]
  simp only [twoIndex, search, linear_match P order ho, hd]
  rfl

theorem both_subset (P : Py) (order : List String) (ho : Enumerates order) :
    subset P order twoIndex true [shape2, anyShape] [] = .ok [("b", entryOf "b" none), ("a", entryOf "a" (some (.int 1)))] := by
  have e1 : find P order twoIndex shape2.input shape2.output shape2.methodOf = .ok (some (entryOf "b" none)) := two_find P order ho
  simp only [subset, e1, any_find P order ho, bind, Except.bind]
  rfl

/-- `C42_exact`: asked for any shape the subset gives b, which the filter for shape 2 brought in first; the original gives a. -/
example (P : Py) (order : List String) (ho : Enumerates order) :
    find P order [("b", entryOf "b" none), ("a", entryOf "a" (some (.int 1)))] (orca none) (orca none) "linear".toList =
      .ok (some (entryOf "b" none)) :=
  (C42_exact P order twoFile twoIndex _ true _ (by intro es hes; cases hes; decide) (two_load P) (both_subset P order ho) _ _ _ _ _
    (orca_fromDict P none) (orca_fromDict P none) _).2
    ⟨[], shape2, [anyShape], rfl, two_find P order ho, two_hit P order ho none, by simp⟩

/-- `C42_early_partial`: the first filter has its own entry again. -/
example (P : Py) (order : List String) (ho : Enumerates order) :
    find P order [("b", entryOf "b" none), ("a", entryOf "a" (some (.int 1)))] shape2.input shape2.output shape2.methodOf =
      .ok (some (entryOf "b" none)) :=
  C42_early_partial P order twoFile twoIndex _ true [] [anyShape] shape2 (by intro es hes; cases hes; decide) (two_load P)
    (both_subset P order ho) _ _ _ (orca_fromDict P _) (orca_fromDict P _) (two_find P order ho) (by simp)

/-- `C42_ordered_partial`: listed the other way round, both filters have their own entries again. -/
example (P : Py) (order : List String) (ho : Enumerates order) :
    ∃ res, subset P order twoIndex true [anyShape, shape2] [] = .ok res ∧
      find P order res anyShape.input anyShape.output anyShape.methodOf = .ok (some (entryOf "a" (some (.int 1)))) ∧
      find P order res shape2.input shape2.output shape2.methodOf = .ok (some (entryOf "b" none)) := by
  have e1 : find P order twoIndex shape2.input shape2.output shape2.methodOf = .ok (some (entryOf "b" none)) := two_find P order ho
  have e2 := any_find P order ho
  have hs : subset P order twoIndex true [anyShape, shape2] [] = .ok twoIndex := by
    simp only [subset, e1, e2, bind, Except.bind]
    rfl
  have hb : ∀ pre x mid y post a e, [anyShape, shape2] = pre ++ x :: (mid ++ y :: post) →
      find P order twoIndex x.input x.output x.methodOf = .ok (some a) →
      find P order twoIndex y.input y.output y.methodOf = .ok (some e) → a = e ∨ Before twoIndex a e := by
    intro pre x mid y post a e h ha he
    rcases pre with _ | ⟨p, _ | ⟨p', pre⟩⟩
    · rcases mid with _ | ⟨p, mid⟩
      · cases h
        rw [e2] at ha; rw [e1] at he
        cases ha; cases he
        exact .inr ⟨[], "a", _, "b", rfl, by simp⟩
      · simp at h
    · simp at h
    · simp at h
  have k := C42_ordered_partial P order twoFile twoIndex _ true _ (by intro es hes; cases hes; decide) (two_load P) hs hb
  exact ⟨_, hs, k anyShape (by simp) _ e2, k shape2 (by simp) _ e1⟩

end Verif.Index

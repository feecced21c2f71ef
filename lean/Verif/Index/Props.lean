import Verif.Index.Lemmas

/-! # C39–C42, C80: the inventory index -/

namespace Verif.Index
open Verif.GridSpec

/-! ### C39: lookup -/

/-- A lookup returns the first entry that answers the request; those before it were seen not to. -/
theorem C39_first_match (P : Py) (order : List String) (ix : Index) (di dO : Dict) (m : List Char) (gi go : GS)
    (hi : fromDict P di = .ok gi) (ho : fromDict P dO = .ok go) (e : Entry) :
    find P order ix di dO m = .ok (some e) ↔
      ∃ pre k post, ix = pre ++ (k, e) :: post ∧ Hit P order gi go m e ∧ ∀ x ∈ pre, Miss P order gi go m x.2 := by
  rw [find_ok]
  constructor
  · rintro ⟨gi', go', h1, h2, h3⟩
    rw [hi] at h1; rw [ho] at h2; cases h1; cases h2
    exact (search_some ..).1 h3
  · intro h; exact ⟨gi, go, hi, ho, (search_some ..).2 h⟩

/-- It returns nothing exactly if all entries were seen not to answer. -/
theorem C39_none (P : Py) (order : List String) (ix : Index) (di dO : Dict) (m : List Char) (gi go : GS)
    (hi : fromDict P di = .ok gi) (ho : fromDict P dO = .ok go) :
    find P order ix di dO m = .ok none ↔ ∀ x ∈ ix, Miss P order gi go m x.2 := by
  rw [find_ok]
  constructor
  · rintro ⟨gi', go', h1, h2, h3⟩
    rw [hi] at h1; rw [ho] at h2; cases h1; cases h2
    exact (search_none ..).1 h3
  · intro h; exact ⟨gi, go, hi, ho, (search_none ..).2 h⟩

/-- Complete: if no comparison raises, something is found as soon as some entry answers; and what is found answers. -/
theorem C39_complete (P : Py) (order : List String) (ix : Index) (di dO : Dict) (m : List Char) (gi go : GS)
    (hi : fromDict P di = .ok gi) (ho : fromDict P dO = .ok go) (hs : ∀ x ∈ ix, Sound P order gi go m x.2) :
    (∃ e, find P order ix di dO m = .ok (some e) ∧ Hit P order gi go m e) ↔ ∃ x ∈ ix, Hit P order gi go m x.2 := by
  constructor
  · rintro ⟨e, h1, h2⟩
    obtain ⟨pre, k, post, h, _⟩ := (C39_first_match P order ix di dO m gi go hi ho e).1 h1
    exact ⟨(k, e), by rw [h]; simp, h2⟩
  · rintro ⟨x, hx, hh⟩
    have : ∃ pre y post, ix = pre ++ y :: post ∧ Hit P order gi go m y.2 ∧ ∀ z ∈ pre, Miss P order gi go m z.2 := by
      clear hi ho
      induction ix with
      | nil => simp at hx
      | cons y ys ih =>
        rcases hs y (by simp) with h | h
        · exact ⟨[], y, ys, rfl, h, by simp⟩
        · have hne : x ∈ ys := by
            rcases List.mem_cons.1 hx with rfl | h'
            · exact absurd hh (not_hit_of_miss h)
            · exact h'
          obtain ⟨pre, z, post, h1, h2, h3⟩ := ih (fun w hw => hs w (by simp [hw])) hne
          refine ⟨y :: pre, z, post, by rw [h1]; rfl, h2, ?_⟩
          intro w hw
          rcases List.mem_cons.1 hw with rfl | hw
          · exact h
          · exact h3 w hw
    obtain ⟨pre, y, post, h1, h2, h3⟩ := this
    exact ⟨y.2, (C39_first_match P order ix di dO m gi go hi ho y.2).2 ⟨pre, y.1, post, h1, h2, h3⟩, h2⟩

/-- Grids that are not supported raise, whatever is in the inventory. -/
theorem C39_unsupported_request (P : Py) (order : List String) (ix : Index) (di dO : Dict) (m : List Char)
    (h : ¬ SupportedGrid P (some di) ∨ ¬ SupportedGrid P (some dO)) : ∃ e, find P order ix di dO m = .error e := by
  cases hf : find P order ix di dO m with
  | error e => exact ⟨e, rfl⟩
  | ok r =>
    obtain ⟨gi, go, h1, h2, _⟩ := (find_ok ..).1 hf
    rcases h with h | h
    · exact absurd ⟨di, gi, rfl, h1⟩ h
    · exact absurd ⟨dO, go, rfl, h2⟩ h

/-- A request already turned into gridspecs (as `MatrixDb.find` does) finds what the original request finds. -/
theorem C39_request_form (P : Py) (order : List String) (ix : Index) (di dO : Dict) (m : List Char) (gi go : GS)
    (hi : fromDict P di = .ok gi) (ho : fromDict P dO = .ok go) :
    find P order ix gi.d go.d m = find P order ix di dO m := by
  unfold find
  rw [C31_idempotent P di gi hi, C31_idempotent P dO go ho, hi, ho]

/-! ### C34, continued: the spelling of a grid name does not change what is found -/

theorem search_congr (P : Py) (order : List String) (gi gi' go go' : GS) (m : List Char) (ix : Index)
    (h : ∀ x ∈ ix, eq P order x.2.input gi = eq P order x.2.input gi' ∧ eq P order x.2.output go = eq P order x.2.output go') :
    search P order gi go m ix = search P order gi' go' m ix := by
  induction ix with
  | nil => rfl
  | cons x xs ih =>
    have hx := h x (by simp)
    obtain ⟨k, e⟩ := x
    unfold search matches_
    rw [hx.1, hx.2, ih (fun y hy => h y (by simp [hy]))]

theorem eq_types_apart (P : Py) (order : List String) (s t : GS) (hs : s.d "type" = some (.str s.kind.name))
    (ht : t.d "type" = some (.str t.kind.name)) (h : s.kind ≠ t.kind) : eq P order s t = .ok false := by
  have hb : eqBase P order s.d t.d = .ok false := by
    unfold eqBase
    rw [hs, ht]
    have : (pyEq (.str s.kind.name) (.str t.kind.name)) = false := by
      simp only [pyEq, beq_eq_false_iff_ne, ne_eq]
      exact fun e => h (kind_name_inj _ _ e)
    simp [this]
  unfold eq
  cases s.kind <;> simp [eqLL, eqRGG, eqHealpix, hb, bind, Except.bind, pure, Except.pure]

/-- Reduced Gaussian and HEALPix grids (any name when the type is given) may be asked for in any letter case. -/
theorem C34_lookup_partial (P : Py) (order : List String) (ix : Index) (hc : Clean P ix) (di dO : Dict) (m : List Char)
    (gi go : GS) (g g' : List Char) (hi : fromDict P di = .ok gi) (ho : fromDict P dO = .ok go) (hg : di "grid" = some (.str g))
    (hk : gi.kind ≠ .ll) (hv : CaseVariant g g') (hor : gi.kind ≠ .orca ∨ ∃ t, t ≠ .none ∧ di "type" = some t)
    (htext : ∀ x ∈ ix, x.2.input.kind ≠ .ll → ∃ s, x.2.input.d "grid" = some (.str s)) :
    find P order ix (di.set "grid" (.str g')) dO m = find P order ix di dO m := by
  have h' := C34_same_spec_partial P di gi g g' hi hg hk hv hor
  unfold find
  rw [h', hi, ho]
  simp only [bind, Except.bind]
  apply search_congr
  intro x hx
  refine ⟨?_, rfl⟩
  have hgi : gi.d "grid" = some (.str g) := by
    rw [fromDict_untouched P di gi hi "grid" (by decide) (by decide)]; simp [normalise, withDefaults, hg, tupleToList]
  obtain ⟨_, _, ⟨dx, _, hdx⟩, _⟩ := hc.forms x hx
  by_cases hll : x.2.input.kind = .ll
  · have t1 := fromDict_type P dx x.2.input hdx
    have t2 := fromDict_type P di gi hi
    have t3 := fromDict_type P _ _ h'
    rw [eq_types_apart P order _ _ t1 t3 (by rw [hll]; exact fun e => hk e.symm),
      eq_types_apart P order _ _ t1 t2 (by rw [hll]; exact fun e => hk e.symm)]
  · obtain ⟨s, hs⟩ := htext x hx hll
    exact (C34_matching P order gi x.2.input g g' s hgi hs hk hv).2

/-! ### C40: loading -/

/-- Files of another version are refused with ValueError. -/
theorem C40_version (P : Py) (f : IndexFile) : load P f = .error .value ↔ ¬OneVersion f.version := by
  rw [← version_iff, Bool.not_eq_true]
  unfold load VERSION
  split
  · rename_i h; rw [h]
    cases f.matrix <;> simp
  · rename_i h; simp at h; simp [h]

/-- Loading keeps exactly the entries whose two grids are supported, in their order, each under its name with the text's
gridspecs and the raw entry. -/
theorem C40_kept (P : Py) (f : IndexFile) (es : List (String × Raw)) (hv : OneVersion f.version)
    (hm : f.matrix = some es) (hn : (es.map Prod.fst).Nodup) :
    ∃ ix, load P f = .ok ix ∧
      (∀ x, x ∈ ix ↔ ∃ r, (x.1, r) ∈ es ∧ Loaded P x.1 r x.2) ∧
      ∃ kept, kept.Sublist es ∧ ix.map (fun x => (x.1, x.2.raw)) = kept ∧
        ∀ e ∈ es, e ∈ kept ↔ SupportedGrid P e.2.input ∧ SupportedGrid P e.2.output := by
  refine ⟨_, load_ok P f es ((version_iff _).2 hv) hm hn, ?_, es.filter (fun e => (loadedForm P e).isSome), List.filter_sublist, ?_, ?_⟩
  · intro x
    simp only [List.mem_filterMap, loadedForm_some]
    constructor
    · rintro ⟨e, he, h1, h2⟩; exact ⟨e.2, by rw [h1]; exact he, by rw [h1]; exact h2⟩
    · rintro ⟨r, h1, h2⟩; exact ⟨(x.1, r), h1, rfl, h2⟩
  · clear hm hn
    induction es with
    | nil => rfl
    | cons e es ih =>
      rw [List.filterMap_cons, List.filter_cons]
      cases hf : loadedForm P e with
      | none => simpa using ih
      | some x =>
        obtain ⟨h1, h2⟩ := (loadedForm_some P e x).1 hf
        simp only [Option.isSome_some, if_true, List.map_cons, ih, h1, h2.2.1]
  · intro e he
    rw [List.mem_filter, Option.isSome_iff_exists]
    simp only [loadedForm_some, he, true_and]
    constructor
    · rintro ⟨x, _, _, _, ⟨d, h1, h2⟩, ⟨d', h3, h4⟩⟩; exact ⟨⟨d, _, h1, h2⟩, ⟨d', _, h3, h4⟩⟩
    · rintro ⟨⟨d, gi, h1, h2⟩, ⟨d', go, h3, h4⟩⟩
      exact ⟨(e.1, ⟨e.1, gi, go, e.2⟩), rfl, rfl, rfl, ⟨d, h1, h2⟩, ⟨d', h3, h4⟩⟩

/-- An entry that is not supported leaves no trace. -/
theorem C40_alone (P : Py) (v : Option V) (a b : List (String × Raw)) (e : String × Raw)
    (h : ¬ (SupportedGrid P e.2.input ∧ SupportedGrid P e.2.output)) :
    load P ⟨v, some (a ++ e :: b)⟩ = load P ⟨v, some (a ++ b)⟩ := by
  unfold load
  simp only [List.foldl_append, List.foldl_cons]
  congr 3
  unfold loadOne
  cases hp : parse P e.2 with
  | error y => rfl
  | ok p =>
    exfalso
    obtain ⟨⟨d, h1, h2⟩, ⟨d', h3, h4⟩⟩ := (parse_ok P e.2 p.1 p.2).1 hp
    exact h ⟨⟨d, _, h1, h2⟩, ⟨d', _, h3, h4⟩⟩

/-! ### C42: subsets -/

/-- The subset has only entries of the original. -/
theorem C42_only_original (P : Py) (order : List String) (f : IndexFile) (ix res : Index) (b : Bool) (fs : List Filter)
    (hn : ∀ es, f.matrix = some es → (es.map Prod.fst).Nodup) (hl : load P f = .ok ix) (h : subset P order ix b fs [] = .ok res) :
    ∀ x ∈ res, x ∈ ix :=
  (subset_mem P order ix b (load_clean P f ix hn hl) fs [] res (by simp) (by simp) h).1

/-- The index file written for it reloads to it. -/
theorem C42_reloads (P : Py) (order : List String) (f : IndexFile) (ix res : Index) (b : Bool) (fs : List Filter)
    (hn : ∀ es, f.matrix = some es → (es.map Prod.fst).Nodup) (hl : load P f = .ok ix) (h : subset P order ix b fs [] = .ok res) :
    load P (toRaw res) = .ok res := by
  have hc := load_clean P f ix hn hl
  obtain ⟨h1, h2, _⟩ := subset_mem P order ix b hc fs [] res (by simp) (by simp) h
  have hc' : Clean P res := ⟨h2, fun x hx => hc.forms x (h1 x hx)⟩
  have hm := toRaw_matrix P res hc'
  rw [load_ok P (toRaw res) _ rfl hm (by rw [List.map_map]; exact h2)]
  congr 1
  rw [List.filterMap_map]
  have : ∀ l : Index, (∀ x ∈ l, x ∈ res) → l.filterMap (loadedForm P ∘ fun x => (x.1, x.2.raw)) = l := by
    intro l hl
    induction l with
    | nil => rfl
    | cons x xs ih =>
      rw [List.filterMap_cons, ih (fun y hy => hl y (by simp [hy]))]
      have : (loadedForm P ∘ fun x : String × Entry => (x.1, x.2.raw)) x = some x :=
        (loadedForm_some P _ x).2 ⟨rfl, hc'.forms x (hl x (by simp))⟩
      rw [this]
  exact this res (fun x hx => hx)

/-- A filter for which the original has one answer only, all others being seen not to answer, gets that answer from the
subset. -/
theorem C42_same_answer_partial (P : Py) (order : List String) (f : IndexFile) (ix res : Index) (b : Bool) (fs : List Filter)
    (hn : ∀ es, f.matrix = some es → (es.map Prod.fst).Nodup) (hl : load P f = .ok ix) (h : subset P order ix b fs [] = .ok res)
    (fl : Filter) (hfl : fl ∈ fs) (e : Entry) (gi go : GS) (hgi : fromDict P fl.input = .ok gi) (hgo : fromDict P fl.output = .ok go)
    (hf : find P order ix fl.input fl.output fl.methodOf = .ok (some e))
    (hu : ∀ x ∈ ix, x.2 ≠ e → Miss P order gi go fl.methodOf x.2) :
    find P order res fl.input fl.output fl.methodOf = .ok (some e) := by
  have hc := load_clean P f ix hn hl
  obtain ⟨h1, h2, _, h4, _⟩ := subset_mem P order ix b hc fs [] res (by simp) (by simp) h
  have hin := h4 fl hfl e hf
  rw [C39_first_match P order res _ _ _ gi go hgi hgo]
  obtain ⟨_, _, _, _, hhit, _⟩ := (C39_first_match P order ix _ _ _ gi go hgi hgo e).1 hf
  obtain ⟨pre, post, hsplit⟩ := List.append_of_mem hin
  refine ⟨pre, e.name, post, hsplit, hhit, ?_⟩
  intro x hx
  apply hu x (h1 x (by rw [hsplit]; simp [hx]))
  rintro rfl
  have hx1 : x.2.name = x.1 := (hc.forms x (h1 x (by rw [hsplit]; simp [hx]))).1
  rw [hsplit, List.map_append, List.nodup_append] at h2
  exact h2.2.2 x.1 (List.mem_map.2 ⟨x, hx, rfl⟩) x.2.name (by simp) hx1.symm

/-- In general it gets some answer that matches, if comparisons raise nothing. -/
theorem C42_some_answer (P : Py) (order : List String) (f : IndexFile) (ix res : Index) (b : Bool) (fs : List Filter)
    (hn : ∀ es, f.matrix = some es → (es.map Prod.fst).Nodup) (hl : load P f = .ok ix) (h : subset P order ix b fs [] = .ok res)
    (fl : Filter) (hfl : fl ∈ fs) (e : Entry) (gi go : GS) (hgi : fromDict P fl.input = .ok gi) (hgo : fromDict P fl.output = .ok go)
    (hf : find P order ix fl.input fl.output fl.methodOf = .ok (some e))
    (hs : ∀ x ∈ ix, Sound P order gi go fl.methodOf x.2) :
    ∃ e', find P order res fl.input fl.output fl.methodOf = .ok (some e') ∧ Hit P order gi go fl.methodOf e' := by
  have hc := load_clean P f ix hn hl
  obtain ⟨h1, _, _, h4, _⟩ := subset_mem P order ix b hc fs [] res (by simp) (by simp) h
  obtain ⟨_, _, _, _, hhit, _⟩ := (C39_first_match P order ix _ _ _ gi go hgi hgo e).1 hf
  exact (C39_complete P order res _ _ _ gi go hgi hgo (fun x hx => hs x (h1 x hx))).2 ⟨_, h4 fl hfl e hf, hhit⟩

/-- With `fail_on_missing` a subset is made only if every filter has an answer. -/
theorem C42_missing (P : Py) (order : List String) (f : IndexFile) (ix res : Index) (fs : List Filter)
    (hn : ∀ es, f.matrix = some es → (es.map Prod.fst).Nodup) (hl : load P f = .ok ix) (h : subset P order ix true fs [] = .ok res) :
    ∀ fl ∈ fs, ∃ e, find P order ix fl.input fl.output fl.methodOf = .ok (some e) := by
  intro fl hfl
  obtain ⟨_, _, _, _, h5⟩ := subset_mem P order ix true (load_clean P f ix hn hl) fs [] res (by simp) (by simp) h
  obtain ⟨r, h6, h7⟩ := h5 fl hfl
  cases r with
  | none => exact absurd (h7 rfl) (by simp)
  | some e => exact ⟨e, h6⟩

/-! A concrete inventory. -/

/-- An ORCA description, with an optional shape. -/
def orca (shape : Option V) : Dict := fun k =>
  if k = "type" then some (.str "orca".toList) else if k = "grid" then some (.str "ORCA1_T".toList)
  else if k = "shape" then shape else none

def orcaSpec (shape : Option V) : GS := ⟨.orca, (normalise (withDefaults (orca shape))).set "type" (.str Kind.orca.name), none⟩

theorem orca_fromDict (P : Py) (sh : Option V) : fromDict P (orca sh) = .ok (orcaSpec sh) := by
  rw [fromDict_ok]
  refine ⟨.orca, ?_, rfl⟩
  unfold infer
  have : (normalise (withDefaults (orca sh))) "type" = some (.str "orca".toList) := by
    simp [normalise, withDefaults, orca, tupleToList]
  rw [this]
  simp only [Option.getD_some]
  have : kindOf "orca".toList = some .orca := by decide
  rw [this]

theorem orca_eq (P : Py) (order : List String) (ho : Enumerates order) (a b : Option V) :
    eq P order (orcaSpec a) (orcaSpec b) = .ok (!shapesDiffer (orcaSpec a).d (orcaSpec b).d) := by
  have hk : compareKeys P (orcaSpec a).d (orcaSpec b).d order = .ok true := by
    rw [compareKeys_true]
    intro k hk
    have hk := (ho k).1 hk
    simp only [COMPARE_KEYS, List.mem_cons, List.not_mem_nil, or_false] at hk
    rcases hk with rfl | rfl | rfl | rfl | rfl
    · exact ⟨.str "orca".toList, .str "orca".toList, rfl, rfl, by simp [compareKey]⟩
    · exact ⟨.str "ORCA1_T".toList, .str "ORCA1_T".toList, rfl, rfl, by simp [compareKey]⟩
    · exact ⟨.int 0, .int 0, rfl, rfl, by simp [compareKey, V.isInt, pyEq, V.num]⟩
    · exact ⟨.int 0, .int 0, rfl, rfl, by simp [compareKey, V.isInt, pyEq, V.num]⟩
    · exact ⟨.int 0, .int 0, rfl, rfl, by simp [compareKey, V.isInt, pyEq, V.num]⟩
  have ht : (pyEq (((orcaSpec a).d "type").getD (.str [])) (((orcaSpec b).d "type").getD (.str []))) = true := by
    have : ∀ x, (orcaSpec x).d "type" = some (.str "orca".toList) := fun _ => rfl
    rw [this, this]; simp [pyEq]
  show eqBase P order (orcaSpec a).d (orcaSpec b).d = _
  unfold eqBase
  rw [ht, hk]
  rfl

theorem orca_shapes (a b : Option V) : shapesDiffer (orcaSpec a).d (orcaSpec b).d =
    match a, b with
    | some x, some y => !pyEq (tupleToList x) (tupleToList y)
    | _, _ => false := by
  have : ∀ x, (orcaSpec x).d "shape" = x.map tupleToList := by
    intro x
    show ((normalise (withDefaults (orca x))).set "type" (.str Kind.orca.name)) "shape" = _
    rw [set_other _ _ _ _ (by decide)]
    cases x <;> simp [normalise, withDefaults, orca, DEFAULTS]
  unfold shapesDiffer
  rw [this, this]
  cases a <;> cases b <;> rfl

def rawOf (sh : Option V) : Raw := ⟨some (orca sh), some (orca none), some (.name "linear".toList), "mir".toList, "1".toList, 0⟩
def entryOf (name : String) (sh : Option V) : Entry := ⟨name, orcaSpec sh, orcaSpec none, rawOf sh⟩

/-- Two entries: one for grids of shape 1, one for any shape. -/
def twoFile : IndexFile := ⟨some (.int 1), some [("a", rawOf (some (.int 1))), ("b", rawOf none)]⟩
def twoIndex : Index := [("a", entryOf "a" (some (.int 1))), ("b", entryOf "b" none)]

theorem two_load (P : Py) : load P twoFile = .ok twoIndex := by
  have hp : ∀ sh, parse P (rawOf sh) = .ok (orcaSpec sh, orcaSpec none) := fun sh =>
    (parse_ok P _ _ _).2 ⟨⟨_, rfl, orca_fromDict P sh⟩, ⟨_, rfl, orca_fromDict P none⟩⟩
  have hv : pyEq (.int 1) (.int 1) = true := pyEq_refl _
  show (if pyEq (.int 1) (.int 1) then _ else _) = _
  rw [if_pos hv]
  show Except.ok (loadOne P (loadOne P [] ("a", rawOf (some (.int 1)))) ("b", rawOf none)) = _
  have h1 : loadOne P [] ("a", rawOf (some (.int 1))) = [("a", entryOf "a" (some (.int 1)))] := by
    unfold loadOne
    simp only [hp]
    rfl
  rw [h1]
  have h2 : loadOne P [("a", entryOf "a" (some (.int 1)))] ("b", rawOf none) = twoIndex := by
    unfold loadOne
    simp only [hp]
    rfl
  rw [h2]

theorem linear_match (P : Py) (order : List String) (ho : Enumerates order) (name : String) (a b : Option V) :
    matches_ P order (entryOf name a) (orcaSpec b) (orcaSpec none) "linear".toList = .ok (!shapesDiffer (orcaSpec a).d (orcaSpec b).d) := by
  unfold matches_
  have h1 : methodName (entryOf name a).raw = .ok "linear".toList := rfl
  have h2 : eq P order (entryOf name a).input (orcaSpec b) = .ok (!shapesDiffer (orcaSpec a).d (orcaSpec b).d) := orca_eq P order ho a b
  have h3 : eq P order (entryOf name a).output (orcaSpec none) = .ok true := by
    have := orca_eq P order ho none none
    rw [orca_shapes] at this
    exact this
  rw [h1, h2, h3]
  simp only [bind, Except.bind, pure, Except.pure, ne_eq, not_true, if_false]
  cases shapesDiffer (orcaSpec a).d (orcaSpec b).d <;> rfl

theorem orca_find (P : Py) (order : List String) (ix : Index) (sh : Option V) :
    find P order ix (orca sh) (orca none) "linear".toList = search P order (orcaSpec sh) (orcaSpec none) "linear".toList ix := by
  unfold find
  rw [orca_fromDict, orca_fromDict]
  rfl

/-- When several entries answer a filter the subset may answer differently: filters "shape 2" and "any shape" give the subset
b, a; for "any shape" the original answers a, the subset b. -/
theorem C42_refuted (P : Py) (order : List String) (ho : Enumerates order) : ∃ f ix res fl fs a b,
    (∀ es, f.matrix = some es → (es.map Prod.fst).Nodup) ∧ load P f = .ok ix ∧ subset P order ix true fs [] = .ok res ∧ fl ∈ fs ∧
    find P order ix fl.input fl.output fl.methodOf = .ok (some a) ∧
    find P order res fl.input fl.output fl.methodOf = .ok (some b) ∧ a.name ≠ b.name := by
  let f1 : Filter := ⟨orca (some (.int 2)), orca none, none⟩
  let f2 : Filter := ⟨orca none, orca none, none⟩
  have hd1 : shapesDiffer (orcaSpec (some (.int 1))).d (orcaSpec (some (.int 2))).d = true := by
    rw [orca_shapes]; simp [tupleToList, pyEq, V.num]
  have hd2 : shapesDiffer (orcaSpec none).d (orcaSpec (some (.int 2))).d = false := by rw [orca_shapes]
  have hd3 : shapesDiffer (orcaSpec (some (.int 1))).d (orcaSpec none).d = false := by rw [orca_shapes]
  have hd4 : shapesDiffer (orcaSpec none).d (orcaSpec none).d = false := by rw [orca_shapes]
  have e1 : find P order twoIndex f1.input f1.output f1.methodOf = .ok (some (entryOf "b" none)) := by
    show find P order twoIndex (orca _) (orca none) "linear".toList = _
    rw [orca_find]
    simp only [twoIndex, search, linear_match P order ho, hd1, hd2]
    rfl
  have e2 : find P order twoIndex f2.input f2.output f2.methodOf = .ok (some (entryOf "a" (some (.int 1)))) := by
    show find P order twoIndex (orca _) (orca none) "linear".toList = _
    rw [orca_find]
    simp only [twoIndex, search, linear_match P order ho, hd3]
    rfl
  let res : Index := [("b", entryOf "b" none), ("a", entryOf "a" (some (.int 1)))]
  have e3 : find P order res f2.input f2.output f2.methodOf = .ok (some (entryOf "b" none)) := by
    show find P order res (orca _) (orca none) "linear".toList = _
    rw [orca_find]
    simp only [res, search, linear_match P order ho, hd4]
    rfl
  refine ⟨twoFile, twoIndex, res, f2, [f1, f2], _, _, ?_, two_load P, ?_, by simp, e2, e3, by decide⟩
  · intro es hes; cases hes; decide
  · simp only [subset, e1, e2, bind, Except.bind]
    rfl

theorem two_find (P : Py) (order : List String) (ho : Enumerates order) :
    find P order twoIndex (orca (some (.int 2))) (orca none) "linear".toList = .ok (some (entryOf "b" none)) := by
  rw [orca_find]
  have hd1 : shapesDiffer (orcaSpec (some (.int 1))).d (orcaSpec (some (.int 2))).d = true := by
    rw [orca_shapes]; simp [tupleToList, pyEq, V.num]
  have hd2 : shapesDiffer (orcaSpec none).d (orcaSpec (some (.int 2))).d = false := by rw [orca_shapes]
  simp only [twoIndex, search, linear_match P order ho, hd1, hd2]
  rfl
/-- A grid type this version does not know. -/
def icon : Dict := fun k => if k = "type" then some (.str "icon".toList) else none

theorem icon_unsupported (P : Py) : ¬ SupportedGrid P (some icon) := by
  rintro ⟨x, g, h, hf⟩
  cases h
  obtain ⟨k, hi, _⟩ := (fromDict_ok P _ g).1 hf
  have hk : kindOf "icon".toList = none := by decide
  simp [infer, normalise, withDefaults, tupleToList, icon] at hi
  split at hi
  · rename_i h; exact absurd (hk ▸ h) (by simp)
  · cases hi

theorem two_apart : shapesDiffer (orcaSpec (some (.int 1))).d (orcaSpec (some (.int 2))).d = true := by
  rw [orca_shapes]; simp [tupleToList, pyEq, V.num]

theorem two_hit (P : Py) (order : List String) (ho : Enumerates order) (sh : Option V) :
    Hit P order (orcaSpec sh) (orcaSpec none) "linear".toList (entryOf "b" none) :=
  ⟨.text _ _ rfl, (orca_eq P order ho none sh).trans (by rw [orca_shapes]; rfl), (orca_eq P order ho none none).trans (by rw [orca_shapes]; rfl)⟩

theorem two_miss (P : Py) (order : List String) (ho : Enumerates order) :
    Miss P order (orcaSpec (some (.int 2))) (orcaSpec none) "linear".toList (entryOf "a" (some (.int 1))) :=
  ⟨_, .text _ _ rfl, .inr (.inl ((orca_eq P order ho _ _).trans (by rw [two_apart]; rfl)))⟩

theorem two_sound (P : Py) (order : List String) (ho : Enumerates order) :
    ∀ x ∈ twoIndex, Sound P order (orcaSpec (some (.int 2))) (orcaSpec none) "linear".toList x.2 := by
  intro x hx
  simp only [twoIndex, List.mem_cons, List.not_mem_nil, or_false] at hx
  rcases hx with rfl | rfl
  · exact .inr (two_miss P order ho)
  · exact .inl (two_hit P order ho _)

/-- `C39_first_match` (see also `two_find`) and `C39_complete` in this index; `C39_none` for another method; `C39_request_form` for the parsed form of the request. -/
example (P : Py) (order : List String) (ho : Enumerates order) :
    (∃ e, find P order twoIndex (orca (some (.int 2))) (orca none) "linear".toList = .ok (some e) ∧
      Hit P order (orcaSpec (some (.int 2))) (orcaSpec none) "linear".toList e) ∧
    find P order twoIndex (orca (some (.int 2))) (orca none) "nearest-neighbour".toList = .ok none ∧
    find P order twoIndex (orcaSpec (some (.int 2))).d (orcaSpec none).d "linear".toList = .ok (some (entryOf "b" none)) := by
  refine ⟨(C39_complete P order twoIndex _ _ _ _ _ (orca_fromDict P _) (orca_fromDict P _) (two_sound P order ho)).2
      ⟨("b", entryOf "b" none), by simp [twoIndex], two_hit P order ho _⟩, ?_,
    (C39_request_form P order twoIndex _ _ _ _ _ (orca_fromDict P _) (orca_fromDict P _)).trans (two_find P order ho)⟩
  refine (C39_none P order twoIndex _ _ _ _ _ (orca_fromDict P _) (orca_fromDict P _)).2 ?_
  intro x hx
  simp only [twoIndex, List.mem_cons, List.not_mem_nil, or_false] at hx
  rcases hx with rfl | rfl <;> exact ⟨_, .text _ _ rfl, .inl (by decide)⟩

/-- `C39_unsupported_request` -/
example (P : Py) (order : List String) : ∃ e, find P order twoIndex icon (orca none) "linear".toList = .error e :=
  C39_unsupported_request P order _ _ _ _ (.inl (icon_unsupported P))

/-- `C34_lookup_partial`: the name in small letters. -/
example (P : Py) (order : List String) (ho : Enumerates order) :
    find P order twoIndex ((orca (some (.int 2))).set "grid" (.str "orca1_t".toList)) (orca none) "linear".toList =
      .ok (some (entryOf "b" none)) := by
  refine (C34_lookup_partial P order twoIndex ?_ _ _ _ (orcaSpec (some (.int 2))) (orcaSpec none) "ORCA1_T".toList "orca1_t".toList
    (orca_fromDict P _) (orca_fromDict P _) rfl (fun h => by cases h) (show _ = _ by decide) (.inr ⟨_, ?_, rfl⟩) ?_).trans (two_find P order ho)
  · exact load_clean P twoFile _ (by intro es hes; cases hes; decide) (two_load P)
  · simp
  · intro x hx _
    simp only [twoIndex, List.mem_cons, List.not_mem_nil, or_false] at hx
    rcases hx with rfl | rfl <;> exact ⟨_, rfl⟩

/-- `C40_kept`, `C40_alone`: a file with an entry for a grid type of some later version between the two. -/
example (P : Py) (r : Raw) (hr : r.input = some icon) :
    load P ⟨some (.int 1), some ([("a", rawOf (some (.int 1)))] ++ ("c", r) :: [("b", rawOf none)])⟩ = .ok twoIndex ∧
    ∀ x ∈ twoIndex, ∃ r', (x.1, r') ∈ [("a", rawOf (some (.int 1))), ("c", r), ("b", rawOf none)] ∧ Loaded P x.1 r' x.2 := by
  have h := (C40_alone P (some (.int 1)) [("a", rawOf (some (.int 1)))] [("b", rawOf none)] ("c", r)
    (fun h => icon_unsupported P (hr ▸ h.1))).trans (two_load P)
  obtain ⟨ix, h1, h2, _⟩ := C40_kept P ⟨some (.int 1), some ([("a", rawOf (some (.int 1)))] ++ ("c", r) :: [("b", rawOf none)])⟩ _
    (.inl rfl) rfl (show ["a", "c", "b"].Nodup by decide)
  rw [h] at h1
  cases h1
  exact ⟨h, fun x hx => (h2 x).1 hx⟩

/-- The filter answered by one entry. -/
def oneFilter : List Filter := [⟨orca (some (.int 2)), orca none, none⟩]

theorem one_subset (P : Py) (order : List String) (ho : Enumerates order) (b : Bool) :
    subset P order twoIndex b oneFilter [] = .ok [("b", entryOf "b" none)] := by
  simp only [oneFilter, subset, Filter.methodOf, Option.getD_none, two_find P order ho, bind, Except.bind]
  rfl

theorem two_nodup : ∀ es, twoFile.matrix = some es → (es.map Prod.fst).Nodup := by
  intro es hes; cases hes; decide

/-- `C42_only_original`, `C42_reloads`, `C42_missing`, `C42_same_answer_partial`, `C42_some_answer` -/
example (P : Py) (order : List String) (ho : Enumerates order) :
    ("b", entryOf "b" none) ∈ twoIndex ∧ load P (toRaw [("b", entryOf "b" none)]) = .ok [("b", entryOf "b" none)] ∧
    (∃ e, find P order twoIndex (orca (some (.int 2))) (orca none) "linear".toList = .ok (some e)) ∧
    find P order [("b", entryOf "b" none)] (orca (some (.int 2))) (orca none) "linear".toList = .ok (some (entryOf "b" none)) ∧
    ∃ e', find P order [("b", entryOf "b" none)] (orca (some (.int 2))) (orca none) "linear".toList = .ok (some e') ∧
      Hit P order (orcaSpec (some (.int 2))) (orcaSpec none) "linear".toList e' := by
  have h := one_subset P order ho true
  refine ⟨C42_only_original P order twoFile _ _ true _ two_nodup (two_load P) h _ (by simp),
    C42_reloads P order twoFile _ _ true _ two_nodup (two_load P) h,
    C42_missing P order twoFile _ _ _ two_nodup (two_load P) h ⟨orca (some (.int 2)), orca none, none⟩ (by simp [oneFilter]),
    C42_same_answer_partial P order twoFile _ _ true _ two_nodup (two_load P) h ⟨orca (some (.int 2)), orca none, none⟩ (by simp [oneFilter])
      _ _ _ (orca_fromDict P _) (orca_fromDict P _) (two_find P order ho) ?_,
    C42_some_answer P order twoFile _ _ true _ two_nodup (two_load P) h ⟨orca (some (.int 2)), orca none, none⟩ (by simp [oneFilter])
      _ _ _ (orca_fromDict P _) (orca_fromDict P _) (two_find P order ho) (two_sound P order ho)⟩
  intro x hx hne
  simp only [twoIndex, List.mem_cons, List.not_mem_nil, or_false] at hx
  rcases hx with rfl | rfl
  · exact two_miss P order ho
  · exact absurd rfl hne

/-! ### C80: weights files -/

/-- `engine_version_method/name.npz` -/
theorem C80_path (e : Entry) (m : List Char) (hm : MethodIs e.raw m) (hl : m ≠ [] ∧ m.getLast? ≠ some '/')
    (hn : e.name.toList.head? ≠ some '/') :
    matrixPath e = .ok (e.raw.engine ++ ['_'] ++ e.raw.version ++ ['_'] ++ m ++ ['/'] ++ e.name.toList ++ ".npz".toList) := by
  unfold matrixPath dirName
  rw [(methodName_ok _ _).2 hm]
  simp only [bind, Except.bind, pure, Except.pure, Except.ok.injEq]
  have hd : (e.raw.engine ++ '_' :: e.raw.version ++ '_' :: m).getLast? ≠ some '/' := by
    obtain ⟨h1, h2⟩ := hl
    obtain ⟨x, hx⟩ := Option.isSome_iff_exists.1 (List.getLast?_isSome.2 h1)
    rw [List.getLast?_append, List.getLast?_cons, hx]
    rw [hx] at h2
    simpa using h2
  unfold join
  split
  · rename_i r hr
    cases hh : e.name.toList with
    | nil => rw [hh] at hr; simp at hr
    | cons c cs => rw [hh] at hr hn; simp at hr hn; exact absurd hr.1 hn
  · have hno : ¬ ((e.raw.engine ++ '_' :: e.raw.version ++ '_' :: m) = [] ∨
        (e.raw.engine ++ '_' :: e.raw.version ++ '_' :: m).getLast? = some '/') := by
      rintro (h | h)
      · simp at h
      · exact hd h
    rw [if_neg hno]
    simp

/-- Two entries of an inventory never share a weights file, whatever their engines and methods are called, as long as the names of
the entries have no slash. -/
theorem C80_apart (e e' : Entry) (p : List Char) (hn : '/' ∉ e.name.toList) (hn' : '/' ∉ e'.name.toList)
    (h : matrixPath e = .ok p) (h' : matrixPath e' = .ok p) : e.name = e'.name := by
  have key : ∀ e : Entry, '/' ∉ e.name.toList → matrixPath e = .ok p → ∃ d, p = d ++ '/' :: (e.name.toList ++ ".npz".toList) := by
    intro e hn h
    unfold matrixPath dirName at h
    simp only [bind_ok, pure_ok] at h
    obtain ⟨d, ⟨m, _, hd⟩, h⟩ := h
    unfold join at h
    split at h
    · rename_i r hr
      exfalso
      have : '/' ∈ e.name.toList ++ ".npz".toList := by rw [hr]; simp
      rw [List.mem_append] at this
      rcases this with h | h
      · exact hn h
      · exact absurd h (by decide)
    · split at h
      · rename_i hc
        rcases hc with hc | hc
        · rw [hc] at hd; simp at hd
        · obtain ⟨ys, hys⟩ := List.getLast?_eq_some_iff.1 hc
          exact ⟨ys, by rw [← h, hys]; simp⟩
      · exact ⟨d, h.symm⟩
  obtain ⟨d, h1⟩ := key e hn h
  obtain ⟨d', h2⟩ := key e' hn' h'
  have hx : '/' ∉ e.name.toList ++ ".npz".toList := by
    rw [List.mem_append]; rintro (h | h)
    · exact hn h
    · exact absurd h (by decide)
  have hx' : '/' ∉ e'.name.toList ++ ".npz".toList := by
    rw [List.mem_append]; rintro (h | h)
    · exact hn' h
    · exact absurd h (by decide)
  have hs : ∀ (a b x y : List Char), '/' ∉ x → '/' ∉ y → a ++ '/' :: x = b ++ '/' :: y → x = y := by
    intro a
    induction a with
    | nil =>
      intro b x y hx hy h
      cases b with
      | nil => simp at h; exact h
      | cons c cs => simp at h; exact absurd (by rw [h.2]; simp) hx
    | cons c cs ih =>
      intro b x y hx hy h
      cases b with
      | nil => simp at h; exact absurd (by rw [← h.2]; simp) hy
      | cons c' cs' => simp at h; exact ih cs' x y hx hy h.2
  have := hs _ _ _ _ hx hx' (h1.symm.trans h2)
  exact String.toList_inj.1 (List.append_cancel_right this)

example : matrixPath (entryOf "a" none) = .ok "mir_1_linear/a.npz".toList := by decide

/-- `C80_path` -/
example : matrixPath (entryOf "a" none) = .ok ("mir".toList ++ ['_'] ++ "1".toList ++ ['_'] ++ "linear".toList ++ ['/'] ++ "a".toList ++ ".npz".toList) :=
  C80_path (entryOf "a" none) "linear".toList (.text _ _ rfl) ⟨by decide, by decide⟩ (by decide)

end Verif.Index

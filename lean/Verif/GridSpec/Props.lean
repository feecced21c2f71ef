import Verif.GridSpec.Lemmas
import Verif.Humanize.Props

/-! Properties C30–C38 and C76. -/

namespace Verif.GridSpec
open Verif.Humanize

/-- A concrete python (ascii), for the examples. -/
def asciiPy : Py where
  C := ascii
  lower a := a.map Char.toLower
  upper a := (a.map Char.toLower).map Char.toUpper
  pyInt a := if (a.map Char.toLower).all ascii.isDigit && !a.isEmpty then some (decVal ascii (a.map Char.toLower)) else none
  pyStr _ := []
  underscore_not_digit := by decide
  lower_case a b h := h
  upper_case a b h := by rw [h]
  upper_head c r h := by
    simp only [List.mem_cons, List.not_mem_nil, or_false] at h
    rcases h with rfl | rfl | rfl | rfl <;> simp
  pyInt_case a b h := by
    have : a.isEmpty = b.isEmpty := by
      have := congrArg List.length h
      simp only [List.length_map] at this
      cases a <;> cases b <;> simp_all
    rw [h, this]

theorem found_matches (P : Py) (types : List Kind) (g : V) (k : Kind)
    (h : types.find? (fun k => typeMatch P k g) = some k) : Supported P k g :=
  (typeMatch_iff P k g).1 (List.find?_some (p := fun k => typeMatch P k g) h)

/-! ## C30 type inference -/

/-- Without a type, a gridspec is given type `k` iff its grid (tuples read as lists) is of the documented form for `k`. -/
theorem C30_inferred_iff (P : Py) (d : Dict) (g : V) (k : Kind) (hg : d "grid" = some g)
    (ht : d "type" = none ∨ d "type" = some .none) :
    infer P TYPES (normalise (withDefaults d)) = .ok k ↔ Supported P k (asList g) := by
  rw [← tupleToList_eq]
  have h1 : ((normalise (withDefaults d)) "type").getD .none = .none := by
    rcases ht with h | h <;> simp [normalise, withDefaults, h, DEFAULTS, tupleToList]
  have h2 : (normalise (withDefaults d)) "grid" = some (tupleToList g) := by simp [normalise, withDefaults, hg]
  unfold infer
  rw [h1]
  simp only [bind_ok, item_ok, h2]
  constructor
  · rintro ⟨g', e, h⟩
    cases e
    split at h
    · rename_i k' hk
      cases h
      exact found_matches P _ _ _ hk
    · cases h
  · intro h
    refine ⟨_, rfl, ?_⟩
    have hk : k ∈ TYPES := by cases k <;> decide
    cases hf : TYPES.find? (fun k => typeMatch P k (tupleToList g)) with
    | none =>
      rw [List.find?_eq_none] at hf
      exact absurd ((typeMatch_iff P k _).2 h) (hf k hk)
    | some k' =>
      have := found_matches P _ _ _ hf
      simp [supported_unique P k k' _ h this]

/-- At most one type applies. -/
theorem C30_unambiguous (P : Py) (k k' : Kind) (g : V) (h : Supported P k g) (h' : Supported P k' g) : k = k' :=
  supported_unique P k k' g h h'

/-- The order of the table of types does not matter. -/
theorem C30_order_irrelevant (P : Py) (types : List Kind) (hp : ∀ k, k ∈ types) (gs : Dict) :
    infer P types gs = infer P TYPES gs := by
  unfold infer
  split
  · cases hg : gs.item "grid" with
    | error e => rfl
    | ok g =>
      have : types.find? (fun k => typeMatch P k g) = TYPES.find? (fun k => typeMatch P k g) := by
        have hT : ∀ k, k ∈ TYPES := by intro k; cases k <;> decide
        cases h1 : types.find? (fun k => typeMatch P k g) with
        | none =>
          rw [List.find?_eq_none] at h1
          symm
          rw [List.find?_eq_none]
          intro k _; exact h1 k (hp k)
        | some k =>
          cases h2 : TYPES.find? (fun k => typeMatch P k g) with
          | none =>
            rw [List.find?_eq_none] at h2
            exact absurd ((typeMatch_iff P k g).2 (found_matches P _ _ _ h1)) (h2 k (hT k))
          | some k' =>
            rw [supported_unique P k k' g (found_matches P _ _ _ h1) (found_matches P _ _ _ h2)]
      simp only [bind, Except.bind, this]
  all_goals rfl

/-- Anything else is refused with ValueError. -/
theorem C30_unsupported_refused (P : Py) (d : Dict) (g : V) (hg : d "grid" = some g)
    (ht : d "type" = none ∨ d "type" = some .none) (hn : ∀ k, ¬ Supported P k (asList g)) :
    fromDict P d = .error .value := by
  rw [← tupleToList_eq] at hn
  have h1 : ((normalise (withDefaults d)) "type").getD .none = .none := by
    rcases ht with h | h <;> simp [normalise, withDefaults, h, DEFAULTS, tupleToList]
  have h2 : (normalise (withDefaults d)).item "grid" = .ok (tupleToList g) := by
    rw [item_ok]; simp [normalise, withDefaults, hg]
  have h3 : TYPES.find? (fun k => typeMatch P k (tupleToList g)) = none := by
    rw [List.find?_eq_none]
    intro k _ h
    exact hn k ((typeMatch_iff P k _).1 h)
  have : infer P TYPES (normalise (withDefaults d)) = .error .value := by
    unfold infer
    rw [h1]
    simp only [h2, bind, Except.bind, h3]
  simp only [fromDict, this, bind, Except.bind]

example (P : Py) : Supported P .rgg (.str "O32".toList) :=
  .rgg 'O' '3' ['2'] (by decide) (P.C.ascii_digit 3 (by decide)).1
example (P : Py) : Supported P .orca (.str "eORCA025_T".toList) :=
  .orca ['e'] "025".toList [] 'T' (by decide) (by decide)
    (by
      intro x hx
      have hx : x ∈ ['0', '2', '5'] := hx
      simp only [List.mem_cons, List.not_mem_nil, or_false] at hx
      rcases hx with rfl | rfl | rfl
      · exact (P.C.ascii_digit 0 (by decide)).1
      · exact (P.C.ascii_digit 2 (by decide)).1
      · exact (P.C.ascii_digit 5 (by decide)).1)
    (by decide) (by decide)
/-- The patterns for reduced and HEALPix names are anchored at the start only. -/
example (P : Py) : Supported P .rgg (.str "N32abc".toList) :=
  .rgg 'N' '3' "2abc".toList (by decide) (P.C.ascii_digit 3 (by decide)).1

/-! ## C31 normalisation -/

/-- Normalising twice is normalising once. -/
theorem C31_idempotent (P : Py) (d : Dict) (g : GS) (h : fromDict P d = .ok g) : fromDict P g.d = .ok g := by
  obtain ⟨k, hk, hc⟩ := (fromDict_ok P d g).1 h
  have hkind := construct_kind _ _ _ hc
  have htype := fromDict_type P d g h
  have hdef : withDefaults g.d = g.d := by
    funext x
    unfold withDefaults
    cases hx : g.d x with
    | some v => rfl
    | none =>
      cases hD : DEFAULTS x with
      | none => rfl
      | some v =>
        have := fromDict_flags P d g h x v hD
        rw [hx] at this; cases this
  have hnt : NoTuple g.d := construct_noTuple _ _ _ hc ((NoTuple.normalise _).set _ _ rfl)
  rw [fromDict_ok]
  refine ⟨k, ?_, ?_⟩
  · rw [hdef, normalise_of_noTuple _ hnt]
    unfold infer
    rw [htype]
    simp [kindOf_name, hkind]
  · rw [hdef, normalise_of_noTuple _ hnt]
    have : g.d.set "type" (.str k.name) = g.d := by
      funext x
      unfold Dict.set
      split
      · rename_i e; rw [e, htype, hkind]
      · rfl
    rw [this]
    exact construct_idem _ _ _ hc

/-- Tuple and list spellings of any value are the same gridspec. -/
theorem C31_tuple_is_list (P : Py) (d d' : Dict) (h : ∀ k, (d k).map asList = (d' k).map asList) :
    fromDict P d = fromDict P d' := by
  have hf : asList = tupleToList := funext fun v => (tupleToList_eq v).symm
  rw [hf] at h
  have : normalise (withDefaults d) = normalise (withDefaults d') := by
    funext k
    have := h k
    unfold normalise withDefaults
    cases h1 : d k <;> cases h2 : d' k <;> rw [h1, h2] at this <;> simp at this ⊢
    · exact this
  unfold fromDict
  rw [this]

theorem modify_other (h : Heap) (r r' : Nat) (f : Dict → Dict) (hr : r' ≠ r) : (h.modify r f).at_ r' = h.at_ r' := by
  simp [Heap.modify, hr]
theorem modify_self (h : Heap) (r : Nat) (f : Dict → Dict) : (h.modify r f).at_ r = f (h.at_ r) := by
  simp [Heap.modify]

theorem constructH_spec (k : Kind) (self : Nat) (h : Heap) :
    (∀ r, r ≠ self → (constructH k self h).2.at_ r = h.at_ r) ∧
    (construct k (h.at_ self) =
      match (constructH k self h).1 with
      | .error e => .error e
      | .ok f => .ok ⟨k, (constructH k self h).2.at_ self, f⟩) := by
  cases k with
  | ll =>
    constructor
    · intro r hr
      unfold constructH
      simp only
      split
      · split
        · rw [modify_other _ _ _ _ hr]
        · rw [modify_other _ _ _ _ hr, modify_other _ _ _ _ hr, modify_other _ _ _ _ hr]
      · rw [modify_other _ _ _ _ hr]
    · unfold constructH construct llArea
      simp only
      by_cases hc : ((h.at_ self "global").isNone && (h.at_ self "area").isNone) = true
      · simp only [hc, if_true, modify_self]
        have hg : ((h.at_ self).set "global" (.int 1)).item "grid" = (h.at_ self).item "grid" := by
          simp [Dict.item, Dict.set]
        rw [hg]
        cases h1 : (h.at_ self).item "grid" with
        | error e => rfl
        | ok g =>
          cases h2 : g.item 0 with
          | error e => simp [bind, Except.bind, h2]
          | ok x =>
            cases h3 : g.item 1 with
            | error e => simp [bind, Except.bind, h2, h3]
            | ok y =>
              cases h4 : globalArea x y with
              | error e => simp [bind, Except.bind, h2, h3, h4]
              | ok a =>
                simp only [bind, Except.bind, h2, h3, h4, pure, Except.pure, modify_self]
                cases flagGlobal ((((h.at_ self).set "global" (V.int 1)).set "area" a).setDefault "area" DEFAULT_AREA) <;> rfl
      · simp only [hc, Bool.false_eq_true, if_false, modify_self, bind, Except.bind, pure, Except.pure]
        cases flagGlobal ((h.at_ self).setDefault "area" DEFAULT_AREA) <;> rfl
  | rgg =>
    constructor
    · intro r hr; unfold constructH; simp only; rw [modify_other _ _ _ _ hr]
    · unfold constructH construct
      simp only [modify_self, bind, Except.bind, pure, Except.pure]
      cases flagGlobal ((h.at_ self).setDefault "area" DEFAULT_AREA) <;> rfl
  | healpix =>
    constructor
    · intro r hr
      unfold constructH
      simp only
      rw [modify_other _ _ _ _ hr]
      cases h.at_ self "ordering" with
      | none => rfl
      | some v => simp only; rw [modify_other _ _ _ _ hr, modify_other _ _ _ _ hr]
    · unfold constructH construct
      simp only [modify_self]
      cases h.at_ self "ordering" with
      | none => rfl
      | some v => simp only [modify_self]
  | orca => exact ⟨fun r _ => rfl, rfl⟩

/-- `from_dict` leaves every existing dict object as it was — in particular the caller's — whether it succeeds or raises, and
its result is a new object with the normalised content. -/
theorem C31_caller_dict_unchanged (P : Py) (r : Nat) (h : Heap) (hr : r < h.next) :
    (∀ r' < h.next, (fromDictH P r h).2.at_ r' = h.at_ r') ∧
    (fromDict P (h.at_ r) = match (fromDictH P r h).1 with
      | .error e => .error e
      | .ok (k, self, f) => .ok ⟨k, (fromDictH P r h).2.at_ self, f⟩) ∧
    (∀ k self f, (fromDictH P r h).1 = .ok (k, self, f) → h.next ≤ self) := by
  have hne : r ≠ h.next := by omega
  -- the local dict object after update and normalisation
  set gs := h.next with hgs
  set h1 : Heap := ⟨h.next + 1, fun x => if x = h.next then DEFAULTS else h.at_ x⟩ with hh1
  set h2 := h1.modify gs (fun d k => match h1.at_ r k with
    | some v => some v
    | none => d k) with hh2
  set h3 := h2.modify gs normalise with hh3
  have e3 : h3.at_ gs = normalise (withDefaults (h.at_ r)) := by
    rw [hh3, modify_self, hh2, modify_self]
    congr 1
    funext k
    simp only [withDefaults, hh1, hgs, if_true]
    rw [if_neg (by omega)]
    cases h.at_ r k <;> rfl
  have o3 : ∀ r' < h.next, h3.at_ r' = h.at_ r' := by
    intro r' hr'
    have : r' ≠ gs := by omega
    rw [hh3, modify_other _ _ _ _ this, hh2, modify_other _ _ _ _ this, hh1]
    simp only
    rw [if_neg (by omega)]
  have n3 : h3.next = h.next + 1 := rfl
  have hdef : fromDictH P r h = match infer P TYPES (h3.at_ gs) with
      | .error e => (.error e, h3)
      | .ok k =>
        match constructH k (h3.modify gs (fun d => d.set "type" (.str k.name))).next
            ((h3.modify gs (fun d => d.set "type" (.str k.name))).alloc
              ((h3.modify gs (fun d => d.set "type" (.str k.name))).at_ gs)).2 with
        | (.error e, h) => (.error e, h)
        | (.ok f, h) => (.ok (k, (h3.modify gs (fun d => d.set "type" (.str k.name))).next, f), h) := rfl
  rw [hdef]
  cases hi : infer P TYPES (h3.at_ gs) with
  | error e =>
    refine ⟨o3, ?_, by intro k self f hh; cases hh⟩
    unfold fromDict
    rw [e3] at hi
    simp only [hi, bind, Except.bind]
  | ok k =>
    simp only
    set h4 := h3.modify gs (fun d => d.set "type" (.str k.name)) with hh4
    have n4 : h4.next = h.next + 1 := rfl
    have e4 : h4.at_ gs = (normalise (withDefaults (h.at_ r))).set "type" (.str k.name) := by
      rw [hh4, modify_self, e3]
    have o4 : ∀ r' < h.next, h4.at_ r' = h.at_ r' := by
      intro r' hr'
      rw [hh4, modify_other _ _ _ _ (by omega)]; exact o3 r' hr'
    set h5 := (h4.alloc (h4.at_ gs)).2 with hh5
    have e5 : h5.at_ h4.next = h4.at_ gs := by simp [hh5, Heap.alloc]
    have o5 : ∀ r' < h.next, h5.at_ r' = h.at_ r' := by
      intro r' hr'
      have : r' ≠ h4.next := by omega
      simp only [hh5, Heap.alloc, this, if_false]
      exact o4 r' hr'
    obtain ⟨c1, c2⟩ := constructH_spec k h4.next h5
    have key : fromDict P (h.at_ r) = construct k (h5.at_ h4.next) := by
      unfold fromDict
      rw [e3] at hi
      simp only [hi, bind, Except.bind]
      rw [e5, e4]
    rw [key, c2]
    generalize constructH k h4.next h5 = res at *
    obtain ⟨out, h6⟩ := res
    cases out with
    | error e =>
      refine ⟨fun r' hr' => ?_, rfl, by intro k self f hh; cases hh⟩
      show h6.at_ r' = _
      rw [c1 r' (by omega)]; exact o5 r' hr'
    | ok f =>
      refine ⟨fun r' hr' => ?_, rfl, ?_⟩
      · show h6.at_ r' = _
        rw [c1 r' (by omega)]; exact o5 r' hr'
      · intro k' self f' hh
        cases hh
        omega

/-! ## C32 a grid matches itself -/

/-- Grid and area are of the documented form. -/
structure WellFormed (P : Py) (s : GS) : Prop where
  grid : ∃ g, s.d "grid" = some g ∧ ∀ xs, g = .list xs → ∀ x ∈ xs, ∃ q, x.num = some q
  area : s.kind = .ll ∨ s.kind = .rgg → ∃ xs, s.d "area" = some (.list xs) ∧ ∀ x ∈ xs, ∃ q, x.num = some q
  healpix : s.kind = .healpix → ∃ c e r n o, s.d "grid" = some (.str (c :: e :: r)) ∧ c ∈ ['H', 'h'] ∧ P.C.isDigit e = true ∧
    P.pyInt (e :: r) = some n ∧ 1 ≤ n ∧ n ≤ 1000000 ∧ o ∈ ["ring".toList, "nested".toList] ∧
    (s.d "order" = some (.str o) ∨ s.d "order" = none)

theorem healpixOrder_of_wf (P : Py) (s : GS) (c e : Char) (r : List Char) (n : Int) (v : V)
    (hg : s.d "grid" = some (.str (c :: e :: r))) (hc : c ∈ ['H', 'h']) (he : P.C.isDigit e = true)
    (hn : P.pyInt (e :: r) = some n) (h1 : 1 ≤ n) (h2 : n ≤ 1000000)
    (ho : (s.d "order").getD (.str "ring".toList) = v) :
    healpixOrder P s = match (generalizing := false) v with
      | .str o => if o = "ring".toList ∨ o = "nested".toList then .ok o else .error .value
      | _ => .error .value := by
  have hm : healpixMatch P (c :: e :: r) = true := by
    simp only [List.mem_cons, List.not_mem_nil, or_false] at hc
    simp only [healpixMatch, he, Bool.and_true, Bool.or_eq_true, beq_iff_eq]; exact hc
  have hi : s.d.item "grid" = .ok (.str (c :: e :: r)) := (item_ok _ _ _).2 hg
  have hr : (decide (n < 1) || decide (n > 1000000)) = false := by
    simp only [Bool.or_eq_false_iff, decide_eq_false_iff_not]; omega
  unfold healpixOrder
  simp only [hi, bind, Except.bind, hm, Bool.not_true, Bool.false_eq_true, if_false, List.drop_succ_cons, List.drop_zero, hn, ho]
  cases v with
  | str o =>
    simp only [hr, Bool.false_eq_true, if_false]
    by_cases h : o = "ring".toList ∨ o = "nested".toList
    · have : (o == "ring".toList || o == "nested".toList) = true := by simpa using h
      rw [this, if_pos h]; rfl
    · have : (o == "ring".toList || o == "nested".toList) = false := by simpa using h
      rw [this, if_neg h]; rfl
  | _ => rfl

theorem eqBase_refl (P : Py) (order : List String) (ho : Enumerates order) (d : Dict) (s : GS) (h : fromDict P d = .ok s)
    (hg : ∃ g, s.d "grid" = some g ∧ ∀ xs, g = .list xs → ∀ x ∈ xs, ∃ q, x.num = some q) :
    eqBase P order s.d s.d = .ok true := by
  rw [eqBase_true]
  refine ⟨pyEq_refl _, ?_, ?_⟩
  · intro k hk
    have hk := (ho k).1 hk
    obtain ⟨g, hg1, hg2⟩ := hg
    have hsome : ∃ v, s.d k = some v := by
      simp only [COMPARE_KEYS, List.mem_cons, List.not_mem_nil, or_false] at hk
      rcases hk with rfl | rfl | rfl | rfl | rfl
      · exact ⟨_, fromDict_type P d s h⟩
      · exact ⟨g, hg1⟩
      · exact Option.isSome_iff_exists.1 (fromDict_flags P d s h "i_scans_negatively" (.int 0) rfl)
      · exact Option.isSome_iff_exists.1 (fromDict_flags P d s h "j_points_consecutive" (.int 0) rfl)
      · exact Option.isSome_iff_exists.1 (fromDict_flags P d s h "j_scans_positively" (.int 0) rfl)
    obtain ⟨v, hv⟩ := hsome
    refine ⟨v, v, hv, hv, compareKey_refl P k v ?_⟩
    intro hkg xs hxs
    subst hkg
    rw [hg1] at hv; cases hv
    exact hg2 xs hxs
  · unfold shapesDiffer
    cases s.d "shape" with
    | none => rfl
    | some a => simp [pyEq_refl]

theorem C32_self_match (P : Py) (order : List String) (ho : Enumerates order) (d : Dict) (s : GS)
    (h : fromDict P d = .ok s) (hw : WellFormed P s) : eq P order s s = .ok true := by
  have hb := eqBase_refl P order ho d s h hw.grid
  unfold eq
  cases hk : s.kind with
  | ll =>
    obtain ⟨xs, hx, hn⟩ := hw.area (Or.inl hk)
    rw [eqLL_true]
    refine ⟨hb, _, _, hx, hx, Or.inl ?_⟩
    rw [sameArea_true]
    exact ⟨xs, xs, rfl, rfl, rfl, sameAreaL_refl _ (by norm_num [DEGREE_EPS]) xs hn⟩
  | rgg =>
    obtain ⟨xs, hx, hn⟩ := hw.area (Or.inr hk)
    rw [eqRGG_true]
    refine ⟨hb, _, _, hx, hx, Or.inl ?_⟩
    rw [sameArea_true]
    exact ⟨xs, xs, rfl, rfl, rfl, sameAreaL_refl _ (by norm_num [RGG_EPS]) xs hn⟩
  | healpix =>
    obtain ⟨c, e, r, n, o, h1, h2, h3, h4, h5, h6, h7, h8⟩ := hw.healpix hk
    rw [eqHealpix_true]
    refine ⟨hb, ?_⟩
    simp only [List.mem_cons, List.not_mem_nil, or_false] at h7
    rcases h8 with h8 | h8
    · have := healpixOrder_of_wf P s c e r n (.str o) h1 h2 h3 h4 h5 h6 (by rw [h8]; rfl)
      simp only [h7, if_true] at this
      exact ⟨o, this, this⟩
    · have := healpixOrder_of_wf P s c e r n (.str "ring".toList) h1 h2 h3 h4 h5 h6 (by rw [h8]; rfl)
      simp only [true_or, if_true] at this
      exact ⟨_, this, this⟩
  | orca => exact hb

/-! ## C33 symmetry -/

/-- Hypothesis of the symmetric part: scanning flags are not floats. -/
def NoFloatFlags (s : GS) : Prop :=
  ∀ k ∈ ["i_scans_negatively", "j_points_consecutive", "j_scans_positively"], ∀ q, s.d k ≠ some (.flt q)

theorem eqBase_symm (P : Py) (order : List String) (ho : Enumerates order) (d d' : Dict) (s t : GS)
    (hs : fromDict P d = .ok s) (_ht : fromDict P d' = .ok t) (hf : NoFloatFlags s)
    (hg : ∀ a b, s.d "grid" = some a → t.d "grid" = some b → compareKey P "grid" a b = .ok true →
      compareKey P "grid" b a = .ok true)
    (h : eqBase P order s.d t.d = .ok true) : eqBase P order t.d s.d = .ok true := by
  rw [eqBase_true] at h ⊢
  obtain ⟨h1, h2, h3⟩ := h
  refine ⟨by rw [pyEq_symm]; exact h1, ?_, ?_⟩
  · intro k hk
    obtain ⟨a, b, ha, hb, hab⟩ := h2 k hk
    refine ⟨b, a, hb, ha, ?_⟩
    have hk := (ho k).1 hk
    by_cases hkg : k = "grid"
    · subst hkg; exact hg a b ha hb hab
    · rw [← compareKey_symm P k a b (fun e => absurd e hkg) ?_]
      · exact hab
      · rintro x y ⟨rfl, rfl⟩
        simp only [COMPARE_KEYS, List.mem_cons, List.not_mem_nil, or_false] at hk
        rcases hk with rfl | rfl | rfl | rfl | rfl
        · rw [fromDict_type P d s hs] at ha; cases ha
        · exact hkg rfl
        · exact hf _ (by simp) _ ha
        · exact hf _ (by simp) _ ha
        · exact hf _ (by simp) _ ha
  · unfold shapesDiffer at h3 ⊢
    cases hs : s.d "shape" <;> cases ht : t.d "shape" <;> simp [hs, ht] at h3 ⊢
    rw [pyEq_symm]; exact h3

theorem eq_kinds (P : Py) (order : List String) (d d' : Dict) (s t : GS)
    (hs : fromDict P d = .ok s) (ht : fromDict P d' = .ok t) (h : eqBase P order s.d t.d = .ok true) : s.kind = t.kind := by
  rw [eqBase_true, fromDict_type P d s hs, fromDict_type P d' t ht] at h
  have := h.1
  simp only [Option.getD_some, pyEq, beq_iff_eq] at this
  exact kind_name_inj _ _ this

theorem eq_symm_of_base (P : Py) (order : List String) (d d' : Dict) (s t : GS)
    (hs : fromDict P d = .ok s) (ht : fromDict P d' = .ok t)
    (hb : eqBase P order s.d t.d = .ok true → eqBase P order t.d s.d = .ok true)
    (h : eq P order s t = .ok true) : eq P order t s = .ok true := by
  have hbase := eq_true_base P order s t h
  have hk := eq_kinds P order d d' s t hs ht hbase
  unfold eq at h ⊢
  rw [← hk]
  cases hkk : s.kind <;> rw [hkk] at h <;> simp only at h ⊢
  · rw [eqLL_true] at h ⊢
    obtain ⟨_, sa, ta, h1, h2, h3⟩ := h
    refine ⟨hb hbase, ta, sa, h2, h1, ?_⟩
    rcases h3 with h3 | ⟨h3, sn, tn, ss, ts, a1, a2, a3, a4, a5, a6, a7, a8, w, w', a9, a10, a11⟩
    · exact Or.inl (sameArea_symm _ _ _ h3)
    · exact Or.inr ⟨sameArea_false_symm _ _ _ h3, tn, sn, ts, ss, a2, a1, a4, a3, by rwa [abs_sub_comm], by rwa [abs_sub_comm], a8, a7,
        w', w, a10, a9, by rwa [abs_sub_comm]⟩
  · rw [eqRGG_true] at h ⊢
    obtain ⟨_, sa, ta, h1, h2, h3⟩ := h
    refine ⟨hb hbase, ta, sa, h2, h1, ?_⟩
    rcases h3 with h3 | ⟨h3, a7, a8, w, w', a9, a10, a11⟩
    · exact Or.inl (sameArea_symm _ _ _ h3)
    · exact Or.inr ⟨sameArea_false_symm _ _ _ h3, a8, a7, w', w, a10, a9, by rwa [abs_sub_comm]⟩
  · rw [eqHealpix_true] at h ⊢
    obtain ⟨_, o, h1, h2⟩ := h
    exact ⟨hb hbase, o, h2, h1⟩
  · exact hb h

/-- Symmetric for named grids (reduced Gaussian, HEALPix, ORCA). -/
theorem C33_named_grids_partial (P : Py) (order : List String) (ho : Enumerates order) (d d' : Dict) (s t : GS)
    (hs : fromDict P d = .ok s) (ht : fromDict P d' = .ok t) (hf : NoFloatFlags s)
    (hg : ∃ g, s.d "grid" = some (.str g)) (h : eq P order s t = .ok true) : eq P order t s = .ok true := by
  obtain ⟨g, hg⟩ := hg
  apply eq_symm_of_base P order d d' s t hs ht _ h
  apply eqBase_symm P order ho d d' s t hs ht hf
  intro a b ha hb hab
  rw [hg] at ha; cases ha
  rw [← compareKey_symm P "grid" (.str g) b]
  · exact hab
  · rintro _ xs ys ⟨h, _⟩; cases h
  · rintro x y ⟨h, _⟩; cases h

/-- Symmetric for lat-lon grids whose increments differ by at most 1e-6. -/
theorem C33_latlon_partial (P : Py) (order : List String) (ho : Enumerates order) (d d' : Dict) (s t : GS)
    (hs : fromDict P d = .ok s) (ht : fromDict P d' = .ok t) (hf : NoFloatFlags s) (x y x' y' : V) (p q p' q' : ℚ)
    (hg : s.d "grid" = some (.list [x, y])) (hg' : t.d "grid" = some (.list [x', y']))
    (hx : x.num = some p) (hy : y.num = some q) (hx' : x'.num = some p') (hy' : y'.num = some q')
    (hp : |p - p'| ≤ 1 / 1000000) (hq : |q - q'| ≤ 1 / 1000000)
    (h : eq P order s t = .ok true) : eq P order t s = .ok true := by
  apply eq_symm_of_base P order d d' s t hs ht _ h
  apply eqBase_symm P order ho d d' s t hs ht hf
  intro a b ha hb _
  rw [hg] at ha; cases ha
  rw [hg'] at hb; cases hb
  have key : ∀ u v : ℚ, |u - v| ≤ 1 / 1000000 → close (1 / 1000000) v u = true := by
    intro u v h
    unfold close
    rw [decide_eq_true_iff, abs_sub_comm]
    have := abs_nonneg u
    linarith
  show allclose [x', y'] [x, y] = .ok true
  rw [allclose_pair]
  exact ⟨p', q', p, q, hx', hy', hx, hy, by rw [key p p' hp, key q q' hq]; rfl⟩

/-- Exactly when a match of two lat-lon grids can be turned round: each increment of the first has to be within the tolerance as
measured on itself. -/
theorem C33_latlon_exact (P : Py) (order : List String) (ho : Enumerates order) (d d' : Dict) (s t : GS)
    (hs : fromDict P d = .ok s) (ht : fromDict P d' = .ok t) (hf : NoFloatFlags s) (x y x' y' : V) (p q p' q' : ℚ)
    (hg : s.d "grid" = some (.list [x, y])) (hg' : t.d "grid" = some (.list [x', y']))
    (hx : x.num = some p) (hy : y.num = some q) (hx' : x'.num = some p') (hy' : y'.num = some q')
    (h : eq P order s t = .ok true) : eq P order t s = .ok true ↔
      |p - p'| ≤ 1 / 1000000 + 1 / 100000 * |p| ∧ |q - q'| ≤ 1 / 1000000 + 1 / 100000 * |q| := by
  have key : ∀ u v : ℚ, close (1 / 1000000) v u = true ↔ |u - v| ≤ 1 / 1000000 + 1 / 100000 * |u| := by
    intro u v
    unfold close
    rw [decide_eq_true_iff, abs_sub_comm]
  constructor
  · intro h'
    have hb := (eqBase_true P order t.d s.d).1 (eq_true_base P order t s h')
    obtain ⟨a, b, ha, hb, hab⟩ := hb.2.1 "grid" ((ho "grid").2 (by simp [COMPARE_KEYS]))
    rw [hg'] at ha; cases ha
    rw [hg] at hb; cases hb
    have hab : allclose [x', y'] [x, y] = .ok true := hab
    rw [allclose_pair] at hab
    obtain ⟨a1, a2, a3, a4, e1, e2, e3, e4, hc⟩ := hab
    rw [hx'] at e1; rw [hy'] at e2; rw [hx] at e3; rw [hy] at e4
    cases e1; cases e2; cases e3; cases e4
    have hc := hc.symm
    rw [Bool.and_eq_true, key, key] at hc
    exact hc
  · rintro ⟨hp, hq⟩
    apply eq_symm_of_base P order d d' s t hs ht _ h
    apply eqBase_symm P order ho d d' s t hs ht hf
    intro a b ha hb _
    rw [hg] at ha; cases ha
    rw [hg'] at hb; cases hb
    show allclose [x', y'] [x, y] = .ok true
    rw [allclose_pair]
    exact ⟨p', q', p, q, hx', hy', hx, hy, by rw [(key p p').2 hp, (key q q').2 hq]; rfl⟩

/-- A lat-lon dict with increments `q`. -/
def ll (q : ℚ) : Dict := fullSpec (.flt q) (.flt q) (.list [.int 181, .int 360]) (.int 90) (.int 0) (.int (-90)) (.int 359)

theorem fromDict_full (P : Py) (x y shape n w s e : V) :
    ∃ g, fromDict P (fullSpec x y shape n w s e) = .ok g ∧ g.kind = .ll ∧ g.gew = some true ∧
      g.d "grid" = some (.list [x, y]) ∧ g.d "shape" = some (tupleToList shape) ∧ g.d "area" = some (.list [n, w, s, e]) ∧
      (∀ k ∈ ["i_scans_negatively", "j_points_consecutive", "j_scans_positively"], g.d k = some (.int 0)) := by
  have hi : infer P TYPES (normalise (withDefaults (fullSpec x y shape n w s e))) = .ok .ll := by
    rw [C30_inferred_iff P _ (.list [x, y]) .ll (by simp [fullSpec]) (Or.inl (by simp [fullSpec]))]
    exact .ll x y
  refine ⟨⟨.ll, ((normalise (withDefaults (fullSpec x y shape n w s e))).set "type" (.str Kind.ll.name)), some true⟩, ?_, rfl, rfl, ?_, ?_, ?_, ?_⟩
  · rw [fromDict_ok]
    refine ⟨.ll, hi, ?_⟩
    simp only [construct, llArea]
    have h1 : (((normalise (withDefaults (fullSpec x y shape n w s e))).set "type" (.str Kind.ll.name)) "global") = some (.int 1) := by
      simp [Dict.set, normalise, withDefaults, fullSpec, tupleToList]
    have h2 : (((normalise (withDefaults (fullSpec x y shape n w s e))).set "type" (.str Kind.ll.name)) "area") = some (.list [n, w, s, e]) := by
      simp [Dict.set, normalise, withDefaults, fullSpec, tupleToList]
    simp only [h1, Option.isNone_some, Bool.false_and, Bool.false_eq_true, if_false]
    simp only [bind_ok, pure_ok]
    refine ⟨_, rfl, some true, ?_, ?_⟩
    · rw [setDefault_of_some _ _ _ (by rw [h2]; rfl)]
      unfold flagGlobal
      rw [h1]
      simp [V.truthy]
    · rw [setDefault_of_some _ _ _ (by rw [h2]; rfl)]
  · simp [Dict.set, normalise, withDefaults, fullSpec, tupleToList]
  · simp [Dict.set, normalise, withDefaults, fullSpec]
  · simp [Dict.set, normalise, withDefaults, fullSpec, tupleToList]
  · intro k hk
    simp only [List.mem_cons, List.not_mem_nil, or_false] at hk
    rcases hk with rfl | rfl | rfl <;> simp [Dict.set, normalise, withDefaults, fullSpec, tupleToList, DEFAULTS]

/-- Base comparison of two lat-lon specs with the same flags. -/
theorem eqBase_ll (P : Py) (order : List String) (ho : Enumerates order) (s t : GS) (x y x' y' : V)
    (hs : s.d "type" = some (.str Kind.ll.name)) (ht : t.d "type" = some (.str Kind.ll.name))
    (hg : s.d "grid" = some (.list [x, y])) (hg' : t.d "grid" = some (.list [x', y']))
    (hf : ∀ k ∈ ["i_scans_negatively", "j_points_consecutive", "j_scans_positively"], s.d k = some (.int 0))
    (hf' : ∀ k ∈ ["i_scans_negatively", "j_points_consecutive", "j_scans_positively"], t.d k = some (.int 0))
    (hsh : ∀ a b, s.d "shape" = some a → t.d "shape" = some b → pyEq a b = true) :
    eqBase P order s.d t.d = .ok true ↔ allclose [x, y] [x', y'] = .ok true := by
  rw [eqBase_true]
  constructor
  · rintro ⟨_, h, _⟩
    obtain ⟨a, b, ha, hb, hab⟩ := h "grid" ((ho _).2 (by decide))
    rw [hg] at ha; cases ha
    rw [hg'] at hb; cases hb
    exact hab
  · intro h
    refine ⟨by rw [hs, ht]; exact pyEq_refl _, ?_, ?_⟩
    · intro k hk
      have hk := (ho k).1 hk
      simp only [COMPARE_KEYS, List.mem_cons, List.not_mem_nil, or_false] at hk
      rcases hk with rfl | rfl | rfl | rfl | rfl
      · exact ⟨_, _, hs, ht, by simp [compareKey]⟩
      · exact ⟨_, _, hg, hg', h⟩
      all_goals exact ⟨_, _, hf _ (by simp), hf' _ (by simp), by simp [compareKey, V.isInt, pyEq_refl]⟩
    · unfold shapesDiffer
      cases h1 : s.d "shape" <;> cases h2 : t.d "shape" <;> simp
      exact hsh _ _ h1 h2

/-- numpy's relative tolerance is measured on the second argument only: matching is not symmetric. -/
theorem C33_refuted (P : Py) (order : List String) (ho : Enumerates order) :
    ∃ s t, fromDict P (ll 1) = .ok s ∧ fromDict P (ll (100001100005 / 100000000000)) = .ok t ∧
      eq P order s t = .ok true ∧ eq P order t s = .ok false := by
  obtain ⟨s, hs, hk, _, hg, hsh, ha, hf⟩ := fromDict_full P (.flt 1) (.flt 1) (.list [.int 181, .int 360]) (.int 90) (.int 0) (.int (-90)) (.int 359)
  obtain ⟨t, ht, hk', _, hg', hsh', ha', hf'⟩ := fromDict_full P (.flt (100001100005 / 100000000000)) (.flt (100001100005 / 100000000000))
    (.list [.int 181, .int 360]) (.int 90) (.int 0) (.int (-90)) (.int 359)
  have hst := fromDict_type P _ s hs
  have htt := fromDict_type P _ t ht
  rw [hk] at hst
  rw [hk'] at htt
  refine ⟨s, t, hs, ht, ?_, ?_⟩
  · unfold eq
    rw [hk]
    simp only
    rw [eqLL_true]
    refine ⟨?_, _, _, ha, ha', Or.inl ?_⟩
    · rw [eqBase_ll P order ho s t _ _ _ _ hst htt hg hg' hf hf' (by rw [hsh, hsh']; intro a b h h'; cases h; cases h'; exact pyEq_refl _)]
      rw [allclose_pair]
      refine ⟨1, 1, _, _, rfl, rfl, rfl, rfl, ?_⟩
      norm_num [close, abs_of_nonneg, abs_of_neg]
    · rw [sameArea_true]
      refine ⟨_, _, rfl, rfl, rfl, sameAreaL_refl _ (by norm_num [DEGREE_EPS]) _ ?_⟩
      intro x hx
      simp only [List.mem_cons, List.not_mem_nil, or_false] at hx
      rcases hx with rfl | rfl | rfl | rfl <;> exact ⟨_, rfl⟩
  · -- the comparison of the grids answers false without raising
    have hac : allclose [.flt (100001100005 / 100000000000), .flt (100001100005 / 100000000000)] [.flt 1, .flt 1] = .ok false := by
      rw [allclose_pair]
      refine ⟨_, _, 1, 1, rfl, rfl, rfl, rfl, ?_⟩
      norm_num [close, abs_of_nonneg, abs_of_neg]
    have hck : ∀ ks : List String, (∀ k ∈ ks, k ∈ COMPARE_KEYS) → compareKeys P t.d s.d ks = .ok true ∨ compareKeys P t.d s.d ks = .ok false := by
      intro ks
      induction ks with
      | nil => intro _; left; rfl
      | cons k ks ih =>
        intro hks
        have hk := hks k (by simp)
        have ih := ih (fun x hx => hks x (by simp [hx]))
        have step : ∀ a b r, t.d k = some a → s.d k = some b → compareKey P k a b = .ok r →
            compareKeys P t.d s.d (k :: ks) = if r then compareKeys P t.d s.d ks else .ok false := by
          intro a b r ha hb hr
          simp only [compareKeys, (item_ok _ _ _).2 ha, (item_ok _ _ _).2 hb, hr, bind, Except.bind, pure, Except.pure]
        simp only [COMPARE_KEYS, List.mem_cons, List.not_mem_nil, or_false] at hk
        rcases hk with rfl | rfl | rfl | rfl | rfl
        · rw [step _ _ true htt hst (by simp [compareKey])]; exact ih
        · rw [step _ _ false hg' hg (by simpa [compareKey] using hac)]; right; rfl
        all_goals rw [step _ _ true (hf' _ (by simp)) (hf _ (by simp)) (by simp [compareKey, V.isInt, pyEq_refl])]; exact ih
    have hb : eqBase P order t.d s.d = .ok false := by
      have hne : eqBase P order t.d s.d ≠ .ok true := by
        intro h
        rw [eqBase_ll P order ho t s _ _ _ _ htt hst hg' hg hf' hf (by rw [hsh, hsh']; intro a b h h'; cases h; cases h'; exact pyEq_refl _)] at h
        rw [hac] at h; cases h
      rcases hck order (fun k hk => (ho k).1 hk) with h | h
      · exfalso; apply hne
        unfold eqBase
        rw [htt, hst]
        have hsd : shapesDiffer t.d s.d = false := by unfold shapesDiffer; rw [hsh, hsh']; simp [pyEq_refl]
        simp [pyEq_refl, h, hsd, bind, Except.bind, pure, Except.pure]
      · unfold eqBase
        rw [htt, hst]
        simp [pyEq_refl, h, bind, Except.bind, pure, Except.pure]
    unfold eq
    rw [hk']
    simp [eqLL, hb, bind, Except.bind, pure, Except.pure]

end Verif.GridSpec

import Verif.GridSpec.Props

/-! Properties C34–C38 and C76. -/

namespace Verif.GridSpec
open Verif.Humanize

/-! ## C34 letter case -/

theorem toLower_cases (c : Char) : c.toLower = c ∨ ∃ n < 26, c = Char.ofNat (65 + n) ∧ c.toLower = Char.ofNat (97 + n) := by
  by_cases h : c.val ≥ 'A'.val ∧ c.val ≤ 'Z'.val
  · right
    obtain ⟨h1, h2⟩ := h
    simp only [ge_iff_le, UInt32.le_iff_toNat_le] at h1 h2
    have h1 : 65 ≤ c.toNat := h1
    have h2 : c.toNat ≤ 90 := h2
    have hc : c = Char.ofNat (65 + (c.toNat - 65)) := by
      rw [show 65 + (c.toNat - 65) = c.toNat by omega, Char.ofNat_toNat]
    refine ⟨c.toNat - 65, by omega, hc, ?_⟩
    have hT : ∀ n < 26, (Char.ofNat (65 + n)).toLower = Char.ofNat (97 + n) := by decide
    rw [← hT (c.toNat - 65) (by omega), ← hc]
  · left
    unfold Char.toLower
    rw [dif_neg h]

theorem isDigit_lower (C : CharClass) (c : Char) : C.isDigit c.toLower = C.isDigit c := by
  rcases toLower_cases c with h | ⟨n, hn, h1, h2⟩
  · rw [h]
  · rw [h2, h1, (C.ascii_letter n hn).2.2.2, (C.ascii_letter n hn).2.1]

theorem lower_head (c : Char) (a b : Char) (h : (a = 'O' ∧ b = 'o') ∨ (a = 'N' ∧ b = 'n') ∨ (a = 'H' ∧ b = 'h')) :
    (c = a ∨ c = b) ↔ c.toLower = b := by
  have hab : a.toLower = b ∧ b.toLower = b := by rcases h with ⟨rfl, rfl⟩ | ⟨rfl, rfl⟩ | ⟨rfl, rfl⟩ <;> decide
  constructor
  · rintro (rfl | rfl)
    · exact hab.1
    · exact hab.2
  · intro hl
    rcases toLower_cases c with h' | ⟨n, hn, h1, h2⟩
    · right; rw [← hl, h']
    · left
      have hT : ∀ n < 26, ((Char.ofNat (97 + n) = 'o' → Char.ofNat (65 + n) = 'O') ∧
        (Char.ofNat (97 + n) = 'n' → Char.ofNat (65 + n) = 'N') ∧ (Char.ofNat (97 + n) = 'h' → Char.ofNat (65 + n) = 'H')) := by decide
      have := hT n hn
      rcases h with ⟨rfl, rfl⟩ | ⟨rfl, rfl⟩ | ⟨rfl, rfl⟩ <;> rw [h1] <;> rw [h2] at hl
      · exact this.1 hl
      · exact this.2.1 hl
      · exact this.2.2 hl

theorem rggMatch_lower (P : Py) (s : List Char) : rggMatch P s = rggMatch P (s.map Char.toLower) := by
  match s with
  | [] => rfl
  | [_] => rfl
  | c :: d :: _ =>
    simp only [rggMatch, List.map_cons, isDigit_lower]
    congr 1
    rw [Bool.eq_iff_iff]
    simp only [Bool.or_eq_true, beq_iff_eq]
    have h1 := lower_head c 'O' 'o' (by simp)
    have h2 := lower_head c 'N' 'n' (by simp)
    have h3 := lower_head c.toLower 'O' 'o' (by simp)
    have h4 := lower_head c.toLower 'N' 'n' (by simp)
    have h5 : c.toLower.toLower = c.toLower := by
      rcases toLower_cases c with h | ⟨n, hn, _, h⟩
      · rw [h, h]
      · have hT : ∀ n < 26, (Char.ofNat (97 + n)).toLower = Char.ofNat (97 + n) := by decide
        rw [h, hT n hn]
    rw [h5] at h3 h4
    grind

theorem healpixMatch_lower (P : Py) (s : List Char) : healpixMatch P s = healpixMatch P (s.map Char.toLower) := by
  match s with
  | [] => rfl
  | [_] => rfl
  | c :: d :: _ =>
    simp only [healpixMatch, List.map_cons, isDigit_lower]
    congr 1
    rw [Bool.eq_iff_iff]
    simp only [Bool.or_eq_true, beq_iff_eq]
    have h1 := lower_head c 'H' 'h' (by simp)
    have h3 := lower_head c.toLower 'H' 'h' (by simp)
    have h5 : c.toLower.toLower = c.toLower := by
      rcases toLower_cases c with h | ⟨n, hn, _, h⟩
      · rw [h, h]
      · have hT : ∀ n < 26, (Char.ofNat (97 + n)).toLower = Char.ofNat (97 + n) := by decide
        rw [h, hT n hn]
    rw [h5] at h3
    grind

theorem rggMatch_case (P : Py) (g g' : List Char) (h : CaseVariant g g') : rggMatch P g = rggMatch P g' := by
  rw [rggMatch_lower, rggMatch_lower P g', h]
theorem healpixMatch_case (P : Py) (g g' : List Char) (h : CaseVariant g g') : healpixMatch P g = healpixMatch P g' := by
  rw [healpixMatch_lower, healpixMatch_lower P g', h]

/-- The spec with its grid name replaced. -/
def GS.rename (s : GS) (g : List Char) : GS := { s with d := s.d.set "grid" (.str g) }

theorem set_other (d : Dict) (k k' : String) (v : V) (h : k' ≠ k) : (d.set k v) k' = d k' := by simp [Dict.set, h]
theorem set_self (d : Dict) (k : String) (v : V) : (d.set k v) k = some v := by simp [Dict.set]
theorem item_set_other (d : Dict) (k k' : String) (v : V) (h : k' ≠ k) : (d.set k v).item k' = d.item k' := by
  simp [Dict.item, Dict.set, h]

theorem compareKeys_rename (P : Py) (s t : Dict) (g g' x : List Char) (hg : s "grid" = some (.str g))
    (ht : t "grid" = some (.str x)) (h : CaseVariant g g') (ks : List String) :
    compareKeys P (s.set "grid" (.str g')) t ks = compareKeys P s t ks ∧
    compareKeys P t (s.set "grid" (.str g')) ks = compareKeys P t s ks := by
  induction ks with
  | nil => exact ⟨rfl, rfl⟩
  | cons k ks ih =>
    by_cases hk : k = "grid"
    · subst hk
      have e1 : (s.set "grid" (.str g')).item "grid" = .ok (.str g') := (item_ok _ _ _).2 (set_self _ _ _)
      have e2 : s.item "grid" = .ok (.str g) := (item_ok _ _ _).2 hg
      have e3 : t.item "grid" = .ok (.str x) := (item_ok _ _ _).2 ht
      simp only [compareKeys, e1, e2, e3, bind, Except.bind, compareKey, if_true, ih, P.lower_case g g' h, and_self]
    · simp only [compareKeys, item_set_other _ _ _ _ hk, ih, and_self]

theorem eqBase_rename (P : Py) (order : List String) (s t : Dict) (g g' x : List Char) (hg : s "grid" = some (.str g))
    (ht : t "grid" = some (.str x)) (h : CaseVariant g g') :
    eqBase P order (s.set "grid" (.str g')) t = eqBase P order s t ∧
    eqBase P order t (s.set "grid" (.str g')) = eqBase P order t s := by
  obtain ⟨h1, h2⟩ := compareKeys_rename P s t g g' x hg ht h order
  unfold eqBase shapesDiffer
  rw [h1, h2, set_other _ _ _ _ (by decide : "type" ≠ "grid"), set_other _ _ _ _ (by decide : "shape" ≠ "grid")]
  exact ⟨rfl, rfl⟩

theorem coord_rename (s : GS) (g : List Char) (i : Nat) : coord (s.rename g) i = coord s i := by
  unfold coord GS.rename
  rw [item_set_other _ _ _ _ (by decide)]

theorem isGlobalEw_rename (P : Py) (s : GS) (g g' : List Char) (hg : s.d "grid" = some (.str g)) (h : CaseVariant g g')
    (hk : s.kind ≠ .ll) : isGlobalEw P (s.rename g') = isGlobalEw P s := by
  have hr : rggInspect P (s.rename g') = rggInspect P s := by
    unfold rggInspect
    have e1 : (s.rename g').d.item "grid" = .ok (.str g') := (item_ok _ _ _).2 (set_self s.d "grid" (.str g'))
    have e2 : s.d.item "grid" = .ok (.str g) := (item_ok _ _ _).2 hg
    simp only [e1, e2, bind, Except.bind, rggMatch_case P g g' h, P.upper_case g g' h]
  have hd : dx P (s.rename g') = dx P s := by
    unfold dx
    rw [hr]
    show (match s.kind with | .ll => _ | _ => _) = _
    cases hk' : s.kind <;> simp_all
  have hc : computeGlobalEw P (s.rename g') = computeGlobalEw P s := by
    unfold computeGlobalEw
    rw [coord_rename, coord_rename, hd]
  unfold isGlobalEw
  rw [hc]
  rfl

theorem healpixOrder_rename (P : Py) (s : GS) (g g' : List Char) (hg : s.d "grid" = some (.str g)) (h : CaseVariant g g') :
    healpixOrder P (s.rename g') = healpixOrder P s := by
  unfold healpixOrder
  have e1 : (s.rename g').d.item "grid" = .ok (.str g') := (item_ok _ _ _).2 (set_self s.d "grid" (.str g'))
  have e2 : s.d.item "grid" = .ok (.str g) := (item_ok _ _ _).2 hg
  have e3 : (s.rename g').d "order" = s.d "order" := set_other s.d "grid" "order" (.str g') (by decide)
  have e4 : CaseVariant (g.drop 1) (g'.drop 1) := by
    unfold CaseVariant at *
    rw [List.map_drop, List.map_drop, h]
  simp only [e1, e2, e3, bind, Except.bind, healpixMatch_case P g g' h, P.pyInt_case _ _ e4]

/-- Changing the case of a grid name does not change the outcome of matching, on either side, errors included. -/
theorem C34_matching (P : Py) (order : List String) (s t : GS) (g g' x : List Char) (hg : s.d "grid" = some (.str g))
    (ht : t.d "grid" = some (.str x)) (hk : s.kind ≠ .ll) (h : CaseVariant g g') :
    eq P order (s.rename g') t = eq P order s t ∧ eq P order t (s.rename g') = eq P order t s := by
  obtain ⟨h1, h2⟩ := eqBase_rename P order s.d t.d g g' x hg ht h
  have e1 : eqBase P order (s.rename g').d t.d = eqBase P order s.d t.d := h1
  have e2 : eqBase P order t.d (s.rename g').d = eqBase P order t.d s.d := h2
  have ea : (s.rename g').d.item "area" = s.d.item "area" := item_set_other _ _ _ _ (by decide)
  have ek : (s.rename g').kind = s.kind := rfl
  unfold eq
  rw [ek]
  constructor
  · cases hk' : s.kind
    · exact absurd hk' hk
    · simp only [eqRGG, e1, ea, isGlobalEw_rename P s g g' hg h hk, coord_rename]
    · simp only [eqHealpix, e1, healpixOrder_rename P s g g' hg h]
    · exact e1
  · cases t.kind
    · simp only [eqLL, e2, ea, isGlobalEw_rename P s g g' hg h hk, coord_rename]
    · simp only [eqRGG, e2, ea, isGlobalEw_rename P s g g' hg h hk, coord_rename]
    · simp only [eqHealpix, e2, healpixOrder_rename P s g g' hg h]
    · exact e2

theorem construct_rename (k : Kind) (hk : k ≠ .ll) (gs : Dict) (g : List Char) (s : GS) (h : construct k gs = .ok s) :
    construct k (gs.set "grid" (.str g)) = .ok (s.rename g) := by
  have hset : ∀ (d : Dict) (x : String) (v : V), x ≠ "grid" → (d.set "grid" (.str g)).setDefault x v = (d.setDefault x v).set "grid" (.str g) := by
    intro d x v hx
    unfold Dict.setDefault
    rw [set_other _ _ _ _ hx]
    split
    · rfl
    · funext y; simp only [Dict.set]; split <;> split <;> simp_all
  cases k with
  | ll => exact absurd rfl hk
  | rgg =>
    simp only [construct, bind_ok, pure_ok] at h ⊢
    obtain ⟨f, hf, rfl⟩ := h
    refine ⟨f, ?_, ?_⟩
    · rw [hset _ _ _ (by decide)]
      unfold flagGlobal at hf ⊢
      rw [set_other _ _ _ _ (by decide), item_set_other _ _ _ _ (by decide)]
      exact hf
    · rw [hset _ _ _ (by decide)]; rfl
  | healpix =>
    simp only [construct, ok_ok] at h ⊢
    subst h
    rw [set_other _ _ _ _ (by decide)]
    cases gs "ordering" with
    | none => simp only [hset _ _ _ (by decide : "area" ≠ "grid")]; rfl
    | some v =>
      simp only
      have : ((gs.set "grid" (.str g)).erase "ordering").set "order" v = ((gs.erase "ordering").set "order" v).set "grid" (.str g) := by
        funext y
        simp only [Dict.set, Dict.erase]
        by_cases h1 : y = "order"
        · subst h1; simp
        · by_cases h2 : y = "grid"
          · subst h2; simp
          · simp [h1, h2]
      rw [this, hset _ _ _ (by decide : "area" ≠ "grid")]
      rfl
  | orca =>
    simp only [construct, ok_ok] at h ⊢
    subst h; rfl

/-- Reduced Gaussian and HEALPix names (any grid name when the type is given) are accepted in any letter case, and give
the same spec apart from the spelling of the name. -/
theorem C34_same_spec_partial (P : Py) (d : Dict) (s : GS) (g g' : List Char) (h : fromDict P d = .ok s)
    (hg : d "grid" = some (.str g)) (hk : s.kind ≠ .ll) (hc : CaseVariant g g')
    (ho : s.kind ≠ .orca ∨ ∃ t, t ≠ .none ∧ d "type" = some t) :
    fromDict P (d.set "grid" (.str g')) = .ok (s.rename g') := by
  obtain ⟨k, hi, hcs⟩ := (fromDict_ok P d s).1 h
  have hkind := construct_kind _ _ _ hcs
  have hn : normalise (withDefaults (d.set "grid" (.str g'))) = (normalise (withDefaults d)).set "grid" (.str g') := by
    funext y
    unfold normalise withDefaults Dict.set
    by_cases hy : y = "grid"
    · subst hy; rfl
    · simp only [hy, if_false]
  rw [fromDict_ok]
  refine ⟨k, ?_, ?_⟩
  · rw [hn]
    have ht : ((normalise (withDefaults d)).set "grid" (.str g')) "type" = (normalise (withDefaults d)) "type" := set_other _ _ _ _ (by decide)
    by_cases hnone : ((normalise (withDefaults d)) "type").getD .none = .none
    · have hty : d "type" = none ∨ d "type" = some .none := by
        simp only [normalise, withDefaults] at hnone
        cases hd : d "type" with
        | none => left; rfl
        | some v => rw [hd] at hnone; cases v <;> simp_all [tupleToList]
      have hko : k ≠ .orca := by
        rcases ho with ho | ⟨t, h1, h2⟩
        · rw [← hkind]; exact ho
        · rw [h2] at hty; simp [h1] at hty
      rw [C30_inferred_iff P d (.str g) k hg hty] at hi
      rw [← hn]
      rw [C30_inferred_iff P (d.set "grid" (.str g')) (.str g') k (set_self _ _ _) (by rw [set_other _ _ _ _ (by decide)]; exact hty)]
      have hi := (typeMatch_iff P k _).2 hi
      refine (typeMatch_iff P k _).1 ?_
      cases k with
      | ll => exact absurd hkind hk
      | rgg => exact (rggMatch_case P g g' hc).symm.trans hi
      | healpix => exact (healpixMatch_case P g g' hc).symm.trans hi
      | orca => exact absurd rfl hko
    · unfold infer at hi ⊢
      rw [ht]
      generalize ((normalise (withDefaults d)) "type").getD .none = v at *
      cases v <;> simp_all
  · rw [hn]
    have := construct_rename k (by rw [← hkind]; exact hk) _ g' s hcs
    rw [← this]
    congr 1
    funext y
    simp only [Dict.set]
    split <;> split <;> simp_all

/-- Consequence for two dicts: same outcome of `==` whatever the case of the name. -/
theorem C34_partial (P : Py) (order : List String) (d e : Dict) (s t : GS) (g g' x : List Char) (h : fromDict P d = .ok s)
    (he : fromDict P e = .ok t) (hg : d "grid" = some (.str g)) (hx : e "grid" = some (.str x)) (hk : s.kind ≠ .ll)
    (hc : CaseVariant g g') (ho : s.kind ≠ .orca ∨ ∃ t, t ≠ .none ∧ d "type" = some t) :
    ∃ s', fromDict P (d.set "grid" (.str g')) = .ok s' ∧ eq P order s' t = eq P order s t ∧ eq P order t s' = eq P order t s := by
  refine ⟨_, C34_same_spec_partial P d s g g' h hg hk hc ho, ?_⟩
  apply C34_matching P order s t g g' x _ _ hk hc
  · rw [fromDict_untouched P d s h "grid" (by decide) (by decide)]; simp [normalise, withDefaults, hg, tupleToList]
  · rw [fromDict_untouched P e t he "grid" (by decide) (by decide)]; simp [normalise, withDefaults, hx, tupleToList]

/-- A one-key dict. -/
def named (g : String) : Dict := fun k => if k = "grid" then some (.str g.toList) else none

/-- ORCA names are accepted in one spelling only. -/
theorem C34_orca_refuted (P : Py) : CaseVariant "ORCA1_T".toList "orca1_t".toList ∧
    (∃ s, fromDict P (named "ORCA1_T") = .ok s ∧ s.kind = .orca) ∧ fromDict P (named "orca1_t") = .error .value := by
  refine ⟨by unfold CaseVariant; decide, ?_, ?_⟩
  · have h1 : P.C.isDigit '1' = true := (P.C.ascii_digit 1 (by decide)).1
    have hi : infer P TYPES (normalise (withDefaults (named "ORCA1_T"))) = .ok .orca := by
      rw [C30_inferred_iff P _ (.str "ORCA1_T".toList) .orca rfl (Or.inl rfl)]
      exact .orca [] ['1'] [] 'T' (by simp) (by simp) (by simpa using h1) (by simp) (by simp)
    refine ⟨_, (fromDict_ok P _ _).2 ⟨.orca, hi, rfl⟩, rfl⟩
  · apply C30_unsupported_refused P _ (.str "orca1_t".toList) rfl (Or.inl rfl)
    intro k hk
    have hk : Supported P k (.str ['o', 'r', 'c', 'a', '1', '_', 't']) := hk
    have hr : P.C.isDigit 'r' = false := (P.C.ascii_letter 17 (by decide)).2.2.2
    generalize hv : (V.str ['o', 'r', 'c', 'a', '1', '_', 't']) = v at hk
    cases hk with
    | ll x y => cases hv
    | rgg c d r h1 h2 => cases hv; rw [hr] at h2; cases h2
    | healpix c d r h1 h2 => cases hv; rw [hr] at h2; cases h2
    | orca pre ds tail c h0 =>
      simp only [List.mem_cons, List.not_mem_nil, or_false] at h0
      rcases h0 with rfl | rfl <;> simp at hv

theorem o32_ok (P : Py) : ∃ s, fromDict P (named "O32") = .ok s ∧ s.kind = .rgg := by
  have h3 : P.C.isDigit '3' = true := (P.C.ascii_digit 3 (by decide)).1
  have hi : infer P TYPES (normalise (withDefaults (named "O32"))) = .ok .rgg := by
    rw [C30_inferred_iff P _ (.str "O32".toList) .rgg rfl (Or.inl rfl)]
    exact .rgg 'O' '3' ['2'] (by simp) h3
  cases hc : construct .rgg ((normalise (withDefaults (named "O32"))).set "type" (.str Kind.rgg.name)) with
  | error e =>
    exfalso
    simp [construct, flagGlobal, Dict.set, Dict.setDefault, normalise, withDefaults, named, DEFAULTS, V.truthy, bind, Except.bind,
      Dict.item, DEFAULT_AREA, sameArea, V.seq, sameAreaL, sameCoord, numM, V.num, pure, Except.pure, DEGREE_EPS] at hc
  | ok s => exact ⟨s, (fromDict_ok P _ _).2 ⟨.rgg, hi, hc⟩, construct_kind _ _ _ hc⟩
example : CaseVariant "O32".toList "o32".toList := by unfold CaseVariant; decide

/-! ## C35 longitudes modulo 360 -/

/-- The normalised longitude is the one value of `[m, m + 360)` that differs from `lon` by whole turns. -/
theorem C35_normalise (lon m y : ℚ) : normaliseLon lon m = y ↔ Congruent lon y ∧ m ≤ y ∧ y < m + 360 := by
  have h := normaliseLon_spec lon m
  constructor
  · rintro rfl; exact h
  · intro hy; exact congruent_unique h.1 hy.1 h.2 hy.2

example : normaliseLon (-725) 0 = 355 := (C35_normalise _ _ _).2 ⟨⟨3, by norm_num⟩, by norm_num, by norm_num⟩

theorem norm_near (w w' eps : ℚ) (he : 0 < eps ∧ eps < 180) (h : |w - w'| < eps)
    (hs : |normaliseLon w 0 - normaliseLon w' 0| ≤ 180) : |normaliseLon w 0 - normaliseLon w' 0| < eps := by
  obtain ⟨⟨j, hj⟩, a1, a2⟩ := normaliseLon_spec w 0
  obtain ⟨⟨k, hk⟩, b1, b2⟩ := normaliseLon_spec w' 0
  rw [hj, hk] at hs ⊢
  have e : w + 360 * (j : ℚ) - (w' + 360 * k) = (w - w') + 360 * ((j - k : ℤ) : ℚ) := by push_cast; ring
  rw [e] at hs ⊢
  have hm : j - k = 0 := by
    rw [abs_le] at hs
    rw [abs_lt] at h
    have h1 : ((j - k : ℤ) : ℚ) < 1 := by linarith
    have h2 : (-1 : ℚ) < ((j - k : ℤ) : ℚ) := by linarith
    have h1 : j - k < 1 := by exact_mod_cast h1
    have h2 : -1 < j - k := by exact_mod_cast h2
    omega
  rw [hm]; simpa using h

/-- A four-element numeric area. -/
def AreaNum (s : GS) (n w so e : ℚ) : Prop :=
  ∃ a b c d, s.d "area" = some (.list [a, b, c, d]) ∧ a.num = some n ∧ b.num = some w ∧ c.num = some so ∧ d.num = some e

theorem coord_of_area (s : GS) (n w so e : ℚ) (h : AreaNum s n w so e) :
    coord s 0 = .ok n ∧ coord s 1 = .ok w ∧ coord s 2 = .ok so ∧ coord s 3 = .ok e := by
  obtain ⟨a, b, c, d, h, h1, h2, h3, h4⟩ := h
  simp [coord, (item_ok _ _ _).2 h, bind, Except.bind, V.item, V.seq, numM, h1, h2, h3, h4]

theorem sameArea_of_nums (eps : ℚ) (s t : GS) (n w so e n' w' so' e' : ℚ) (hs : AreaNum s n w so e) (ht : AreaNum t n' w' so' e') :
    ∃ sa ta r, s.d "area" = some sa ∧ t.d "area" = some ta ∧ sameArea eps sa ta = .ok r ∧
      (r = true ↔ |n - n'| < eps ∧ |w - w'| < eps ∧ |so - so'| < eps ∧ |e - e'| < eps) := by
  obtain ⟨a, b, c, d, h, h1, h2, h3, h4⟩ := hs
  obtain ⟨a', b', c', d', h', h1', h2', h3', h4'⟩ := ht
  refine ⟨_, _, decide (|n - n'| < eps ∧ |w - w'| < eps ∧ |so - so'| < eps ∧ |e - e'| < eps), h, h', ?_, by simp⟩
  simp only [sameArea, V.seq, bind, Except.bind, List.length_cons, List.length_nil, if_true, sameAreaL, sameCoord, numM,
    h1, h2, h3, h4, h1', h2', h3', h4', pure, Except.pure, decide_eq_true_eq]
  by_cases c1 : |n - n'| < eps <;> by_cases c2 : |w - w'| < eps <;> by_cases c3 : |so - so'| < eps <;>
    by_cases c4 : |e - e'| < eps <;> simp [c1, c2, c3, c4]

/-- The two ends of the comparison are not on different sides of the 0/360 seam. -/
def SameSide (w w' : ℚ) : Prop := |normaliseLon w 0 - normaliseLon w' 0| ≤ 180

theorem eqLL_global (P : Py) (order : List String) (s t : GS) (n w so e n' w' so' e' : ℚ) (hs : AreaNum s n w so e)
    (ht : AreaNum t n' w' so' e') (gs : isGlobalEw P s = .ok true) (gt : isGlobalEw P t = .ok true) (hside : SameSide w w') :
    eqLL P order s t = .ok true ↔ eqBase P order s.d t.d = .ok true ∧ |n - n'| < DEGREE_EPS ∧ |so - so'| < DEGREE_EPS ∧
      |normaliseLon w 0 - normaliseLon w' 0| < DEGREE_EPS := by
  obtain ⟨s0, s1, s2, _⟩ := coord_of_area s n w so e hs
  obtain ⟨t0, t1, t2, _⟩ := coord_of_area t n' w' so' e' ht
  obtain ⟨sa, ta, r, ha, ha', hr, hri⟩ := sameArea_of_nums DEGREE_EPS s t n w so e n' w' so' e' hs ht
  rw [eqLL_true]
  constructor
  · rintro ⟨hb, sa', ta', e1, e2, h⟩
    rw [ha] at e1; cases e1
    rw [ha'] at e2; cases e2
    refine ⟨hb, ?_⟩
    rcases h with h | ⟨_, sn, tn, ss, ts, c1, c2, c3, c4, c5, c6, _, _, x, x', c7, c8, c9⟩
    · rw [hr] at h; cases h
      obtain ⟨d1, d2, d3, _⟩ := hri.1 rfl
      exact ⟨d1, d3, norm_near w w' _ (by norm_num [DEGREE_EPS]) d2 hside⟩
    · rw [s0] at c1; rw [t0] at c2; rw [s2] at c3; rw [t2] at c4; rw [s1] at c7; rw [t1] at c8
      cases c1; cases c2; cases c3; cases c4; cases c7; cases c8
      exact ⟨c5, c6, c9⟩
  · rintro ⟨hb, d1, d2, d3⟩
    refine ⟨hb, sa, ta, ha, ha', ?_⟩
    cases r with
    | true => exact Or.inl hr
    | false => exact Or.inr ⟨hr, _, _, _, _, s0, t0, s2, t2, d1, d2, gs, gt, _, _, s1, t1, d3⟩

theorem eqRGG_global (P : Py) (order : List String) (s t : GS) (n w so e n' w' so' e' : ℚ) (hs : AreaNum s n w so e)
    (ht : AreaNum t n' w' so' e') (gs : isGlobalEw P s = .ok true) (gt : isGlobalEw P t = .ok true) (hside : SameSide w w') :
    eqRGG P order s t = .ok true ↔ eqBase P order s.d t.d = .ok true ∧
      |normaliseLon w 0 - normaliseLon w' 0| < RGG_EPS := by
  obtain ⟨s0, s1, s2, _⟩ := coord_of_area s n w so e hs
  obtain ⟨t0, t1, t2, _⟩ := coord_of_area t n' w' so' e' ht
  obtain ⟨sa, ta, r, ha, ha', hr, hri⟩ := sameArea_of_nums RGG_EPS s t n w so e n' w' so' e' hs ht
  rw [eqRGG_true]
  constructor
  · rintro ⟨hb, sa', ta', e1, e2, h⟩
    rw [ha] at e1; cases e1
    rw [ha'] at e2; cases e2
    refine ⟨hb, ?_⟩
    rcases h with h | ⟨_, _, _, x, x', c7, c8, c9⟩
    · rw [hr] at h; cases h
      obtain ⟨_, d2, _, _⟩ := hri.1 rfl
      exact norm_near w w' _ (by norm_num [RGG_EPS]) d2 hside
    · rw [s1] at c7; rw [t1] at c8
      cases c7; cases c8
      exact c9
  · rintro ⟨hb, d3⟩
    refine ⟨hb, sa, ta, ha, ha', ?_⟩
    cases r with
    | true => exact Or.inl hr
    | false => exact Or.inr ⟨hr, gs, gt, _, _, s1, t1, d3⟩

/-- The spec with its area replaced. -/
def GS.moved (s : GS) (area : V) (gew : Option Bool) : GS := ⟨s.kind, s.d.set "area" area, gew⟩

theorem compareKeys_moved (P : Py) (s t : Dict) (a : V) (ks : List String) (hks : ∀ k ∈ ks, k ∈ COMPARE_KEYS) :
    compareKeys P (s.set "area" a) t ks = compareKeys P s t ks ∧ compareKeys P t (s.set "area" a) ks = compareKeys P t s ks := by
  induction ks with
  | nil => exact ⟨rfl, rfl⟩
  | cons k ks ih =>
    have hk : k ≠ "area" := by
      rintro rfl
      have := hks "area" (by simp)
      simp [COMPARE_KEYS] at this
    have ih := ih (fun x hx => hks x (by simp [hx]))
    simp only [compareKeys, item_set_other _ _ _ _ hk, ih, and_self]

/-- Shifting west and east of a global lat-lon or reduced Gaussian grid by whole turns changes nothing in what it matches
(against a global grid on the same side of the seam; see the refutation below for the rest). -/
theorem C35_shift_partial (P : Py) (order : List String) (ho : Enumerates order) (s t : GS)
    (hk : s.kind = .ll ∨ s.kind = .rgg) (ht : t.kind = .ll ∨ t.kind = .rgg)
    (n w so e n' w' so' e' : ℚ) (j k : ℤ) (f : Option Bool)
    (ha : AreaNum s n w so e) (ha' : AreaNum t n' w' so' e')
    (gs : isGlobalEw P s = .ok true) (gt : isGlobalEw P t = .ok true)
    (gm : isGlobalEw P (s.moved (.list [.flt n, .flt (w + 360 * j), .flt so, .flt (e + 360 * k)]) f) = .ok true)
    (hside : SameSide w w') :
    (eq P order (s.moved (.list [.flt n, .flt (w + 360 * j), .flt so, .flt (e + 360 * k)]) f) t = .ok true ↔ eq P order s t = .ok true) ∧
    (eq P order t (s.moved (.list [.flt n, .flt (w + 360 * j), .flt so, .flt (e + 360 * k)]) f) = .ok true ↔ eq P order t s = .ok true) := by
  set m := s.moved (.list [.flt n, .flt (w + 360 * j), .flt so, .flt (e + 360 * k)]) f with hm
  have hma : AreaNum m n (w + 360 * j) so (e + 360 * k) :=
    ⟨_, _, _, _, set_self s.d "area" (.list [.flt n, .flt (w + 360 * j), .flt so, .flt (e + 360 * k)]), rfl, rfl, rfl, rfl⟩
  have hshift : normaliseLon (w + 360 * j) 0 = normaliseLon w 0 := normaliseLon_shift w 0 j
  have hside' : SameSide (w + 360 * j) w' := by unfold SameSide; rw [hshift]; exact hside
  have hside2 : SameSide w' w := by unfold SameSide; rw [abs_sub_comm]; exact hside
  have hside3 : SameSide w' (w + 360 * j) := by unfold SameSide; rw [hshift, abs_sub_comm]; exact hside
  obtain ⟨c1, c2⟩ := compareKeys_moved P s.d t.d (.list [.flt n, .flt (w + 360 * j), .flt so, .flt (e + 360 * k)]) order
    (fun x hx => (ho x).1 hx)
  have b1 : eqBase P order m.d t.d = eqBase P order s.d t.d := by
    show eqBase P order (s.d.set "area" _) t.d = _
    unfold eqBase shapesDiffer
    rw [c1, set_other _ _ _ _ (by decide : "type" ≠ "area"), set_other _ _ _ _ (by decide : "shape" ≠ "area")]
  have b2 : eqBase P order t.d m.d = eqBase P order t.d s.d := by
    show eqBase P order t.d (s.d.set "area" _) = _
    unfold eqBase shapesDiffer
    rw [c2, set_other _ _ _ _ (by decide : "type" ≠ "area"), set_other _ _ _ _ (by decide : "shape" ≠ "area")]
  have hmk : m.kind = s.kind := rfl
  unfold eq
  rw [hmk]
  constructor
  · rcases hk with hk | hk <;> rw [hk] <;> simp only
    · rw [eqLL_global P order m t _ _ _ _ _ _ _ _ hma ha' gm gt hside', eqLL_global P order s t _ _ _ _ _ _ _ _ ha ha' gs gt hside, b1, hshift]
    · rw [eqRGG_global P order m t _ _ _ _ _ _ _ _ hma ha' gm gt hside', eqRGG_global P order s t _ _ _ _ _ _ _ _ ha ha' gs gt hside, b1, hshift]
  · rcases ht with ht | ht <;> rw [ht] <;> simp only
    · rw [eqLL_global P order t m _ _ _ _ _ _ _ _ ha' hma gt gm hside3, eqLL_global P order t s _ _ _ _ _ _ _ _ ha' ha gt gs hside2, b2, hshift]
    · rw [eqRGG_global P order t m _ _ _ _ _ _ _ _ ha' hma gt gm hside3, eqRGG_global P order t s _ _ _ _ _ _ _ _ ha' ha gt gs hside2, b2, hshift]

/-- Whether a grid goes round the globe, when it is computed from the area, is not affected by whole turns. -/
theorem C35_global_shift (P : Py) (s : GS) (n w so e : ℚ) (j k : ℤ) (f : Option Bool) (ha : AreaNum s n w so e) :
    computeGlobalEw P (s.moved (.list [.flt n, .flt (w + 360 * j), .flt so, .flt (e + 360 * k)]) f) = computeGlobalEw P s := by
  set m := s.moved (.list [.flt n, .flt (w + 360 * j), .flt so, .flt (e + 360 * k)]) f with hm
  have hma : AreaNum m n (w + 360 * j) so (e + 360 * k) :=
    ⟨_, _, _, _, set_self s.d "area" (.list [.flt n, .flt (w + 360 * j), .flt so, .flt (e + 360 * k)]), rfl, rfl, rfl, rfl⟩
  obtain ⟨_, s1, _, s3⟩ := coord_of_area s n w so e ha
  obtain ⟨_, m1, _, m3⟩ := coord_of_area m _ _ _ _ hma
  have hg : m.d.item "grid" = s.d.item "grid" := item_set_other _ _ _ _ (by decide)
  have hd : dx P m = dx P s := by
    unfold dx rggInspect
    rw [hg]; rfl
  unfold computeGlobalEw
  simp only [s1, s3, m1, m3, bind, Except.bind, normaliseLon_shift, hd]

/-- At the seam the comparison jumps: west −1e-9 is refused where west 0 turned once is accepted. -/
theorem C35_seam_refuted (P : Py) (order : List String) (ho : Enumerates order) :
    ∃ s t m, fromDict P (fullSpec (.int 1) (.int 1) (.list [.int 181, .int 360]) (.int 90) (.int 0) (.int (-90)) (.int 359)) = .ok s ∧
      fromDict P (fullSpec (.int 1) (.int 1) (.list [.int 181, .int 360]) (.int 90) (.flt (-1 / 1000000000)) (.int (-90)) (.int 359)) = .ok t ∧
      fromDict P (fullSpec (.int 1) (.int 1) (.list [.int 181, .int 360]) (.int 90) (.int 360) (.int (-90)) (.int 719)) = .ok m ∧
      eq P order s t = .ok true ∧ eq P order m t ≠ .ok true := by
  obtain ⟨s, hs, hk, gs, hg, hsh, ha, hf⟩ := fromDict_full P (.int 1) (.int 1) (.list [.int 181, .int 360]) (.int 90) (.int 0) (.int (-90)) (.int 359)
  obtain ⟨t, ht, hk', gt, hg', hsh', ha', hf'⟩ := fromDict_full P (.int 1) (.int 1) (.list [.int 181, .int 360]) (.int 90) (.flt (-1 / 1000000000)) (.int (-90)) (.int 359)
  obtain ⟨m, hm, hk2, gm, hg2, hsh2, ha2, hf2⟩ := fromDict_full P (.int 1) (.int 1) (.list [.int 181, .int 360]) (.int 90) (.int 360) (.int (-90)) (.int 719)
  have hst := fromDict_type P _ s hs
  have htt := fromDict_type P _ t ht
  rw [hk] at hst
  rw [hk'] at htt
  refine ⟨s, t, m, hs, ht, hm, ?_, ?_⟩
  · unfold eq
    rw [hk]
    simp only
    rw [eqLL_true]
    have hac : AreaNum s 90 0 (-90) 359 := ⟨_, _, _, _, ha, by simp [V.num], by simp [V.num], by simp [V.num], by simp [V.num]⟩
    have hat : AreaNum t 90 (-1 / 1000000000) (-90) 359 := ⟨_, _, _, _, ha', by simp [V.num], by simp [V.num], by simp [V.num], by simp [V.num]⟩
    obtain ⟨sa, ta, r, e1, e2, hr, hri⟩ := sameArea_of_nums DEGREE_EPS s t _ _ _ _ _ _ _ _ hac hat
    refine ⟨?_, sa, ta, e1, e2, Or.inl ?_⟩
    · rw [eqBase_ll P order ho s t _ _ _ _ hst htt hg hg' hf hf' (by rw [hsh, hsh']; intro a b h h'; cases h; cases h'; exact pyEq_refl _)]
      rw [allclose_pair]
      exact ⟨1, 1, 1, 1, by simp [V.num], by simp [V.num], by simp [V.num], by simp [V.num], by simp [close_refl]⟩
    · rw [hr, hri.2]
      norm_num [DEGREE_EPS]
  · have hat : AreaNum t 90 (-1 / 1000000000) (-90) 359 := ⟨_, _, _, _, ha', by simp [V.num], by simp [V.num], by simp [V.num], by simp [V.num]⟩
    have ham : AreaNum m 90 360 (-90) 719 := ⟨_, _, _, _, ha2, by simp [V.num], by simp [V.num], by simp [V.num], by simp [V.num]⟩
    intro h
    unfold eq at h
    rw [hk2] at h
    simp only at h
    rw [eqLL_true] at h
    obtain ⟨_, sa, ta, e1, e2, h⟩ := h
    obtain ⟨sa', ta', r, e1', e2', hr, hri⟩ := sameArea_of_nums DEGREE_EPS m t _ _ _ _ _ _ _ _ ham hat
    rw [e1] at e1'; cases e1'
    rw [e2] at e2'; cases e2'
    rcases h with h | ⟨_, _, _, _, _, _, _, _, _, _, _, _, _, x, x', c7, c8, c9⟩
    · rw [hr] at h; cases h
      have := (hri.1 rfl).2.1
      norm_num [DEGREE_EPS] at this
    · rw [(coord_of_area m _ _ _ _ ham).2.1] at c7
      rw [(coord_of_area t _ _ _ _ hat).2.1] at c8
      cases c7; cases c8
      rw [(C35_normalise 360 0 0).2 ⟨⟨-1, by norm_num⟩, by norm_num, by norm_num⟩,
        (C35_normalise (-1 / 1000000000) 0 (359999999999 / 1000000000)).2 ⟨⟨1, by norm_num⟩, by norm_num, by norm_num⟩] at c9
      norm_num [DEGREE_EPS] at c9

/-! ## C79 computed globality -/

/-- `is_global_ew` when it has to be computed: true iff west and east meet after a whole turn, or one increment short of it. -/
theorem C79_computed (P : Py) (s : GS) (w e x d : ℚ) (hw : coord s 1 = .ok w) (he : coord s 3 = .ok e) (hx : dx P s = .ok x)
    (hg : s.gew = none) (hd : Eastward w e d) :
    isGlobalEw P s = .ok (decide (d < 1 / 100000000 ∨ 360 - d < 1 / 100000000 ∨ |360 - d - x| < 1 / 100000000)) := by
  obtain ⟨⟨j, hj⟩, a1, a2⟩ := normaliseLon_spec w 0
  obtain ⟨⟨k, hk⟩, b1, b2⟩ := normaliseLon_spec e 0
  obtain ⟨hd1, hd2, hd3⟩ := hd
  have key : (if normaliseLon e 0 < normaliseLon w 0 then normaliseLon e 0 + FULL_GLOBE else normaliseLon e 0) - normaliseLon w 0 = d := by
    have hc : ∀ m : ℤ, Congruent (e - w) (normaliseLon e 0 - normaliseLon w 0 + 360 * m) := by
      intro m
      refine ⟨k - j + m, ?_⟩
      rw [hj, hk]; push_cast; ring
    split
    · rename_i hlt
      have h1 : Congruent (e - w) (normaliseLon e 0 + FULL_GLOBE - normaliseLon w 0) := by
        have := hc 1
        convert this using 1
        simp only [FULL_GLOBE]; push_cast; ring
      refine congruent_unique (m := 0) h1 hd1 ?_ ?_
      · refine ⟨?_, ?_⟩ <;> simp only [FULL_GLOBE] <;> linarith
      · exact ⟨hd2, by linarith⟩
    · rename_i hge
      have h1 : Congruent (e - w) (normaliseLon e 0 - normaliseLon w 0) := by
        have := hc 0
        simpa using this
      refine congruent_unique (m := 0) h1 hd1 ?_ ?_
      · refine ⟨?_, ?_⟩ <;> linarith
      · exact ⟨hd2, by linarith⟩
  unfold isGlobalEw computeGlobalEw
  rw [hg]
  simp only [hw, he, hx, bind, Except.bind, pure, Except.pure]
  rw [key]
  have e1 : |d| = d := abs_of_nonneg hd2
  have e2 : |d - FULL_GLOBE| = 360 - d := by
    simp only [FULL_GLOBE]; rw [abs_of_neg (by linarith)]; ring
  rw [e1, e2]
  show _ = Except.ok (decide (d < FULL_GLOBE_EPS ∨ 360 - d < FULL_GLOBE_EPS ∨ |FULL_GLOBE - d - x| < FULL_GLOBE_EPS))
  by_cases c1 : d < FULL_GLOBE_EPS
  · rw [if_pos c1]; exact congrArg _ (decide_eq_true (Or.inl c1)).symm
  · by_cases c2 : 360 - d < FULL_GLOBE_EPS
    · rw [if_neg c1, if_pos c2]; exact congrArg _ (decide_eq_true (Or.inr (Or.inl c2))).symm
    · rw [if_neg c1, if_neg c2]
      refine congrArg _ (decide_eq_decide.2 ⟨fun h => Or.inr (Or.inr h), fun h => ?_⟩)
      rcases h with h | h | h
      · exact absurd h c1
      · exact absurd h c2
      · exact h

/-- The increment used: the one given for lat-lon grids; for reduced Gaussian grids that of the widest latitude row, with
4N points, or 4N + 16 on octahedral grids. -/
theorem C79_increment (P : Py) (s : GS) :
    (∀ x y q, s.kind = .ll → s.d "grid" = some (.list [x, y]) → x.num = some q → dx P s = .ok |q|) ∧
    (∀ g (o : Char) r n, s.kind = .rgg → s.d "grid" = some (.str g) → Supported P .rgg (.str g) → P.upper g = o :: r →
      P.pyInt r = some n → 1 ≤ n → n ≤ 1000000 → dx P s = .ok (360 / (if o = 'O' then 4 * n + 16 else 4 * n))) := by
  refine ⟨?_, ?_⟩
  · intro x y q hk hg hq
    simp [dx, hk, Dict.item, hg, V.item, V.seq, numM, hq, bind, Except.bind, pure, Except.pure]
  · intro g o r n hk hg hs hu hp h1 h2
    have hm : rggMatch P g = true := by
      have := (typeMatch_iff P .rgg (.str g)).2 hs
      exact this
    have h3 : ¬ (n < 1 ∨ n > 1000000) := by omega
    have h4 : (decide (n < 1) || decide (n > 1000000)) = false := by simp; omega
    have hi : rggInspect P s = .ok (o == 'O', n) := by
      unfold rggInspect
      simp [Dict.item, hg, hm, hu, hp, bind, Except.bind]
      omega
    unfold dx
    rw [hk]
    simp only [hi, bind, Except.bind, pure, Except.pure, FULL_GLOBE]
    by_cases ho : o = 'O' <;> simp [ho]

example : Eastward (-180) 179 359 ∧ Eastward 350 10 20 ∧ Eastward 0 360 0 := by
  refine ⟨⟨⟨0, by norm_num⟩, by norm_num, by norm_num⟩, ⟨⟨1, by norm_num⟩, by norm_num, by norm_num⟩,
    ⟨⟨-1, by norm_num⟩, by norm_num, by norm_num⟩⟩

/-! ## C36 listed global grids -/

/-- The north of a global grid of resolution `d`: the largest multiple of `d` up to 90; its east: the last multiple below 360. -/
def north (d : ℚ) : ℚ := d * ⌊90 / d⌋
def east (d : ℚ) : ℚ := d * (⌈360 / d⌉ - 1)

theorem table_ok : ∀ d ∈ LISTED, (GLOBAL_AREAS.find? (fun e => e.1 == d && e.1 == d)) = some (d, north d, east d) := by
  decide +kernel

theorem table_apart : ∀ d ∈ LISTED, ∀ d' ∈ LISTED, d ≠ d' → close (1 / 1000000) d d' = false := by
  decide +kernel

theorem globalArea_listed (x y : V) (d : ℚ) (hd : d ∈ LISTED) (hx : x.num = some d) (hy : y.num = some d) :
    globalArea x y = .ok (.list [.flt (north d), .int 0, .flt (-north d), .flt (east d)]) := by
  have := table_ok d hd
  unfold globalArea
  cases x <;> simp only [V.num, Option.some.injEq, reduceCtorEq] at hx <;>
    cases y <;> simp only [V.num, Option.some.injEq, reduceCtorEq] at hy <;>
    simp only [V.num, hx, hy, this]

theorem fromDict_short (P : Py) (x y : V) (d : ℚ) (hd : d ∈ LISTED) (hx : x.num = some d) (hy : y.num = some d) :
    ∃ g, fromDict P (shortSpec x y) = .ok g ∧ g.kind = .ll ∧ g.gew = some true ∧
      g.d "grid" = some (.list [x, y]) ∧ g.d "shape" = none ∧ g.d "global" = some (.int 1) ∧
      g.d "area" = some (.list [.flt (north d), .int 0, .flt (-north d), .flt (east d)]) ∧
      (∀ k ∈ ["i_scans_negatively", "j_points_consecutive", "j_scans_positively"], g.d k = some (.int 0)) := by
  have hi : infer P TYPES (normalise (withDefaults (shortSpec x y))) = .ok .ll := by
    rw [C30_inferred_iff P _ (.list [x, y]) .ll (by simp [shortSpec]) (Or.inl (by simp [shortSpec]))]
    exact .ll x y
  have hga := globalArea_listed x y d hd hx hy
  set b := (normalise (withDefaults (shortSpec x y))).set "type" (.str Kind.ll.name) with hb
  have b1 : b "global" = none := by simp [hb, Dict.set, normalise, withDefaults, shortSpec, DEFAULTS]
  have b2 : b "area" = none := by simp [hb, Dict.set, normalise, withDefaults, shortSpec, DEFAULTS]
  have b3 : b "grid" = some (.list [x, y]) := by simp [hb, Dict.set, normalise, withDefaults, shortSpec, tupleToList]
  have b4 : b "shape" = none := by simp [hb, Dict.set, normalise, withDefaults, shortSpec, DEFAULTS]
  have b5 : ∀ k ∈ ["i_scans_negatively", "j_points_consecutive", "j_scans_positively"], b k = some (.int 0) := by
    intro k hk
    simp only [List.mem_cons, List.not_mem_nil, or_false] at hk
    rcases hk with rfl | rfl | rfl <;> simp [hb, Dict.set, normalise, withDefaults, shortSpec, tupleToList, DEFAULTS]
  set a := V.list [.flt (north d), .int 0, .flt (-north d), .flt (east d)] with hadef
  refine ⟨⟨.ll, (b.set "global" (.int 1)).set "area" a, some true⟩, ?_, rfl, rfl, ?_, ?_, ?_, ?_, ?_⟩
  · rw [fromDict_ok]
    refine ⟨.ll, hi, ?_⟩
    have hl : llArea b = .ok ((b.set "global" (.int 1)).set "area" a) := by
      unfold llArea
      simp only [b1, b2, Option.isNone_none, Bool.and_self, if_true, bind_ok, pure_ok, item_ok]
      exact ⟨_, b3, x, rfl, y, rfl, a, hga, rfl⟩
    simp only [construct, bind_ok, pure_ok]
    refine ⟨_, hl, some true, ?_, ?_⟩
    · rw [setDefault_of_some _ _ _ (by simp [Dict.set])]
      simp [flagGlobal, Dict.set, V.truthy]
    · rw [setDefault_of_some _ _ _ (by simp [Dict.set])]
  · simpa [Dict.set] using b3
  · simpa [Dict.set] using b4
  · simp [Dict.set]
  · simp [Dict.set]
  · intro k hk
    have := b5 k hk
    simp only [List.mem_cons, List.not_mem_nil, or_false] at hk
    rcases hk with rfl | rfl | rfl <;> simpa [Dict.set] using this

/-- The short gridspec of a listed resolution stands for the global grid of that resolution. -/
theorem C36_short_is_global (P : Py) (x y : V) (d : ℚ) (hd : d ∈ LISTED) (hx : x.num = some d) (hy : y.num = some d) :
    ∃ g, fromDict P (shortSpec x y) = .ok g ∧ g.kind = .ll ∧ g.d "global" = some (.int 1) ∧
      AreaNum g (north d) 0 (-north d) (east d) := by
  obtain ⟨g, h1, h2, _, _, _, h3, h4, _⟩ := fromDict_short P x y d hd hx hy
  exact ⟨g, h1, h2, h3, _, _, _, _, h4, rfl, by simp [V.num], rfl, rfl⟩

/-- It matches the inventory's full description, in both directions, however the numbers are written. -/
theorem C36_short_matches_full (P : Py) (order : List String) (ho : Enumerates order) (d : ℚ) (hd : d ∈ LISTED)
    (x y x' y' shape n w s e : V) (hx : x.num = some d) (hy : y.num = some d) (hx' : x'.num = some d) (hy' : y'.num = some d)
    (hn : n.num = some (north d)) (hw : w.num = some 0) (hs : s.num = some (-north d)) (he : e.num = some (east d)) :
    ∃ g f, fromDict P (shortSpec x y) = .ok g ∧ fromDict P (fullSpec x' y' shape n w s e) = .ok f ∧
      eq P order g f = .ok true ∧ eq P order f g = .ok true := by
  obtain ⟨g, hg, gk, gw, gg, gsh, _, ga, gf⟩ := fromDict_short P x y d hd hx hy
  obtain ⟨f, hf, fk, fw, fg, fsh, fa, ff⟩ := fromDict_full P x' y' shape n w s e
  have hgt := fromDict_type P _ g hg
  have hft := fromDict_type P _ f hf
  rw [gk] at hgt
  rw [fk] at hft
  have ag : AreaNum g (north d) 0 (-north d) (east d) := ⟨_, _, _, _, ga, rfl, by simp [V.num], rfl, rfl⟩
  have af : AreaNum f (north d) 0 (-north d) (east d) := ⟨_, _, _, _, fa, hn, hw, hs, he⟩
  have wg : isGlobalEw P g = .ok true := by unfold isGlobalEw; rw [gw]
  have wf : isGlobalEw P f = .ok true := by unfold isGlobalEw; rw [fw]
  have side : SameSide 0 0 := by simp [SameSide]
  refine ⟨g, f, hg, hf, ?_, ?_⟩
  · unfold eq
    rw [gk]
    simp only
    rw [eqLL_global P order g f _ _ _ _ _ _ _ _ ag af wg wf side]
    refine ⟨?_, by norm_num [DEGREE_EPS], by norm_num [DEGREE_EPS], by norm_num [DEGREE_EPS]⟩
    rw [eqBase_ll P order ho g f _ _ _ _ hgt hft gg fg gf ff (by rw [gsh]; intro a b h; cases h)]
    rw [allclose_pair]
    exact ⟨d, d, d, d, hx, hy, hx', hy', by simp [close_refl]⟩
  · unfold eq
    rw [fk]
    simp only
    rw [eqLL_global P order f g _ _ _ _ _ _ _ _ af ag wf wg side]
    refine ⟨?_, by norm_num [DEGREE_EPS], by norm_num [DEGREE_EPS], by norm_num [DEGREE_EPS]⟩
    rw [eqBase_ll P order ho f g _ _ _ _ hft hgt fg gg ff gf (by rw [gsh]; intro a b _ h; cases h)]
    rw [allclose_pair]
    exact ⟨d, d, d, d, hx', hy', hx, hy, by simp [close_refl]⟩

theorem eq_ll_grids (P : Py) (order : List String) (ho : Enumerates order) (s t : GS) (x y x' y' : V)
    (hg : s.d "grid" = some (.list [x, y])) (hg' : t.d "grid" = some (.list [x', y']))
    (h : eq P order s t = .ok true) : allclose [x, y] [x', y'] = .ok true := by
  have hb := eq_true_base P order s t h
  rw [eqBase_true] at hb
  obtain ⟨a, b, e1, e2, e3⟩ := hb.2.1 "grid" ((ho _).2 (by decide))
  rw [hg] at e1; cases e1
  rw [hg'] at e2; cases e2
  exact e3

/-- Two different listed resolutions never match, whatever else the two dicts say. -/
theorem C36_resolutions_apart (P : Py) (order : List String) (ho : Enumerates order) (s t : GS) (x y x' y' : V)
    (d d' : ℚ) (hd : d ∈ LISTED) (hd' : d' ∈ LISTED) (hne : d ≠ d')
    (hg : s.d "grid" = some (.list [x, y])) (hg' : t.d "grid" = some (.list [x', y']))
    (hx : x.num = some d) (hx' : x'.num = some d') : eq P order s t ≠ .ok true := by
  intro h
  have := eq_ll_grids P order ho s t x y x' y' hg hg' h
  rw [allclose_pair] at this
  obtain ⟨p, q, p', q', h1, h2, h3, h4, h5⟩ := this
  rw [hx] at h1; cases h1
  rw [hx'] at h3; cases h3
  rw [table_apart d hd d' hd' hne] at h5
  cases h5

example : (7 / 10 : ℚ) ∈ LISTED ∧ north (7 / 10) = 896 / 10 ∧ east (7 / 10) = 3598 / 10 := by decide +kernel

/-! ## C37 HEALPix orderings -/

theorem healpix_order_key (P : Py) (d : Dict) (s : GS) (h : fromDict P d = .ok s) (hk : s.kind = .healpix) :
    (s.d "order").getD (.str "ring".toList) = tupleToList (askedOrder d) := by
  obtain ⟨k, hi, hc⟩ := (fromDict_ok P d s).1 h
  have := construct_kind _ _ _ hc
  rw [hk] at this; subst this
  simp only [construct, ok_ok] at hc
  subst hc
  set b := (normalise (withDefaults d)).set "type" (.str Kind.healpix.name) with hb
  have b1 : b "ordering" = (d "ordering").map tupleToList := by
    simp only [hb, Dict.set, normalise, withDefaults]
    cases d "ordering" <;> simp [DEFAULTS]
  have b2 : b "order" = (d "order").map tupleToList := by
    simp only [hb, Dict.set, normalise, withDefaults]
    cases d "order" <;> simp [DEFAULTS]
  have hsd : ∀ d : Dict, (d.setDefault "area" DEFAULT_AREA) "order" = d "order" := by
    intro d; unfold Dict.setDefault; split
    · rfl
    · simp [Dict.set]
  simp only [hsd, b1]
  unfold askedOrder
  cases h1 : d "ordering" with
  | some v => simp [Dict.set]
  | none =>
    simp only [Option.map_none, b2]
    cases h2 : d "order" with
    | some v => rfl
    | none => rfl

theorem healpixOrder_asked (P : Py) (d : Dict) (s : GS) (o : List Char) (h : fromDict P d = .ok s) (hk : s.kind = .healpix)
    (ho : healpixOrder P s = .ok o) : askedOrder d = .str o ∧ (o = "ring".toList ∨ o = "nested".toList) := by
  have key := healpix_order_key P d s h hk
  simp only [healpixOrder, bind_ok] at ho
  obtain ⟨g, _, ho⟩ := ho
  cases g <;> simp only [reduceCtorEq] at ho
  simp only [ite_ok, reduceCtorEq, and_false, false_or] at ho
  obtain ⟨_, ho⟩ := ho
  split at ho
  · cases ho
  · split at ho
    · rename_i o' ho'
      rw [key] at ho'
      simp only [ite_ok, reduceCtorEq, and_false, false_or, ok_ok] at ho
      obtain ⟨h1, _, rfl⟩ := ho
      refine ⟨?_, by simp at h1 ⊢; grind⟩
      cases hv : askedOrder d <;> rw [hv] at ho' <;> simp_all [tupleToList]
    · cases ho

/-- Matching HEALPix grids ask for one and the same of the two orderings, where `ordering` and `order` are the same option and
no order means ring. -/
theorem C37_orderings_apart (P : Py) (order : List String) (d e : Dict) (s t : GS) (hs : fromDict P d = .ok s)
    (ht : fromDict P e = .ok t) (hk : s.kind = .healpix) (h : eq P order s t = .ok true) :
    (askedOrder d = .str "ring".toList ∧ askedOrder e = .str "ring".toList) ∨
    (askedOrder d = .str "nested".toList ∧ askedOrder e = .str "nested".toList) := by
  have hkt := eq_kinds P order d e s t hs ht (eq_true_base P order s t h)
  unfold eq at h
  rw [hk] at h hkt
  simp only at h
  rw [eqHealpix_true] at h
  obtain ⟨_, o, h1, h2⟩ := h
  obtain ⟨a1, a2⟩ := healpixOrder_asked P d s o hs hk h1
  obtain ⟨b1, _⟩ := healpixOrder_asked P e t o ht hkt.symm h2
  rcases a2 with rfl | rfl
  · exact Or.inl ⟨a1, b1⟩
  · exact Or.inr ⟨a1, b1⟩

/-- An order other than the two raises ValueError as soon as it is compared with a grid of the same name, flags and shape. -/
theorem C37_other_order_refused (P : Py) (order : List String) (d : Dict) (s t : GS) (hs : fromDict P d = .ok s)
    (hk : s.kind = .healpix) (hb : eqBase P order s.d t.d = .ok true) (hg : ∃ g, s.d "grid" = some (.str g))
    (hn : askedOrder d ≠ .str "ring".toList ∧ askedOrder d ≠ .str "nested".toList) : eq P order s t = .error .value := by
  have key := healpix_order_key P d s hs hk
  obtain ⟨g, hg⟩ := hg
  have ho : healpixOrder P s = .error .value := by
    unfold healpixOrder
    simp only [(item_ok _ _ _).2 hg, bind, Except.bind]
    split
    · rfl
    · split
      · rfl
      · rw [key]
        cases hv : askedOrder d <;> simp only [tupleToList]
        rename_i o
        rw [if_pos]
        simp only [Bool.not_eq_true', Bool.or_eq_false_iff, beq_eq_false_iff_ne]
        rw [hv] at hn
        exact ⟨fun e => hn.1 (by rw [e]), fun e => hn.2 (by rw [e])⟩
  unfold eq
  rw [hk]
  simp [eqHealpix, hb, ho, bind, Except.bind]

/-- Two descriptions of one HEALPix grid with the same valid ordering match, whichever of the keys names the ordering. -/
theorem C37_same_ordering_matches (P : Py) (order : List String) (d e : Dict) (s t : GS) (hs : fromDict P d = .ok s)
    (ht : fromDict P e = .ok t) (hk : s.kind = .healpix) (hb : eqBase P order s.d t.d = .ok true)
    (o : List Char) (ho : o = "ring".toList ∨ o = "nested".toList) (hd : askedOrder d = .str o) (he : askedOrder e = .str o)
    (c c' x x' : Char) (r r' : List Char) (n n' : Int)
    (hg : s.d "grid" = some (.str (c :: x :: r))) (hc : c ∈ ['H', 'h']) (hx : P.C.isDigit x = true)
    (hn : P.pyInt (x :: r) = some n) (hn1 : 1 ≤ n) (hn2 : n ≤ 1000000)
    (hg' : t.d "grid" = some (.str (c' :: x' :: r'))) (hc' : c' ∈ ['H', 'h']) (hx' : P.C.isDigit x' = true)
    (hn' : P.pyInt (x' :: r') = some n') (hn1' : 1 ≤ n') (hn2' : n' ≤ 1000000) : eq P order s t = .ok true := by
  have hkt := eq_kinds P order d e s t hs ht hb
  rw [hk] at hkt
  have k1 := healpix_order_key P d s hs hk
  have k2 := healpix_order_key P e t ht hkt.symm
  rw [hd] at k1
  rw [he] at k2
  have o1 := healpixOrder_of_wf P s c x r n _ hg hc hx hn hn1 hn2 k1
  have o2 := healpixOrder_of_wf P t c' x' r' n' _ hg' hc' hx' hn' hn1' hn2' k2
  simp only [tupleToList, ho, if_true] at o1 o2
  unfold eq
  rw [hk]
  simp only
  rw [eqHealpix_true]
  exact ⟨hb, o, o1, o2⟩

/-! ## C38 what never matches -/

/-- Different types: the answer is false. -/
theorem C38_types (P : Py) (order : List String) (d e : Dict) (s t : GS) (hs : fromDict P d = .ok s)
    (ht : fromDict P e = .ok t) (hk : s.kind ≠ t.kind) : eq P order s t = .ok false := by
  have hb : eqBase P order s.d t.d = .ok false := by
    unfold eqBase
    rw [fromDict_type P d s hs, fromDict_type P e t ht]
    have : pyEq (.str s.kind.name) (.str t.kind.name) = false := by
      rw [Bool.eq_false_iff]
      intro h
      simp only [pyEq, beq_iff_eq] at h
      exact hk (kind_name_inj _ _ h)
    simp [this]
  unfold eq
  cases s.kind <;> simp [eqLL, eqRGG, eqHealpix, hb, bind, Except.bind, pure, Except.pure]

/-- What a user's dict says for a key, with the defaults. -/
def asked (d : Dict) (k : String) : Option V := match d k with
  | some v => some (asList v)
  | none => if k ∈ ["i_scans_negatively", "j_points_consecutive", "j_scans_positively"] then some (.int 0) else none

theorem asked_eq (P : Py) (d : Dict) (s : GS) (h : fromDict P d = .ok s) (k : String) (hu : Untouched k) (ht : k ≠ "type") :
    s.d k = asked d k := by
  rw [fromDict_untouched P d s h k hu ht]
  unfold asked normalise withDefaults
  cases d k with
  | some v => simp [tupleToList_eq]
  | none =>
    simp only [DEFAULTS, List.mem_cons, List.not_mem_nil, or_false]
    split <;> rfl

/-- Different scanning flags never match. -/
theorem C38_flags (P : Py) (order : List String) (ho : Enumerates order) (d e : Dict) (s t : GS) (hs : fromDict P d = .ok s)
    (ht : fromDict P e = .ok t) (k : String) (hk : k ∈ ["i_scans_negatively", "j_points_consecutive", "j_scans_positively"])
    (i j : Int) (hi : asked d k = some (.int i)) (hj : asked e k = some (.int j)) (hne : i ≠ j) :
    eq P order s t ≠ .ok true := by
  intro h
  have hb := eq_true_base P order s t h
  rw [eqBase_true] at hb
  have hkk : k ∈ COMPARE_KEYS ∧ Untouched k ∧ k ≠ "type" ∧ k ≠ "grid" := by
    simp only [List.mem_cons, List.not_mem_nil, or_false] at hk
    rcases hk with rfl | rfl | rfl <;> exact ⟨by decide, by decide, by decide, by decide⟩
  obtain ⟨a, b, e1, e2, e3⟩ := hb.2.1 k ((ho _).2 hkk.1)
  rw [asked_eq P d s hs k hkk.2.1 hkk.2.2.1, hi] at e1; cases e1
  rw [asked_eq P e t ht k hkk.2.1 hkk.2.2.1, hj] at e2; cases e2
  simp only [compareKey, V.isInt, Bool.and_self, if_true, Except.ok.injEq, pyEq, V.num, beq_iff_eq] at e3
  exact hne (by exact_mod_cast e3)

/-- Names that differ beyond case never match. -/
theorem C38_names (P : Py) (order : List String) (ho : Enumerates order) (d e : Dict) (s t : GS) (hs : fromDict P d = .ok s)
    (ht : fromDict P e = .ok t) (g g' : List Char) (hg : d "grid" = some (.str g)) (hg' : e "grid" = some (.str g'))
    (hne : P.lower g ≠ P.lower g') : eq P order s t ≠ .ok true := by
  intro h
  have hb := eq_true_base P order s t h
  rw [eqBase_true] at hb
  obtain ⟨a, b, e1, e2, e3⟩ := hb.2.1 "grid" ((ho _).2 (by decide))
  rw [asked_eq P d s hs _ (by decide) (by decide)] at e1
  rw [asked_eq P e t ht _ (by decide) (by decide)] at e2
  simp only [asked, hg, hg', asList, Option.some.injEq] at e1 e2
  subst e1 e2
  simp only [compareKey, if_true, Except.ok.injEq, beq_iff_eq] at e3
  exact hne e3

/-- Lat-lon increments that differ by more than the tolerance never match. -/
theorem C38_increments (P : Py) (order : List String) (ho : Enumerates order) (d e : Dict) (s t : GS) (hs : fromDict P d = .ok s)
    (ht : fromDict P e = .ok t) (x y x' y' : V) (p q p' q' : ℚ) (hg : d "grid" = some (.list [x, y])) (hg' : e "grid" = some (.list [x', y']))
    (hx : x.num = some p) (hy : y.num = some q) (hx' : x'.num = some p') (hy' : y'.num = some q')
    (hne : |p - p'| > 1 / 1000000 + 1 / 100000 * |p'| ∨ |q - q'| > 1 / 1000000 + 1 / 100000 * |q'|) :
    eq P order s t ≠ .ok true := by
  intro h
  have h1 : s.d "grid" = some (.list [x, y]) := by rw [asked_eq P d s hs _ (by decide) (by decide)]; simp [asked, hg, asList]
  have h2 : t.d "grid" = some (.list [x', y']) := by rw [asked_eq P e t ht _ (by decide) (by decide)]; simp [asked, hg', asList]
  have := eq_ll_grids P order ho s t x y x' y' h1 h2 h
  rw [allclose_pair] at this
  obtain ⟨p₁, q₁, p₂, q₂, a1, a2, a3, a4, a5⟩ := this
  rw [hx] at a1; cases a1
  rw [hy] at a2; cases a2
  rw [hx'] at a3; cases a3
  rw [hy'] at a4; cases a4
  have a5 := a5.symm
  simp only [Bool.and_eq_true, close, decide_eq_true_iff] at a5
  rcases hne with h | h
  · linarith [a5.1]
  · linarith [a5.2]

/-- Different shapes never match. -/
theorem C38_shapes (P : Py) (order : List String) (d e : Dict) (s t : GS) (hs : fromDict P d = .ok s)
    (ht : fromDict P e = .ok t) (a b : V) (ha : d "shape" = some a) (hb : e "shape" = some b)
    (hne : ¬Equal (asList a) (asList b)) : eq P order s t ≠ .ok true := by
  intro h
  rw [← pyEq_false_iff] at hne
  have hbase := eq_true_base P order s t h
  rw [eqBase_true] at hbase
  have := hbase.2.2
  unfold shapesDiffer at this
  rw [asked_eq P d s hs _ (by decide) (by decide), asked_eq P e t ht _ (by decide) (by decide)] at this
  simp [asked, ha, hb, hne] at this

/-! ## C76 latitudes -/

/-- Matching lat-lon grids start and end at the same latitudes. -/
theorem C76_latlon_partial (P : Py) (order : List String) (s t : GS) (hk : s.kind = .ll) (n w so e n' w' so' e' : ℚ)
    (hs : AreaNum s n w so e) (ht : AreaNum t n' w' so' e') (h : eq P order s t = .ok true) :
    |n - n'| < 1 / 100000000 ∧ |so - so'| < 1 / 100000000 := by
  unfold eq at h
  rw [hk] at h
  simp only at h
  rw [eqLL_true] at h
  obtain ⟨_, sa, ta, e1, e2, h⟩ := h
  obtain ⟨sa', ta', r, e1', e2', hr, hri⟩ := sameArea_of_nums DEGREE_EPS s t _ _ _ _ _ _ _ _ hs ht
  rw [e1] at e1'; cases e1'
  rw [e2] at e2'; cases e2'
  obtain ⟨s0, _, s2, _⟩ := coord_of_area s n w so e hs
  obtain ⟨t0, _, t2, _⟩ := coord_of_area t n' w' so' e' ht
  rcases h with h | ⟨_, sn, tn, ss, ts, c1, c2, c3, c4, c5, c6, _⟩
  · rw [hr] at h; cases h
    have := hri.1 rfl
    exact ⟨this.1, this.2.2.1⟩
  · rw [s0] at c1; rw [t0] at c2; rw [s2] at c3; rw [t2] at c4
    cases c1; cases c2; cases c3; cases c4
    exact ⟨c5, c6⟩

/-- Matching reduced Gaussian grids start and end at the same latitudes, unless both go all the way round. -/
theorem C76_reduced_partial (P : Py) (order : List String) (s t : GS) (hk : s.kind = .rgg) (n w so e n' w' so' e' : ℚ)
    (hs : AreaNum s n w so e) (ht : AreaNum t n' w' so' e') (h : eq P order s t = .ok true) :
    (|n - n'| < 12 / 100 ∧ |so - so'| < 12 / 100 ∧ |w - w'| < 12 / 100 ∧ |e - e'| < 12 / 100) ∨
    (isGlobalEw P s = .ok true ∧ isGlobalEw P t = .ok true) := by
  unfold eq at h
  rw [hk] at h
  simp only at h
  rw [eqRGG_true] at h
  obtain ⟨_, sa, ta, e1, e2, h⟩ := h
  obtain ⟨sa', ta', r, e1', e2', hr, hri⟩ := sameArea_of_nums RGG_EPS s t _ _ _ _ _ _ _ _ hs ht
  rw [e1] at e1'; cases e1'
  rw [e2] at e2'; cases e2'
  rcases h with h | ⟨_, h1, h2, _⟩
  · rw [hr] at h; cases h
    have := hri.1 rfl
    exact Or.inl ⟨this.1, this.2.2.1, this.2.1, this.2.2.2⟩
  · exact Or.inr ⟨h1, h2⟩

/-- Two reduced Gaussian grids that both go all the way round are compared without their latitudes: whatever these are,
only the rest of the description and the western limits decide. -/
theorem C76_latitudes_ignored (P : Py) (order : List String) (s t s' t' : GS) (n w so e n' w' so' e' m o m' o' : ℚ)
    (hk : s.kind = .rgg) (hk' : s'.kind = .rgg)
    (hs : AreaNum s n w so e) (ht : AreaNum t n' w' so' e') (hs' : AreaNum s' m w o e) (ht' : AreaNum t' m' w' o' e')
    (gs : isGlobalEw P s = .ok true) (gt : isGlobalEw P t = .ok true) (gs' : isGlobalEw P s' = .ok true) (gt' : isGlobalEw P t' = .ok true)
    (hb : ∀ k, k ≠ "area" → s.d k = s'.d k) (hb' : ∀ k, k ≠ "area" → t.d k = t'.d k) (side : SameSide w w')
    (ho : Enumerates order) : eq P order s t = .ok true ↔ eq P order s' t' = .ok true := by
  have e1 : eq P order s t = eqRGG P order s t := by unfold eq; rw [hk]
  have e2 : eq P order s' t' = eqRGG P order s' t' := by unfold eq; rw [hk']
  rw [e1, e2, eqRGG_global P order s t _ _ _ _ _ _ _ _ hs ht gs gt side, eqRGG_global P order s' t' _ _ _ _ _ _ _ _ hs' ht' gs' gt' side,
    eqBase_true, eqBase_true]
  have ha : "area" ∉ order := fun h => absurd ((ho _).1 h) (by decide)
  have hne : ∀ k ∈ order, k ≠ "area" := fun k hk h => ha (h ▸ hk)
  have hsh : shapesDiffer s.d t.d = shapesDiffer s'.d t'.d := by
    unfold shapesDiffer
    rw [hb "shape" (by decide), hb' "shape" (by decide)]
  rw [hb "type" (by decide), hb' "type" (by decide), hsh]
  constructor
  · rintro ⟨⟨h1, h2, h3⟩, h4⟩
    exact ⟨⟨h1, fun k hk => by rw [← hb k (hne k hk), ← hb' k (hne k hk)]; exact h2 k hk, h3⟩, h4⟩
  · rintro ⟨⟨h1, h2, h3⟩, h4⟩
    exact ⟨⟨h1, fun k hk => by rw [hb k (hne k hk), hb' k (hne k hk)]; exact h2 k hk, h3⟩, h4⟩

/-- A reduced Gaussian grid restricted to a latitude band. -/
def band (g : String) (n s : ℤ) : Dict := fun k =>
  if k = "grid" then some (.str g.toList) else if k = "area" then some (.list [.int n, .int 0, .int s, .int 360]) else none

/-- A band of latitudes (here 60N–30N) matches the global reduced Gaussian grid. -/
theorem C76_refuted (P : Py) (order : List String) (ho : Enumerates order) :
    ∃ s t, fromDict P (band "O32" 60 30) = .ok s ∧ fromDict P (named "O32") = .ok t ∧ eq P order s t = .ok true := by
  have h3 : P.C.isDigit '3' = true := (P.C.ascii_digit 3 (by decide)).1
  have n0 : normaliseLon 0 0 = 0 := (C35_normalise 0 0 0).2 ⟨⟨0, by norm_num⟩, by norm_num, by norm_num⟩
  have n360 : normaliseLon 360 0 = 0 := (C35_normalise 360 0 0).2 ⟨⟨-1, by norm_num⟩, by norm_num, by norm_num⟩
  have hi : infer P TYPES (normalise (withDefaults (named "O32"))) = .ok .rgg := by
    rw [C30_inferred_iff P _ (.str "O32".toList) .rgg rfl (Or.inl rfl)]
    exact .rgg 'O' '3' ['2'] (by simp) h3
  have hi' : infer P TYPES (normalise (withDefaults (band "O32" 60 30))) = .ok .rgg := by
    rw [C30_inferred_iff P _ (.str "O32".toList) .rgg rfl (Or.inl rfl)]
    exact .rgg 'O' '3' ['2'] (by simp) h3
  have hc : construct .rgg ((normalise (withDefaults (named "O32"))).set "type" (.str Kind.rgg.name)) =
      .ok ⟨.rgg, (((normalise (withDefaults (named "O32"))).set "type" (.str Kind.rgg.name)).set "area" DEFAULT_AREA), some true⟩ := by
    simp [construct, flagGlobal, Dict.set, Dict.setDefault, normalise, withDefaults, named, DEFAULTS, V.truthy, bind, Except.bind,
      Dict.item, DEFAULT_AREA, sameArea, V.seq, sameAreaL, sameCoord, numM, V.num, pure, Except.pure, DEGREE_EPS]
  have hc' : construct .rgg ((normalise (withDefaults (band "O32" 60 30))).set "type" (.str Kind.rgg.name)) =
      .ok ⟨.rgg, ((normalise (withDefaults (band "O32" 60 30))).set "type" (.str Kind.rgg.name)), none⟩ := by
    simp [construct, flagGlobal, Dict.set, Dict.setDefault, normalise, withDefaults, band, DEFAULTS, V.truthy, bind, Except.bind,
      Dict.item, DEFAULT_AREA, sameArea, V.seq, sameAreaL, sameCoord, numM, V.num, pure, Except.pure, DEGREE_EPS, tupleToList]
    norm_num
  have hs := (fromDict_ok P _ _).2 ⟨.rgg, hi', hc'⟩
  have ht := (fromDict_ok P _ _).2 ⟨.rgg, hi, hc⟩
  refine ⟨_, _, hs, ht, ?_⟩
  set s : GS := ⟨.rgg, ((normalise (withDefaults (band "O32" 60 30))).set "type" (.str Kind.rgg.name)), none⟩ with hsd
  set t : GS := ⟨.rgg, (((normalise (withDefaults (named "O32"))).set "type" (.str Kind.rgg.name)).set "area" DEFAULT_AREA), some true⟩ with htd
  have as : AreaNum s 60 0 30 360 := ⟨.int 60, .int 0, .int 30, .int 360, rfl, by simp [V.num], by simp [V.num], by simp [V.num], by simp [V.num]⟩
  have at' : AreaNum t 90 0 (-90) 360 := ⟨.int 90, .int 0, .int (-90), .int 360, rfl, by simp [V.num], by simp [V.num], by simp [V.num], by simp [V.num]⟩
  have gs : isGlobalEw P s = .ok true := by
    obtain ⟨_, s1, _, s3⟩ := coord_of_area s _ _ _ _ as
    show computeGlobalEw P s = _
    simp [computeGlobalEw, s1, s3, bind, Except.bind, n0, n360, FULL_GLOBE_EPS, pure, Except.pure]
  show eqRGG P order s t = .ok true
  rw [eqRGG_global P order s t _ _ _ _ _ _ _ _ as at' gs rfl (by simp [SameSide])]
  refine ⟨?_, by norm_num [RGG_EPS]⟩
  rw [eqBase_true]
  refine ⟨pyEq_refl _, ?_, ?_⟩
  · intro k hk
    have hk := (ho k).1 hk
    simp only [COMPARE_KEYS, List.mem_cons, List.not_mem_nil, or_false] at hk
    rcases hk with rfl | rfl | rfl | rfl | rfl
    · exact ⟨_, _, rfl, rfl, compareKey_refl P _ _ (by intro _ xs h; cases h)⟩
    · exact ⟨_, _, rfl, rfl, compareKey_refl P _ _ (by intro _ xs h; cases h)⟩
    · exact ⟨.int 0, .int 0, rfl, rfl, compareKey_refl P _ _ (by intro _ xs h; cases h)⟩
    · exact ⟨.int 0, .int 0, rfl, rfl, compareKey_refl P _ _ (by intro _ xs h; cases h)⟩
    · exact ⟨.int 0, .int 0, rfl, rfl, compareKey_refl P _ _ (by intro _ xs h; cases h)⟩
  · rfl

/-- A reduced Gaussian grid restricted to a rectangle. -/
def patch (g : String) (n w s e : ℤ) : Dict := fun k =>
  if k = "grid" then some (.str g.toList) else if k = "area" then some (.list [.int n, .int w, .int s, .int e]) else none

/-- What `from_dict` makes of a rectangle that is not the globe. -/
def patchGS (n w s e : ℤ) : GS := ⟨.rgg, ((normalise (withDefaults (patch "O32" n w s e))).set "type" (.str Kind.rgg.name)), none⟩

theorem patch_area (n w s e : ℤ) : AreaNum (patchGS n w s e) n w s e :=
  ⟨.int n, .int w, .int s, .int e, rfl, by simp [V.num], by simp [V.num], by simp [V.num], by simp [V.num]⟩

/-- Two rectangles of a reduced Gaussian grid with the same limits match, and neither goes all the way round (C76). -/
theorem patch_match (P : Py) (order : List String) (ho : Enumerates order) :
    eq P order (patchGS 60 0 30 40) (patchGS 60 0 30 40) = .ok true ∧ isGlobalEw P (patchGS 60 0 30 40) ≠ .ok true := by
  have n0 : normaliseLon 0 0 = 0 := (C35_normalise 0 0 0).2 ⟨⟨0, by norm_num⟩, by norm_num, by norm_num⟩
  have n40 : normaliseLon 40 0 = 40 := (C35_normalise 40 0 40).2 ⟨⟨0, by norm_num⟩, by norm_num, by norm_num⟩
  constructor
  · show eqRGG P order _ _ = .ok true
    rw [eqRGG_true]
    refine ⟨?_, _, _, rfl, rfl, Or.inl ?_⟩
    · rw [eqBase_true]
      refine ⟨pyEq_refl _, ?_, rfl⟩
      intro k hk
      have hk := (ho k).1 hk
      simp only [COMPARE_KEYS, List.mem_cons, List.not_mem_nil, or_false] at hk
      rcases hk with rfl | rfl | rfl | rfl | rfl
      · exact ⟨_, _, rfl, rfl, compareKey_refl P _ _ (by intro _ xs h; cases h)⟩
      · exact ⟨_, _, rfl, rfl, compareKey_refl P _ _ (by intro _ xs h; cases h)⟩
      · exact ⟨.int 0, .int 0, rfl, rfl, compareKey_refl P _ _ (by intro _ xs h; cases h)⟩
      · exact ⟨.int 0, .int 0, rfl, rfl, compareKey_refl P _ _ (by intro _ xs h; cases h)⟩
      · exact ⟨.int 0, .int 0, rfl, rfl, compareKey_refl P _ _ (by intro _ xs h; cases h)⟩
    · obtain ⟨sa, ta, r, h1, h2, hr, hi⟩ := sameArea_of_nums RGG_EPS _ _ _ _ _ _ _ _ _ _ (patch_area 60 0 30 40) (patch_area 60 0 30 40)
      cases h1; cases h2
      rw [hr, hi.2 (by norm_num [RGG_EPS])]
  · obtain ⟨_, s1, _, s3⟩ := coord_of_area _ _ _ _ _ (patch_area 60 0 30 40)
    show computeGlobalEw P _ ≠ _
    simp only [computeGlobalEw, s1, s3, bind, Except.bind, Int.cast_zero, Int.cast_ofNat, n0, n40]
    norm_num [FULL_GLOBE_EPS, FULL_GLOBE]
    cases hd : dx P (patchGS 60 0 30 40) with
    | error e => simp
    | ok x =>
      have hx : x ≤ 90 := by
        rw [dx] at hd
        change (do let (o, n) ← rggInspect P (patchGS 60 0 30 40); return if o then FULL_GLOBE / (4 * n + 16) else FULL_GLOBE / (4 * n)) = Except.ok x at hd
        cases hi : rggInspect P (patchGS 60 0 30 40) with
        | error e => rw [hi] at hd; cases hd
        | ok q =>
          have hn : 1 ≤ q.2 := by
            unfold rggInspect at hi
            simp only [bind_ok] at hi
            obtain ⟨g, _, hi⟩ := hi
            split at hi
            · split at hi
              · cases hi
              · split at hi
                · split at hi
                  · cases hi
                  · split at hi
                    · cases hi
                    · cases hi
                      rename_i hc
                      simp at hc
                      omega
                · cases hi
            · cases hi
          have hn' : (1 : ℚ) ≤ q.2 := by exact_mod_cast hn
          rw [hi] at hd
          have hd := Except.ok.inj hd
          simp only [FULL_GLOBE] at hd
          rw [← hd]
          split
          · rw [div_le_iff₀ (by linarith)]; linarith
          · rw [div_le_iff₀ (by linarith)]; linarith
      simp only [pure, Except.pure, ne_eq, Except.ok.injEq, decide_eq_true_eq, not_lt]
      rw [abs_of_nonneg (by linarith)]
      linarith

/-- C76: the hypotheses of the claim for reduced Gaussian grids are met by two rectangles. -/
example (P : Py) (order : List String) (ho : Enumerates order) :
    (|(60 : ℚ) - 60| < 12 / 100 ∧ |(30 : ℚ) - 30| < 12 / 100 ∧ |(0 : ℚ) - 0| < 12 / 100 ∧ |(40 : ℚ) - 40| < 12 / 100) := by
  rcases C76_reduced_partial P order _ _ rfl _ _ _ _ _ _ _ _ (patch_area 60 0 30 40) (patch_area 60 0 30 40) (patch_match P order ho).1 with h | h
  · exact_mod_cast h
  · exact absurd h.1 (patch_match P order ho).2

/-- A band of a reduced Gaussian grid goes all the way round whatever its latitudes. -/
theorem band_round (P : Py) (n s : ℤ) : isGlobalEw P (patchGS n 0 s 360) = .ok true := by
  have n0 : normaliseLon 0 0 = 0 := (C35_normalise 0 0 0).2 ⟨⟨0, by norm_num⟩, by norm_num, by norm_num⟩
  have n360 : normaliseLon 360 0 = 0 := (C35_normalise 360 0 0).2 ⟨⟨-1, by norm_num⟩, by norm_num, by norm_num⟩
  obtain ⟨_, s1, _, s3⟩ := coord_of_area _ _ _ _ _ (patch_area n 0 s 360)
  show computeGlobalEw P _ = _
  simp [computeGlobalEw, s1, s3, bind, Except.bind, n0, n360, FULL_GLOBE_EPS, pure, Except.pure]

/-- C76: any band matches any other band exactly when the band 60N–30N matches the band 10N–10S. -/
example (P : Py) (order : List String) (ho : Enumerates order) (n s n' s' : ℤ) :
    eq P order (patchGS 60 0 30 360) (patchGS 10 0 (-10) 360) = .ok true ↔
      eq P order (patchGS n 0 s 360) (patchGS n' 0 s' 360) = .ok true := by
  refine C76_latitudes_ignored P order _ _ _ _ _ _ _ _ _ _ _ _ _ _ _ _ rfl rfl (patch_area 60 0 30 360) (patch_area 10 0 (-10) 360)
    (patch_area n 0 s 360) (patch_area n' 0 s' 360) (band_round P _ _) (band_round P _ _) (band_round P _ _) (band_round P _ _)
    ?_ ?_ (by simp [SameSide]) ho
  · intro k hk; simp [patchGS, Dict.set, normalise, withDefaults, patch, hk]
  · intro k hk; simp [patchGS, Dict.set, normalise, withDefaults, patch, hk]

/-! ## The hypotheses can be met -/

/-- A one-degree global grid. -/
def deg1 : Dict := fullSpec (.int 1) (.int 1) (.list [.int 181, .int 360]) (.int 90) (.int 0) (.int (-90)) (.int 359)

/-- A one-degree global grid is well formed (C32), has integer flags (C33) and a numeric area (C35, C76). -/
theorem deg1_ok (P : Py) : ∃ s, fromDict P deg1 = .ok s ∧ s.kind = .ll ∧ s.gew = some true ∧ s.d "grid" = some (.list [.int 1, .int 1]) ∧
    WellFormed P s ∧ NoFloatFlags s ∧ AreaNum s 90 0 (-90) 359 ∧ isGlobalEw P s = .ok true := by
  obtain ⟨s, hs, hk, gw, hg, hsh, ha, hf⟩ := fromDict_full P (.int 1) (.int 1) (.list [.int 181, .int 360]) (.int 90) (.int 0) (.int (-90)) (.int 359)
  refine ⟨s, hs, hk, gw, hg, ⟨⟨_, hg, ?_⟩, fun _ => ⟨_, ha, ?_⟩, ?_⟩, ?_, ⟨_, _, _, _, ha, by simp [V.num], by simp [V.num], by simp [V.num], by simp [V.num]⟩, ?_⟩
  · intro xs h x hx
    cases h
    simp only [List.mem_cons, List.not_mem_nil, or_false] at hx
    rcases hx with rfl | rfl <;> exact ⟨_, rfl⟩
  · intro x hx
    simp only [List.mem_cons, List.not_mem_nil, or_false] at hx
    rcases hx with rfl | rfl | rfl | rfl <;> exact ⟨_, rfl⟩
  · intro h; rw [hk] at h; cases h
  · intro k hk q; rw [hf k hk]; simp
  · unfold isGlobalEw; rw [gw]

/-- C37: a HEALPix grid with `ordering`, and one with `order`, are accepted and compare on that option. -/
def healpix (key o : String) : Dict := fun k =>
  if k = "grid" then some (.str "H4".toList) else if k = key then some (.str o.toList) else none

theorem fromDict_healpix (P : Py) (key o : String) (hk : key = "order" ∨ key = "ordering") :
    ∃ s, fromDict P (healpix key o) = .ok s ∧ s.kind = .healpix := by
  have h4 : P.C.isDigit '4' = true := (P.C.ascii_digit 4 (by decide)).1
  have hi : infer P TYPES (normalise (withDefaults (healpix key o))) = .ok .healpix := by
    rw [C30_inferred_iff P _ (.str "H4".toList) .healpix rfl (Or.inl ?_)]
    · exact .healpix 'H' '4' [] (by simp) h4
    · rcases hk with rfl | rfl <;> simp [healpix]
  exact ⟨_, (fromDict_ok P _ _).2 ⟨.healpix, hi, rfl⟩, rfl⟩

/-- A HEALPix grid described by its name and one of the two keys of the ordering. -/
def healpixOf (g : List Char) (key o : String) : Dict := fun k =>
  if k = "grid" then some (.str g) else if k = key then some (.str o.toList) else none

/-- **C37, the whole decision for short descriptions.**  Two dicts with one HEALPix name, each naming one of the two orderings
under either key, are accepted, and they match exactly when the orderings are the same. -/
theorem C37_decided (P : Py) (order : List String) (hE : Enumerates order) (c x : Char) (r : List Char) (n : Int)
    (hc : c ∈ ['H', 'h']) (hx : P.C.isDigit x = true) (hn : P.pyInt (x :: r) = some n) (hn1 : 1 ≤ n) (hn2 : n ≤ 1000000)
    (key key' o o' : String) (hk : key = "order" ∨ key = "ordering") (hk' : key' = "order" ∨ key' = "ordering")
    (ho : o = "ring" ∨ o = "nested") (ho' : o' = "ring" ∨ o' = "nested") :
    ∃ s t, fromDict P (healpixOf (c :: x :: r) key o) = .ok s ∧ fromDict P (healpixOf (c :: x :: r) key' o') = .ok t ∧
      eq P order s t = .ok (decide (o = o')) := by
  have inf : ∀ (key o : String), key = "order" ∨ key = "ordering" →
      infer P TYPES (normalise (withDefaults (healpixOf (c :: x :: r) key o))) = .ok .healpix := by
    intro key o hk
    rw [C30_inferred_iff P _ (.str (c :: x :: r)) .healpix rfl (Or.inl ?_)]
    · exact .healpix c x r (by simpa using hc) hx
    · rcases hk with rfl | rfl <;> simp [healpixOf]
  have hs := (fromDict_ok P _ _).2 ⟨.healpix, inf key o hk, rfl⟩
  have ht := (fromDict_ok P _ _).2 ⟨.healpix, inf key' o' hk', rfl⟩
  refine ⟨_, _, hs, ht, ?_⟩
  have k1 := healpix_order_key P _ _ hs rfl
  have k2 := healpix_order_key P _ _ ht rfl
  have a1 : askedOrder (healpixOf (c :: x :: r) key o) = .str o.toList := by
    rcases hk with rfl | rfl <;> simp [askedOrder, healpixOf]
  have a2 : askedOrder (healpixOf (c :: x :: r) key' o') = .str o'.toList := by
    rcases hk' with rfl | rfl <;> simp [askedOrder, healpixOf]
  rw [a1] at k1
  rw [a2] at k2
  have o1 := healpixOrder_of_wf P _ c x r n _ (by rcases hk with rfl | rfl <;> rfl) hc hx hn hn1 hn2 k1
  have o2 := healpixOrder_of_wf P _ c x r n _ (by rcases hk' with rfl | rfl <;> rfl) hc hx hn hn1 hn2 k2
  have hv : ∀ o : String, o = "ring" ∨ o = "nested" → o.toList = "ring".toList ∨ o.toList = "nested".toList := by
    rintro o (rfl | rfl) <;> simp
  simp only [tupleToList, hv o ho, hv o' ho', if_true] at o1 o2
  have hb : ∀ s t : Dict, s "type" = t "type" → (∀ k ∈ COMPARE_KEYS, ∃ a, s k = some a ∧ t k = some a ∧ ∀ xs, a ≠ .list xs) → s "shape" = none →
      eqBase P order s t = .ok true := by
    intro s t h1 h2 h3
    rw [eqBase_true]
    refine ⟨by rw [h1]; exact pyEq_refl _, fun k hk => ?_, by simp [shapesDiffer, h3]⟩
    obtain ⟨a, e1, e2, e3⟩ := h2 k ((hE k).1 hk)
    exact ⟨a, a, e1, e2, compareKey_refl P _ _ (fun _ xs h => absurd h (e3 xs))⟩
  show eqHealpix P order _ _ = _
  unfold eqHealpix
  rw [hb _ _ ?_ ?_ ?_]
  · simp only [bind, Except.bind, Bool.not_true, Bool.false_eq_true, if_false, o1, o2, pure, Except.pure]
    rcases ho with rfl | rfl <;> rcases ho' with rfl | rfl <;> rfl
  · rcases hk with rfl | rfl <;> rcases hk' with rfl | rfl <;> rfl
  · intro k hkk
    simp only [COMPARE_KEYS, List.mem_cons, List.not_mem_nil, or_false] at hkk
    rcases hk with rfl | rfl <;> rcases hk' with rfl | rfl <;> rcases hkk with rfl | rfl | rfl | rfl | rfl <;>
      exact ⟨_, rfl, rfl, by intro xs h; cases h⟩
  · rcases hk with rfl | rfl <;> rfl

example (P : Py) (order : List String) : ∃ s t, fromDict P (healpix "order" "ring") = .ok s ∧
    fromDict P (healpix "ordering" "nested") = .ok t ∧ eq P order s t ≠ .ok true := by
  obtain ⟨s, hs, hk⟩ := fromDict_healpix P "order" "ring" (by simp)
  obtain ⟨t, ht, _⟩ := fromDict_healpix P "ordering" "nested" (by simp)
  refine ⟨s, t, hs, ht, fun h => ?_⟩
  rcases C37_orderings_apart P order _ _ s t hs ht hk h with ⟨_, h⟩ | ⟨h, _⟩
  · simp [askedOrder, healpix] at h
  · simp [askedOrder, healpix] at h

example (P : Py) (order : List String) (hE : Enumerates order) (h : P.pyInt ['4'] = some 4) :
    ∃ s t, fromDict P (healpixOf ['h', '4'] "ordering" "nested") = .ok s ∧
      fromDict P (healpixOf ['h', '4'] "order" "nested") = .ok t ∧ eq P order s t = .ok true :=
  C37_decided P order hE 'h' '4' [] 4 (by simp) (P.C.ascii_digit 4 (by decide)).1 h (by decide) (by decide) _ _ _ _
    (Or.inr rfl) (Or.inl rfl) (Or.inr rfl) (Or.inr rfl)

/-- `C30_unambiguous`, `C30_order_irrelevant` -/
example (P : Py) (k : Kind) (h : Supported P k (.str "O32".toList)) (gs : Dict) :
    k = .rgg ∧ infer P [.orca, .healpix, .rgg, .ll] gs = infer P TYPES gs :=
  ⟨C30_unambiguous P k .rgg _ h (.rgg 'O' '3' ['2'] (by decide) (P.C.ascii_digit 3 (by decide)).1),
    C30_order_irrelevant P _ (by intro k; cases k <;> decide) gs⟩

/-- `C31_tuple_is_list`, `C31_caller_dict_unchanged` -/
example (P : Py) : fromDict P (fun k => if k = "grid" then some (.tuple [.int 1, .int 1]) else none) =
      fromDict P (fun k => if k = "grid" then some (.list [.int 1, .int 1]) else none) ∧
    (fromDictH P 0 ⟨1, fun _ => named "O32"⟩).2.at_ 0 = named "O32" := by
  refine ⟨C31_tuple_is_list P _ _ (fun k => ?_), (C31_caller_dict_unchanged P 0 ⟨1, fun _ => named "O32"⟩ (by decide)).1 0 (by decide)⟩
  by_cases hk : k = "grid" <;> simp [hk, asList]

theorem noFloat_of (P : Py) (d : Dict) (s : GS) (h : fromDict P d = .ok s)
    (hd : ∀ k ∈ ["i_scans_negatively", "j_points_consecutive", "j_scans_positively"], d k = none) : NoFloatFlags s := by
  intro k hk q
  have hu : Untouched k ∧ k ≠ "type" := by
    have := hk
    simp only [List.mem_cons, List.not_mem_nil, or_false] at this
    rcases this with rfl | rfl | rfl <;> exact ⟨by decide, by decide⟩
  rw [asked_eq P d s h k hu.1 hu.2]
  simp [asked, hd k hk, if_pos hk]

/-- `C32_self_match`, `C35_shift_partial`, `C35_global_shift`, `C76_latlon_partial`: the one-degree grid and the same one turn further. -/
example (P : Py) (order : List String) (ho : Enumerates order) : ∃ s, fromDict P deg1 = .ok s ∧ eq P order s s = .ok true ∧
    eq P order (s.moved (.list [.flt 90, .flt (0 + 360 * (1 : ℤ)), .flt (-90), .flt (359 + 360 * (1 : ℤ))]) (some true)) s = .ok true ∧
    computeGlobalEw P (s.moved (.list [.flt 90, .flt (0 + 360 * (1 : ℤ)), .flt (-90), .flt (359 + 360 * (1 : ℤ))]) none) = computeGlobalEw P s ∧
    |(90 : ℚ) - 90| < 1 / 100000000 := by
  obtain ⟨s, hs, hk, hw, hg, wf, _, ha, gw⟩ := deg1_ok P
  have h := C32_self_match P order ho _ s hs wf
  exact ⟨s, hs, h, (C35_shift_partial P order ho s s (.inl hk) (.inl hk) 90 0 (-90) 359 90 0 (-90) 359 1 1 (some true) ha ha gw gw rfl
      (by simp [SameSide])).1.2 h,
    C35_global_shift P s 90 0 (-90) 359 1 1 none ha, (C76_latlon_partial P order s s hk _ _ _ _ _ _ _ _ ha ha h).1⟩

/-- `C36_short_is_global`, `C36_short_matches_full`, `C33_latlon_partial`, `C33_latlon_exact`: half a degree, in short and in full. -/
example (P : Py) (order : List String) (ho : Enumerates order) : ∃ g f, g.d "global" = some (.int 1) ∧
    fromDict P (shortSpec (.flt (1 / 2)) (.flt (1 / 2))) = .ok g ∧
    fromDict P (fullSpec (.flt (1 / 2)) (.flt (1 / 2)) (.list [.int 361, .int 720]) (.int 90) (.int 0) (.int (-90)) (.flt (719 / 2))) = .ok f ∧
    eq P order g f = .ok true ∧ eq P order f g = .ok true := by
  have hd : (1 / 2 : ℚ) ∈ LISTED := by decide +kernel
  have hn : north (1 / 2) = 90 := by decide +kernel
  have he : east (1 / 2) = 719 / 2 := by decide +kernel
  obtain ⟨g', h1, _, h3, _⟩ := C36_short_is_global P (.flt (1 / 2)) (.flt (1 / 2)) (1 / 2) hd rfl rfl
  obtain ⟨g, f, hg, hf, h, _⟩ := C36_short_matches_full P order ho (1 / 2) hd (.flt (1 / 2)) (.flt (1 / 2)) (.flt (1 / 2)) (.flt (1 / 2))
    (.list [.int 361, .int 720]) (.int 90) (.int 0) (.int (-90)) (.flt (719 / 2)) rfl rfl rfl rfl (by rw [hn]; simp [V.num])
    (by simp [V.num]) (by rw [hn]; simp [V.num]) (by rw [he]; simp [V.num])
  rw [h1] at hg
  cases hg
  have hnf := noFloat_of P _ _ h1 (by intro k hk; simp only [List.mem_cons, List.not_mem_nil, or_false] at hk; rcases hk with rfl | rfl | rfl <;> rfl)
  have gg : g'.d "grid" = some (.list [.flt (1 / 2), .flt (1 / 2)]) := by
    rw [asked_eq P _ _ h1 "grid" (by decide) (by decide)]; rfl
  have gf : f.d "grid" = some (.list [.flt (1 / 2), .flt (1 / 2)]) := by
    rw [asked_eq P _ _ hf "grid" (by decide) (by decide)]; rfl
  have h2 := C33_latlon_partial P order ho _ _ _ _ h1 hf hnf _ _ _ _ (1 / 2) (1 / 2) (1 / 2) (1 / 2) gg gf rfl rfl rfl rfl (by norm_num) (by norm_num) h
  have h2' := (C33_latlon_exact P order ho _ _ _ _ h1 hf hnf _ _ _ _ (1 / 2) (1 / 2) (1 / 2) (1 / 2) gg gf rfl rfl rfl rfl h).2 (by norm_num [abs_of_nonneg])
  exact ⟨g', f, h3, h1, hf, h, h2⟩

/-- `C33_named_grids_partial`, `C34_matching`, `C34_same_spec_partial`, `C34_partial`: the band of `C76_refuted` and `o32`. -/
example (P : Py) (order : List String) (ho : Enumerates order) : ∃ s t, fromDict P (band "O32" 60 30) = .ok s ∧ fromDict P (named "O32") = .ok t ∧
    eq P order t s = .ok true ∧ fromDict P ((named "O32").set "grid" (.str "o32".toList)) = .ok (t.rename "o32".toList) ∧
    eq P order (t.rename "o32".toList) s = .ok true ∧
    ∃ s', fromDict P ((band "O32" 60 30).set "grid" (.str "o32".toList)) = .ok s' ∧ eq P order s' t = .ok true := by
  obtain ⟨s, t, hs, ht, h⟩ := C76_refuted P order ho
  obtain ⟨t', ht', hk⟩ := o32_ok P
  rw [ht] at ht'
  cases ht'
  have sg : s.d "grid" = some (.str "O32".toList) := by rw [asked_eq P _ _ hs "grid" (by decide) (by decide)]; rfl
  have tg : t.d "grid" = some (.str "O32".toList) := by rw [asked_eq P _ _ ht "grid" (by decide) (by decide)]; rfl
  have sk : s.kind = .rgg := by
    by_contra hc
    rw [C38_types P order _ _ s t hs ht (by rw [hk]; exact hc)] at h
    cases h
  have hnf := noFloat_of P _ _ hs (by intro k hk; simp only [List.mem_cons, List.not_mem_nil, or_false] at hk; rcases hk with rfl | rfl | rfl <;> rfl)
  have hts := C33_named_grids_partial P order ho _ _ s t hs ht hnf ⟨_, sg⟩ h
  have hv : CaseVariant "O32".toList "o32".toList := by unfold CaseVariant; decide
  obtain ⟨s', h1, h2, _⟩ := C34_partial P order _ _ s t _ _ _ hs ht rfl rfl (by rw [sk]; decide) hv (.inl (by rw [sk]; decide))
  exact ⟨s, t, hs, ht, hts, C34_same_spec_partial P _ t _ _ ht rfl (by rw [hk]; decide) hv (.inl (by rw [hk]; decide)),
    (C34_matching P order t s _ _ _ tg sg (by rw [hk]; decide) hv).1.trans hts, s', h1, h2.trans h⟩

/-- `C79_computed`: from 0 to 359 in steps of one degree is once round. -/
example (P : Py) : ∃ s, fromDict P deg1 = .ok s ∧ isGlobalEw P ⟨s.kind, s.d, none⟩ = .ok true := by
  obtain ⟨s, hs, hk, hw, hg, wf, _, ha, gw⟩ := deg1_ok P
  have hc := coord_of_area ⟨s.kind, s.d, none⟩ _ _ _ _ ha
  refine ⟨s, hs, (C79_computed P ⟨s.kind, s.d, none⟩ 0 359 1 359 hc.2.1 hc.2.2.2
    (((C79_increment P ⟨s.kind, s.d, none⟩).1 _ _ 1 hk hg (by simp [V.num])).trans (by simp)) rfl ⟨⟨0, by norm_num⟩, by norm_num, by norm_num⟩).trans ?_⟩
  norm_num

/-- `C37_other_order_refused`: neither ring nor nested. -/
example (P : Py) (order : List String) (ho : Enumerates order) :
    ∃ s, fromDict P (healpix "order" "other") = .ok s ∧ eq P order s s = .error .value := by
  obtain ⟨s, hs, hk⟩ := fromDict_healpix P "order" "other" (by simp)
  have hg : s.d "grid" = some (.str "H4".toList) := by rw [asked_eq P _ _ hs "grid" (by decide) (by decide)]; rfl
  exact ⟨s, hs, C37_other_order_refused P order _ s s hs hk
    (eqBase_refl P order ho _ s hs ⟨_, hg, by intro xs h; cases h⟩) ⟨_, hg⟩ (by simp [askedOrder, healpix])⟩

/-- `C37_same_ordering_matches` -/
example (P : Py) (order : List String) (ho : Enumerates order) (h4 : P.pyInt ['4'] = some 4) :
    ∃ s, fromDict P (healpix "ordering" "nested") = .ok s ∧ eq P order s s = .ok true := by
  obtain ⟨s, hs, hk⟩ := fromDict_healpix P "ordering" "nested" (by simp)
  have hg : s.d "grid" = some (.str ['H', '4']) := by rw [asked_eq P _ _ hs "grid" (by decide) (by decide)]; rfl
  have hd : P.C.isDigit '4' = true := (P.C.ascii_digit 4 (by decide)).1
  exact ⟨s, hs, C37_same_ordering_matches P order _ _ s s hs hs hk
    (eqBase_refl P order ho _ s hs ⟨_, hg, by intro xs h; cases h⟩) "nested".toList (.inr rfl) rfl rfl 'H' 'H' '4' '4' [] [] 4 4
    hg (by simp) hd h4 (by decide) (by decide) hg (by simp) hd h4 (by decide) (by decide)⟩

/-- `C38_types`, `C38_names`, `C38_flags`, `C38_increments`, `C38_shapes`: grids that differ. -/
example (P : Py) (order : List String) (ho : Enumerates order) (s t u v w : GS) (hs : fromDict P deg1 = .ok s)
    (ht : fromDict P (named "O32") = .ok t) (hu : fromDict P (named "O33") = .ok u) (hl : P.lower "O32".toList ≠ P.lower "O33".toList)
    (hv : fromDict P (deg1.set "j_scans_positively" (.int 1)) = .ok v) (hw : fromDict P (ll 2) = .ok w) :
    eq P order s t = .ok false ∧ eq P order t u ≠ .ok true ∧ eq P order s v ≠ .ok true ∧ eq P order s w ≠ .ok true := by
  refine ⟨C38_types P order _ _ s t hs ht ?_, C38_names P order ho _ _ t u ht hu _ _ rfl rfl hl,
    C38_flags P order ho _ _ s v hs hv "j_scans_positively" (by simp) 0 1 rfl rfl (by decide),
    C38_increments P order ho _ _ s w hs hw _ _ _ _ 1 1 2 2 rfl rfl (by simp [V.num]) (by simp [V.num]) rfl rfl (.inl (by norm_num [abs_of_nonneg, abs_of_neg]))⟩
  obtain ⟨s', hs', hk, _⟩ := deg1_ok P
  obtain ⟨t', ht', hk'⟩ := o32_ok P
  rw [hs] at hs'; cases hs'
  rw [ht] at ht'; cases ht'
  rw [hk, hk']
  decide

example (P : Py) (order : List String) (s t : GS) (hs : fromDict P deg1 = .ok s)
    (ht : fromDict P (deg1.set "shape" (.list [.int 180, .int 360])) = .ok t) : eq P order s t ≠ .ok true :=
  C38_shapes P order _ _ s t hs ht (.list [.int 181, .int 360]) (.list [.int 180, .int 360]) rfl rfl (by rw [← pyEq_false_iff]; simp [asList, pyEq, pyEqL, V.num])

end Verif.GridSpec

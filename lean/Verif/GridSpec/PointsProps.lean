import Verif.GridSpec.ColumnsProps

/-!
# Matching lat-lon grids and their points (C165)

Weights are stored for a number of points, the product of the numbers of meridians and of parallels.  Grids that match should have equally
many points.  Specification: `Meridians` and `Parallels`, in terms of limits and increments only.
-/

namespace Verif.GridSpec

/-! ## Specification -/

/-- From `n` south to `s` there are `l` parallels, `y` degrees apart: one in the north, the last one in the south. -/
def Parallels (n s y : ℚ) (l : ℕ) : Prop := 1 ≤ l ∧ (l - 1 : ℚ) * y = n - s

/-- `m` points on the meridians and parallels of `{'grid': [x, y], 'area': [n, w, s, e]}`. -/
def Points (x y n w s e : ℚ) (m : ℕ) : Prop := ∃ k l, Meridians w e x k ∧ Parallels n s y l ∧ m = k * l

/-! ## Parallels -/

/-- Two matching lat-lon grids of increments of a 60th of a degree or more have equally many parallels. -/
theorem C165_rows_partial (P : Py) (order : List String) (ho : Enumerates order) (s t : GS) (hk : s.kind = .ll)
    (x y x' y' : V) (p q p' q' : ℚ)
    (hg : s.d "grid" = some (.list [x, y])) (hg' : t.d "grid" = some (.list [x', y']))
    (hx : x.num = some p) (hy : y.num = some q) (hx' : x'.num = some p') (hy' : y'.num = some q')
    (n w so e n' w' so' e' : ℚ) (hs : AreaNum s n w so e) (ht : AreaNum t n' w' so' e') (hn : n' - so' ≤ 180)
    (hq : 1 / 60 ≤ q) (hq' : 1 / 60 ≤ q') (l l' : ℕ) (hl : Parallels n so q l) (hl' : Parallels n' so' q' l')
    (h : eq P order s t = .ok true) : l = l' := by
  have hcl : |q - q'| ≤ 1 / 1000000 + 1 / 100000 * q' := by
    have hb := (eqBase_true P order s.d t.d).1 (eq_true_base P order s t h)
    obtain ⟨a, b, ha, hb, hab⟩ := hb.2.1 "grid" ((ho "grid").2 (by simp [COMPARE_KEYS]))
    rw [hg] at ha; cases ha
    rw [hg'] at hb; cases hb
    have hab : allclose [x, y] [x', y'] = .ok true := hab
    rw [allclose_pair] at hab
    obtain ⟨a1, a2, a3, a4, e1, e2, e3, e4, hc⟩ := hab
    rw [hx] at e1; rw [hy] at e2; rw [hx'] at e3; rw [hy'] at e4
    cases e1; cases e2; cases e3; cases e4
    have hc := hc.symm
    rw [Bool.and_eq_true] at hc
    have hc := hc.2
    unfold close at hc
    rw [decide_eq_true_iff, abs_of_nonneg (by linarith : (0 : ℚ) ≤ q')] at hc
    exact hc
  obtain ⟨c1, c2⟩ := C76_latlon_partial P order s t hk n w so e n' w' so' e' hs ht h
  obtain ⟨h1, hm⟩ := hl
  obtain ⟨h1', hm'⟩ := hl'
  have k1' : (1 : ℚ) ≤ l' := by exact_mod_cast h1'
  have hk1 : (0 : ℚ) ≤ l' - 1 := by linarith
  have key : |((l : ℚ) - l') * q| < 1 / 60 := by
    have hcount : (l' - 1 : ℚ) ≤ 10800 := by nlinarith
    have hprod : (l' - 1 : ℚ) * |q - q'| ≤ 126 / 10000 := by
      calc (l' - 1 : ℚ) * |q - q'| ≤ (l' - 1) * (1 / 1000000 + 1 / 100000 * q') := mul_le_mul_of_nonneg_left hcl hk1
        _ = (l' - 1) * (1 / 1000000) + 1 / 100000 * ((l' - 1) * q') := by ring
        _ ≤ 10800 * (1 / 1000000) + 1 / 100000 * 180 := by rw [hm']; linarith
        _ = 126 / 10000 := by norm_num
    have hdd : |(n - so) - (n' - so')| < 2 / 100000000 := by
      rw [abs_lt] at c1 c2 ⊢
      constructor <;> linarith [c1.1, c1.2, c2.1, c2.2]
    have hrw : ((l : ℚ) - l') * q = ((n - so) - (n' - so')) + (l' - 1) * (q' - q) := by rw [← hm, ← hm']; ring
    rw [hrw]
    calc |((n - so) - (n' - so')) + (l' - 1) * (q' - q)| ≤ |(n - so) - (n' - so')| + |(l' - 1 : ℚ) * (q' - q)| := abs_add_le _ _
      _ = |(n - so) - (n' - so')| + (l' - 1) * |q - q'| := by rw [abs_mul, abs_of_nonneg hk1, abs_sub_comm q' q]
      _ < 1 / 60 := by linarith
  by_contra hne
  have h1 : (1 : ℚ) ≤ |(l : ℚ) - l'| := by
    have : (1 : ℤ) ≤ |(l : ℤ) - l'| := Int.one_le_abs (by omega)
    exact_mod_cast this
  rw [abs_mul, abs_of_pos (by linarith : 0 < q)] at key
  nlinarith

/-! ## Points -/

/-- Two matching lat-lon grids have equally many points, if the increments are a 40th of a degree or more, neither grid is a single meridian
or has a meridian twice, and a grid said to be global (or of a listed resolution, without an area) really closes the circle with one more
increment. -/
theorem C165_points_partial (P : Py) (order : List String) (ho : Enumerates order) (s t : GS) (hk : s.kind = .ll) (hk' : t.kind = .ll)
    (x y x' y' : V) (p q p' q' : ℚ)
    (hg : s.d "grid" = some (.list [x, y])) (hg' : t.d "grid" = some (.list [x', y']))
    (hx : x.num = some p) (hy : y.num = some q) (hx' : x'.num = some p') (hy' : y'.num = some q')
    (n w so e n' w' so' e' : ℚ) (hs : AreaNum s n w so e) (ht : AreaNum t n' w' so' e') (d d' : ℚ)
    (hd : Span w e d) (hd' : Span w' e' d') (h0 : 0 < d) (h0' : 0 < d') (hw : d ≤ 360 - 1 / 40) (hw' : d' ≤ 360 - 1 / 40) (hn : n' - so' ≤ 180)
    (hp : 1 / 40 ≤ p) (hp' : 1 / 40 ≤ p') (hq : 1 / 60 ≤ q) (hq' : 1 / 60 ≤ q')
    (hf : s.gew = none ∨ |360 - d - p| < 1 / 100000000) (hf' : t.gew = none ∨ |360 - d' - p'| < 1 / 100000000)
    (m m' : ℕ) (hm : Points p q n w so e m) (hm' : Points p' q' n' w' so' e' m') (h : eq P order s t = .ok true) : m = m' := by
  obtain ⟨k, l, ⟨k1, c, hc, hkc⟩, hl, rfl⟩ := hm
  obtain ⟨k', l', ⟨k1', c', hc', hkc'⟩, hl', rfl⟩ := hm'
  have uniq : ∀ {w e d c : ℚ}, Span w e d → Span w e c → c = d := by
    rintro w e d c ⟨⟨a, b⟩ | ⟨a, b⟩, _⟩ ⟨⟨a', b'⟩ | ⟨a', b'⟩, _⟩ <;> linarith
  have hcd := uniq hd hc
  have hcd' := uniq hd' hc'
  subst hcd; subst hcd'
  have two : ∀ {k : ℕ} {p d : ℚ}, 1 ≤ k → (k - 1 : ℚ) * p = d → 0 < d → 2 ≤ k := by
    intro k p d h1 h2 h3
    by_contra hlt
    have : k = 1 := by omega
    subst this
    simp at h2
    linarith
  have e1 := C163_columns_partial P order ho s t hk hk' x y x' y' p q p' q' hg hg' hx hy hx' hy' n w so e n' w' so' e' hs ht _ _
    hd hd' hw hw' hp hp' hf hf' k k' (two k1 hkc h0) (two k1' hkc' h0') hkc hkc' h
  have e2 := C165_rows_partial P order ho s t hk x y x' y' p q p' q' hg hg' hx hy hx' hy' n w so e n' w' so' e' hs ht hn hq hq' l l' hl hl' h
  rw [e1, e2]

theorem rows_listed : ∀ r ∈ LISTED, (((2 * north r / r).num.toNat : ℕ) : ℚ) * r = 2 * north r := by decide +kernel

/-- The points of the strip on the meridian 0 are one on each parallel; it matches the global grid of its resolution, whatever listed one
that is, which has 36 times as many points or more. -/
theorem C165_refuted (P : Py) (order : List String) (ho : Enumerates order) (r : ℚ) (hr : r ∈ LISTED) :
    ∃ s t m m', fromDict P (areaSpec (.flt r) (.flt r) (.flt (north r)) (.int 0) (.flt (-north r)) (.int 0)) = .ok s ∧
      fromDict P (shortSpec (.flt r) (.flt r)) = .ok t ∧ AreaNum t (north r) 0 (-north r) (east r) ∧ eq P order s t = .ok true ∧
      Points r r (north r) 0 (-north r) 0 m ∧ Points r r (north r) 0 (-north r) (east r) m' ∧ 0 < m ∧ 36 * m ≤ m' := by
  obtain ⟨s, t, h1, h2, h3, h4, _, h5, h6, h7⟩ := C163_refuted P order ho r hr 0
  have hl : Parallels (north r) (-north r) r ((2 * north r / r).num.toNat + 1) := by
    refine ⟨by omega, ?_⟩
    push_cast
    rw [add_sub_cancel_right, rows_listed r hr]
    ring
  refine ⟨s, t, 1 * ((2 * north r / r).num.toNat + 1), ⌈360 / r⌉.toNat * ((2 * north r / r).num.toNat + 1), by simpa using h1, h2, h3, h4,
    ⟨_, _, h5, hl, rfl⟩, ⟨_, _, h6, hl, rfl⟩, by omega, ?_⟩
  rw [one_mul]
  exact Nat.mul_le_mul_right _ h7

/-- The grid of 360 meridians and `l + 1` parallels from pole to pole. -/
def ladder (l : ℚ) : Dict := areaSpec (.int 1) (.flt (180 / l)) (.int 90) (.int 0) (.int (-90)) (.int 359)

/-- With finer increments the number of parallels is not settled by a match: 18001 parallels match 18002. -/
theorem C165_fine_refuted (P : Py) (order : List String) (ho : Enumerates order) :
    ∃ s t, fromDict P (ladder 18000) = .ok s ∧ fromDict P (ladder 18001) = .ok t ∧ eq P order s t = .ok true ∧
      Parallels 90 (-90) (180 / 18000) 18001 ∧ Parallels 90 (-90) (180 / 18001) 18002 := by
  obtain ⟨s, hs, hk, hgw, hg, hsh, ha, hf⟩ := fromDict_area P (.int 1) (.flt (180 / 18000)) (.int 90) (.int 0) (.int (-90))
    (.int 359) 90 0 (-90) 359 rfl (by simp [V.num]) (by simp [V.num]) rfl
  obtain ⟨t, ht, hk', hgw', hg', hsh', ha', hf'⟩ := fromDict_area P (.int 1) (.flt (180 / 18001)) (.int 90) (.int 0) (.int (-90))
    (.int 359) 90 0 (-90) 359 rfl (by simp [V.num]) (by simp [V.num]) rfl
  have as : AreaNum s 90 0 (-90) 359 := ⟨_, _, _, _, ha, rfl, by simp [V.num], by simp [V.num], rfl⟩
  have at' : AreaNum t 90 0 (-90) 359 := ⟨_, _, _, _, ha', rfl, by simp [V.num], by simp [V.num], rfl⟩
  have hst := fromDict_type P _ s hs
  have htt := fromDict_type P _ t ht
  rw [hk] at hst
  rw [hk'] at htt
  obtain ⟨sa, ta, r, e1, e2, hr, hri⟩ := sameArea_of_nums DEGREE_EPS s t _ _ _ _ _ _ _ _ as at'
  refine ⟨s, t, hs, ht, ?_, ⟨by norm_num, by norm_num⟩, ⟨by norm_num, by norm_num⟩⟩
  rw [eq_ll P order s t hk, eqLL_true]
  refine ⟨?_, sa, ta, e1, e2, Or.inl ?_⟩
  · rw [eqBase_ll P order ho s t _ _ _ _ hst htt hg hg' hf hf' (by rw [hsh]; intro a b h; cases h), allclose_pair]
    refine ⟨1, _, 1, _, by simp [V.num], rfl, by simp [V.num], rfl, ?_⟩
    have c1 : close (1 / 1000000) 1 1 = true := by norm_num [close]
    have c2 : close (1 / 1000000) (180 / 18000) (180 / 18001) = true := by
      unfold close
      apply decide_eq_true
      rw [abs_of_pos (by norm_num), abs_of_pos (by norm_num)]
      norm_num
    rw [c1, c2]; rfl
  · rw [hr, hri.2 (by norm_num [DEGREE_EPS])]

/-! ## Examples -/

/-- The pair of `C163_columns_partial`: two degrees, 180 meridians and 91 parallels. -/
example (P : Py) (order : List String) (ho : Enumerates order) :
    ∃ s t, fromDict P (areaSpec (.int 2) (.int 2) (.int 90) (.int 0) (.int (-90)) (.int 358)) = .ok s ∧
      fromDict P (shortSpec (.int 2) (.int 2)) = .ok t ∧ eq P order s t = .ok true ∧ Points 2 2 90 0 (-90) 358 16380 ∧
      (∀ l l' : ℕ, Parallels 90 (-90) 2 l → Parallels 90 (-90) 2 l' → l = l') ∧
      ∀ m m' : ℕ, Points 2 2 90 0 (-90) 358 m → Points 2 2 90 0 (-90) 358 m' → m = m' := by
  obtain ⟨s, hs, hk, hgw, hg, hsh, ha, hf⟩ := fromDict_area P (.int 2) (.int 2) (.int 90) (.int 0) (.int (-90)) (.int 358) 90 0 (-90) 358
    rfl (by simp [V.num]) (by simp [V.num]) rfl
  obtain ⟨t, ht, hk', hgw', hg', hsh', _, ha', hf'⟩ := fromDict_short P (.int 2) (.int 2) 2 (by decide +kernel) rfl rfl
  have hn : north 2 = 90 := by decide +kernel
  have he : east 2 = 358 := by decide +kernel
  rw [hn, he] at ha'
  have as : AreaNum s 90 0 (-90) 358 := ⟨_, _, _, _, ha, rfl, by simp [V.num], by simp [V.num], rfl⟩
  have at' : AreaNum t 90 0 (-90) 358 := ⟨_, _, _, _, ha', rfl, by simp [V.num], rfl, rfl⟩
  have hst := fromDict_type P _ s hs
  have htt := fromDict_type P _ t ht
  rw [hk] at hst
  rw [hk'] at htt
  obtain ⟨sa, ta, r, e1, e2, hr, hri⟩ := sameArea_of_nums DEGREE_EPS s t _ _ _ _ _ _ _ _ as at'
  have heq : eq P order s t = .ok true := by
    rw [eq_ll P order s t hk, eqLL_true]
    refine ⟨?_, sa, ta, e1, e2, Or.inl ?_⟩
    · rw [eqBase_ll P order ho s t _ _ _ _ hst htt hg hg' hf hf' (by rw [hsh]; intro a b h; cases h), allclose_pair]
      exact ⟨2, 2, 2, 2, rfl, rfl, rfl, rfl, by norm_num [close]⟩
    · rw [hr, hri.2 (by norm_num [DEGREE_EPS])]
  have span : Span 0 358 358 := ⟨Or.inl ⟨by norm_num, by norm_num⟩, by norm_num, by norm_num⟩
  refine ⟨s, t, hs, ht, heq, ⟨180, 91, ⟨by norm_num, 358, span, by norm_num⟩, ⟨by norm_num, by norm_num⟩, by norm_num⟩, ?_, ?_⟩
  · intro l l' hl hl'
    exact C165_rows_partial P order ho s t hk _ _ _ _ 2 2 2 2 hg hg' rfl rfl rfl rfl _ _ _ _ _ _ _ _ as at' (by norm_num) (by norm_num) (by norm_num)
      l l' hl hl' heq
  · intro m m' hm hm'
    exact C165_points_partial P order ho s t hk hk' _ _ _ _ 2 2 2 2 hg hg' rfl rfl rfl rfl _ _ _ _ _ _ _ _ as at' 358 358 span span
      (by norm_num) (by norm_num) (by norm_num) (by norm_num) (by norm_num) (by norm_num) (by norm_num) (by norm_num) (by norm_num)
      (Or.inr (by norm_num)) (Or.inr (by norm_num)) m m' hm hm' heq

/-- `C165_refuted` at one degree: 181 points match 65160. -/
example (P : Py) (order : List String) (ho : Enumerates order) : Points 1 1 90 0 (-90) 0 181 ∧ Points 1 1 90 0 (-90) 359 65160 ∧
    ∃ s t, fromDict P (areaSpec (.flt 1) (.flt 1) (.flt (north 1)) (.int 0) (.flt (-north 1)) (.int 0)) = .ok s ∧
      fromDict P (shortSpec (.flt 1) (.flt 1)) = .ok t ∧ AreaNum t (north 1) 0 (-north 1) (east 1) ∧ north 1 = 90 ∧ east 1 = 359 ∧
      eq P order s t = .ok true := by
  refine ⟨⟨1, 181, ⟨by norm_num, 0, ⟨Or.inl ⟨by norm_num, by norm_num⟩, by norm_num, by norm_num⟩, by norm_num⟩, ⟨by norm_num, by norm_num⟩, by norm_num⟩,
    ⟨360, 181, ⟨by norm_num, 359, ⟨Or.inl ⟨by norm_num, by norm_num⟩, by norm_num, by norm_num⟩, by norm_num⟩, ⟨by norm_num, by norm_num⟩, by norm_num⟩, ?_⟩
  obtain ⟨s, t, _, _, h1, h2, h3, h4, _⟩ := C165_refuted P order ho 1 (by decide +kernel)
  exact ⟨s, t, h1, h2, h3, by decide +kernel, by decide +kernel, h4⟩

end Verif.GridSpec

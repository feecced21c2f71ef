import Verif.GridSpec.LonDouble

/-!
# C79 in doubles: east-west globality computed with the roundings of IEEE doubles
-/

namespace Verif.GridSpec
open Verif.Humanize Verif.Regrid

/-! ## Model -/

/-- The literal `1e-8` — gridspec.py:18 -/
def epsD : ℚ := double.fl (1 / 100000000)

/-- The three tests in `is_global_ew`, on the eastward difference — gridspec.py:243-248, 314-319. -/
def roundD (d x : ℚ) : Bool :=
  if |d| < epsD then true
  else if |double.fl (d - 360)| < epsD then true
  else decide (|double.fl (double.fl (360 - d) - x)| < epsD)

/-- `east - west` after `east += 360.0` where needed — gridspec.py:241-242, 312-313. -/
def eastwardD (west east : ℚ) : ℚ := double.fl ((if east < west then double.fl (east + 360) else east) - west)

/-- The computation in `is_global_ew` — gridspec.py:236-249, 307-320 — from west, east and increment; `none`: the loops of `normalise_lon` are not done
after so many turns. -/
def globalEwD (fuel : Nat) (w e x : ℚ) : Option Bool :=
  match normaliseLonD fuel w, normaliseLonD fuel e with
  | some west, some east => some (roundD (eastwardD west east) x)
  | _, _ => none

/-! ## Specification -/

/-- West and east meet after a whole turn, or one increment short of it, with the tolerance `t`; `d`: from west eastward to east. -/
def MeetsWithin (t d x : ℚ) : Prop := d < t ∨ 360 - d < t ∨ |360 - d - x| < t

/-! ## Errors -/

theorem fl_close {q : ℚ} (h : |q| ≤ 1023) : |double.fl q - q| ≤ 1 / 2 ^ 43 := by
  have hacc := (ieee_accurate 53 (-1074) ((2 ^ 53 - 1) * 2 ^ 971)).close q
  change |double.fl q - q| ≤ _ at hacc
  have hs : (2 : ℚ) ^ ((-1074 : Int) - 1) ≤ 2 ^ (-60 : Int) := zpow_le_zpow_right₀ (by norm_num) (by norm_num)
  generalize (2 : ℚ) ^ ((-1074 : Int) - 1) = t at *
  refine hacc.trans ?_
  norm_num at hs ⊢
  linarith

theorem epsD_close : |epsD - 1 / 100000000| ≤ 1 / 2 ^ 43 := fl_close (by norm_num)

/-- The computed difference is the exact one up to an error and whole turns. -/
theorem eastward_near {y z w e d : ℚ} {i j : Int} {a b : ℚ} (hw : y = w + a + 360 * i) (he : z = e + b + 360 * j) (ha : |a| ≤ 1 / 2 ^ 44) (hb : |b| ≤ 1 / 2 ^ 44)
    (y0 : 0 ≤ y) (y1 : y < 360) (z0 : 0 ≤ z) (z1 : z < 360) (hd : Eastward w e d) :
    ∃ k : Int, |eastwardD y z - d - 360 * k| ≤ 1 / 2 ^ 41 ∧ -(1 / 2 ^ 41) ≤ eastwardD y z ∧ eastwardD y z ≤ 360 + 1 / 2 ^ 41 := by
  obtain ⟨⟨m, hm⟩, hd0, hd1⟩ := hd
  have ha := abs_le.1 ha
  have hb := abs_le.1 hb
  by_cases h : z < y
  · have e1 : eastwardD y z = double.fl (double.fl (z + 360) - y) := by unfold eastwardD; rw [if_pos h]
    rw [e1]
    have c1 := abs_le.1 (fl_close (q := z + 360) (by rw [abs_of_nonneg (by linarith)]; linarith))
    have c2 := abs_le.1 (fl_close (q := double.fl (z + 360) - y) (by
      rw [abs_le]
      norm_num at c1
      constructor <;> linarith))
    generalize double.fl (double.fl (z + 360) - y) = D at *
    generalize double.fl (z + 360) = E at *
    norm_num at c1 c2 ha hb
    refine ⟨j - i + 1 - m, ?_, by norm_num; linarith, by norm_num; linarith⟩
    push_cast
    norm_num
    rw [abs_le]
    constructor <;> linarith
  · have e1 : eastwardD y z = double.fl (z - y) := by unfold eastwardD; rw [if_neg h]
    rw [e1]
    have c2 := abs_le.1 (fl_close (q := z - y) (by rw [abs_le]; constructor <;> linarith))
    generalize double.fl (z - y) = D at *
    norm_num at c2 ha hb
    refine ⟨j - i - m, ?_, by norm_num; linarith, by norm_num; linarith⟩
    push_cast
    norm_num
    rw [abs_le]
    constructor <;> linarith

/-- The tests on a difference next to the exact one. -/
theorem tests_near {D d x : ℚ} {k : Int} (hk : |D - d - 360 * k| ≤ 1 / 2 ^ 41) (h0 : -(1 / 2 ^ 41) ≤ D) (h1 : D ≤ 360 + 1 / 2 ^ 41) (d0 : 0 ≤ d) (d1 : d < 360)
    (x0 : 0 ≤ x) (x1 : x ≤ 360) :
    (MeetsWithin (1 / 100000000 - 1 / 2 ^ 40) d x → roundD D x = true) ∧ (roundD D x = true → MeetsWithin (1 / 100000000 + 1 / 2 ^ 40) d x) := by
  have he := abs_le.1 epsD_close
  have hk := abs_le.1 hk
  have c1 := abs_le.1 (fl_close (q := D - 360) (by rw [abs_le]; norm_num at *; constructor <;> linarith))
  have c2 := abs_le.1 (fl_close (q := 360 - D) (by rw [abs_le]; norm_num at *; constructor <;> linarith))
  have c3 := abs_le.1 (fl_close (q := double.fl (360 - D) - x) (by rw [abs_le]; norm_num at *; constructor <;> linarith))
  unfold roundD MeetsWithin
  generalize double.fl (double.fl (360 - D) - x) = r at *
  generalize double.fl (360 - D) = s at *
  generalize double.fl (D - 360) = u at *
  generalize epsD = p at *
  have hkr : k = -1 ∨ k = 0 ∨ k = 1 := by
    have a1 : (k : ℚ) < 2 := by norm_num at hk h0 h1; linarith
    have a2 : (-2 : ℚ) < k := by norm_num at hk h0 h1; linarith
    have a1 : k < 2 := by exact_mod_cast a1
    have a2 : -2 < k := by exact_mod_cast a2
    omega
  norm_num at he hk c1 c2 c3 h0 h1 ⊢
  rcases hkr with rfl | rfl | rfl
  · push_cast at hk
    exact ⟨fun _ => .inl (by rw [abs_lt]; constructor <;> linarith), fun _ => .inr (.inl (by linarith))⟩
  · push_cast at hk
    constructor
    · rintro (h | h | h)
      · exact .inl (abs_lt.2 ⟨by linarith, by linarith⟩)
      · exact .inr (.inl (abs_lt.2 ⟨by linarith, by linarith⟩))
      · have := abs_lt.1 h
        exact .inr (.inr (abs_lt.2 ⟨by linarith, by linarith⟩))
    · rintro (h | h | h)
      · have := abs_lt.1 h
        exact .inl (by linarith)
      · have := abs_lt.1 h
        exact .inr (.inl (by linarith))
      · have := abs_lt.1 h
        exact .inr (.inr (abs_lt.2 ⟨by linarith, by linarith⟩))
  · push_cast at hk
    exact ⟨fun _ => .inr (.inl (by rw [abs_lt]; constructor <;> linarith)), fun _ => .inl (by linarith)⟩

/-- An exact representative. -/
theorem exact_rep (lon : ℚ) : ∃ e, Congruent lon e ∧ 0 ≤ e ∧ e < 360 := by
  obtain ⟨h1, h2, h3⟩ := normaliseLon_spec lon 0
  exact ⟨_, h1, h2, by linarith⟩

theorem lon_near (lon : ℚ) (h : IsDouble lon) (hb : |lon| < 2 ^ 56) :
    ∃ N y, (∀ fuel, N ≤ fuel → normaliseLonD fuel lon = some y) ∧ 0 ≤ y ∧ y < 360 ∧ ∃ (a : ℚ) (i : Int), y = lon + a + 360 * i ∧ |a| ≤ 1 / 2 ^ 44 := by
  obtain ⟨e, hc, e0, e1⟩ := exact_rep lon
  obtain ⟨N, hN⟩ := C35_doubles lon e h hb hc e0 e1
  obtain ⟨y0, y1, hy⟩ := C35_doubles_close lon e _ N h hb hc e0 e1 hN
  refine ⟨N, _, hN, y0, y1, ?_⟩
  generalize (if double.fl e = 360 then 0 else double.fl e) = y at *
  obtain ⟨j, hj⟩ := hc
  rcases hy with hy | ⟨rfl, hy⟩
  · exact ⟨y - e, j, by rw [hj]; ring, hy⟩
  · refine ⟨360 - e, j - 1, by rw [hj]; push_cast; ring, ?_⟩
    rw [abs_of_nonneg (by linarith)]
    exact hy

/-! ## C79 -/

/-- **C79 in doubles**, for longitudes of less than 2^56 degrees: the computation ends, and its answer is the exact one unless the exact difference is
within 2^-40 degrees of the tolerance. -/
theorem C79_doubles (w e x d : ℚ) (hw : IsDouble w) (he : IsDouble e) (bw : |w| < 2 ^ 56) (be : |e| < 2 ^ 56) (x0 : 0 ≤ x) (x1 : x ≤ 360)
    (hd : Eastward w e d) :
    ∃ N b, (∀ fuel, N ≤ fuel → globalEwD fuel w e x = some b) ∧
      (MeetsWithin (1 / 100000000 - 1 / 2 ^ 40) d x → b = true) ∧ (b = true → MeetsWithin (1 / 100000000 + 1 / 2 ^ 40) d x) := by
  obtain ⟨N, y, hN, y0, y1, a, i, hy, ha⟩ := lon_near w hw bw
  obtain ⟨M, z, hM, z0, z1, b, j, hz, hb⟩ := lon_near e he be
  obtain ⟨k, k1, k2, k3⟩ := eastward_near hy hz ha hb y0 y1 z0 z1 hd
  refine ⟨max N M, roundD (eastwardD y z) x, fun fuel hf => ?_, tests_near k1 k2 k3 hd.2.1 hd.2.2 x0 x1⟩
  unfold globalEwD
  rw [hN fuel (le_trans (le_max_left _ _) hf), hM fuel (le_trans (le_max_right _ _) hf)]

/-- It agrees with the exact computation of the model (`C79_computed`) for every difference that is not that close to the tolerance. -/
theorem C79_doubles_agree (P : Py) (s : GS) (w e x d : ℚ) (cw : coord s 1 = .ok w) (ce : coord s 3 = .ok e) (cx : dx P s = .ok x) (hg : s.gew = none)
    (hw : IsDouble w) (he : IsDouble e) (bw : |w| < 2 ^ 56) (be : |e| < 2 ^ 56) (x0 : 0 ≤ x) (x1 : x ≤ 360) (hd : Eastward w e d)
    (hfar : ∀ q ∈ [d, 360 - d, |360 - d - x|], 1 / 2 ^ 40 < |q - 1 / 100000000|) :
    ∃ N b, (∀ fuel, N ≤ fuel → globalEwD fuel w e x = some b) ∧ isGlobalEw P s = .ok b := by
  obtain ⟨N, b, h1, h2, h3⟩ := C79_doubles w e x d hw he bw be x0 x1 hd
  refine ⟨N, b, h1, ?_⟩
  rw [C79_computed P s w e x d cw ce cx hg hd]
  have step : ∀ q ∈ [d, 360 - d, |360 - d - x|], (q < 1 / 100000000 + 1 / 2 ^ 40 → q < 1 / 100000000) ∧ (q < 1 / 100000000 → q < 1 / 100000000 - 1 / 2 ^ 40) := by
    intro q hq
    have := hfar q hq
    constructor
    · intro hlt
      by_contra hc
      rw [abs_of_nonneg (by linarith)] at this
      linarith
    · intro hlt
      by_contra hc
      rw [abs_of_neg (by linarith)] at this
      linarith
  simp only [List.mem_cons, List.not_mem_nil, or_false] at step
  obtain ⟨s1, s1'⟩ := step d (.inl rfl)
  obtain ⟨s2, s2'⟩ := step (360 - d) (.inr (.inl rfl))
  obtain ⟨s3, s3'⟩ := step |360 - d - x| (.inr (.inr rfl))
  congr 1
  rw [Bool.eq_iff_iff, decide_eq_true_iff]
  exact ⟨fun h => h2 (h.imp s1' (Or.imp s2' s3')), fun h => (h3 h).imp s1 (Or.imp s2 s3)⟩

/-! ## Non-vacuity -/

theorem double_int (n : Int) (h : n.natAbs < 2 ^ 53) : IsDouble n := ⟨n, 0, h, by norm_num, by simp⟩

/-- From 0 to 359 with increment 1: global; from 0 to 358: not. -/
example : (∃ N b, (∀ fuel, N ≤ fuel → globalEwD fuel (-180) 179 1 = some b) ∧ b = true) ∧
    ∃ N b, (∀ fuel, N ≤ fuel → globalEwD fuel (-180) 178 1 = some b) ∧ b = false := by
  have d1 : IsDouble (-180) := by exact_mod_cast double_int (-180) (by norm_num)
  have d2 : IsDouble 179 := by exact_mod_cast double_int 179 (by norm_num)
  have d3 : IsDouble 178 := by exact_mod_cast double_int 178 (by norm_num)
  constructor
  · obtain ⟨N, b, h1, h2, _⟩ := C79_doubles (-180) 179 1 359 d1 d2 (by norm_num [abs_of_neg]) (by norm_num) (by norm_num) (by norm_num)
      ⟨⟨0, by norm_num⟩, by norm_num, by norm_num⟩
    exact ⟨N, b, h1, h2 (.inr (.inr (by norm_num)))⟩
  · obtain ⟨N, b, h1, _, h2⟩ := C79_doubles (-180) 178 1 358 d1 d3 (by norm_num [abs_of_neg]) (by norm_num) (by norm_num) (by norm_num)
      ⟨⟨0, by norm_num⟩, by norm_num, by norm_num⟩
    refine ⟨N, b, h1, ?_⟩
    by_contra hb
    rcases h2 (by simpa using hb) with h | h | h <;> norm_num at h

/-- `C79_doubles_agree`: a grid of one degree from 0 to 359 without the flag. -/
example (P : Py) : ∃ (s : GS) (N : Nat) (b : Bool), (∀ fuel, N ≤ fuel → globalEwD fuel 0 359 1 = some b) ∧ isGlobalEw P s = .ok b := by
  obtain ⟨s, hs⟩ : ∃ s : GS, s = ⟨.ll, fun k => if k = "grid" then some (.list [.int 1, .int 1])
      else if k = "area" then some (.list [.int 90, .int 0, .int (-90), .int 359]) else none, none⟩ := ⟨_, rfl⟩
  refine ⟨s, C79_doubles_agree P s 0 359 1 359 (by rw [hs]; rfl) (by rw [hs]; rfl) ?_ (by rw [hs])
    (by exact_mod_cast double_int 0 (by norm_num)) (by exact_mod_cast double_int 359 (by norm_num)) (by norm_num) (by norm_num) (by norm_num) (by norm_num)
    ⟨⟨0, by norm_num⟩, by norm_num, by norm_num⟩ ?_⟩
  · have := (C79_increment P s).1 (.int 1) (.int 1) 1 (by rw [hs]) (by rw [hs]; rfl) rfl
    rw [this, abs_of_pos (by norm_num)]
  · intro q hq
    simp only [List.mem_cons, List.not_mem_nil, or_false] at hq
    rcases hq with rfl | rfl | rfl <;> norm_num [abs_of_pos, abs_of_neg]

end Verif.GridSpec

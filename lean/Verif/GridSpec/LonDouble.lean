import Verif.GridSpec.Props2
import Verif.Regrid.Ieee

/-!
# C35 in doubles

`normaliseLon` of the model computes exactly. Here the two loops with IEEE doubles, in which adding a turn may round — or do nothing.
-/

namespace Verif.GridSpec
open Verif.Humanize Verif.Regrid

/-- `while lon < 0: lon += 360.0` — gridspec.py:128-129, with `minimum = 0`, which is what it is called with. `none`: not done after so many turns. -/
def lonUpD : Nat → ℚ → Option ℚ
  | 0, _ => none
  | n + 1, lon => if lon < 0 then lonUpD n (double.fl (lon + 360)) else some lon

/-- `while lon >= 0 + 360.0: lon -= 360.0` — gridspec.py:130-131 -/
def lonDownD : Nat → ℚ → Option ℚ
  | 0, _ => none
  | n + 1, lon => if 360 ≤ lon then lonDownD n (double.fl (lon - 360)) else some lon

/-- `normalise_lon(lon, 0)` — gridspec.py:126-132 -/
def normaliseLonD (fuel : Nat) (lon : ℚ) : Option ℚ := (lonUpD fuel lon).bind (lonDownD fuel)

/-- A double. -/
abbrev IsDouble (q : ℚ) : Prop := IsBinary 53 (-1074) q

theorem fl_double {q : ℚ} (h : IsDouble q) : double.fl q = q := ieee_fixes 53 (-1074) _ q h

theorem fl_is (q : ℚ) : IsDouble (double.fl q) := ieee_binary 53 (by norm_num) (-1074) _ q

/-- A last digit of at most 8. -/
theorem small_digit {q : ℚ} (h : IsDouble q) (hb : |q| < 2 ^ 56) : ∃ (m e : Int), m.natAbs < 2 ^ 53 ∧ -1074 ≤ e ∧ e ≤ 3 ∧ q = m * 2 ^ e := by
  obtain ⟨m, e, hm, he, rfl⟩ := h
  by_cases h3 : e ≤ 3
  · exact ⟨m, e, hm, he, h3, rfl⟩
  · obtain ⟨k, hk⟩ : ∃ k : ℕ, e - 3 = k := Int.eq_ofNat_of_zero_le (by omega)
    have e1 : (m : ℚ) * 2 ^ e = ((m * 2 ^ k : Int) : ℚ) * 2 ^ (3 : Int) := by
      have e2 : (2 : ℚ) ^ e = 2 ^ (k : Int) * 2 ^ (3 : Int) := by
        rw [← zpow_add₀ (by norm_num), ← hk]
        congr 1
        ring
      rw [e2, zpow_natCast, Int.cast_mul, Int.cast_pow]
      push_cast
      ring
    refine ⟨m * 2 ^ k, 3, ?_, by norm_num, le_rfl, e1⟩
    rw [e1, abs_mul, abs_of_pos (two_zpow_pos 3)] at hb
    have h1 : |((m * 2 ^ k : Int) : ℚ)| < 2 ^ 53 := by
      norm_num at hb ⊢
      linarith
    have h2 : |m * 2 ^ k| < 2 ^ 53 := by exact_mod_cast h1
    rw [Int.abs_eq_natAbs] at h2
    exact_mod_cast h2

/-- A turn towards zero is exact. -/
theorem turn_exact {q : ℚ} (h : IsDouble q) (hb : |q| < 2 ^ 56) : (360 ≤ q → IsDouble (q - 360)) ∧ (q ≤ -360 → IsDouble (q + 360)) := by
  obtain ⟨m, e, hm, he, h3, rfl⟩ := small_digit h hb
  obtain ⟨k, hk⟩ : ∃ k : ℕ, 3 - e = k := Int.eq_ofNat_of_zero_le (by omega)
  have ht : (360 : ℚ) = ((45 * 2 ^ k : Int) : ℚ) * 2 ^ e := by
    push_cast
    rw [mul_assoc, ← zpow_natCast, ← hk, ← zpow_add₀ (by norm_num)]
    norm_num
  have hp := two_zpow_pos e
  have hK : (0 : Int) < 45 * 2 ^ k := by positivity
  generalize (45 * 2 ^ k : Int) = K at ht hK
  constructor
  · intro hle
    have h1 : K ≤ m := by
      have : (K : ℚ) ≤ m := by
        by_contra hc
        rw [ht] at hle
        nlinarith [mul_lt_mul_of_pos_right (not_le.1 hc) hp]
      exact_mod_cast this
    refine ⟨m - K, e, by omega, he, ?_⟩
    rw [ht]
    push_cast
    ring
  · intro hle
    have h1 : m ≤ -K := by
      have : (m : ℚ) ≤ -K := by
        by_contra hc
        rw [ht] at hle
        nlinarith [mul_lt_mul_of_pos_right (not_le.1 hc) hp]
      exact_mod_cast this
    refine ⟨m + K, e, by omega, he, ?_⟩
    rw [ht]
    push_cast
    ring

/-- Turning down: exact. -/
theorem down_done (k : Nat) : ∀ (lon e : ℚ), IsDouble lon → |lon| < 2 ^ 56 → lon = e + 360 * k → 0 ≤ e → e < 360 →
    IsDouble e ∧ ∀ n, k < n → lonDownD n lon = some e := by
  induction k with
  | zero =>
    intro lon e hd hb he h0 h1
    simp only [Nat.cast_zero, mul_zero, add_zero] at he
    subst he
    refine ⟨hd, fun n hn => ?_⟩
    obtain ⟨n, rfl⟩ : ∃ n', n = n' + 1 := ⟨n - 1, by omega⟩
    unfold lonDownD
    rw [if_neg (by linarith)]
  | succ k ih =>
    intro lon e hd hb he h0 h1
    have hk : (0 : ℚ) ≤ k := Nat.cast_nonneg k
    push_cast at he
    have hge : 360 ≤ lon := by linarith
    have hx := (turn_exact hd hb).1 hge
    obtain ⟨i1, i2⟩ := ih _ e hx (by
      rw [abs_of_nonneg (by linarith)] at hb ⊢
      linarith) (by linarith) h0 h1
    refine ⟨i1, fun n hn => ?_⟩
    obtain ⟨n, rfl⟩ : ∃ n', n = n' + 1 := ⟨n - 1, by omega⟩
    unfold lonDownD
    rw [if_pos hge, fl_double hx]
    exact i2 n (by omega)

/-- Turning up: exact until the last turn. -/
theorem up_done (k : Nat) : ∀ (lon e : ℚ), IsDouble lon → |lon| < 2 ^ 56 → lon + 360 * (k + 1) = e → 0 ≤ e → e < 360 →
    ∀ n, k + 1 < n → lonUpD n lon = some (double.fl e) := by
  induction k with
  | zero =>
    intro lon e hd hb he h0 h1 n hn
    obtain ⟨n, rfl⟩ : ∃ n', n = n' + 2 := ⟨n - 2, by omega⟩
    simp only [Nat.cast_zero, zero_add, mul_one] at he
    have hs : 0 ≤ double.fl e := ieee_signed 53 (-1074) _ e h0
    unfold lonUpD
    rw [if_pos (by linarith), he]
    unfold lonUpD
    rw [if_neg (by linarith)]
  | succ k ih =>
    intro lon e hd hb he h0 h1 n hn
    obtain ⟨n, rfl⟩ : ∃ n', n = n' + 1 := ⟨n - 1, by omega⟩
    have hk : (0 : ℚ) ≤ k := Nat.cast_nonneg k
    push_cast at he
    have hle : lon ≤ -360 := by linarith
    have hx := (turn_exact hd hb).2 hle
    unfold lonUpD
    rw [if_pos (by linarith), fl_double hx]
    refine ih _ e hx ?_ (by linarith) h0 h1 n (by omega)
    rw [abs_of_neg (by linarith)] at hb
    rw [abs_of_nonpos (by linarith)]
    linarith

theorem double360 : IsDouble 360 := ⟨360, 0, by norm_num, by norm_num, by norm_num⟩

theorem fl_le_360 {e : ℚ} (h0 : 0 ≤ e) (h1 : e < 360) : 0 ≤ double.fl e ∧ double.fl e ≤ 360 := by
  refine ⟨ieee_signed 53 (-1074) _ e h0, ?_⟩
  have := ieee_nearest 53 (-1074) ((2 ^ 53 - 1) * 2 ^ 971) e 360 double360
  rw [abs_of_pos (show (0 : ℚ) < 360 - e by linarith)] at this
  have := (abs_le.1 this).2
  change double.fl e - e ≤ 360 - e at this
  linarith

/-- **C35** in doubles, for longitudes of less than 2^56 degrees: the loops end, with the exact representative rounded once — and 0 for one that
rounds to 360. -/
theorem C35_doubles (lon e : ℚ) (h : IsDouble lon) (hb : |lon| < 2 ^ 56) (hc : Congruent lon e) (h0 : 0 ≤ e) (h1 : e < 360) :
    ∃ N, ∀ fuel, N ≤ fuel → normaliseLonD fuel lon = some (if double.fl e = 360 then 0 else double.fl e) := by
  obtain ⟨j, hj⟩ := hc
  obtain ⟨f0, f1⟩ := fl_le_360 h0 h1
  have hrest : ∀ n, 1 < n → lonDownD n (double.fl e) = some (if double.fl e = 360 then 0 else double.fl e) := by
    intro n hn
    have hb' : |double.fl e| < 2 ^ 56 := by rw [abs_of_nonneg f0]; norm_num; linarith
    by_cases h3 : double.fl e = 360
    · rw [if_pos h3]
      exact (down_done 1 (double.fl e) 0 (fl_is e) hb' (by rw [h3]; norm_num) le_rfl (by norm_num)).2 n hn
    · rw [if_neg h3]
      exact (down_done 0 (double.fl e) (double.fl e) (fl_is e) hb' (by simp) f0 (lt_of_le_of_ne f1 h3)).2 n (by omega)
  rcases lt_or_ge lon 0 with hneg | hpos
  · obtain ⟨k, hk⟩ : ∃ k : ℕ, lon + 360 * (k + 1) = e := by
      have hj0 : 0 < j := by
        by_contra hc
        have : (j : ℚ) ≤ 0 := by exact_mod_cast not_lt.1 hc
        linarith
      obtain ⟨k, hk⟩ : ∃ k : ℕ, j - 1 = k := Int.eq_ofNat_of_zero_le (by omega)
      refine ⟨k, ?_⟩
      have : (j : ℚ) = k + 1 := by exact_mod_cast (by omega : j = k + 1)
      rw [hj, this]
    refine ⟨k + 2, fun fuel hf => ?_⟩
    unfold normaliseLonD
    rw [up_done k lon e h hb hk h0 h1 fuel (by omega)]
    exact hrest fuel (by omega)
  · obtain ⟨k, hk⟩ : ∃ k : ℕ, lon = e + 360 * k := by
      have hj0 : j < 1 := by
        by_contra hc
        have : (1 : ℚ) ≤ j := by exact_mod_cast not_lt.1 hc
        linarith
      obtain ⟨k, hk⟩ : ∃ k : ℕ, -j = k := Int.eq_ofNat_of_zero_le (by omega)
      refine ⟨k, ?_⟩
      have : (j : ℚ) = -k := by exact_mod_cast (by omega : j = -k)
      rw [hj, this]
      ring
    refine ⟨k + 1, fun fuel hf => ?_⟩
    unfold normaliseLonD
    obtain ⟨he, hd⟩ := down_done k lon e h hb hk h0 h1
    have hup : lonUpD fuel lon = some lon := by
      obtain ⟨n, rfl⟩ : ∃ n', fuel = n' + 1 := ⟨fuel - 1, by omega⟩
      unfold lonUpD
      rw [if_neg (by linarith)]
    rw [hup]
    show lonDownD fuel lon = _
    rw [hd fuel (by omega), fl_double he, if_neg (by linarith)]

/-- Half a million degrees west: exact. -/
example : ∃ N, ∀ fuel, N ≤ fuel → normaliseLonD fuel (-500000) = some 40 := by
  have hd : double.fl 40 = 40 := fl_double ⟨40, 0, by norm_num, by norm_num, by norm_num⟩
  have := C35_doubles (-500000) 40 ⟨-500000, 0, by norm_num, by norm_num, by norm_num⟩ (by norm_num [abs_of_neg]) ⟨1389, by norm_num⟩
    (by norm_num) (by norm_num)
  rw [hd, if_neg (by norm_num)] at this
  exact this

/-- So it is within 2^-44 degrees of the exact one, on the circle. -/
theorem C35_doubles_close (lon e y : ℚ) (fuel : Nat) (h : IsDouble lon) (hb : |lon| < 2 ^ 56) (hc : Congruent lon e) (h0 : 0 ≤ e) (h1 : e < 360)
    (hy : ∀ n, fuel ≤ n → normaliseLonD n lon = some y) :
    0 ≤ y ∧ y < 360 ∧ (|y - e| ≤ 1 / 2 ^ 44 ∨ y = 0 ∧ 360 - e ≤ 1 / 2 ^ 44) := by
  obtain ⟨N, hN⟩ := C35_doubles lon e h hb hc h0 h1
  have hyv := (hy (max fuel N) (le_max_left _ _)).symm.trans (hN (max fuel N) (le_max_right _ _))
  rw [Option.some.injEq] at hyv
  obtain ⟨f0, f1⟩ := fl_le_360 h0 h1
  have hacc := (ieee_accurate 53 (-1074) ((2 ^ 53 - 1) * 2 ^ 971)).close e
  change |double.fl e - e| ≤ _ at hacc
  have hs : (2 : ℚ) ^ ((-1074 : Int) - 1) ≤ 2 ^ (-60 : Int) := zpow_le_zpow_right₀ (by norm_num) (by norm_num)
  generalize (2 : ℚ) ^ ((-1074 : Int) - 1) = t at *
  have hclose : |double.fl e - e| ≤ 1 / 2 ^ 44 := by
    refine hacc.trans ?_
    rw [abs_of_nonneg h0]
    norm_num at hs ⊢
    linarith
  by_cases h3 : double.fl e = 360
  · rw [if_pos h3] at hyv
    subst hyv
    rw [h3, abs_of_pos (by linarith)] at hclose
    exact ⟨le_rfl, by norm_num, .inr ⟨rfl, hclose⟩⟩
  · rw [if_neg h3] at hyv
    subst hyv
    exact ⟨f0, lt_of_le_of_ne f1 h3, .inl hclose⟩

/-- 2^-60 degrees west of the meridian is turned into the meridian. -/
example : ∃ N, ∀ fuel, N ≤ fuel → ∃ y, normaliseLonD fuel (-(1 / 2 ^ 60)) = some y ∧ 0 ≤ y ∧ y < 360 ∧ (|y - (360 - 1 / 2 ^ 60)| ≤ 1 / 2 ^ 44 ∨ y = 0) := by
  have hd : IsDouble (-(1 / 2 ^ 60)) := ⟨-1, -60, by norm_num, by norm_num, by norm_num⟩
  have hb : |(-(1 / 2 ^ 60) : ℚ)| < 2 ^ 56 := by norm_num [abs_of_neg]
  have hc : Congruent (-(1 / 2 ^ 60)) (360 - 1 / 2 ^ 60) := ⟨1, by norm_num⟩
  obtain ⟨N, hN⟩ := C35_doubles _ _ hd hb hc (by norm_num) (by norm_num)
  refine ⟨N, fun fuel hf => ⟨_, hN fuel hf, ?_⟩⟩
  obtain ⟨h1, h2, h3⟩ := C35_doubles_close _ _ _ N hd hb hc (by norm_num) (by norm_num) hN
  exact ⟨h1, h2, h3.imp id And.left⟩

/-- A turn that changes nothing. -/
theorem turn_lost {q t : ℚ} (h : IsDouble q) (hb : 2 ^ 63 ≤ |q|) (ht : |t| = 360) (hin : |q + t| ≤ |q|) : double.fl (q + t) = q := by
  have hq0 : q ≠ 0 := by
    rintro rfl
    norm_num at hb
  have hb2 : (2 : ℚ) ^ (62 : Int) ≤ |q + t| := by
    have h1 := abs_sub_abs_le_abs_sub q (-t)
    rw [abs_neg, sub_neg_eq_add, ht] at h1
    norm_num at hb ⊢
    linarith
  have hqt : 0 < |q + t| := lt_of_lt_of_le (two_zpow_pos 62) hb2
  have hL : 62 ≤ Int.log 2 |q + t| := by
    rw [← Int.zpow_le_iff_le_log (by norm_num) hqt]
    exact_mod_cast hb2
  have hmono : Int.log 2 |q + t| ≤ Int.log 2 |q| := Int.log_mono_right hqt hin
  -- `q` is a multiple of the last digit of the sum
  have hfl : double.fl (q + t) = roundEven ((q + t) / lastDigit 53 (-1074) (q + t)) * lastDigit 53 (-1074) (q + t) := rfl
  have hfix := fl_double h
  have hflq : double.fl q = roundEven (q / lastDigit 53 (-1074) q) * lastDigit 53 (-1074) q := rfl
  have hu : lastDigit 53 (-1074) (q + t) = 2 ^ (Int.log 2 |q + t| - 52) := by
    unfold lastDigit
    rw [max_eq_left (by push_cast; omega)]
    norm_num
  have huq : lastDigit 53 (-1074) q = 2 ^ (Int.log 2 |q| - 52) := by
    unfold lastDigit
    rw [max_eq_left (by push_cast; omega)]
    norm_num
  obtain ⟨k, hk⟩ : ∃ k : Int, q = k * 2 ^ (Int.log 2 |q + t| - 52) := by
    obtain ⟨d, hd⟩ : ∃ d : ℕ, Int.log 2 |q| - Int.log 2 |q + t| = d := Int.eq_ofNat_of_zero_le (by omega)
    refine ⟨roundEven (q / lastDigit 53 (-1074) q) * 2 ^ d, ?_⟩
    rw [hflq, huq] at hfix
    have e2 : (2 : ℚ) ^ (Int.log 2 |q| - 52) = 2 ^ (d : Int) * 2 ^ (Int.log 2 |q + t| - 52) := by
      rw [← zpow_add₀ (by norm_num), ← hd]
      congr 1
      ring
    rw [huq]
    conv_lhs => rw [← hfix]
    rw [e2, Int.cast_mul, Int.cast_pow, zpow_natCast]
    push_cast
    ring
  have hbig : (1024 : ℚ) ≤ 2 ^ (Int.log 2 |q + t| - 52) := by
    have : (2 : ℚ) ^ (10 : Int) ≤ 2 ^ (Int.log 2 |q + t| - 52) := zpow_le_zpow_right₀ (by norm_num) (by omega)
    norm_num at this
    exact this
  rw [hfl, hu]
  have hup := two_zpow_pos (Int.log 2 |q + t| - 52)
  generalize (2 : ℚ) ^ (Int.log 2 |q + t| - 52) = u at *
  have hx : (q + t) / u = k + t / u := by
    rw [hk]
    field_simp
  have htu : |t / u| < 1 / 2 := by
    rw [abs_div, abs_of_pos hup, ht, div_lt_iff₀ hup]
    linarith
  have htu := abs_lt.1 htu
  have hr : roundEven ((q + t) / u) = k := by
    apply le_antisymm
    · exact roundEven_le (by rw [hx]; linarith)
    · have h1 := (abs_le.1 (roundEven_near ((q + t) / u))).1
      have : (k : ℚ) < roundEven ((q + t) / u) + 1 := by
        rw [hx] at h1 ⊢
        linarith
      have : k < roundEven ((q + t) / u) + 1 := by exact_mod_cast this
      omega
  rw [hr, ← hk]

/-- Longitudes of 2^63 degrees and more are turned for ever. -/
theorem C35_doubles_refuted (lon : ℚ) (h : IsDouble lon) (hb : 2 ^ 63 ≤ |lon|) (fuel : Nat) : normaliseLonD fuel lon = none := by
  rcases lt_or_ge lon 0 with hneg | hpos
  · have hl : lon ≤ -2 ^ 63 := by rw [abs_of_neg hneg] at hb; linarith
    have hstep : double.fl (lon + 360) = lon := turn_lost h hb (by norm_num) (by
      norm_num at hl
      rw [abs_of_neg hneg, abs_of_neg (by linarith)]
      linarith)
    have hup : ∀ n, lonUpD n lon = none := by
      intro n
      induction n with
      | zero => rfl
      | succ n ih =>
        unfold lonUpD
        rw [if_pos hneg, hstep]
        exact ih
    unfold normaliseLonD
    rw [hup]
    rfl
  · have hl : 2 ^ 63 ≤ lon := by rw [abs_of_nonneg hpos] at hb; exact hb
    norm_num at hl
    have hstep : double.fl (lon - 360) = lon := by
      rw [sub_eq_add_neg]
      exact turn_lost h hb (by norm_num) (by
        rw [abs_of_nonneg hpos, abs_of_nonneg (by linarith)]
        linarith)
    have hdown : ∀ n, lonDownD n lon = none := by
      intro n
      induction n with
      | zero => rfl
      | succ n ih =>
        unfold lonDownD
        rw [if_pos (by linarith), hstep]
        exact ih
    unfold normaliseLonD
    cases fuel with
    | zero => rfl
    | succ n =>
      have hup : lonUpD (n + 1) lon = some lon := by
        unfold lonUpD
        rw [if_neg (by linarith)]
      rw [hup]
      exact hdown _

/-- -2^64 degrees. -/
example (fuel : Nat) : normaliseLonD fuel (-2 ^ 64) = none :=
  C35_doubles_refuted _ ⟨-1, 64, by norm_num, by norm_num, by norm_num⟩ (by norm_num [abs_of_neg]) fuel

end Verif.GridSpec

import Verif.Regrid.FloatProps
import Verif.Humanize.Double

/-!
# IEEE 754 numbers for C121 and C122

The roundings of `Verif.Regrid.Float` that the machine has: binary numbers of `p` digits, the last of them worth at least 2^`emin`, rounded to the
nearest, ties to even. Doubles are what numpy and scipy compute with here: the weights are stored as doubles and the product takes the wider type.
-/

namespace Verif.Regrid
open Verif.Humanize Finset

/-- What the last digit of a number of the size of `q` is worth. -/
def lastDigit (p : Nat) (emin : Int) (q : ℚ) : ℚ := 2 ^ max (Int.log 2 |q| - (p - 1)) emin

/-- Rounding to the nearest number of `p` binary digits, with gradual underflow; results above `top` are infinite. -/
def ieee (p : Nat) (emin : Int) (top : ℚ) : Rounding := ⟨fun q => roundEven (q / lastDigit p emin q) * lastDigit p emin q, top⟩

/-- Doubles: 53 digits, from 2^-1074 to (2^53 - 1) 2^971. -/
def double : Rounding := ieee 53 (-1074) ((2 ^ 53 - 1) * 2 ^ 971)

/-- A number of the format: at most `p` digits and none worth less than 2^`emin`. -/
def IsBinary (p : Nat) (emin : Int) (q : ℚ) : Prop := ∃ (m e : Int), m.natAbs < 2 ^ p ∧ emin ≤ e ∧ q = m * 2 ^ e

theorem lastDigit_pos (p : Nat) (emin : Int) (q : ℚ) : 0 < lastDigit p emin q := two_zpow_pos _

theorem two_split (e : Int) : (2 : ℚ) ^ (e - 1) = 2 ^ e / 2 := by rw [zpow_sub₀ (by norm_num)]; norm_num

/-- Half a last digit: relative to the number, or the smallest one. -/
theorem half_digit (p : Nat) (emin : Int) (q : ℚ) (hq : q ≠ 0) : lastDigit p emin q / 2 ≤ 1 / 2 ^ p * |q| + 2 ^ (emin - 1) := by
  have hq' := abs_pos.2 hq
  have h1 : ((2 : ℕ) : ℚ) ^ Int.log 2 |q| ≤ |q| := Int.zpow_log_le_self (by norm_num) hq'
  push_cast at h1
  have hm := two_zpow_pos (emin - 1)
  unfold lastDigit
  rw [← two_split]
  rcases le_total (Int.log 2 |q| - (p - 1)) emin with h | h
  · rw [max_eq_right h]
    have : 0 ≤ 1 / 2 ^ p * |q| := by positivity
    linarith
  · rw [max_eq_left h]
    have e : (2 : ℚ) ^ (Int.log 2 |q| - ((p : Int) - 1) - 1) = 1 / 2 ^ p * 2 ^ Int.log 2 |q| := by
      rw [show Int.log 2 |q| - ((p : Int) - 1) - 1 = Int.log 2 |q| + -(p : Int) by ring, zpow_add₀ (by norm_num), zpow_neg, zpow_natCast]
      ring
    rw [e]
    have : 1 / 2 ^ p * (2 : ℚ) ^ Int.log 2 |q| ≤ 1 / 2 ^ p * |q| := mul_le_mul_of_nonneg_left h1 (by positivity)
    linarith

/-- These roundings are as accurate as C122 wants. -/
theorem ieee_accurate (p : Nat) (emin : Int) (top : ℚ) : (ieee p emin top).Accurate (1 / 2 ^ p) (2 ^ (emin - 1)) where
  zero := by
    show (roundEven (0 / lastDigit p emin 0) : ℚ) * _ = 0
    rw [zero_div, show (0 : ℚ) = ((0 : Int) : ℚ) by norm_num, roundEven_int]
    simp
  close := by
    intro q
    show |(roundEven (q / lastDigit p emin q) : ℚ) * lastDigit p emin q - q| ≤ _
    by_cases hq : q = 0
    · subst hq
      rw [zero_div, show (0 : ℚ) = ((0 : Int) : ℚ) by norm_num, roundEven_int]
      simp only [Int.cast_zero, zero_mul, sub_zero, abs_zero, mul_zero, zero_add]
      exact (two_zpow_pos _).le
    · refine le_trans ?_ (half_digit p emin q hq)
      have hu := lastDigit_pos p emin q
      generalize lastDigit p emin q = u at *
      have e : (roundEven (q / u) : ℚ) * u - q = (roundEven (q / u) - q / u) * u := by field_simp
      rw [e, abs_mul, abs_of_pos hu]
      have := mul_le_mul_of_nonneg_right (roundEven_near (q / u)) hu.le
      linarith
  rel := by positivity
  abs := (two_zpow_pos _).le

/-- They keep signs. -/
theorem ieee_signed (p : Nat) (emin : Int) (top : ℚ) : (ieee p emin top).Signed := by
  intro q hq
  have hu := lastDigit_pos p emin q
  have h : (0 : Int) ≤ roundEven (q / lastDigit p emin q) := le_roundEven (by
    push_cast
    positivity)
  have h' : (0 : ℚ) ≤ (roundEven (q / lastDigit p emin q) : ℚ) := by exact_mod_cast h
  exact mul_nonneg h' hu.le

/-- The digits in front of the last one. -/
theorem few_digits (p : Nat) (emin : Int) (q : ℚ) (hq : q ≠ 0) : |q / lastDigit p emin q| < 2 ^ p := by
  have hq' := abs_pos.2 hq
  have h2 : |q| < ((2 : ℕ) : ℚ) ^ (Int.log 2 |q| + 1) := Int.lt_zpow_succ_log_self (by norm_num) |q|
  push_cast at h2
  have hu := lastDigit_pos p emin q
  rw [abs_div, abs_of_pos hu, div_lt_iff₀ hu]
  refine lt_of_lt_of_le h2 ?_
  unfold lastDigit
  rw [← zpow_natCast, ← zpow_add₀ (by norm_num)]
  refine zpow_le_zpow_right₀ (by norm_num) ?_
  have := le_max_left (Int.log 2 |q| - ((p : Int) - 1)) emin
  omega

/-- Numbers of the format stay what they are. -/
theorem ieee_fixes (p : Nat) (emin : Int) (top q : ℚ) (h : IsBinary p emin q) : (ieee p emin top).fl q = q := by
  obtain ⟨m, e, hm, he, rfl⟩ := h
  show (roundEven ((m : ℚ) * 2 ^ e / lastDigit p emin (m * 2 ^ e)) : ℚ) * lastDigit p emin (m * 2 ^ e) = _
  by_cases h0 : m = 0
  · subst h0
    rw [Int.cast_zero, zero_mul, zero_div, show (0 : ℚ) = ((0 : Int) : ℚ) by norm_num, roundEven_int]
    simp
  have hp := two_zpow_pos e
  have hq : (0 : ℚ) < |(m : ℚ) * 2 ^ e| := abs_pos.2 (mul_ne_zero (by exact_mod_cast h0) hp.ne')
  have hl : Int.log 2 |(m : ℚ) * 2 ^ e| < p + e := by
    rw [← Int.lt_zpow_iff_log_lt (by norm_num) hq]
    push_cast
    rw [zpow_add₀ (by norm_num), abs_mul, abs_of_pos hp]
    refine mul_lt_mul_of_pos_right ?_ hp
    rw [zpow_natCast]
    have : |m| < 2 ^ p := by
      rw [Int.abs_eq_natAbs]
      exact_mod_cast hm
    exact_mod_cast this
  unfold lastDigit
  generalize hL : max (Int.log 2 |(m : ℚ) * 2 ^ e| - ((p : Int) - 1)) emin = L at *
  have hLe : L ≤ e := by
    rw [← hL]
    exact max_le (by omega) he
  obtain ⟨k, hk⟩ : ∃ k : ℕ, e - L = k := Int.eq_ofNat_of_zero_le (by omega)
  have hd : (m : ℚ) * 2 ^ e / 2 ^ L = ((m * 2 ^ k : Int) : ℚ) := by
    rw [mul_div_assoc, ← zpow_sub₀ (by norm_num), hk]
    push_cast
    rw [zpow_natCast]
  rw [hd, roundEven_int, ← hd]
  have := (two_zpow_pos L).ne'
  field_simp

/-- And the results are numbers of the format. -/
theorem ieee_binary (p : Nat) (hp : 0 < p) (emin : Int) (top q : ℚ) : IsBinary p emin ((ieee p emin top).fl q) := by
  by_cases hq : q = 0
  · subst hq
    rw [(ieee_accurate p emin top).zero]
    exact ⟨0, emin, by simp, le_rfl, by simp⟩
  have hf := abs_lt.1 (few_digits p emin q hq)
  have h1 : roundEven (q / lastDigit p emin q) ≤ 2 ^ p := roundEven_le (by push_cast; linarith)
  have h2 : -2 ^ p ≤ roundEven (q / lastDigit p emin q) := le_roundEven (by push_cast; linarith)
  have hfl : (ieee p emin top).fl q = roundEven (q / lastDigit p emin q) * 2 ^ max (Int.log 2 |q| - ((p : Int) - 1)) emin := rfl
  rw [hfl]
  have he := le_max_right (Int.log 2 |q| - ((p : Int) - 1)) emin
  generalize roundEven (q / lastDigit p emin q) = m at *
  generalize max (Int.log 2 |q| - ((p : Int) - 1)) emin = e at *
  have hpow : ((2 ^ p : Nat) : Int) = 2 ^ p := by push_cast; rfl
  by_cases hm : m.natAbs < 2 ^ p
  · exact ⟨m, e, hm, he, rfl⟩
  · have hab : m = 2 ^ p ∨ m = -2 ^ p := by
      have h1' : m ≤ ((2 ^ p : Nat) : Int) := by rw [hpow]; exact h1
      have h2' : -((2 ^ p : Nat) : Int) ≤ m := by rw [hpow]; exact h2
      rw [← hpow]
      clear h1 h2 hpow hf hfl
      generalize (2 ^ p : Nat) = P at *
      omega
    have h1p : (1 : Int).natAbs < 2 ^ p := by
      have : 2 ^ 1 ≤ 2 ^ p := Nat.pow_le_pow_right (by norm_num) hp
      simp only [Int.natAbs_one]
      omega
    rcases hab with rfl | rfl
    · refine ⟨1, p + e, h1p, by omega, ?_⟩
      rw [zpow_add₀ (by norm_num), zpow_natCast]
      push_cast
      ring
    · refine ⟨-1, p + e, by rw [Int.natAbs_neg]; exact h1p, by omega, ?_⟩
      rw [zpow_add₀ (by norm_num), zpow_natCast]
      push_cast
      ring

/-- The rounding is to the nearest: no number of the format is closer. -/
theorem ieee_nearest (p : Nat) (emin : Int) (top q b : ℚ) (hb : IsBinary p emin b) : |(ieee p emin top).fl q - q| ≤ |b - q| := by
  obtain ⟨m, e, hm, he, rfl⟩ := hb
  show |(roundEven (q / lastDigit p emin q) : ℚ) * lastDigit p emin q - q| ≤ _
  by_cases hq : q = 0
  · subst hq
    rw [zero_div, show (0 : ℚ) = ((0 : Int) : ℚ) by norm_num, roundEven_int]
    rw [Int.cast_zero, zero_mul, sub_self, abs_zero]
    exact abs_nonneg _
  have hu := lastDigit_pos p emin q
  have hnear := roundEven_near (q / lastDigit p emin q)
  have e1 : (roundEven (q / lastDigit p emin q) : ℚ) * lastDigit p emin q - q
      = (roundEven (q / lastDigit p emin q) - q / lastDigit p emin q) * lastDigit p emin q := by field_simp
  by_cases hmult : ∃ k : Int, (m : ℚ) * 2 ^ e = k * lastDigit p emin q
  · -- a multiple of the last digit
    obtain ⟨k, hk⟩ := hmult
    rw [hk, e1]
    have e2 : (k : ℚ) * lastDigit p emin q - q = (k - q / lastDigit p emin q) * lastDigit p emin q := by field_simp
    rw [e2, abs_mul, abs_mul]
    refine mul_le_mul_of_nonneg_right ?_ (abs_nonneg _)
    generalize q / lastDigit p emin q = x at *
    have hx1 := Int.floor_le x
    have hx2 := Int.lt_floor_add_one x
    have hk' : k ≤ ⌊x⌋ ∨ ⌊x⌋ + 1 ≤ k := by omega
    have a := abs_le.1 hnear
    -- the distance is at most the distance to both neighbours
    have hnb : |(roundEven x : ℚ) - x| ≤ x - ⌊x⌋ ∧ |(roundEven x : ℚ) - x| ≤ ⌊x⌋ + 1 - x := by
      unfold roundEven
      split
      · rw [abs_of_nonpos (by linarith)]; constructor <;> linarith
      · split
        · push_cast; rw [abs_of_nonneg (by linarith)]; constructor <;> linarith
        · split
          · rw [abs_of_nonpos (by linarith)]; constructor <;> linarith
          · push_cast; rw [abs_of_nonneg (by linarith)]; constructor <;> linarith
    rcases hk' with hk' | hk'
    · have : (k : ℚ) ≤ ⌊x⌋ := by exact_mod_cast hk'
      rw [abs_of_nonpos (show (k : ℚ) - x ≤ 0 by linarith)]
      linarith [hnb.1]
    · have : (⌊x⌋ : ℚ) + 1 ≤ k := by exact_mod_cast hk'
      rw [abs_of_nonneg (show (0 : ℚ) ≤ k - x by linarith)]
      linarith [hnb.2]
  · -- a number with smaller digits: below the power of two under `q`
    have hlt : e < max (Int.log 2 |q| - ((p : Int) - 1)) emin := by
      by_contra hc
      obtain ⟨k, hk⟩ : ∃ k : ℕ, e - max (Int.log 2 |q| - ((p : Int) - 1)) emin = k := Int.eq_ofNat_of_zero_le (by omega)
      refine hmult ⟨m * 2 ^ k, ?_⟩
      unfold lastDigit
      push_cast
      rw [mul_assoc, ← zpow_natCast, ← hk, ← zpow_add₀ (by norm_num)]
      congr 2
      ring
    have hmax : max (Int.log 2 |q| - ((p : Int) - 1)) emin = Int.log 2 |q| - ((p : Int) - 1) := by
      rcases max_choice (Int.log 2 |q| - ((p : Int) - 1)) emin with h | h
      · exact h
      · rw [h] at hlt; omega
    have hq' := abs_pos.2 hq
    have hlow : ((2 : ℕ) : ℚ) ^ Int.log 2 |q| ≤ |q| := Int.zpow_log_le_self (by norm_num) hq'
    push_cast at hlow
    have hsz : |(m : ℚ) * 2 ^ e| ≤ 2 ^ Int.log 2 |q| - lastDigit p emin q / 2 := by
      have hm' : |(m : ℚ)| ≤ 2 ^ p - 1 := by
        have : |m| ≤ 2 ^ p - 1 := by
          rw [Int.abs_eq_natAbs]
          have : (m.natAbs : Int) < 2 ^ p := by exact_mod_cast hm
          omega
        exact_mod_cast this
      have hpe := two_zpow_pos e
      have he2 : (2 : ℚ) ^ e ≤ lastDigit p emin q / 2 := by
        unfold lastDigit
        rw [← two_split]
        exact zpow_le_zpow_right₀ (by norm_num) (by omega)
      have hp1 : (1 : ℚ) ≤ 2 ^ p := one_le_pow₀ (by norm_num)
      rw [abs_mul, abs_of_pos hpe]
      have hL : (2 : ℚ) ^ Int.log 2 |q| = 2 ^ p * (lastDigit p emin q / 2) := by
        unfold lastDigit
        rw [hmax, ← two_split, ← zpow_natCast, ← zpow_add₀ (by norm_num)]
        congr 1
        ring
      rw [hL]
      calc |(m : ℚ)| * 2 ^ e ≤ (2 ^ p - 1) * (lastDigit p emin q / 2) := mul_le_mul hm' he2 hpe.le (by linarith)
        _ = _ := by ring
    have h3 : |(roundEven (q / lastDigit p emin q) : ℚ) * lastDigit p emin q - q| ≤ lastDigit p emin q / 2 := by
      rw [e1, abs_mul, abs_of_pos hu]
      have := mul_le_mul_of_nonneg_right hnear hu.le
      linarith
    have h4 : |q| - |(m : ℚ) * 2 ^ e| ≤ |(m : ℚ) * 2 ^ e - q| := by
      rw [abs_sub_comm]
      exact abs_sub_abs_le_abs_sub _ _
    linarith

end Verif.Regrid

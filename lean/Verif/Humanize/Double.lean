import Verif.Humanize.Model
import Mathlib.Data.Int.Log
import Mathlib.Data.Rat.Floor
import Mathlib.Tactic.Linarith
import Mathlib.Tactic.Positivity
import Mathlib.Tactic.FieldSimp
import Mathlib.Tactic.Ring

/-!
# IEEE 754 doubles, and `bytes` of utils/humanize.py in them

Rounding of an exact result to the nearest number with 53 binary digits, ties to even. Exponents have no bounds here: the numbers of `bytes` are
between 1/2 and 2^1024 (python raises OverflowError for larger integers).
-/

namespace Verif.Humanize

/-- The nearest integer, the even one of two. -/
def roundEven (x : ℚ) : Int :=
  if x - ⌊x⌋ < 1 / 2 then ⌊x⌋
  else if 1 / 2 < x - ⌊x⌋ then ⌊x⌋ + 1
  else if ⌊x⌋ % 2 = 0 then ⌊x⌋ else ⌊x⌋ + 1

/-- The double of an exact result. -/
def dbl (q : ℚ) : ℚ := if q = 0 then 0 else roundEven (q / 2 ^ (Int.log 2 |q| - 52)) * 2 ^ (Int.log 2 |q| - 52)

/-- `bytes` — humanize.py:13-30 in double arithmetic: `n /= 1024.0` makes a float of an integer of 1024 or more, and so does `+ 0.5`;
dividing by 1024 is exact, `* 10` and `+ 0.5` round. `none`: IndexError (OverflowError from 2^1024). -/
def bytesF (other : Int → List Char) (n : Int) : Option (List Char) :=
  let sign := if n < 0 then ['-'] else []
  let r := if 1024 ≤ n then scale n.natAbs (dbl n) 0 else ((n : ℚ), 0)
  match sizeUnits[r.2]? with
  | none => none
  | some u => some (sign ++ fmtG other (pyTrunc (dbl (dbl (r.1 * 10) + 1 / 2))) ++ u)

/-! ## Rounding -/

theorem roundEven_near (x : ℚ) : |(roundEven x : ℚ) - x| ≤ 1 / 2 := by
  have h1 := Int.floor_le x
  have h2 := Int.lt_floor_add_one x
  unfold roundEven
  rw [abs_le]
  split
  · constructor <;> linarith
  · split
    · push_cast; constructor <;> linarith
    · split
      · constructor <;> linarith
      · push_cast; constructor <;> linarith

theorem roundEven_int (m : Int) : roundEven m = m := by
  unfold roundEven
  rw [if_pos (by simp)]
  simp

theorem le_roundEven {m : Int} {x : ℚ} (h : (m : ℚ) ≤ x) : m ≤ roundEven x := by
  have h1 : m ≤ ⌊x⌋ := Int.le_floor.2 h
  unfold roundEven
  split
  · exact h1
  · split
    · omega
    · split <;> omega

theorem roundEven_le {m : Int} {x : ℚ} (h : x < (m : ℚ) + 1 / 2) : roundEven x ≤ m := by
  have h1 := (abs_le.1 (roundEven_near x)).2
  have : (roundEven x : ℚ) < m + 1 := by linarith
  have : roundEven x < m + 1 := by exact_mod_cast this
  omega

theorem two_zpow_pos (a : ℤ) : (0 : ℚ) < 2 ^ a := zpow_pos (by norm_num) a

/-- The number with its digits. -/
theorem dbl_pos {q : ℚ} (h : 0 < q) : dbl q = roundEven (q / 2 ^ (Int.log 2 q - 52)) * 2 ^ (Int.log 2 q - 52) := by
  unfold dbl
  rw [if_neg h.ne', abs_of_pos h]

theorem digits {q : ℚ} (h : 0 < q) : (2 : ℚ) ^ (52 : ℤ) ≤ q / 2 ^ (Int.log 2 q - 52) ∧ q / 2 ^ (Int.log 2 q - 52) < 2 ^ (53 : ℤ) := by
  have h1 : ((2 : ℕ) : ℚ) ^ Int.log 2 q ≤ q := Int.zpow_log_le_self (by norm_num) h
  have h2 : q < ((2 : ℕ) : ℚ) ^ (Int.log 2 q + 1) := Int.lt_zpow_succ_log_self (by norm_num) q
  push_cast at h1 h2
  have hu := two_zpow_pos (Int.log 2 q - 52)
  constructor
  · rw [le_div_iff₀ hu, ← zpow_add₀ (by norm_num)]
    rw [show (52 : ℤ) + (Int.log 2 q - 52) = Int.log 2 q by ring]
    exact h1
  · rw [div_lt_iff₀ hu, ← zpow_add₀ (by norm_num)]
    rw [show (53 : ℤ) + (Int.log 2 q - 52) = Int.log 2 q + 1 by ring]
    exact h2

/-- The relative error is at most 2^-53. -/
theorem dbl_err {q : ℚ} (h : 0 < q) : |dbl q - q| ≤ q / 2 ^ 53 := by
  rw [dbl_pos h]
  have h1 : ((2 : ℕ) : ℚ) ^ Int.log 2 q ≤ q := Int.zpow_log_le_self (by norm_num) h
  push_cast at h1
  have hu := two_zpow_pos (Int.log 2 q - 52)
  have hl : (2 : ℚ) ^ Int.log 2 q = 2 ^ (Int.log 2 q - 52) * 2 ^ 52 := by
    rw [← zpow_natCast, ← zpow_add₀ (by norm_num)]
    congr 1
    push_cast; ring
  generalize (2 : ℚ) ^ (Int.log 2 q - 52) = u at *
  have hn := abs_le.1 (roundEven_near (q / u))
  have e : q / u * u = q := by field_simp
  have a1 : -(1 / 2) * u ≤ (roundEven (q / u) : ℚ) * u - q := by nlinarith [mul_le_mul_of_nonneg_right hn.1 hu.le]
  have a2 : (roundEven (q / u) : ℚ) * u - q ≤ 1 / 2 * u := by nlinarith [mul_le_mul_of_nonneg_right hn.2 hu.le]
  have a3 : 1 / 2 * u ≤ q / 2 ^ 53 := by
    rw [le_div_iff₀ (by norm_num)]
    rw [hl] at h1
    norm_num at h1 ⊢
    linarith
  rw [abs_le]
  constructor <;> linarith

/-- Numbers with 53 binary digits are doubles. -/
theorem dbl_exact (m : ℕ) (e : ℤ) (hm : m < 2 ^ 53) : dbl (m * 2 ^ e) = m * 2 ^ e := by
  rcases Nat.eq_zero_or_pos m with rfl | hp
  · simp [dbl]
  have hq : (0 : ℚ) < m * 2 ^ e := by
    have : (0 : ℚ) < m := by exact_mod_cast hp
    have := two_zpow_pos e
    positivity
  rw [dbl_pos hq]
  have hl : Int.log 2 ((m : ℚ) * 2 ^ e) < 53 + e := by
    rw [← Int.lt_zpow_iff_log_lt (by norm_num) hq]
    push_cast
    rw [zpow_add₀ (by norm_num)]
    refine mul_lt_mul_of_pos_right ?_ (two_zpow_pos e)
    exact_mod_cast hm
  generalize Int.log 2 ((m : ℚ) * 2 ^ e) = L at *
  obtain ⟨k, hk⟩ : ∃ k : ℕ, e - (L - 52) = k := Int.eq_ofNat_of_zero_le (by omega)
  have hd : (m : ℚ) * 2 ^ e / 2 ^ (L - 52) = ((m * 2 ^ k : ℕ) : Int) := by
    rw [mul_div_assoc, ← zpow_sub₀ (by norm_num), hk]
    push_cast
    rw [zpow_natCast]
  rw [hd, roundEven_int, ← hd]
  have := (two_zpow_pos (L - 52)).ne'
  field_simp

theorem dbl_nonneg {q : ℚ} (h : 0 ≤ q) : 0 ≤ dbl q := by
  rcases h.eq_or_lt with rfl | h
  · simp [dbl]
  · have := abs_le.1 (dbl_err h)
    have : q / 2 ^ 53 ≤ q := by
      rw [div_le_iff₀ (by norm_num)]
      nlinarith
    linarith

/-- Rounding does not cross a power of two. -/
theorem pow_le_dbl {q : ℚ} (a : ℤ) (h : (2 : ℚ) ^ a ≤ q) : (2 : ℚ) ^ a ≤ dbl q := by
  have hq : 0 < q := lt_of_lt_of_le (two_zpow_pos a) h
  rw [dbl_pos hq]
  have hl : a ≤ Int.log 2 q := by
    rw [← Int.zpow_le_iff_le_log (by norm_num) hq]
    exact_mod_cast h
  have hu := two_zpow_pos (Int.log 2 q - 52)
  have hr : (2 : ℤ) ^ 52 ≤ roundEven (q / 2 ^ (Int.log 2 q - 52)) := by
    refine le_roundEven ?_
    have := (digits hq).1
    norm_num at this ⊢
    exact this
  have hr' : (2 : ℚ) ^ (52 : ℤ) ≤ (roundEven (q / 2 ^ (Int.log 2 q - 52)) : ℚ) := by exact_mod_cast hr
  calc (2 : ℚ) ^ a ≤ 2 ^ Int.log 2 q := zpow_le_zpow_right₀ (by norm_num) hl
    _ = 2 ^ (52 : ℤ) * 2 ^ (Int.log 2 q - 52) := by rw [← zpow_add₀ (by norm_num)]; congr 1; ring
    _ ≤ _ := mul_le_mul_of_nonneg_right hr' hu.le

/-- When rounding stays below a power of two: up to half of the last digit. -/
theorem dbl_lt_pow {q : ℚ} (a : ℤ) (hq : 0 < q) : dbl q < 2 ^ a ↔ q < 2 ^ a - 2 ^ (a - 54) := by
  have ha : (2 : ℚ) ^ a = 2 ^ (a - 53) * 2 ^ 53 := by
    rw [← zpow_natCast, ← zpow_add₀ (by norm_num)]; congr 1; push_cast; ring
  have ha' : (2 : ℚ) ^ (a - 54) = 2 ^ (a - 53) * (1 / 2) := by
    rw [show (a - 54 : ℤ) = (a - 53) + (-1) by ring, zpow_add₀ (by norm_num)]; norm_num
  have hv := two_zpow_pos (a - 53)
  by_cases h : q < 2 ^ a
  · have hl : Int.log 2 q < a := (Int.lt_zpow_iff_log_lt (by norm_num) hq).1 (by exact_mod_cast h)
    rw [dbl_pos hq]
    by_cases hl' : Int.log 2 q = a - 1
    · rw [hl', show (a - 1 - 52 : ℤ) = a - 53 by ring, ha, ha']
      generalize (2 : ℚ) ^ (a - 53) = v at *
      have key : roundEven (q / v) < 2 ^ 53 ↔ q / v < 2 ^ 53 - 1 / 2 := by
        constructor
        · intro hr
          by_contra hc
          have hc : (2 : ℚ) ^ 53 - 1 / 2 ≤ q / v := not_lt.1 hc
          have hlt : q / v < 2 ^ 53 := by rw [div_lt_iff₀ hv]; rw [ha] at h; linarith
          have hf : ⌊q / v⌋ = 2 ^ 53 - 1 := by
            rw [Int.floor_eq_iff]
            push_cast
            constructor <;> linarith
          have hup : roundEven (q / v) = 2 ^ 53 := by
            unfold roundEven
            rw [hf]
            rw [if_neg (by push_cast; linarith)]
            split
            · norm_num
            · rw [if_neg (by norm_num)]; norm_num
          omega
        · intro hlt
          have := roundEven_le (m := 2 ^ 53 - 1) (x := q / v) (by push_cast; linarith)
          omega
      constructor
      · intro hlt
        have h1 : (roundEven (q / v) : ℚ) < 2 ^ 53 := by
          by_contra hc
          nlinarith [mul_le_mul_of_nonneg_right (not_lt.1 hc) hv.le]
        have h2 := key.1 (by exact_mod_cast h1)
        rw [div_lt_iff₀ hv] at h2
        linarith
      · intro hlt
        have h1 : q / v < 2 ^ 53 - 1 / 2 := by rw [div_lt_iff₀ hv]; linarith
        have h2 : (roundEven (q / v) : ℚ) < 2 ^ 53 := by exact_mod_cast key.2 h1
        nlinarith [mul_lt_mul_of_pos_right h2 hv]
    · have hu := two_zpow_pos (Int.log 2 q - 52)
      have hb : Int.log 2 q - 52 + 1 ≤ a - 53 := by omega
      have hw : (2 : ℚ) ^ (Int.log 2 q - 52) * 2 ≤ 2 ^ (a - 53) := by
        rw [← zpow_add_one₀ (by norm_num)]
        exact zpow_le_zpow_right₀ (by norm_num) hb
      have hd := (digits hq).2
      have hr : roundEven (q / 2 ^ (Int.log 2 q - 52)) ≤ 2 ^ 53 := roundEven_le (by
        norm_num at hd ⊢
        linarith)
      have hr' : (roundEven (q / 2 ^ (Int.log 2 q - 52)) : ℚ) ≤ 2 ^ 53 := by exact_mod_cast hr
      have hq' : q < 2 ^ (53 : ℤ) * 2 ^ (Int.log 2 q - 52) := by rwa [div_lt_iff₀ hu] at hd
      rw [ha, ha']
      generalize (2 : ℚ) ^ (Int.log 2 q - 52) = u at *
      generalize (2 : ℚ) ^ (a - 53) = v at *
      norm_num at hr' hq' ⊢
      constructor
      · intro _; linarith
      · intro _; nlinarith [mul_le_mul_of_nonneg_right hr' hu.le]
  · have h := not_lt.1 h
    have h1 := pow_le_dbl a h
    have := two_zpow_pos (a - 54)
    constructor
    · intro h2; linarith
    · intro h2; linarith

end Verif.Humanize

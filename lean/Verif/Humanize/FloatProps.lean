import Verif.Humanize.Double
import Verif.Humanize.Props

/-!
# C27 in double arithmetic

`bytes` of the model rounds nothing before the last step. Here the same claims about the function in doubles.
-/

namespace Verif.Humanize

/-- Whole multiples of powers of two with 53 digits, of either sign, are doubles. -/
theorem dbl_exact_int (m : Int) (e : ℤ) (hm : m.natAbs < 2 ^ 53) : dbl (m * 2 ^ e) = m * 2 ^ e := by
  rcases Int.lt_or_le m 0 with hneg | hpos
  · have hq : (m : ℚ) * 2 ^ e < 0 := mul_neg_of_neg_of_pos (by exact_mod_cast hneg) (two_zpow_pos e)
    unfold dbl
    rw [if_neg hq.ne, abs_of_neg hq]
    have hq' : (0 : ℚ) < -(m * 2 ^ e) := by linarith
    have hl : Int.log 2 (-((m : ℚ) * 2 ^ e)) < 53 + e := by
      rw [← Int.lt_zpow_iff_log_lt (by norm_num) hq']
      push_cast
      rw [zpow_add₀ (by norm_num), neg_mul_eq_neg_mul]
      refine mul_lt_mul_of_pos_right ?_ (two_zpow_pos e)
      have : -m < 2 ^ 53 := by omega
      exact_mod_cast this
    generalize Int.log 2 (-((m : ℚ) * 2 ^ e)) = L at *
    obtain ⟨k, hk⟩ : ∃ k : ℕ, e - (L - 52) = k := Int.eq_ofNat_of_zero_le (by omega)
    have hd : (m : ℚ) * 2 ^ e / 2 ^ (L - 52) = ((m * 2 ^ k : Int) : ℚ) := by
      rw [mul_div_assoc, ← zpow_sub₀ (by norm_num), hk]
      push_cast
      rw [zpow_natCast]
    rw [hd, roundEven_int, ← hd]
    have := (two_zpow_pos (L - 52)).ne'
    field_simp
  · obtain ⟨k, rfl⟩ := Int.eq_ofNat_of_zero_le hpos
    have := dbl_exact k e (by omega)
    exact_mod_cast this

theorem pow1024 (j : Nat) : (1024 : ℚ) ^ j = 2 ^ ((10 * j : Nat) : ℤ) := by
  rw [zpow_natCast, pow_mul]; norm_num

theorem div1024 (x : ℚ) (j : Nat) : x / 1024 ^ j = x * 2 ^ (-((10 * j : Nat) : ℤ)) := by
  rw [pow1024, zpow_neg, div_eq_mul_inv]

/-- How far the loop goes. -/
theorem scaled (n : Nat) (x : ℚ) (h0 : 0 ≤ x) (hx : x ≤ 2 * n) : ∃ j, scale n x 0 = (x / 1024 ^ j, j) ∧ (j = 0 ∨ 1024 ^ j ≤ x) ∧ x < 1024 ^ (j + 1) := by
  have hlt : x < 1024 ^ (n + 1) := by
    have h1 : n < 1024 ^ n := Nat.lt_pow_self (by norm_num)
    have h2 : (n : ℚ) < 1024 ^ n := by exact_mod_cast h1
    rw [pow_succ]
    linarith
  obtain ⟨j, h1, h2, h3⟩ := scale_spec n x 0 h0 hlt
  have hp : (0 : ℚ) < 1024 ^ j := by positivity
  refine ⟨j, by simpa using h1, h2.imp id (fun h => by rwa [le_div_iff₀ hp, one_mul] at h), ?_⟩
  rw [div_lt_iff₀ hp] at h3
  rw [pow_succ, mul_comm]
  exact h3

/-- No rounding on the way: the same text. -/
theorem same_of_exact (other : Int → List Char) (n j : Nat) (h1 : j = 0 ∨ 1024 ^ j ≤ n) (h2 : n < 1024 ^ (j + 1)) (hn : dbl n = n)
    (h10 : dbl ((n : ℚ) / 1024 ^ j * 10) = (n : ℚ) / 1024 ^ j * 10)
    (hh : dbl ((n : ℚ) / 1024 ^ j * 10 + 1 / 2) = (n : ℚ) / 1024 ^ j * 10 + 1 / 2) : bytesF other n = bytes other n := by
  obtain ⟨j', s1, s2, s3⟩ := scaled n n (by positivity) (by have : (0 : ℚ) ≤ n := by positivity
                                                            linarith)
  obtain rfl : j' = j := C27_unit_unique n j' j (s2.imp id (fun h => by exact_mod_cast h)) (by exact_mod_cast s3) h1 h2
  unfold bytesF bytes
  have hr : (if (1024 : Int) ≤ (n : Int) then scale (n : Int).natAbs (dbl (n : Int)) 0 else (((n : Int) : ℚ), 0)) = ((n : ℚ) / 1024 ^ j', j') := by
    split
    · simp only [Int.natAbs_natCast, Int.cast_natCast, hn, s1]
    · rename_i hlt
      have : j' = 0 := by
        rcases h1 with h | h
        · exact h
        · by_contra hj
          have : 1024 ^ 1 ≤ 1024 ^ j' := Nat.pow_le_pow_right (by norm_num) (by omega)
          omega
      subst this
      simp
  simp only [hr]
  simp only [Int.natAbs_natCast, Int.cast_natCast, s1, h10, hh]
  rfl

/-! ## Sizes below a pebibyte -/

/-- Below 1024^5 bytes the doubles make no difference: the text is that of exact arithmetic, of which `C27_bytes_partial` speaks. -/
theorem C27_doubles_exact (other : Int → List Char) (n : Nat) (hn : n < 1024 ^ 5) : bytesF other n = bytes other n := by
  obtain ⟨j, -, s2, s3⟩ := scaled n n (by positivity) (by have : (0 : ℚ) ≤ n := by positivity
                                                          linarith)
  have h1 : j = 0 ∨ 1024 ^ j ≤ n := s2.imp id (fun h => by exact_mod_cast h)
  have h2 : n < 1024 ^ (j + 1) := by exact_mod_cast s3
  refine same_of_exact other n j h1 h2 ?_ ?_ ?_
  · have := dbl_exact n 0 (by omega)
    simpa using this
  · have := dbl_exact (5 * n) (1 - ((10 * j : Nat) : ℤ)) (by omega)
    have e : (n : ℚ) / 1024 ^ j * 10 = ((5 * n : Nat) : ℚ) * 2 ^ (1 - ((10 * j : Nat) : ℤ)) := by
      rw [div1024, sub_eq_add_neg, zpow_add₀ (by norm_num)]
      push_cast
      ring
    rw [e, this]
  · rcases Nat.eq_zero_or_pos j with rfl | hj
    · have := dbl_exact (20 * n + 1) (-1) (by omega)
      have e : (n : ℚ) / 1024 ^ 0 * 10 + 1 / 2 = ((20 * n + 1 : Nat) : ℚ) * 2 ^ (-1 : ℤ) := by
        push_cast
        norm_num
        ring
      rw [e, this]
    · have hjn : 1024 ^ j ≤ n := h1.resolve_left (by omega)
      have hq : 256 * 1024 ^ (j - 1) * 4 = 1024 ^ j := by
        conv_rhs => rw [show j = (j - 1) + 1 by omega, pow_succ]
        ring
      have := dbl_exact (5 * n + 256 * 1024 ^ (j - 1)) (1 - ((10 * j : Nat) : ℤ)) (by omega)
      have e : (n : ℚ) / 1024 ^ j * 10 + 1 / 2 = ((5 * n + 256 * 1024 ^ (j - 1) : Nat) : ℚ) * 2 ^ (1 - ((10 * j : Nat) : ℤ)) := by
        have hq' : (256 * 1024 ^ (j - 1) : ℚ) * 4 = 1024 ^ j := by exact_mod_cast hq
        have hp : (0 : ℚ) < 1024 ^ j := by positivity
        have hz : (2 : ℚ) ^ (1 - ((10 * j : Nat) : ℤ)) = 2 / 1024 ^ j := by
          rw [sub_eq_add_neg, zpow_add₀ (by norm_num), zpow_one, ← div1024]
        rw [hz]
        push_cast
        have : (256 * 1024 ^ (j - 1) : ℚ) = 1024 ^ j / 4 := by linarith
        rw [this]
        field_simp
        ring
      rw [e, this]

/-- Three and a half million bytes. -/
example (other : Int → List Char) : ∃ k, bytesF other (3500000 : Nat) = some (tenthsText k ++ " MiB".toList) := by
  rw [C27_doubles_exact other 3500000 (by norm_num)]
  obtain ⟨i, k, unit, h1, h2, h3, h4, -⟩ := C27_bytes_partial other 3500000 (by norm_num)
  have hi := C27_unit_unique 3500000 i 2 h3 h4 (.inr (by norm_num)) (by norm_num)
  subst hi
  cases h1
  exact ⟨k, h2⟩

/-- Whole numbers of a unit are shown the same, whatever the unit. -/
theorem C27_doubles_whole (other : Int → List Char) (m i : Nat) (hm : 0 < m) (hm' : m < 1024) :
    bytesF other ((m * 1024 ^ i : Nat) : Int) = bytes other ((m * 1024 ^ i : Nat) : Int) := by
  have hlt : m * 1024 ^ i < 1024 ^ (i + 1) := by
    rw [pow_succ, mul_comm]; exact Nat.mul_lt_mul_of_pos_left hm' (by positivity)
  have hp : (0 : ℚ) < 1024 ^ i := by positivity
  have e0 : ((m * 1024 ^ i : Nat) : ℚ) / 1024 ^ i = m := by push_cast; field_simp
  refine same_of_exact other _ i (.inr (Nat.le_mul_of_pos_left _ hm)) hlt ?_ ?_ ?_
  · have := dbl_exact m ((10 * i : Nat) : ℤ) (by omega)
    push_cast
    rw [pow1024]
    exact this
  · rw [e0]
    have := dbl_exact (10 * m) 0 (by omega)
    rw [zpow_zero, mul_one] at this
    push_cast at this
    rw [mul_comm]
    exact this
  · rw [e0]
    have := dbl_exact (20 * m + 1) (-1) (by omega)
    have e : (m : ℚ) * 10 + 1 / 2 = ((20 * m + 1 : Nat) : ℚ) * 2 ^ (-1 : ℤ) := by
      push_cast
      norm_num
      ring
    rw [e, this]

/-- 300 ZiB: more than a double counts one by one, shown as a whole number. -/
example (other : Int → List Char) : bytesF other ((300 * 1024 ^ 7 : Nat) : Int) = bytes other ((300 * 1024 ^ 7 : Nat) : Int) :=
  C27_doubles_whole other 300 7 (by norm_num) (by norm_num)

/-- Nor for negative numbers, which are never divided: of `C27_negative_refuted` nothing is due to rounding. -/
theorem C27_doubles_negative (other : Int → List Char) (n : Int) (hn : n < 0) (hb : -2 ^ 48 < n) : bytesF other n = bytes other n := by
  have hq : (n : ℚ) < 0 := by exact_mod_cast hn
  have hs : scale n.natAbs (n : ℚ) 0 = ((n : ℚ), 0) := by
    cases n.natAbs with
    | zero => rfl
    | succ k => rw [scale, if_neg (by linarith)]
  have h10 : dbl ((n : ℚ) * 10) = (n : ℚ) * 10 := by
    have := dbl_exact_int (n * 10) 0 (by omega)
    rw [zpow_zero, mul_one] at this
    exact_mod_cast this
  have hh : dbl ((n : ℚ) * 10 + 1 / 2) = (n : ℚ) * 10 + 1 / 2 := by
    have := dbl_exact_int (20 * n + 1) (-1) (by omega)
    have e : (n : ℚ) * 10 + 1 / 2 = ((20 * n + 1 : Int) : ℚ) * 2 ^ (-1 : ℤ) := by
      push_cast
      norm_num
      ring
    rw [e, this]
  unfold bytesF bytes
  rw [if_neg (show ¬ (1024 : Int) ≤ n by omega), hs]
  simp only [h10, hh]
  rfl

example (other : Int → List Char) : bytesF other (-5) = some "--4.9".toList := by
  rw [C27_doubles_negative other (-5) (by norm_num) (by norm_num)]
  have := C27_negative_refuted other 4 (by norm_num)
  have n0 : natText 4 = ['4'] := by unfold natText; simp
  rw [n0] at this
  exact this

/-! ## Any size -/

/-- What is shown for a size: the unit — the next one already within half a last digit of it, 2^-54 —, and a number of tenths
within half a tenth and 2^-37 tenths. -/
theorem C27_doubles_partial (other : Int → List Char) (n : Nat) (hn : n < 2 ^ 90 - 2 ^ 36) :
    ∃ i k unit, ["", " KiB", " MiB", " GiB", " TiB", " PiB", " EiB", " ZiB", " YiB"][i]? = some unit ∧
      bytesF other n = some (tenthsText k ++ unit.toList) ∧
      (i = 0 ∨ 1024 ^ i ≤ n + 1024 ^ i / 2 ^ 54) ∧ n < 1024 ^ (i + 1) ∧
      |(k : ℚ) - 10 * n / 1024 ^ i| ≤ 1 / 2 + 1 / 2 ^ 37 := by
  by_cases hsmall : n < 1024 ^ 5
  · rw [C27_doubles_exact other n hsmall]
    obtain ⟨i, k, unit, h1, h2, h3, h4, h5, h6⟩ := C27_bytes_partial other n (by omega)
    refine ⟨i, k, unit, h1, h2, h3.imp id (fun h => by omega), h4, ?_⟩
    have hp : (0 : ℚ) < 1024 ^ i := by positivity
    have h5' : (k : ℚ) * (2 * 1024 ^ i) ≤ 20 * n + 1024 ^ i := by exact_mod_cast h5
    have h6' : 20 * (n : ℚ) + 1024 ^ i < (k + 1) * (2 * 1024 ^ i) := by exact_mod_cast h6
    have e : (10 * n / 1024 ^ i : ℚ) * 1024 ^ i = 10 * n := by field_simp
    generalize (10 * n / 1024 ^ i : ℚ) = r at *
    generalize (1024 : ℚ) ^ i = p at *
    have a1 : (k : ℚ) - r ≤ 1 / 2 := by
      by_contra hc
      nlinarith [mul_lt_mul_of_pos_right (not_le.1 hc) hp]
    have a2 : r - k < 1 / 2 := by
      by_contra hc
      nlinarith [mul_le_mul_of_nonneg_right (not_lt.1 hc) hp.le]
    rw [abs_le]
    constructor <;> norm_num <;> linarith
  · have hn0 : (0 : ℚ) < n := by
      have : 0 < n := by omega
      exact_mod_cast this
    have herr := abs_le.1 (dbl_err hn0)
    have hx0 := dbl_nonneg hn0.le
    have hx2 : dbl n ≤ 2 * n := by
      have : (n : ℚ) / 2 ^ 53 ≤ n := by rw [div_le_iff₀ (by norm_num)]; nlinarith
      linarith
    obtain ⟨j, s1, s2, s3⟩ := scaled n (dbl n) hx0 hx2
    have hlt90 : dbl n < 2 ^ (90 : ℤ) := by
      rw [dbl_lt_pow 90 hn0]
      have : n + 2 ^ 36 < 2 ^ 90 := by omega
      have : (n : ℚ) + 2 ^ 36 < 2 ^ 90 := by exact_mod_cast this
      norm_num at this ⊢
      linarith
    have hj9 : j < 9 := by
      by_contra hj
      rcases s2 with rfl | s2
      · omega
      · have : (1024 : ℚ) ^ 9 ≤ 1024 ^ j := pow_le_pow_right₀ (by norm_num) (by omega)
        norm_num at this hlt90
        linarith
    have hhi : n < 1024 ^ (j + 1) := by
      by_contra hc
      have hc : (1024 : ℚ) ^ (j + 1) ≤ n := by exact_mod_cast not_lt.1 hc
      have := pow_le_dbl ((10 * (j + 1) : Nat) : ℤ) (q := n) (by rw [← pow1024]; exact hc)
      rw [← pow1024] at this
      linarith
    have hlo : j = 0 ∨ 1024 ^ j ≤ n + 1024 ^ j / 2 ^ 54 := by
      refine s2.imp id (fun h => ?_)
      have hge : ¬ (n : ℚ) < 2 ^ ((10 * j : Nat) : ℤ) - 2 ^ (((10 * j : Nat) : ℤ) - 54) := by
        rw [← dbl_lt_pow _ hn0, ← pow1024]
        exact not_lt.2 h
      have hge := not_lt.1 hge
      interval_cases j
      · norm_num; omega
      · norm_num; omega
      · norm_num; omega
      · norm_num; omega
      · norm_num; omega
      · norm_num; omega
      all_goals
        norm_num at hge ⊢
        have hge' := (by exact_mod_cast hge : _ ≤ n)
        omega
    have hp : (0 : ℚ) < 1024 ^ j := by positivity
    have hv0 : 0 ≤ dbl n / 1024 ^ j * 10 := by positivity
    have hv1 : dbl n / 1024 ^ j < 1024 := by
      rw [div_lt_iff₀ hp, mul_comm, ← pow_succ]
      exact s3
    -- the three roundings
    have hva : |dbl n / 1024 ^ j * 10 - 10 * n / 1024 ^ j| ≤ (dbl n / 1024 ^ j * 10 + 1) / 2 ^ 52 := by
      have h1 : |dbl n - n| ≤ dbl n / 2 ^ 52 := by
        have : (n : ℚ) / 2 ^ 53 ≤ dbl n / 2 ^ 52 := by
          have h3 : (n : ℚ) / 2 ^ 53 ≤ n / 2 := by
            rw [div_le_div_iff₀ (by norm_num) (by norm_num)]; nlinarith
          rw [div_le_div_iff₀ (by norm_num) (by norm_num)]
          norm_num
          linarith
        exact (dbl_err hn0).trans this
      have e1 : dbl n / 1024 ^ j * 10 - 10 * n / 1024 ^ j = (dbl n - n) * (10 / 1024 ^ j) := by ring
      rw [e1, abs_mul, abs_of_pos (by positivity : (0 : ℚ) < 10 / 1024 ^ j)]
      calc |dbl n - n| * (10 / 1024 ^ j) ≤ dbl n / 2 ^ 52 * (10 / 1024 ^ j) := mul_le_mul_of_nonneg_right h1 (by positivity)
        _ = dbl n / 1024 ^ j * 10 / 2 ^ 52 := by ring
        _ ≤ _ := by rw [div_le_div_iff₀ (by norm_num) (by norm_num)]; nlinarith
    have hva := abs_le.1 hva
    have hvpos : 0 < dbl n / 1024 ^ j * 10 := by
      have : 0 < dbl n := by
        have : (n : ℚ) / 2 ^ 53 ≤ n / 2 := by rw [div_le_div_iff₀ (by norm_num) (by norm_num)]; nlinarith
        linarith
      positivity
    have hy := abs_le.1 (dbl_err hvpos)
    generalize hv : dbl n / 1024 ^ j * 10 = v at *
    have hvle : v < 10240 := by rw [← hv]; linarith
    have hy0 := dbl_nonneg hv0
    have hz := abs_le.1 (dbl_err (q := dbl v + 1 / 2) (by linarith))
    have hz0 := dbl_nonneg (q := dbl v + 1 / 2) (by linarith)
    obtain ⟨k, hk⟩ : ∃ k : Nat, ⌊dbl (dbl v + 1 / 2)⌋ = (k : Int) := Int.eq_ofNat_of_zero_le (Int.floor_nonneg.2 hz0)
    have hk1 : (k : ℚ) ≤ dbl (dbl v + 1 / 2) := by
      have := Int.floor_le (dbl (dbl v + 1 / 2))
      rw [hk] at this; exact_mod_cast this
    have hk2 : dbl (dbl v + 1 / 2) < k + 1 := by
      have := Int.lt_floor_add_one (dbl (dbl v + 1 / 2))
      rw [hk] at this; exact_mod_cast this
    have hyv : dbl v ≤ 10241 := by
      norm_num at hy
      linarith
    have b1 : v / 2 ^ 53 ≤ 10240 / 2 ^ 53 := by rw [div_le_div_iff_of_pos_right (by norm_num)]; exact hvle.le
    have b2 : (dbl v + 1 / 2) / 2 ^ 53 ≤ 10242 / 2 ^ 53 := by rw [div_le_div_iff_of_pos_right (by norm_num)]; linarith
    have b3 : (v + 1) / 2 ^ 52 ≤ 10241 / 2 ^ 52 := by rw [div_le_div_iff_of_pos_right (by norm_num)]; linarith
    have hkz : pyTrunc (dbl (dbl v + 1 / 2)) = k := by rw [pyTrunc, if_pos hz0, hk]
    generalize hzz : dbl (dbl v + 1 / 2) = z at *
    have hkb : k < 1000000 := by
      have : (k : ℚ) < 1000000 := by
        have c2 := hz.2
        norm_num at b2
        norm_num at c2
        linarith
      exact_mod_cast this
    have hex : ∃ unit, ["", " KiB", " MiB", " GiB", " TiB", " PiB", " EiB", " ZiB", " YiB"][j]? = some unit ∧
        sizeUnits[j]? = some unit.toList := by
      interval_cases j <;> exact ⟨_, rfl, rfl⟩
    obtain ⟨unit, hu1, hu2⟩ := hex
    refine ⟨j, k, unit, hu1, ?_, hlo, hhi, ?_⟩
    · unfold bytesF
      rw [if_pos (show (1024 : Int) ≤ n by omega)]
      simp only [Int.natAbs_natCast, Int.cast_natCast, s1, hu2, hv]
      have hneg : ¬ ((n : Int) < 0) := by omega
      have hneg' : ¬ ((k : Int) < 0) := by omega
      rw [if_neg hneg, hzz, hkz, fmtG]
      simp only [Int.natAbs_natCast, hkb, if_true, hneg', if_false, tenthsText]
      split <;> simp
    · rw [abs_le]
      obtain ⟨p1, p2⟩ := hva
      obtain ⟨p3, p4⟩ := hy
      obtain ⟨p5, p6⟩ := hz
      generalize (v + 1) / 2 ^ 52 = e1 at *
      generalize v / 2 ^ 53 = e2 at *
      generalize (dbl v + 1 / 2) / 2 ^ 53 = e3 at *
      norm_num at b1 b2 b3
      norm_num
      constructor <;> linarith

/-- A size between: about 1.25 EiB. -/
example (other : Int → List Char) : ∃ k, bytesF other (5 * 2 ^ 58 - 1 : Nat) = some (tenthsText k ++ " EiB".toList) := by
  obtain ⟨i, k, unit, h1, h2, h3, h4, -⟩ := C27_doubles_partial other (5 * 2 ^ 58 - 1) (by norm_num)
  have : i < 9 := by
    by_contra hc
    rw [List.getElem?_eq_none (by simpa using hc)] at h1
    cases h1
  have : i = 6 := by
    interval_cases i <;> omega
  subst this
  cases h1
  exact ⟨k, h2⟩

/-- The nearest tenth is missed: one byte less than 1.25 EiB is shown as 1.3 EiB. -/
theorem C27_doubles_refuted (other : Int → List Char) :
    bytesF other ((5 * 2 ^ 58 - 1 : Nat) : Int) = some "1.3 EiB".toList ∧ 20 * (5 * 2 ^ 58 - 1) < (2 * 12 + 1) * 1024 ^ 6 := by
  refine ⟨?_, by norm_num⟩
  have hd : dbl ((5 * 2 ^ 58 - 1 : Nat) : ℚ) = 5 * 2 ^ 58 := by
    rw [dbl_pos (by norm_num), Int.log_natCast, show Nat.log 2 (5 * 2 ^ 58 - 1) = 60 from Nat.log_eq_of_pow_le_of_lt_pow (by norm_num) (by norm_num)]
    have hf : ⌊((5 * 2 ^ 58 - 1 : Nat) : ℚ) / 2 ^ (((60 : Nat) : ℤ) - 52)⌋ = 5 * 2 ^ 50 - 1 := by
      rw [Int.floor_eq_iff]
      norm_num
    have hr : roundEven (((5 * 2 ^ 58 - 1 : Nat) : ℚ) / 2 ^ (((60 : Nat) : ℤ) - 52)) = 5 * 2 ^ 50 := by
      unfold roundEven
      rw [hf, if_neg (by norm_num), if_pos (by norm_num)]
      norm_num
    rw [hr]
    norm_num
  have hs : scale (5 * 2 ^ 58 - 1) (5 * 2 ^ 58 : ℚ) 0 = (5 / 4, 6) := by
    obtain ⟨j, h1, h2, h3⟩ := scaled (5 * 2 ^ 58 - 1) (5 * 2 ^ 58) (by norm_num) (by norm_num)
    have e : j = 6 := by
      refine C27_unit_unique (5 * 2 ^ 58) j 6 (h2.imp id (fun h => by exact_mod_cast h)) (by exact_mod_cast h3) (.inr (by norm_num)) (by norm_num)
    subst e
    rw [h1]
    norm_num
  have h10 : dbl ((5 / 4 : ℚ) * 10) = 25 / 2 := by
    have := dbl_exact 25 (-1) (by norm_num)
    norm_num at this ⊢
    exact this
  have hh : dbl ((25 / 2 : ℚ) + 1 / 2) = 13 := by
    have := dbl_exact 13 0 (by norm_num)
    norm_num at this ⊢
    exact this
  have ht : pyTrunc 13 = 13 := by rw [pyTrunc, if_pos (by norm_num)]; exact Int.floor_ofNat 13
  have hfm : fmtG other 13 = "1.3".toList := by
    unfold fmtG
    rw [if_pos (by decide), if_neg (by decide), if_neg (by decide)]
    have a1 : natText ((13 : Int).natAbs / 10) = ['1'] := by unfold natText; decide
    have a3 : natText ((13 : Int).natAbs % 10) = ['3'] := by unfold natText; decide
    rw [a1, a3]
    rfl
  unfold bytesF
  rw [if_pos (show (1024 : Int) ≤ ((5 * 2 ^ 58 - 1 : Nat) : Int) by norm_num), if_neg (show ¬ ((5 * 2 ^ 58 - 1 : Nat) : Int) < 0 by norm_num)]
  simp only [Int.natAbs_natCast, Int.cast_natCast, hd, hs, h10, hh, ht, hfm]
  rfl

/-- Which sizes raise: those that round to 1024^9 or more. -/
theorem C27_doubles_raises (other : Int → List Char) (n : Nat) : bytesF other n = none ↔ 2 ^ 90 - 2 ^ 36 ≤ n := by
  constructor
  · intro h
    by_contra hc
    obtain ⟨i, k, unit, -, h2, -⟩ := C27_doubles_partial other n (by omega)
    rw [h] at h2
    cases h2
  · intro h
    have hn0 : (0 : ℚ) < n := by
      have : 0 < n := by omega
      exact_mod_cast this
    have herr := abs_le.1 (dbl_err hn0)
    have hx2 : dbl n ≤ 2 * n := by
      have : (n : ℚ) / 2 ^ 53 ≤ n := by rw [div_le_iff₀ (by norm_num)]; nlinarith
      linarith
    obtain ⟨j, s1, s2, s3⟩ := scaled n (dbl n) (dbl_nonneg hn0.le) hx2
    have hge : (2 : ℚ) ^ (90 : ℤ) ≤ dbl n := by
      rw [← not_lt, dbl_lt_pow 90 hn0, not_lt]
      have : (2 : ℚ) ^ 90 ≤ n + 2 ^ 36 := by
        have : 2 ^ 90 ≤ n + 2 ^ 36 := by omega
        exact_mod_cast this
      have this : (2 : ℚ) ^ 90 - 2 ^ 36 ≤ n := by linarith
      norm_num at this ⊢
      exact this
    have hj : 9 ≤ j := by
      by_contra hc
      have : (1024 : ℚ) ^ (j + 1) ≤ 1024 ^ 9 := pow_le_pow_right₀ (by norm_num) (by omega)
      norm_num at this hge
      linarith
    unfold bytesF
    rw [if_pos (show (1024 : Int) ≤ n by omega)]
    simp only [Int.natAbs_natCast, Int.cast_natCast, s1]
    have : sizeUnits[j]? = none := by
      rw [List.getElem?_eq_none_iff]
      simp [sizeUnits]; omega
    rw [this]

/-- One byte less than 1024 YiB raises, far less does not. -/
example (other : Int → List Char) : bytesF other ((1024 ^ 9 - 1 : Nat) : Int) = none ∧ bytesF other ((1000 * 1024 ^ 8 : Nat) : Int) ≠ none :=
  ⟨(C27_doubles_raises other _).2 (by norm_num), fun h => by
    have := (C27_doubles_raises other _).1 h
    norm_num at this⟩

end Verif.Humanize

import Verif.Regrid.Ieee

/-!
# C121 and C122 for doubles

What the theorems about any rounding say for IEEE 754 doubles; and rows of a single weight one, which is what nearest-neighbour weights are.
-/

namespace Verif.Regrid
open Verif.Humanize Finset

theorem pow_bound (u : ℚ) (hu : 0 ≤ u) : ∀ m : Nat, 2 * m * u ≤ 1 → (1 + u) ^ m ≤ 1 + 2 * m * u
  | 0, _ => by simp
  | m + 1, h => by
    push_cast at h ⊢
    have hm : 2 * (m : ℚ) * u ≤ 1 := by nlinarith
    have := pow_bound u hu m hm
    have h0 : (0 : ℚ) ≤ m := by positivity
    rw [pow_succ]
    calc (1 + u) ^ m * (1 + u) ≤ (1 + 2 * m * u) * (1 + u) := mul_le_mul_of_nonneg_right this (by linarith)
      _ ≤ _ := by nlinarith

/-- The bound in plain figures. -/
theorem double_bound (n : Nat) (hn : n < 2 ^ 51) (A : ℚ) (hA : 0 ≤ A) :
    errorBound (1 / 2 ^ 53) (2 ^ ((-1074 : Int) - 1)) n A ≤ (n + 1) / 2 ^ 52 * A + n * 2 ^ (-1072 : Int) := by
  unfold errorBound
  have hnq : (n : ℚ) + 1 ≤ 2 ^ 51 := by
    have : n + 1 ≤ 2 ^ 51 := hn
    exact_mod_cast this
  have h0 : (0 : ℚ) ≤ n := by positivity
  have h1 := pow_bound (1 / 2 ^ 53) (by positivity) (n + 1) (by
    push_cast
    norm_num at hnq ⊢
    linarith)
  have h2 := pow_bound (1 / 2 ^ 53) (by positivity) n (by
    norm_num at hnq ⊢
    linarith)
  have he : (2 : ℚ) ^ (-1072 : Int) = 8 * 2 ^ ((-1074 : Int) - 1) := by
    rw [show (-1072 : Int) = 3 + ((-1074 : Int) - 1) by norm_num, zpow_add₀ (by norm_num)]
    norm_num
  rw [he]
  have hη := two_zpow_pos ((-1074 : Int) - 1)
  generalize (2 : ℚ) ^ ((-1074 : Int) - 1) = η at *
  have a1 : ((1 + 1 / 2 ^ 53) ^ (n + 1) - 1) * A ≤ (n + 1) / 2 ^ 52 * A := by
    refine mul_le_mul_of_nonneg_right ?_ hA
    push_cast at h1
    have e : 2 * ((n : ℚ) + 1) * (1 / 2 ^ 53) = (n + 1) / 2 ^ 52 := by ring
    linarith
  have h3 : (1 + 1 / 2 ^ 53 : ℚ) ^ n ≤ 2 := by
    have : 2 * (n : ℚ) * (1 / 2 ^ 53) ≤ 1 := by
      norm_num at hnq ⊢
      linarith
    linarith
  have a2 : (n : ℚ) * (2 + 1 / 2 ^ 53) * (1 + 1 / 2 ^ 53) ^ n * η ≤ n * (8 * η) := by
    have h4 : (2 + 1 / 2 ^ 53 : ℚ) * (1 + 1 / 2 ^ 53) ^ n ≤ 8 := by
      calc (2 + 1 / 2 ^ 53 : ℚ) * (1 + 1 / 2 ^ 53) ^ n ≤ (2 + 1 / 2 ^ 53) * 2 := mul_le_mul_of_nonneg_left h3 (by positivity)
        _ ≤ 8 := by norm_num
    calc (n : ℚ) * (2 + 1 / 2 ^ 53) * (1 + 1 / 2 ^ 53) ^ n * η = n * ((2 + 1 / 2 ^ 53) * (1 + 1 / 2 ^ 53) ^ n) * η := by ring
      _ ≤ n * 8 * η := mul_le_mul_of_nonneg_right (mul_le_mul_of_nonneg_left h4 h0) hη.le
      _ = _ := by ring
  linarith

theorem double_accurate : double.Accurate (1 / 2 ^ 53) (2 ^ ((-1074 : Int) - 1)) := ieee_accurate 53 (-1074) ((2 ^ 53 - 1) * 2 ^ 971)

/-- **C122** for doubles: with `n` stored weights in the row, the result is within `(n + 1)` 2^-52 of the sum of the absolute values of its terms
(and `n` 2^-1072) from the exact one. -/
theorem C122_doubles {G : Type} (z : Csr (Fp double)) (h : z.WF) (shape : List Nat) (x : Arr (Fp double)) (g g' : G) (y : Arr (Fp double))
    (hr : applyWeights (some (z, shape)) x g = .ok (y, g')) (idx : List Nat) (hidx : Inside shape idx) (q : ℚ) (hq : y.elem idx = some (.fin q))
    (n : Nat) (hn : (z.slots (offset shape idx)).card = n) (hsmall : n < 2 ^ 51) :
    |q - exactSum z x.flat (offset shape idx)| ≤ (n + 1) / 2 ^ 52 * sizeSum z x.flat (offset shape idx) + n * 2 ^ (-1072 : Int) := by
  have := C122_error _ _ double_accurate z h shape x g g' y hr idx hidx q hq
  refine this.trans ?_
  rw [hn]
  exact double_bound n hsmall _ (sum_nonneg (fun k _ => abs_nonneg _))

/-- And it is a number, if the terms add up to less than 2^1000. -/
theorem C122_doubles_number {G : Type} (z : Csr (Fp double)) (h : z.WF) (hw : z.FiniteWeights) (shape : List Nat) (x : Arr (Fp double)) (g g' : G)
    (y : Arr (Fp double)) (hr : applyWeights (some (z, shape)) x g = .ok (y, g')) (idx : List Nat) (hidx : Inside shape idx)
    (hx : ∀ j, z.Stores (offset shape idx) j → (x.flat.getD j 0).Finite) (n : Nat) (hn : (z.slots (offset shape idx)).card = n)
    (hsmall : n < 2 ^ 51) (hm : sizeSum z x.flat (offset shape idx) ≤ 2 ^ 1000) : ∃ q, y.elem idx = some (.fin q) := by
  refine C122_number _ _ double_accurate z h hw shape x g g' y hr idx hidx hx ?_
  rw [hn]
  have h0 : 0 ≤ sizeSum z x.flat (offset shape idx) := sum_nonneg (fun k _ => abs_nonneg _)
  have hb := double_bound n hsmall _ h0
  generalize sizeSum z x.flat (offset shape idx) = A at *
  generalize errorBound (1 / 2 ^ 53) (2 ^ ((-1074 : Int) - 1)) n A = E at *
  have hnq : (n : ℚ) + 1 ≤ 2 ^ 51 := by
    have : n + 1 ≤ 2 ^ 51 := hsmall
    exact_mod_cast this
  have a1 : ((n : ℚ) + 1) / 2 ^ 52 * A ≤ 1 / 2 * A := by
    refine mul_le_mul_of_nonneg_right ?_ h0
    rw [div_le_div_iff₀ (by norm_num) (by norm_num)]
    norm_num at hnq ⊢
    linarith
  have a2 : (n : ℚ) * 2 ^ (-1072 : Int) ≤ 2 ^ 51 := by
    have : (2 : ℚ) ^ (-1072 : Int) ≤ 1 := zpow_le_one_of_nonpos₀ (by norm_num) (by norm_num)
    have := two_zpow_pos (-1072)
    have h0 : (0 : ℚ) ≤ n := Nat.cast_nonneg n
    generalize (2 : ℚ) ^ (-1072 : Int) = w at *
    nlinarith
  show _ ≤ ((2 : ℚ) ^ 53 - 1) * 2 ^ 971
  have e2 : (2 : ℚ) ^ 51 ≤ 2 ^ 971 := pow_le_pow_right₀ (by norm_num) (by norm_num)
  rw [show (1000 : Nat) = 29 + 971 from rfl, pow_add] at hm
  generalize (2 : ℚ) ^ 971 = T at *
  generalize (n : ℚ) * 2 ^ (-1072 : Int) = t at *
  have hT : 0 < T := lt_of_lt_of_le (by norm_num) e2
  norm_num at hm e2 a2 ⊢
  linarith

/-- A number of the machine as such: the rounding leaves it. -/
def Fp.Held {r : Rounding} : Fp r → Prop
  | .fin q => r.fl q = q ∧ |q| ≤ r.max
  | _ => True

/-- **C122**, rows of one weight: a row whose only stored weight is 1 gives the value itself, missing and infinite ones included. -/
theorem C122_copy {G : Type} {r : Rounding} (z : Csr (Fp r)) (h : z.WF) (shape : List Nat) (x : Arr (Fp r)) (g g' : G) (y : Arr (Fp r))
    (hr : applyWeights (some (z, shape)) x g = .ok (y, g')) (idx : List Nat) (hidx : Inside shape idx) (k : Nat)
    (hk : z.slots (offset shape idx) = {k}) (hw : z.data.getD k 0 = .fin 1) (hx : (x.flat.getD (z.indices.getD k 0) 0).Held) :
    y.elem idx = some (x.flat.getD (z.indices.getD k 0) 0) := by
  obtain ⟨hi, e⟩ := elem_dot z shape x g g' y hr idx hidx
  rw [e]
  have hlen : (z.row (offset shape idx)).length = 1 := by rw [row_length z h _ hi, hk]; rfl
  obtain ⟨e', he'⟩ := List.length_eq_one_iff.1 hlen
  obtain ⟨k', hk', rfl⟩ := (mem_row z h _ hi e').1 (by rw [he']; simp)
  rw [hk, mem_singleton] at hk'
  subst hk'
  unfold Csr.dot
  rw [he']
  simp only [List.foldl_cons, List.foldl_nil, hw]
  congr 1
  generalize x.flat.getD (z.indices.getD k' 0) 0 = v at *
  cases v with
  | nan => rfl
  | inf b => cases b <;> rfl
  | fin q =>
    obtain ⟨h1, h2⟩ := hx
    show Fp.add (.fin 0) (Fp.round r (1 * q)) = _
    have e1 : Fp.round r q = .fin q := by unfold Fp.round; rw [if_pos (by rw [h1]; exact h2), h1]
    rw [one_mul, e1]
    show Fp.round r (0 + q) = _
    rw [zero_add, e1]

/-! ### Examples -/

/-- Two weights of a half, in doubles. -/
def twoD : Csr (Fp double) := ⟨2, 3, [0, 2, 3], [0, 1, 2], [.fin (1 / 2), .fin (1 / 2), .fin 1]⟩

theorem twoD_wf : twoD.WF where
  ptrs := rfl
  start := by simp [twoD]
  mono := by
    intro i j a b hij h1 h2
    simp only [twoD] at h1 h2
    rcases i with _ | _ | _ | i <;> rcases j with _ | _ | _ | j <;> simp at h1 h2 <;> omega
  last := rfl
  sizes := rfl
  inside := by simp [twoD]

theorem twoD_finite : twoD.FiniteWeights := by
  intro w hw
  simp only [twoD, List.mem_cons, List.not_mem_nil, or_false] at hw
  rcases hw with rfl | rfl | rfl <;> exact ⟨_, rfl⟩

/-- The mean of 280 and 281 comes out within 3 · 281 · 2^-52; the third value, missing, is copied. -/
example : ∃ (y : Arr (Fp double)) (q : ℚ), applyWeights (some (twoD, [2])) ⟨[3], [.fin 280, .fin 281, .nan]⟩ () = .ok (y, ()) ∧
    y.elem [0] = some (.fin q) ∧ |q - 561 / 2| ≤ 3 * 281 / 2 ^ 52 ∧ y.elem [1] = some .nan := by
  obtain ⟨y, hy⟩ : ∃ y, applyWeights (some (twoD, [2])) (⟨[3], [.fin 280, .fin 281, .nan]⟩ : Arr (Fp double)) () = .ok (y, ()) := ⟨_, rfl⟩
  have hin : Inside [2] [0] := .cons (by decide) .nil
  have hin1 : Inside [2] [1] := .cons (by decide) .nil
  have hs : twoD.slots 0 = {0, 1} := by decide
  have hc : (twoD.slots (offset [2] [0])).card = 2 := by decide
  have e1 : exactSum twoD [.fin 280, .fin 281, .nan] 0 = 561 / 2 := by
    rw [exactSum, hs]
    decide +kernel
  have e2 : sizeSum twoD [.fin 280, .fin 281, .nan] 0 = 561 / 2 := by
    rw [sizeSum, hs]
    decide +kernel
  obtain ⟨q, hq⟩ := C122_doubles_number twoD twoD_wf twoD_finite [2] _ () () y hy [0] hin
    (by
      rintro j ⟨k, hk, rfl⟩
      have hk' : k < 2 := (mem_Ico.1 hk).2
      interval_cases k <;> exact ⟨_, rfl⟩) 2 hc (by norm_num)
    (by
      show sizeSum twoD [.fin 280, .fin 281, .nan] 0 ≤ _
      rw [e2]
      exact le_trans (by norm_num : (561 / 2 : ℚ) ≤ 2 ^ 10) (pow_le_pow_right₀ (by norm_num) (by norm_num)))
  refine ⟨y, q, hy, hq, ?_, ?_⟩
  · have := C122_doubles twoD twoD_wf [2] _ () () y hy [0] hin q hq 2 hc (by norm_num)
    change |q - exactSum twoD [.fin 280, .fin 281, .nan] 0| ≤ _ / _ * sizeSum twoD [.fin 280, .fin 281, .nan] 0 + _ at this
    rw [e1, e2] at this
    refine this.trans ?_
    have ht : (2 : ℚ) ^ (-1072 : Int) ≤ 2 ^ (-60 : Int) := zpow_le_zpow_right₀ (by norm_num) (by norm_num)
    norm_num at ht ⊢
    linarith
  · exact C122_copy twoD twoD_wf [2] _ () () y hy [1] hin1 2 (by decide) rfl trivial

/-- A double is held: 280.25 is 1121 quarters. -/
example : (Fp.fin (1121 / 4) : Fp double).Held := by
  refine ⟨ieee_fixes 53 (-1074) _ _ ⟨1121, -2, by norm_num, by norm_num, by norm_num⟩, ?_⟩
  show |(1121 / 4 : ℚ)| ≤ ((2 : ℚ) ^ 53 - 1) * 2 ^ 971
  have : (1 : ℚ) ≤ 2 ^ 971 := one_le_pow₀ (by norm_num)
  rw [abs_of_pos (by norm_num)]
  generalize (2 : ℚ) ^ 971 = T at *
  norm_num
  linarith

end Verif.Regrid

import Verif.Regrid.Float
import Verif.Regrid.SparseProps
import Mathlib.Algebra.Order.AbsoluteValue.Basic
import Mathlib.Data.Rat.Floor

/-!
# Missing values and rounding (C121, C122)

Specification: `Uses` (a weight that is not zero), `Unaffected` (whatever the value at a point of the input, the result is the same),
`exactSum` (the weighted sum in exact arithmetic) and `sizeSum` (the sum of the absolute values).
-/

namespace Verif.Regrid
open Finset

namespace Fp
variable {r : Rounding}

/-- The rational number, if it is one. -/
def val : Fp r → ℚ
  | .fin q => q
  | _ => 0

/-- A number: neither NaN nor infinite. -/
def Finite (a : Fp r) : Prop := ∃ q, a = .fin q

end Fp

variable {r : Rounding}

/-- The rounding is accurate to a relative error `u` and an absolute error `η` (for results that are too small), and keeps zero. -/
structure Rounding.Accurate (r : Rounding) (u η : ℚ) : Prop where
  zero : r.fl 0 = 0
  close : ∀ q, |r.fl q - q| ≤ u * |q| + η
  rel : 0 ≤ u
  abs : 0 ≤ η

/-- Output point `i` uses input point `j`: there is a weight for it that is not zero. -/
def Csr.Uses (z : Csr (Fp r)) (i j : Nat) : Prop := ∃ k ∈ z.slots i, z.indices.getD k 0 = j ∧ z.data.getD k 0 ≠ 0

/-- The weights are numbers. -/
def Csr.FiniteWeights (z : Csr (Fp r)) : Prop := ∀ w ∈ z.data, w.Finite

/-- The result at `idx` is the same whatever is at point `j` of the input. -/
def Unaffected {α G : Type} [Zero α] [Add α] [Mul α] (z : Csr α) (shape : List Nat) (g : G) (idx : List Nat) (j : Nat) : Prop :=
  ∀ x x' y y' : Arr α, (∀ k, k ≠ j → x.flat.getD k 0 = x'.flat.getD k 0) →
    applyWeights (some (z, shape)) x g = .ok (y, g) → applyWeights (some (z, shape)) x' g = .ok (y', g) → y.elem idx = y'.elem idx

/-- The weighted sum for row `i`, in exact arithmetic. -/
def exactSum (z : Csr (Fp r)) (x : List (Fp r)) (i : Nat) : ℚ :=
  ∑ k ∈ z.slots i, (z.data.getD k 0).val * (x.getD (z.indices.getD k 0) 0).val

/-- The sum of the absolute values of its terms. -/
def sizeSum (z : Csr (Fp r)) (x : List (Fp r)) (i : Nat) : ℚ :=
  ∑ k ∈ z.slots i, |(z.data.getD k 0).val * (x.getD (z.indices.getD k 0) 0).val|

/-! ### The product over any numbers -/

section
variable {α : Type} [Zero α] [Add α] [Mul α]

theorem apply_ok' {G : Type} (z : Csr α) (shape : List Nat) (x : Arr α) (g g' : G) (y : Arr α) :
    applyWeights (some (z, shape)) x g = .ok (y, g') ↔
    x.flat.length = z.cols ∧ shape.prod = z.rows ∧ g' = g ∧ y = ⟨shape, (List.range z.rows).map (z.dot x.flat)⟩ := by
  unfold applyWeights Csr.mul Arr.reshape
  by_cases h1 : x.flat.length = z.cols
  · by_cases h2 : shape.prod = z.rows
    · simp only [h1, if_true, bind, Except.bind, List.length_map, List.length_range, h2, pure, Except.pure,
        Except.ok.injEq, Prod.mk.injEq, true_and]
      constructor <;> rintro ⟨rfl, rfl⟩ <;> exact ⟨rfl, rfl⟩
    · simp [h1, h2, bind, Except.bind]
  · simp [h1, bind, Except.bind]

theorem elem_dot {G : Type} (z : Csr α) (shape : List Nat) (x : Arr α) (g g' : G) (y : Arr α)
    (h : applyWeights (some (z, shape)) x g = .ok (y, g')) (idx : List Nat) (hidx : Inside shape idx) :
    offset shape idx < z.rows ∧ y.elem idx = some (z.dot x.flat (offset shape idx)) := by
  obtain ⟨_, h2, _, rfl⟩ := (apply_ok' z shape x g g' y).1 h
  have hlt := offset_lt shape idx hidx
  rw [h2] at hlt
  refine ⟨hlt, ?_⟩
  unfold Arr.elem
  simp only [List.getElem?_map, List.getElem?_range hlt, Option.map_some]

omit [Add α] [Mul α] in
/-- The entries of a row, by position. -/
theorem row_getElem (z : Csr α) (h : z.WF) (i : Nat) (hi : i < z.rows) :
    z.row i = (List.range (z.ptr (i + 1) - z.ptr i)).map (fun k => (z.indices.getD (z.ptr i + k) 0, z.data.getD (z.ptr i + k) 0)) := by
  have hle := ptr_le z h (i + 1) (by omega)
  have hmo := ptr_mono z h i hi
  have hs := h.sizes
  have hz : (z.indices.zip z.data).length = z.indices.length := by rw [List.length_zip, ← hs]; simp
  unfold Csr.row
  apply List.ext_getElem
  · simp only [List.length_take, List.length_drop, hz, List.length_map, List.length_range]; omega
  · intro n h1 h2
    simp only [List.length_map, List.length_range] at h2
    simp only [List.getElem_take, List.getElem_drop, List.getElem_zip, List.getElem_map, List.getElem_range]
    rw [List.getD_eq_getElem?_getD, List.getElem?_eq_getElem (by omega), List.getD_eq_getElem?_getD, List.getElem?_eq_getElem (by omega)]
    rfl

omit [Add α] [Mul α] in
theorem mem_row (z : Csr α) (h : z.WF) (i : Nat) (hi : i < z.rows) (e : Nat × α) :
    e ∈ z.row i ↔ ∃ k ∈ z.slots i, e = (z.indices.getD k 0, z.data.getD k 0) := by
  have hmo := ptr_mono z h i hi
  rw [row_getElem z h i hi, List.mem_map]
  constructor
  · rintro ⟨k, hk, rfl⟩
    rw [List.mem_range] at hk
    exact ⟨z.ptr i + k, mem_Ico.2 ⟨Nat.le_add_right _ _, by show z.ptr i + k < z.ptr (i + 1); omega⟩, rfl⟩
  · rintro ⟨k, hk, rfl⟩
    have h1 : z.ptr i ≤ k := (mem_Ico.1 hk).1
    have h2 : k < z.ptr (i + 1) := (mem_Ico.1 hk).2
    refine ⟨k - z.ptr i, List.mem_range.2 (by omega), ?_⟩
    rw [Nat.add_sub_cancel' h1]

theorem list_range_sum (f : Nat → ℚ) (n : Nat) : ((List.range n).map f).sum = ∑ k ∈ range n, f k := by
  induction n with
  | zero => rfl
  | succ n ih => rw [List.range_succ, List.map_append, List.sum_append, ih, sum_range_succ]; simp

omit [Add α] [Mul α] in
theorem row_sum (z : Csr α) (h : z.WF) (i : Nat) (hi : i < z.rows) (f : Nat × α → ℚ) :
    ((z.row i).map f).sum = ∑ k ∈ z.slots i, f (z.indices.getD k 0, z.data.getD k 0) := by
  rw [row_getElem z h i hi, List.map_map]
  show _ = ∑ k ∈ Ico (z.ptr i) (z.ptr (i + 1)), _
  rw [sum_Ico_eq_sum_range, list_range_sum]
  rfl

omit [Add α] [Mul α] in
theorem row_length (z : Csr α) (h : z.WF) (i : Nat) (hi : i < z.rows) : (z.row i).length = (z.slots i).card := by
  rw [row_getElem z h i hi]
  simp [Csr.slots, Csr.ptr]

theorem foldl_local (x x' : List α) : ∀ (l : List (Nat × α)) (s : α), (∀ e ∈ l, x.getD e.1 0 = x'.getD e.1 0) →
    l.foldl (fun s e => s + e.2 * x.getD e.1 0) s = l.foldl (fun s e => s + e.2 * x'.getD e.1 0) s
  | [], s, _ => rfl
  | e :: l, s, h => by
    simp only [List.foldl_cons]
    rw [h e (by simp)]
    exact foldl_local x x' l _ (fun e' he => h e' (by simp [he]))

/-- Over any numbers: a point without a stored weight does not count. -/
theorem unaffected_of_not_stores {G : Type} (z : Csr α) (h : z.WF) (shape : List Nat) (g : G) (idx : List Nat) (hidx : Inside shape idx)
    (j : Nat) (hj : ¬ z.Stores (offset shape idx) j) : Unaffected z shape g idx j := by
  intro x x' y y' hx h1 h2
  obtain ⟨hi, e1⟩ := elem_dot z shape x g g y h1 idx hidx
  obtain ⟨_, e2⟩ := elem_dot z shape x' g g y' h2 idx hidx
  rw [e1, e2]
  congr 1
  apply foldl_local
  intro e he
  obtain ⟨k, hk, rfl⟩ := (mem_row z h _ hi e).1 he
  exact hx _ (fun hc => hj ⟨k, hk, hc⟩)

end

/-! ### Sums of machine numbers -/

theorem nan_add (a : Fp r) : Fp.nan + a = Fp.nan := by cases a <;> rfl
theorem add_nan (a : Fp r) : a + Fp.nan = Fp.nan := by cases a <;> rfl
theorem mul_nan (a : Fp r) : a * Fp.nan = Fp.nan := by cases a <;> rfl

theorem finite_add {a b : Fp r} (h : (a + b).Finite) : a.Finite ∧ b.Finite := by
  obtain ⟨q, h⟩ := h
  cases a <;> cases b <;> simp only [HAdd.hAdd, Add.add, Fp.add] at h
  · cases h
  · cases h
  · cases h
  · cases h
  · split at h <;> cases h
  · cases h
  · cases h
  · cases h
  · exact ⟨⟨_, rfl⟩, ⟨_, rfl⟩⟩

theorem finite_mul {a b : Fp r} (h : (a * b).Finite) : a.Finite ∧ b.Finite := by
  obtain ⟨q, h⟩ := h
  cases a <;> cases b <;> simp only [HMul.hMul, Mul.mul, Fp.mul] at h
  · cases h
  · cases h
  · cases h
  · cases h
  · cases h
  · split at h <;> cases h
  · cases h
  · split at h <;> cases h
  · exact ⟨⟨_, rfl⟩, ⟨_, rfl⟩⟩

theorem round_finite {q p : ℚ} (h : Fp.round r q = .fin p) : p = r.fl q := by
  unfold Fp.round at h
  split at h
  · exact (Fp.fin.inj h).symm
  · cases h

theorem foldl_finite (x : List (Fp r)) : ∀ (l : List (Nat × Fp r)) (s : Fp r),
    (l.foldl (fun s e => s + e.2 * x.getD e.1 0) s).Finite → s.Finite ∧ ∀ e ∈ l, e.2.Finite ∧ (x.getD e.1 0).Finite
  | [], s, h => ⟨h, by simp⟩
  | e :: l, s, h => by
    simp only [List.foldl_cons] at h
    obtain ⟨h1, h2⟩ := foldl_finite x l _ h
    obtain ⟨h3, h4⟩ := finite_add h1
    refine ⟨h3, ?_⟩
    intro e' he'
    rcases List.mem_cons.1 he' with rfl | he'
    · exact finite_mul h4
    · exact h2 e' he'

theorem foldl_from_nan (x : List (Fp r)) : ∀ (l : List (Nat × Fp r)), l.foldl (fun s e => s + e.2 * x.getD e.1 0) Fp.nan = Fp.nan
  | [] => rfl
  | e :: l => by simp only [List.foldl_cons, nan_add]; exact foldl_from_nan x l

theorem foldl_nan (x : List (Fp r)) : ∀ (l : List (Nat × Fp r)) (s : Fp r), (∃ e ∈ l, x.getD e.1 0 = .nan) →
    l.foldl (fun s e => s + e.2 * x.getD e.1 0) s = .nan
  | [], s, h => by obtain ⟨e, he, _⟩ := h; cases he
  | e :: l, s, h => by
    simp only [List.foldl_cons]
    obtain ⟨e', he', h'⟩ := h
    rcases List.mem_cons.1 he' with rfl | he'
    · rw [h', mul_nan, add_nan, foldl_from_nan]
    · exact foldl_nan x l _ ⟨e', he', h'⟩

theorem round_zero (h0 : r.fl 0 = 0) (hm : 0 ≤ r.max) : Fp.round r 0 = .fin 0 := by
  unfold Fp.round
  rw [h0, abs_zero, if_pos hm]

theorem foldl_zeros (h0 : r.fl 0 = 0) (hm : 0 ≤ r.max) (x : List (Fp r)) : ∀ (l : List (Nat × Fp r)),
    (∀ e ∈ l, e.2.Finite ∧ x.getD e.1 0 = 0) → l.foldl (fun s e => s + e.2 * x.getD e.1 0) (.fin 0) = .fin 0
  | [], _ => rfl
  | e :: l, h => by
    simp only [List.foldl_cons]
    obtain ⟨⟨q, hq⟩, hx⟩ := h e (by simp)
    have e1 : (Fp.fin 0 : Fp r) + e.2 * x.getD e.1 0 = .fin 0 := by
      rw [hx, hq]
      show Fp.add (.fin 0) (Fp.round r (q * 0)) = _
      rw [mul_zero, round_zero h0 hm]
      show Fp.round r (0 + 0) = _
      rw [add_zero, round_zero h0 hm]
    rw [e1]
    exact foldl_zeros h0 hm x l (fun e' he' => h e' (by simp [he']))

/-! ### C121 -/

/-- C121: a value without a stored weight has no influence, whatever it is; and with any rounding a stored weight gives it influence: missing
there, the result is missing. -/
theorem C121_stored {G : Type} (h0 : r.fl 0 = 0) (hm : 0 ≤ r.max) (z : Csr (Fp r)) (h : z.WF) (hw : z.FiniteWeights) (shape : List Nat)
    (hs : shape.prod = z.rows) (g : G) (idx : List Nat) (hidx : Inside shape idx) (j : Nat) :
    Unaffected z shape g idx j ↔ ¬ z.Stores (offset shape idx) j := by
  refine ⟨?_, unaffected_of_not_stores z h shape g idx hidx j⟩
  rintro hu ⟨k, hk, hkj⟩
  have hi : offset shape idx < z.rows := hs ▸ offset_lt shape idx hidx
  have hj : j < z.cols := hkj ▸ slot_col z h _ hi k hk
  let xs : List (Fp r) := (List.replicate z.cols 0).set j .nan
  let xs' : List (Fp r) := List.replicate z.cols 0
  have g1 := (apply_ok' z shape ⟨[z.cols], xs⟩ g g _).2 ⟨by simp [xs], hs, rfl, rfl⟩
  have g2 := (apply_ok' z shape ⟨[z.cols], xs'⟩ g g _).2 ⟨by simp [xs'], hs, rfl, rfl⟩
  have := hu _ _ _ _ ?_ g1 g2
  · rw [(elem_dot z shape _ g g _ g1 idx hidx).2, (elem_dot z shape _ g g _ g2 idx hidx).2] at this
    have this := Option.some.inj this
    have e1 : z.dot xs (offset shape idx) = .nan := by
      apply foldl_nan
      refine ⟨_, (mem_row z h _ hi _).2 ⟨k, hk, rfl⟩, ?_⟩
      show xs.getD (z.indices.getD k 0) 0 = _
      rw [hkj]
      simp [xs, List.getD_eq_getElem?_getD, hj]
    have e2 : z.dot xs' (offset shape idx) = .fin 0 := by
      apply foldl_zeros h0 hm
      intro e he
      obtain ⟨k', hk', rfl⟩ := (mem_row z h _ hi e).1 he
      have hle := ptr_le z h (offset shape idx + 1) (by omega)
      have hlt : k' < z.ptr (offset shape idx + 1) := (mem_Ico.1 hk').2
      have hsz := h.sizes
      refine ⟨?_, ?_⟩
      · show (z.data.getD k' 0).Finite
        rw [List.getD_eq_getElem?_getD, List.getElem?_eq_getElem (by omega)]
        exact hw _ (List.getElem_mem _)
      · show xs'.getD (z.indices.getD k' 0) 0 = 0
        simp only [xs', List.getD_eq_getElem?_getD, List.getElem?_replicate]
        split <;> rfl
    have this : z.dot xs (offset shape idx) = z.dot xs' (offset shape idx) := this
    rw [e1, e2] at this
    cases this
  · intro k' hk'
    simp [xs, xs', List.getD_eq_getElem?_getD, Ne.symm hk']

/-- C121, where no zeros are stored: a value has influence exactly on the points that use it. -/
theorem C121_uses_partial {G : Type} (h0 : r.fl 0 = 0) (hm : 0 ≤ r.max) (z : Csr (Fp r)) (h : z.WF) (hw : z.FiniteWeights)
    (hnz : ∀ i, ∀ k ∈ z.slots i, z.data.getD k 0 ≠ 0) (shape : List Nat) (hs : shape.prod = z.rows) (g : G) (idx : List Nat)
    (hidx : Inside shape idx) (j : Nat) : Unaffected z shape g idx j ↔ ¬ z.Uses (offset shape idx) j := by
  rw [C121_stored h0 hm z h hw shape hs g idx hidx j]
  apply not_congr
  constructor
  · rintro ⟨k, hk, e⟩; exact ⟨k, hk, e, hnz _ k hk⟩
  · rintro ⟨k, hk, e, _⟩; exact ⟨k, hk, e⟩

/-- C121: a missing value makes every point with a stored weight for it missing; and a result that is a number is made of numbers. -/
theorem C121_spread {G : Type} (z : Csr (Fp r)) (h : z.WF) (shape : List Nat) (x : Arr (Fp r)) (g g' : G) (y : Arr (Fp r))
    (hr : applyWeights (some (z, shape)) x g = .ok (y, g')) (idx : List Nat) (hidx : Inside shape idx) :
    ((∃ j, z.Stores (offset shape idx) j ∧ x.flat.getD j 0 = .nan) → y.elem idx = some .nan) ∧
    ∀ q, y.elem idx = some (.fin q) → ∀ j, z.Stores (offset shape idx) j → (x.flat.getD j 0).Finite := by
  obtain ⟨hi, e⟩ := elem_dot z shape x g g' y hr idx hidx
  rw [e]
  constructor
  · rintro ⟨j, ⟨k, hk, hkj⟩, hx⟩
    congr 1
    apply foldl_nan
    exact ⟨_, (mem_row z h _ hi _).2 ⟨k, hk, rfl⟩, by show x.flat.getD (z.indices.getD k 0) 0 = _; rw [hkj]; exact hx⟩
  · rintro q hq j ⟨k, hk, hkj⟩
    have := (foldl_finite x.flat (z.row (offset shape idx)) 0 ⟨q, Option.some.inj hq⟩).2 _ ((mem_row z h _ hi _).2 ⟨k, hk, rfl⟩)
    have h2 : (x.flat.getD (z.indices.getD k 0) 0).Finite := this.2
    rwa [hkj] at h2

/-! ### C122 -/

/-- One step: the error of the sum so far, and of the next product. -/
theorem step_error (u η : ℚ) (hr : r.Accurate u η) (s S A p E : ℚ) (hE : |s - S| ≤ E) (hA : |S| ≤ A) :
    |r.fl (s + r.fl p) - (S + p)| ≤ (1 + u) * E + u * A + ((1 + u) ^ 2 - 1) * |p| + (2 + u) * η := by
  have hu := hr.rel
  have h1 := hr.close p
  have h2 := hr.close (s + r.fl p)
  have e1 : |r.fl p| ≤ |p| + (u * |p| + η) := by
    calc |r.fl p| = |p + (r.fl p - p)| := by congr 1; ring
      _ ≤ |p| + |r.fl p - p| := abs_add_le _ _
      _ ≤ _ := by linarith
  have e2 : |s| ≤ A + E := by
    calc |s| = |S + (s - S)| := by congr 1; ring
      _ ≤ |S| + |s - S| := abs_add_le _ _
      _ ≤ _ := by linarith
  have e3 : |s + r.fl p| ≤ A + E + (|p| + (u * |p| + η)) := (abs_add_le _ _).trans (add_le_add e2 e1)
  have e4 : |r.fl (s + r.fl p) - (S + p)| ≤ |r.fl (s + r.fl p) - (s + r.fl p)| + (|s - S| + |r.fl p - p|) := by
    calc |r.fl (s + r.fl p) - (S + p)| = |(r.fl (s + r.fl p) - (s + r.fl p)) + ((s - S) + (r.fl p - p))| := by congr 1; ring
      _ ≤ |r.fl (s + r.fl p) - (s + r.fl p)| + |(s - S) + (r.fl p - p)| := abs_add_le _ _
      _ ≤ _ := by gcongr; exact abs_add_le _ _
  have e5 : u * |s + r.fl p| ≤ u * (A + E + (|p| + (u * |p| + η))) := mul_le_mul_of_nonneg_left e3 hu
  calc _ ≤ (u * (A + E + (|p| + (u * |p| + η))) + η) + (E + (u * |p| + η)) := by linarith
    _ = _ := by ring

/-- The bound on the error of a sum of `n` products whose absolute values add up to `A`. -/
def errorBound (u η : ℚ) (n : Nat) (A : ℚ) : ℚ := ((1 + u) ^ (n + 1) - 1) * A + n * (2 + u) * (1 + u) ^ n * η

theorem errorBound_step (u η : ℚ) (hu : 0 ≤ u) (hη : 0 ≤ η) (n : Nat) (A p : ℚ) (hp : 0 ≤ p) :
    (1 + u) * errorBound u η n A + u * A + ((1 + u) ^ 2 - 1) * p + (2 + u) * η ≤ errorBound u η (n + 1) (A + p) := by
  unfold errorBound
  have h1 : (1 + u) ^ 2 ≤ (1 + u) ^ (n + 1 + 1) := pow_le_pow_right₀ (by linarith) (by omega)
  have h2 : (1 : ℚ) ≤ (1 + u) ^ (n + 1) := one_le_pow₀ (by linarith)
  have h3 : (2 + u) * η ≤ (2 + u) * (1 + u) ^ (n + 1) * η := by
    have : 0 ≤ (2 + u) * η := mul_nonneg (by linarith) hη
    nlinarith
  have h4 : ((1 + u) ^ 2 - 1) * p ≤ ((1 + u) ^ (n + 1 + 1) - 1) * p := mul_le_mul_of_nonneg_right (by linarith) hp
  have e : (1 + u) * (((1 + u) ^ (n + 1) - 1) * A + n * (2 + u) * (1 + u) ^ n * η) + u * A
      = ((1 + u) ^ (n + 1 + 1) - 1) * A + n * (2 + u) * (1 + u) ^ (n + 1) * η := by ring
  push_cast
  calc _ ≤ ((1 + u) ^ (n + 1 + 1) - 1) * A + n * (2 + u) * (1 + u) ^ (n + 1) * η + ((1 + u) ^ (n + 1 + 1) - 1) * p
        + (2 + u) * (1 + u) ^ (n + 1) * η := by linarith
    _ = _ := by ring

/-- The exact terms of a row. -/
def term (x : List (Fp r)) (e : Nat × Fp r) : ℚ := e.2.val * (x.getD e.1 0).val

theorem add_fin {a b : Fp r} {q : ℚ} (h : a + b = .fin q) : ∃ s t, a = .fin s ∧ b = .fin t ∧ q = r.fl (s + t) := by
  obtain ⟨⟨s, rfl⟩, ⟨t, rfl⟩⟩ := finite_add ⟨q, h⟩
  exact ⟨s, t, rfl, rfl, round_finite h⟩

theorem mul_fin {a b : Fp r} {q : ℚ} (h : a * b = .fin q) : ∃ s t, a = .fin s ∧ b = .fin t ∧ q = r.fl (s * t) := by
  obtain ⟨⟨s, rfl⟩, ⟨t, rfl⟩⟩ := finite_mul ⟨q, h⟩
  exact ⟨s, t, rfl, rfl, round_finite h⟩

theorem foldl_error (u η : ℚ) (hr : r.Accurate u η) (x : List (Fp r)) (q : ℚ) : ∀ (l : List (Nat × Fp r)) (s S A : ℚ) (n : Nat),
    |s - S| ≤ errorBound u η n A → |S| ≤ A → l.foldl (fun s e => s + e.2 * x.getD e.1 0) (.fin s) = .fin q →
    |q - (S + (l.map (term x)).sum)| ≤ errorBound u η (n + l.length) (A + (l.map (fun e => |term x e|)).sum)
  | [], s, S, A, n, hE, hA, h => by
    simp only [List.foldl_nil, Fp.fin.injEq] at h
    subst h
    simpa using hE
  | e :: l, s, S, A, n, hE, hA, h => by
    simp only [List.foldl_cons] at h
    obtain ⟨s', hs'⟩ := (foldl_finite x l _ ⟨q, h⟩).1
    rw [hs'] at h
    obtain ⟨a, b, ha, hb, rfl⟩ := add_fin hs'
    cases ha
    obtain ⟨w, v, hw, hv, rfl⟩ := mul_fin hb
    have ht : term x e = w * v := by simp only [term, hw, hv]; rfl
    have h1 := step_error u η hr s S A (w * v) _ hE hA
    have h2 := errorBound_step u η hr.rel hr.abs n A |w * v| (abs_nonneg _)
    have h3 := foldl_error u η hr x q l _ (S + w * v) (A + |w * v|) (n + 1) (h1.trans h2)
      ((abs_add_le _ _).trans (by linarith)) h
    simp only [List.map_cons, List.sum_cons, List.length_cons, ht]
    rw [← add_assoc, ← add_assoc A, show n + (l.length + 1) = n + 1 + l.length by omega]
    exact h3

/-- C122: a result that is a number differs from the exact weighted sum by no more than the accumulated rounding errors: a multiple of the sum
of the absolute values of its terms that depends on the number of stored weights of the row and the accuracy of the machine. -/
theorem C122_error {G : Type} (u η : ℚ) (hu : r.Accurate u η) (z : Csr (Fp r)) (h : z.WF) (shape : List Nat) (x : Arr (Fp r)) (g g' : G)
    (y : Arr (Fp r)) (hr : applyWeights (some (z, shape)) x g = .ok (y, g')) (idx : List Nat) (hidx : Inside shape idx) (q : ℚ)
    (hq : y.elem idx = some (.fin q)) :
    |q - exactSum z x.flat (offset shape idx)|
      ≤ errorBound u η (z.slots (offset shape idx)).card (sizeSum z x.flat (offset shape idx)) := by
  obtain ⟨hi, e⟩ := elem_dot z shape x g g' y hr idx hidx
  rw [e] at hq
  have hq : (z.row (offset shape idx)).foldl (fun s e => s + e.2 * x.flat.getD e.1 0) (.fin 0) = .fin q := Option.some.inj hq
  have := foldl_error u η hu x.flat q (z.row (offset shape idx)) 0 0 0 0 (by simp [errorBound]) (by simp) hq
  simp only [zero_add] at this
  rw [row_length z h _ hi, row_sum z h _ hi, row_sum z h _ hi] at this
  exact this

theorem errorBound_mono (u η : ℚ) (hu : 0 ≤ u) (hη : 0 ≤ η) (n n' : Nat) (A A' : ℚ) (hn : n ≤ n') (hA : 0 ≤ A) (hAA : A ≤ A') :
    errorBound u η n A ≤ errorBound u η n' A' := by
  unfold errorBound
  have h1 : (1 + u) ^ (n + 1) ≤ (1 + u) ^ (n' + 1) := pow_le_pow_right₀ (by linarith) (by omega)
  have h2 : (1 : ℚ) ≤ (1 + u) ^ (n + 1) := one_le_pow₀ (by linarith)
  have h3 : (1 + u) ^ n ≤ (1 + u) ^ n' := pow_le_pow_right₀ (by linarith) hn
  have h4 : (0 : ℚ) ≤ (1 + u) ^ n := by positivity
  have h5 : (n : ℚ) ≤ n' := by exact_mod_cast hn
  have h6 : (0 : ℚ) ≤ n := by positivity
  gcongr
  linarith

theorem terms_nonneg (x : List (Fp r)) (l : List (Nat × Fp r)) : 0 ≤ (l.map (fun e => |term x e|)).sum := by
  apply List.sum_nonneg
  intro a ha
  obtain ⟨e, _, rfl⟩ := List.mem_map.1 ha
  exact abs_nonneg _

theorem foldl_no_overflow (u η : ℚ) (hr : r.Accurate u η) (x : List (Fp r)) : ∀ (l : List (Nat × Fp r)) (s S A : ℚ) (n : Nat),
    |s - S| ≤ errorBound u η n A → |S| ≤ A → (∀ e ∈ l, e.2.Finite ∧ (x.getD e.1 0).Finite) →
    A + (l.map (fun e => |term x e|)).sum + errorBound u η (n + l.length) (A + (l.map (fun e => |term x e|)).sum) ≤ r.max →
    (l.foldl (fun s e => s + e.2 * x.getD e.1 0) (.fin s)).Finite
  | [], s, S, A, n, _, _, _, _ => ⟨s, rfl⟩
  | e :: l, s, S, A, n, hE, hA, hf, hm => by
    obtain ⟨⟨w, hw⟩, ⟨v, hv⟩⟩ := hf e (by simp)
    have ht : term x e = w * v := by simp only [term, hw, hv]; rfl
    have hu := hr.rel
    have hη := hr.abs
    have hA0 : 0 ≤ A := (abs_nonneg S).trans hA
    have hT := terms_nonneg x l
    have hp := abs_nonneg (w * v)
    have h1 := step_error u η hr s S A (w * v) _ hE hA
    have h2 := errorBound_step u η hu hη n A |w * v| hp
    have hS : |S + w * v| ≤ A + |w * v| := (abs_add_le _ _).trans (by linarith)
    simp only [List.map_cons, List.sum_cons, List.length_cons, ht] at hm
    rw [← add_assoc A, show n + (l.length + 1) = n + 1 + l.length by omega] at hm
    have h3 := errorBound_mono u η hu hη (n + 1) (n + 1 + l.length) (A + |w * v|) (A + |w * v| + (l.map (fun e => |term x e|)).sum)
      (by omega) (by linarith) (by linarith)
    -- the product
    have hprod : |r.fl (w * v)| ≤ r.max := by
      have a1 := hr.close (w * v)
      have a2 : |r.fl (w * v)| ≤ |w * v| + (u * |w * v| + η) := by
        calc |r.fl (w * v)| = |w * v + (r.fl (w * v) - w * v)| := by congr 1; ring
          _ ≤ |w * v| + |r.fl (w * v) - w * v| := abs_add_le _ _
          _ ≤ _ := by linarith
      have a3 : u * |w * v| + η ≤ errorBound u η (n + 1) (A + |w * v|) := by
        have b1 : 0 ≤ errorBound u η n A := (abs_nonneg _).trans hE
        have b2 : 0 ≤ (1 + u) * errorBound u η n A := mul_nonneg (by linarith) b1
        have b3 : 0 ≤ u * A := mul_nonneg hu hA0
        have b4 : u * |w * v| ≤ ((1 + u) ^ 2 - 1) * |w * v| := mul_le_mul_of_nonneg_right (by nlinarith) hp
        have b5 : η ≤ (2 + u) * η := by nlinarith
        linarith
      linarith
    have e1 : (Fp.fin s : Fp r) + e.2 * x.getD e.1 0 = Fp.round r (s + r.fl (w * v)) := by
      rw [hw, hv]
      show Fp.add (.fin s) (Fp.round r (w * v)) = _
      rw [Fp.round, if_pos hprod]
      rfl
    have hsum : |r.fl (s + r.fl (w * v))| ≤ r.max := by
      calc |r.fl (s + r.fl (w * v))| = |(S + w * v) + (r.fl (s + r.fl (w * v)) - (S + w * v))| := by congr 1; ring
        _ ≤ |S + w * v| + |r.fl (s + r.fl (w * v)) - (S + w * v)| := abs_add_le _ _
        _ ≤ r.max := by linarith
    simp only [List.foldl_cons]
    rw [e1, Fp.round, if_pos hsum]
    exact foldl_no_overflow u η hr x l _ (S + w * v) (A + |w * v|) (n + 1) (h1.trans h2) hS
      (fun e' he' => hf e' (by simp [he'])) hm

/-- C122: if the weights and values of a row are numbers and its terms do not come near the largest number, the result is a number. -/
theorem C122_number {G : Type} (u η : ℚ) (hu : r.Accurate u η) (z : Csr (Fp r)) (h : z.WF) (hw : z.FiniteWeights) (shape : List Nat)
    (x : Arr (Fp r)) (g g' : G) (y : Arr (Fp r)) (hr : applyWeights (some (z, shape)) x g = .ok (y, g')) (idx : List Nat)
    (hidx : Inside shape idx) (hx : ∀ j, z.Stores (offset shape idx) j → (x.flat.getD j 0).Finite)
    (hm : sizeSum z x.flat (offset shape idx)
      + errorBound u η (z.slots (offset shape idx)).card (sizeSum z x.flat (offset shape idx)) ≤ r.max) :
    ∃ q, y.elem idx = some (.fin q) := by
  obtain ⟨hi, e⟩ := elem_dot z shape x g g' y hr idx hidx
  rw [e]
  have := foldl_no_overflow u η hu x.flat (z.row (offset shape idx)) 0 0 0 0 (by simp [errorBound]) (by simp) ?_ ?_
  · obtain ⟨q, hq⟩ := this
    exact ⟨q, congrArg some hq⟩
  · intro e' he'
    obtain ⟨k', hk', rfl⟩ := (mem_row z h _ hi e').1 he'
    have hle := ptr_le z h (offset shape idx + 1) (by omega)
    have hlt : k' < z.ptr (offset shape idx + 1) := (mem_Ico.1 hk').2
    have hsz := h.sizes
    refine ⟨?_, hx _ ⟨k', hk', rfl⟩⟩
    show (z.data.getD k' 0).Finite
    rw [List.getD_eq_getElem?_getD, List.getElem?_eq_getElem (by omega)]
    exact hw _ (List.getElem_mem _)
  · simp only [zero_add]
    rw [row_length z h _ hi, row_sum z h _ hi]
    exact hm

/-! ### Infinite values -/

/-- An infinite value with a weight that pulls the result up (`neg = false`) or down. -/
def Csr.Pulls (z : Csr (Fp r)) (x : List (Fp r)) (i : Nat) (neg : Bool) : Prop :=
  ∃ k ∈ z.slots i, ∃ w, z.data.getD k 0 = .fin w ∧
    (0 < w ∧ x.getD (z.indices.getD k 0) 0 = .inf neg ∨ w < 0 ∧ x.getD (z.indices.getD k 0) 0 = .inf (!neg))

/-- An infinite value with a stored weight of zero. -/
def Csr.Idle (z : Csr (Fp r)) (x : List (Fp r)) (i : Nat) : Prop :=
  ∃ k ∈ z.slots i, z.data.getD k 0 = .fin 0 ∧ ∃ b, x.getD (z.indices.getD k 0) 0 = .inf b

theorem inf_add_cases (b : Bool) (a : Fp r) : .inf b + a = .inf b ∨ (.inf b + a : Fp r) = .nan := by
  cases a with
  | nan => exact .inr rfl
  | inf c =>
    show (if b = c then Fp.inf b else Fp.nan : Fp r) = _ ∨ (if b = c then Fp.inf b else Fp.nan : Fp r) = _
    split
    · exact .inl rfl
    · exact .inr rfl
  | fin q => exact .inl rfl

theorem add_inf_cases (b : Bool) (a : Fp r) : a + .inf b = .inf b ∨ (a + .inf b : Fp r) = .nan := by
  cases a with
  | nan => exact .inr rfl
  | inf c =>
    show (if c = b then Fp.inf c else Fp.nan : Fp r) = _ ∨ (if c = b then Fp.inf c else Fp.nan : Fp r) = _
    split
    · rename_i h; subst h; exact .inl rfl
    · exact .inr rfl
  | fin q => exact .inl rfl

theorem inf_add_other (b : Bool) : (.inf b + .inf (!b) : Fp r) = .nan := by cases b <;> rfl

/-- From NaN or an infinity the sum does not come back. -/
theorem foldl_from_inf (x : List (Fp r)) (b : Bool) : ∀ (l : List (Nat × Fp r)) (s : Fp r), s = .inf b ∨ s = .nan →
    l.foldl (fun s e => s + e.2 * x.getD e.1 0) s = .inf b ∨ l.foldl (fun s e => s + e.2 * x.getD e.1 0) s = .nan
  | [], s, h => h
  | e :: l, s, h => by
    simp only [List.foldl_cons]
    refine foldl_from_inf x b l _ ?_
    rcases h with rfl | rfl
    · exact inf_add_cases b _
    · exact .inr (nan_add _)

theorem foldl_term_inf (x : List (Fp r)) (b : Bool) : ∀ (l : List (Nat × Fp r)) (s : Fp r), (∃ e ∈ l, e.2 * x.getD e.1 0 = .inf b) →
    l.foldl (fun s e => s + e.2 * x.getD e.1 0) s = .inf b ∨ l.foldl (fun s e => s + e.2 * x.getD e.1 0) s = .nan
  | [], s, h => by obtain ⟨e, he, _⟩ := h; cases he
  | e :: l, s, h => by
    obtain ⟨e', he', h'⟩ := h
    simp only [List.foldl_cons]
    rcases List.mem_cons.1 he' with rfl | he'
    · rw [h']; exact foldl_from_inf x b l _ (add_inf_cases b s)
    · exact foldl_term_inf x b l _ ⟨e', he', h'⟩

theorem foldl_term_nan (x : List (Fp r)) : ∀ (l : List (Nat × Fp r)) (s : Fp r), (∃ e ∈ l, e.2 * x.getD e.1 0 = .nan) →
    l.foldl (fun s e => s + e.2 * x.getD e.1 0) s = .nan
  | [], s, h => by obtain ⟨e, he, _⟩ := h; cases he
  | e :: l, s, h => by
    obtain ⟨e', he', h'⟩ := h
    simp only [List.foldl_cons]
    rcases List.mem_cons.1 he' with rfl | he'
    · rw [h', add_nan, foldl_from_nan]
    · exact foldl_term_nan x l _ ⟨e', he', h'⟩

theorem foldl_stays (x : List (Fp r)) (b : Bool) : ∀ (l : List (Nat × Fp r)), (∀ e ∈ l, (e.2 * x.getD e.1 0).Finite ∨ e.2 * x.getD e.1 0 = .inf b) →
    l.foldl (fun s e => s + e.2 * x.getD e.1 0) (.inf b) = .inf b
  | [], _ => rfl
  | e :: l, h => by
    simp only [List.foldl_cons]
    have : (.inf b + e.2 * x.getD e.1 0 : Fp r) = .inf b := by
      rcases h e (by simp) with ⟨q, hq⟩ | hq
      · rw [hq]; rfl
      · rw [hq]; cases b <;> rfl
    rw [this]
    exact foldl_stays x b l (fun e' he' => h e' (by simp [he']))

/-- A product with an infinite value. -/
theorem pull_mul {w : ℚ} {v : Fp r} {neg : Bool} (h : 0 < w ∧ v = .inf neg ∨ w < 0 ∧ v = .inf (!neg)) : (.fin w * v : Fp r) = .inf neg := by
  rcases h with ⟨h, rfl⟩ | ⟨h, rfl⟩
  · show (if w = 0 then Fp.nan else Fp.inf (decide (w < 0) != neg) : Fp r) = _
    rw [if_neg h.ne', decide_eq_false (not_lt.2 h.le)]
    cases neg <;> rfl
  · show (if w = 0 then Fp.nan else Fp.inf (decide (w < 0) != !neg) : Fp r) = _
    rw [if_neg h.ne, decide_eq_true h]
    cases neg <;> rfl

theorem term_le (x : List (Fp r)) {l : List (Nat × Fp r)} {e : Nat × Fp r} (he : e ∈ l) : |term x e| ≤ (l.map (fun e => |term x e|)).sum := by
  obtain ⟨a, b, rfl⟩ := List.append_of_mem he
  simp only [List.map_append, List.map_cons, List.sum_append, List.sum_cons]
  linarith [terms_nonneg x a, terms_nonneg x b]

/-- No product of a row of moderate terms is too large. -/
theorem term_finite (u η : ℚ) (hr : r.Accurate u η) (x : List (Fp r)) (l : List (Nat × Fp r))
    (hm : (l.map (fun e => |term x e|)).sum + errorBound u η l.length (l.map (fun e => |term x e|)).sum ≤ r.max) (e : Nat × Fp r) (he : e ∈ l)
    (h1 : e.2.Finite) (h2 : (x.getD e.1 0).Finite) : (e.2 * x.getD e.1 0).Finite := by
  have hl : 1 ≤ l.length := List.length_pos_of_mem he
  have hb := errorBound_mono u η hr.rel hr.abs 1 l.length |term x e| _ hl (abs_nonneg _) (term_le x he)
  have := foldl_no_overflow u η hr x [e] 0 0 0 0 (by simp [errorBound]) (by simp) (by simpa using ⟨h1, h2⟩) (by
    simp only [List.map_cons, List.map_nil, List.sum_cons, List.sum_nil, add_zero, zero_add, List.length_cons, List.length_nil]
    linarith [term_le x he])
  exact (finite_add this).2

/-- **C121**, infinite values: a stored weight of zero makes of one NaN; pulls in both directions make NaN; in one direction, the result is that
infinity, provided that nothing is missing and the other terms do not come near the largest number. -/
theorem C121_infinite {G : Type} (u η : ℚ) (hu : r.Accurate u η) (z : Csr (Fp r)) (h : z.WF) (hw : z.FiniteWeights) (shape : List Nat)
    (x : Arr (Fp r)) (g g' : G) (y : Arr (Fp r)) (hr : applyWeights (some (z, shape)) x g = .ok (y, g')) (idx : List Nat)
    (hidx : Inside shape idx) :
    (z.Idle x.flat (offset shape idx) → y.elem idx = some .nan) ∧
    (z.Pulls x.flat (offset shape idx) true → z.Pulls x.flat (offset shape idx) false → y.elem idx = some .nan) ∧
    ∀ neg, z.Pulls x.flat (offset shape idx) neg → ¬z.Pulls x.flat (offset shape idx) (!neg) → ¬z.Idle x.flat (offset shape idx) →
      (∀ j, z.Stores (offset shape idx) j → x.flat.getD j 0 ≠ .nan) →
      sizeSum z x.flat (offset shape idx)
        + errorBound u η (z.slots (offset shape idx)).card (sizeSum z x.flat (offset shape idx)) ≤ r.max →
      y.elem idx = some (.inf neg) := by
  obtain ⟨hi, e⟩ := elem_dot z shape x g g' y hr idx hidx
  rw [e]
  have hfin : ∀ e' ∈ z.row (offset shape idx), e'.2.Finite := by
    intro e' he'
    obtain ⟨k', hk', rfl⟩ := (mem_row z h _ hi e').1 he'
    have hle := ptr_le z h (offset shape idx + 1) (by omega)
    have hlt : k' < z.ptr (offset shape idx + 1) := (mem_Ico.1 hk').2
    have hsz := h.sizes
    show (z.data.getD k' 0).Finite
    rw [List.getD_eq_getElem?_getD, List.getElem?_eq_getElem (by omega)]
    exact hw _ (List.getElem_mem _)
  have hpull : ∀ neg, z.Pulls x.flat (offset shape idx) neg → ∃ e' ∈ z.row (offset shape idx), e'.2 * x.flat.getD e'.1 0 = .inf neg := by
    rintro neg ⟨k, hk, w, hw, hp⟩
    exact ⟨_, (mem_row z h _ hi _).2 ⟨k, hk, rfl⟩, by simp only [hw]; exact pull_mul hp⟩
  refine ⟨?_, ?_, ?_⟩
  · rintro ⟨k, hk, hw, b, hb⟩
    congr 1
    refine foldl_term_nan _ _ _ ⟨(z.indices.getD k 0, z.data.getD k 0), (mem_row z h _ hi _).2 ⟨k, hk, rfl⟩, ?_⟩
    simp only [hw, hb]
    show (if (0 : ℚ) = 0 then Fp.nan else Fp.inf (decide ((0 : ℚ) < 0) != b) : Fp r) = _
    rw [if_pos rfl]
  · intro h1 h2
    have a1 := foldl_term_inf x.flat true (z.row (offset shape idx)) 0 (hpull _ h1)
    have a2 := foldl_term_inf x.flat false (z.row (offset shape idx)) 0 (hpull _ h2)
    rcases a1 with a1 | a1
    · rcases a2 with a2 | a2
      · rw [a1] at a2; cases a2
      · exact congrArg some a2
    · exact congrArg some a1
  · intro neg hp hd hid hnan hm
    congr 1
    obtain ⟨e₀, he₀, h₀⟩ := hpull neg hp
    have hm' : ((z.row (offset shape idx)).map (fun e => |term x.flat e|)).sum
        + errorBound u η (z.row (offset shape idx)).length ((z.row (offset shape idx)).map (fun e => |term x.flat e|)).sum ≤ r.max := by
      rw [row_length z h _ hi, row_sum z h _ hi]
      exact hm
    -- every product is a number or that infinity
    have hall : ∀ e' ∈ z.row (offset shape idx), (x.flat.getD e'.1 0).Finite ∨ e'.2 * x.flat.getD e'.1 0 = .inf neg := by
      intro e' he'
      obtain ⟨w, hw'⟩ := hfin e' he'
      obtain ⟨k, hk, rfl⟩ := (mem_row z h _ hi _).1 he'
      have hn := hnan _ ⟨k, hk, rfl⟩
      cases hx : x.flat.getD (z.indices.getD k 0) 0 with
      | nan => exact absurd hx hn
      | fin q => exact .inl ⟨q, rfl⟩
      | inf b =>
        right
        simp only at hw' ⊢
        rcases lt_trichotomy w 0 with hl | hl | hl
        · by_cases hb : b = !neg
          · subst hb; rw [hw']; exact pull_mul (.inr ⟨hl, rfl⟩)
          · exact absurd ⟨k, hk, w, hw', .inr ⟨hl, by rw [hx]; cases b <;> cases neg <;> simp_all⟩⟩ hd
        · subst hl; exact absurd ⟨k, hk, hw', b, hx⟩ hid
        · by_cases hb : b = neg
          · subst hb; rw [hw']; exact pull_mul (.inl ⟨hl, rfl⟩)
          · exact absurd ⟨k, hk, w, hw', .inl ⟨hl, by rw [hx]; cases b <;> cases neg <;> simp_all⟩⟩ hd
    have hprod : ∀ e' ∈ z.row (offset shape idx), (e'.2 * x.flat.getD e'.1 0).Finite ∨ e'.2 * x.flat.getD e'.1 0 = .inf neg := by
      intro e' he'
      rcases hall e' he' with h1 | h1
      · exact .inl (term_finite u η hu x.flat _ hm' e' he' (hfin e' he') h1)
      · exact .inr h1
    -- up to the first infinite one
    show (z.row (offset shape idx)).foldl (fun s e => s + e.2 * x.flat.getD e.1 0) (.fin 0) = _
    generalize z.row (offset shape idx) = l at he₀ hm' hfin hall hprod ⊢
    have split : ∃ l₁ e₁ l₂, l = l₁ ++ e₁ :: l₂ ∧ e₁.2 * x.flat.getD e₁.1 0 = .inf neg ∧ ∀ e' ∈ l₁, (x.flat.getD e'.1 0).Finite := by
      clear hm' hfin hprod
      induction l with
      | nil => cases he₀
      | cons e₂ l ih =>
        rcases hall e₂ (by simp) with h1 | h1
        · rcases List.mem_cons.1 he₀ with rfl | he₀
          · obtain ⟨q, hq⟩ := h1
            by_cases hc : e₀.2 * x.flat.getD e₀.1 0 = .inf neg
            · exact ⟨[], e₀, l, rfl, hc, by simp⟩
            · exact absurd h₀ hc
          · obtain ⟨l₁, e₁, l₂, h2, h3, h4⟩ := ih he₀ (fun e' he' => hall e' (by simp [he']))
            refine ⟨e₂ :: l₁, e₁, l₂, by rw [h2]; rfl, h3, ?_⟩
            intro e' he'
            rcases List.mem_cons.1 he' with rfl | he'
            · exact h1
            · exact h4 e' he'
        · exact ⟨[], e₂, l, rfl, h1, by simp⟩
    obtain ⟨l₁, e₁, l₂, rfl, h1, h2⟩ := split
    rw [List.foldl_append, List.foldl_cons]
    have hs : (l₁.map (fun e => |term x.flat e|)).sum ≤ ((l₁ ++ e₁ :: l₂).map (fun e => |term x.flat e|)).sum := by
      simp only [List.map_append, List.map_cons, List.sum_append, List.sum_cons]
      linarith [terms_nonneg x.flat l₂, abs_nonneg (term x.flat e₁)]
    have hb := errorBound_mono u η hu.rel hu.abs l₁.length (l₁ ++ e₁ :: l₂).length _ _ (by simp) (terms_nonneg x.flat l₁) hs
    obtain ⟨q, hq⟩ := foldl_no_overflow u η hu x.flat l₁ 0 0 0 0 (by simp [errorBound]) (by simp)
      (fun e' he' => ⟨hfin e' (by simp [he']), h2 e' he'⟩) (by simp only [zero_add]; linarith)
    rw [hq, h1]
    exact foldl_stays x.flat neg l₂ (fun e' he' => hprod e' (by simp [he']))

/-- The rounding keeps signs. -/
def Rounding.Signed (r : Rounding) : Prop := ∀ q, 0 ≤ q → 0 ≤ r.fl q

/-- Not negative: a number that is not, or infinity. -/
def Fp.NonNeg (a : Fp r) : Prop := a = .inf false ∨ ∃ q, a = .fin q ∧ 0 ≤ q

theorem round_nonneg (hs : r.Signed) {q : ℚ} (hq : 0 ≤ q) : (Fp.round r q).NonNeg := by
  unfold Fp.round
  split
  · exact .inr ⟨_, rfl, hs q hq⟩
  · left
    rw [decide_eq_false (not_lt.2 (hs q hq))]

/-- **C122**, overflow: weights and values that are numbers and not negative give a number that is not negative, or infinity: never NaN, and
never anything negative. -/
theorem C122_sign {G : Type} (hs : r.Signed) (z : Csr (Fp r)) (h : z.WF) (shape : List Nat) (x : Arr (Fp r)) (g g' : G) (y : Arr (Fp r))
    (hr : applyWeights (some (z, shape)) x g = .ok (y, g')) (idx : List Nat) (hidx : Inside shape idx)
    (hw : ∀ k ∈ z.slots (offset shape idx), ∃ w, z.data.getD k 0 = .fin w ∧ 0 ≤ w)
    (hx : ∀ j, z.Stores (offset shape idx) j → ∃ v, x.flat.getD j 0 = .fin v ∧ 0 ≤ v) : ∃ a, y.elem idx = some a ∧ a.NonNeg := by
  obtain ⟨hi, e⟩ := elem_dot z shape x g g' y hr idx hidx
  refine ⟨_, e, ?_⟩
  have hrow : ∀ e' ∈ z.row (offset shape idx), (e'.2 * x.flat.getD e'.1 0).NonNeg := by
    intro e' he'
    obtain ⟨k, hk, rfl⟩ := (mem_row z h _ hi _).1 he'
    obtain ⟨w, h1, h2⟩ := hw k hk
    obtain ⟨v, h3, h4⟩ := hx _ ⟨k, hk, rfl⟩
    simp only [h1, h3]
    exact round_nonneg hs (mul_nonneg h2 h4)
  show ((z.row (offset shape idx)).foldl (fun s e => s + e.2 * x.flat.getD e.1 0) (.fin 0)).NonNeg
  have go : ∀ (l : List (Nat × Fp r)) (s : Fp r), s.NonNeg → (∀ e' ∈ l, (e'.2 * x.flat.getD e'.1 0).NonNeg) →
      (l.foldl (fun s e => s + e.2 * x.flat.getD e.1 0) s).NonNeg := by
    intro l
    induction l with
    | nil => exact fun s hs _ => hs
    | cons e' l ih =>
      intro s hs' hl
      refine ih _ ?_ (fun e'' he'' => hl e'' (by simp [he'']))
      show (s + e'.2 * x.flat.getD e'.1 0).NonNeg
      rcases hs' with rfl | ⟨q, rfl, hq⟩
      · rcases hl e' (by simp) with h1 | ⟨p, h1, _⟩
        · rw [h1]; exact .inl rfl
        · rw [h1]; exact .inl rfl
      · rcases hl e' (by simp) with h1 | ⟨p, h1, hp⟩
        · rw [h1]; exact .inl rfl
        · rw [h1]; exact round_nonneg hs (add_nonneg hq hp)
  exact go _ _ (.inr ⟨0, rfl, le_rfl⟩) hrow

/-- C122: weights that are not negative keep a result between the least and the greatest of the values used, times the sum of the weights, up to
the rounding errors. -/
theorem C122_range {G : Type} (u η : ℚ) (hu : r.Accurate u η) (z : Csr (Fp r)) (h : z.WF) (shape : List Nat) (x : Arr (Fp r)) (g g' : G)
    (y : Arr (Fp r)) (hr : applyWeights (some (z, shape)) x g = .ok (y, g')) (idx : List Nat) (hidx : Inside shape idx) (q : ℚ)
    (hq : y.elem idx = some (.fin q)) (lo hi : ℚ) (hw : ∀ k ∈ z.slots (offset shape idx), 0 ≤ (z.data.getD k 0).val)
    (hx : ∀ j, z.Stores (offset shape idx) j → lo ≤ (x.flat.getD j 0).val ∧ (x.flat.getD j 0).val ≤ hi) :
    lo * (∑ k ∈ z.slots (offset shape idx), (z.data.getD k 0).val)
        - errorBound u η (z.slots (offset shape idx)).card (sizeSum z x.flat (offset shape idx)) ≤ q ∧
      q ≤ hi * (∑ k ∈ z.slots (offset shape idx), (z.data.getD k 0).val)
        + errorBound u η (z.slots (offset shape idx)).card (sizeSum z x.flat (offset shape idx)) := by
  have hb := abs_le.1 (C122_error u η hu z h shape x g g' y hr idx hidx q hq)
  have h1 : lo * (∑ k ∈ z.slots (offset shape idx), (z.data.getD k 0).val) ≤ exactSum z x.flat (offset shape idx) := by
    rw [mul_sum]
    apply sum_le_sum
    intro k hk
    rw [mul_comm]
    exact mul_le_mul_of_nonneg_left (hx _ ⟨k, hk, rfl⟩).1 (hw k hk)
  have h2 : exactSum z x.flat (offset shape idx) ≤ hi * (∑ k ∈ z.slots (offset shape idx), (z.data.getD k 0).val) := by
    rw [mul_sum]
    apply sum_le_sum
    intro k hk
    rw [mul_comm hi]
    exact mul_le_mul_of_nonneg_left (hx _ ⟨k, hk, rfl⟩).2 (hw k hk)
  exact ⟨by linarith [hb.1], by linarith [hb.2]⟩

/-! ### Examples -/

/-- A machine with three binary digits after the point and numbers up to 1000; results are rounded down. -/
def eighths : Rounding := ⟨fun q => (⌊8 * q⌋ : ℚ) / 8, 1000⟩

theorem eighths_accurate : eighths.Accurate 0 (1 / 8) where
  zero := by simp [eighths]
  close := by
    intro q
    have h1 := Int.floor_le (8 * q)
    have h2 := Int.lt_floor_add_one (8 * q)
    simp only [eighths, zero_mul, zero_add]
    rw [abs_le]
    constructor <;> linarith
  rel := le_rfl
  abs := by norm_num

/-- A row of three weights, the last one a stored zero. -/
def three : Csr (Fp eighths) := ⟨1, 3, [0, 3], [0, 1, 2], [.fin (1 / 2), .fin (1 / 2), .fin 0]⟩

theorem three_wf : three.WF where
  ptrs := rfl
  start := by simp [three]
  mono := by
    intro i j a b hij h1 h2
    simp only [three] at h1 h2
    rcases i with _ | _ | i <;> rcases j with _ | _ | j <;> simp at h1 h2 <;> omega
  last := rfl
  sizes := rfl
  inside := by simp [three]

theorem three_finite : three.FiniteWeights := by
  intro w hw
  simp only [three, List.mem_cons, List.not_mem_nil, or_false] at hw
  rcases hw with rfl | rfl | rfl <;> exact ⟨_, rfl⟩

/-- C121 fails where zeros are stored: the third value is not used and still, missing, it makes the result missing; with a number there the
result is a number. -/
theorem C121_refuted : ∃ y y' : Arr (Fp eighths),
    applyWeights (some (three, [1])) ⟨[3], [.fin 1, .fin 2, .nan]⟩ () = .ok (y, ()) ∧ y.elem [0] = some .nan ∧
    applyWeights (some (three, [1])) ⟨[3], [.fin 1, .fin 2, .fin 7]⟩ () = .ok (y', ()) ∧ (∃ q, y'.elem [0] = some (.fin q)) ∧
    ¬ three.Uses 0 2 := by
  obtain ⟨y, hy⟩ : ∃ y, applyWeights (some (three, [1])) (⟨[3], [.fin 1, .fin 2, .nan]⟩ : Arr (Fp eighths)) () = .ok (y, ()) := ⟨_, rfl⟩
  obtain ⟨y', hy'⟩ : ∃ y, applyWeights (some (three, [1])) (⟨[3], [.fin 1, .fin 2, .fin 7]⟩ : Arr (Fp eighths)) () = .ok (y, ()) := ⟨_, rfl⟩
  have hin : Inside [1] [0] := .cons (by decide) .nil
  have hoff : offset [1] [0] = 0 := rfl
  refine ⟨y, y', hy, ?_, hy', ?_, ?_⟩
  · exact (C121_spread three three_wf [1] _ () () y hy [0] hin).1 ⟨2, ⟨2, by decide, rfl⟩, rfl⟩
  · refine C122_number 0 (1 / 8) eighths_accurate three three_wf three_finite [1] _ () () y' hy' [0] hin ?_ ?_
    · rintro j ⟨k, hk, rfl⟩
      have hk' : k < 3 := (mem_Ico.1 hk).2
      interval_cases k <;> exact ⟨_, rfl⟩
    · have hs : three.slots 0 = {0, 1, 2} := by decide
      rw [hoff, sizeSum, hs]
      decide +kernel
  · rintro ⟨k, hk, h1, h2⟩
    have hk' : k < 3 := (mem_Ico.1 hk).2
    interval_cases k
    · simp [three] at h1
    · simp [three] at h1
    · exact h2 rfl

/-- The hypotheses of `C121_stored` hold for this matrix: the third value has influence. -/
example : ¬ Unaffected three [1] () [0] 2 := by
  rw [C121_stored (by simp [eighths]) (by simp [eighths]) three three_wf three_finite [1] rfl () [0] (.cons (by decide) .nil) 2]
  exact fun h => h ⟨2, by decide, rfl⟩

/-- The hypotheses of `C122_error`, with a result that is not exact: of 1/8 and 1 the mean is 9/16, the machine gives 1/2. -/
example : ∃ y : Arr (Fp eighths), applyWeights (some (three, [1])) ⟨[3], [.fin (1 / 8), .fin 1, .fin 7]⟩ () = .ok (y, ()) ∧
    ∃ q, y.elem [0] = some (.fin q) ∧ q = 1 / 2 ∧
      exactSum three [.fin (1 / 8), .fin 1, .fin 7] 0 = 9 / 16 ∧ |q - 9 / 16| ≤ 3 / 4 := by
  have hs : three.slots 0 = {0, 1, 2} := by decide
  refine ⟨_, rfl, _, ?_, rfl, ?_, ?_⟩
  · decide +kernel
  · rw [exactSum, hs]
    decide +kernel
  · norm_num [abs_of_neg]

/-- A row of two weights, neither of them zero. -/
def two : Csr (Fp eighths) := ⟨1, 3, [0, 2], [0, 1], [.fin (1 / 2), .fin (1 / 2)]⟩

theorem two_wf : two.WF where
  ptrs := rfl
  start := by simp [two]
  mono := by
    intro i j a b hij h1 h2
    simp only [two] at h1 h2
    rcases i with _ | _ | i <;> rcases j with _ | _ | j <;> simp at h1 h2 <;> omega
  last := rfl
  sizes := rfl
  inside := by simp [two]

theorem two_finite : two.FiniteWeights := by
  intro w hw
  simp only [two, List.mem_cons, List.not_mem_nil, or_false] at hw
  rcases hw with rfl | rfl <;> exact ⟨_, rfl⟩

theorem two_slot {k : Nat} (h : k ∈ two.slots 0) : k < 2 := (mem_Ico.1 h).2

/-- `C121_uses_partial`: the third value of the input is not used, and has no influence. -/
example : Unaffected two [1] () [0] 2 := by
  rw [C121_uses_partial (by simp [eighths]) (by simp [eighths]) two two_wf two_finite ?_ [1] rfl () [0] (.cons (by decide) .nil) 2]
  · rintro ⟨k, hk, h, -⟩
    have hk' := two_slot hk
    interval_cases k <;> simp [two] at h
  · intro i k hk
    rcases i with _ | i
    · have hk' := two_slot hk
      interval_cases k <;> simp [two] <;> intro h <;> exact absurd (congrArg Fp.val h) (by norm_num [Fp.val, show (0 : Fp eighths) = .fin 0 from rfl])
    · simp [Csr.slots, two] at hk

/-- `C121_spread`: a missing value that is used. -/
example : ∃ y : Arr (Fp eighths), applyWeights (some (two, [1])) ⟨[3], [.nan, .fin 2, .fin 5]⟩ () = .ok (y, ()) ∧ y.elem [0] = some .nan := by
  refine ⟨_, rfl, ?_⟩
  exact (C121_spread two two_wf [1] ⟨[3], [.nan, .fin 2, .fin 5]⟩ () () _ rfl [0] (.cons (by decide) .nil)).1 ⟨0, ⟨0, by decide, rfl⟩, rfl⟩

theorem two_stores {j : Nat} (h : two.Stores 0 j) : j < 2 := by
  obtain ⟨k, hk, rfl⟩ := h
  have hk' := two_slot hk
  interval_cases k <;> decide

/-- `C122_number`, `C122_range`: two numbers, the third value missing and not used. -/
example : ∃ (y : Arr (Fp eighths)) (q : ℚ), applyWeights (some (two, [1])) ⟨[3], [.fin 1, .fin 2, .nan]⟩ () = .ok (y, ()) ∧
    y.elem [0] = some (.fin q) ∧ 1 - 3 / 4 ≤ q := by
  obtain ⟨y, hy⟩ : ∃ y, applyWeights (some (two, [1])) (⟨[3], [.fin 1, .fin 2, .nan]⟩ : Arr (Fp eighths)) () = .ok (y, ()) := ⟨_, rfl⟩
  have hin : Inside [1] [0] := .cons (by decide) .nil
  have hs : two.slots 0 = {0, 1} := by decide
  have hoff : offset [1] [0] = 0 := rfl
  obtain ⟨q, hq⟩ := C122_number 0 (1 / 8) eighths_accurate two two_wf two_finite [1] _ () () y hy [0] hin
    (by intro j hj; have := two_stores hj; interval_cases j <;> exact ⟨_, rfl⟩)
    (by rw [hoff, sizeSum, hs]; decide +kernel)
  have h := (C122_range 0 (1 / 8) eighths_accurate two two_wf [1] _ () () y hy [0] hin q hq 1 2
    (by intro k hk; have := two_slot hk; interval_cases k <;> norm_num [two, Fp.val])
    (by intro j hj; have := two_stores hj; interval_cases j <;> norm_num [Fp.val])).1
  refine ⟨y, q, hy, hq, le_trans ?_ h⟩
  rw [hoff, sizeSum, hs]
  decide +kernel

/-- `C121_infinite`: half of infinity and half of two. -/
example : ∃ y : Arr (Fp eighths), applyWeights (some (two, [1])) ⟨[3], [.inf false, .fin 2, .nan]⟩ () = .ok (y, ()) ∧ y.elem [0] = some (.inf false) := by
  have hs : two.slots 0 = {0, 1} := by decide
  have hoff : offset [1] [0] = 0 := rfl
  refine ⟨_, rfl, (C121_infinite 0 (1 / 8) eighths_accurate two two_wf two_finite [1] ⟨[3], [.inf false, .fin 2, .nan]⟩ () () _ rfl [0]
    (.cons (by decide) .nil)).2.2 false ⟨0, by decide, 1 / 2, rfl, .inl ⟨by norm_num, rfl⟩⟩ ?_ ?_ ?_ ?_⟩
  · rintro ⟨k, hk, w, h1, h2⟩
    have hk' := two_slot hk
    interval_cases k
    · cases h1; rcases h2 with ⟨_, h⟩ | ⟨h, _⟩
      · cases h
      · norm_num at h
    · rcases h2 with ⟨_, h⟩ | ⟨_, h⟩ <;> cases h
  · rintro ⟨k, hk, h1, b, h2⟩
    have hk' := two_slot hk
    interval_cases k
    · exact absurd (congrArg Fp.val h1) (by norm_num [two, Fp.val])
    · cases h2
  · intro j hj
    have := two_stores hj
    interval_cases j <;> exact fun h => (by cases h)
  · rw [hoff, sizeSum, hs]; decide +kernel

/-- `C122_sign`: too large a mean is infinite, not negative. -/
example : ∃ (y : Arr (Fp eighths)) (a : Fp eighths), applyWeights (some (two, [1])) ⟨[3], [.fin 1000000, .fin 1000000, .nan]⟩ () = .ok (y, ()) ∧
    y.elem [0] = some a ∧ a.NonNeg := by
  refine ⟨_, _, rfl, rfl, ?_⟩
  obtain ⟨a, h1, h2⟩ := C122_sign (r := eighths) (fun q hq => by
      show (0 : ℚ) ≤ _
      simp only [eighths]
      have : (0 : ℤ) ≤ ⌊q * 8⌋ := Int.floor_nonneg.2 (by positivity)
      have : (0 : ℚ) ≤ ⌊q * 8⌋ := by exact_mod_cast this
      positivity) two two_wf [1] ⟨[3], [.fin 1000000, .fin 1000000, .nan]⟩ () () _ rfl [0] (.cons (by decide) .nil)
    (by intro k hk; have := two_slot hk; interval_cases k <;> exact ⟨1 / 2, rfl, by norm_num⟩)
    (by intro j hj; have := two_stores hj; interval_cases j <;> exact ⟨1000000, rfl, by norm_num⟩)
  cases h1
  exact h2

end Verif.Regrid

import Verif.Regrid.SparseSpec
import Mathlib.Tactic.IntervalCases
import Mathlib.Tactic.NormNum
import Mathlib.Algebra.Order.Ring.Rat
import Mathlib.Algebra.Field.Rat

/-! # C46, C47: the product -/

namespace Verif.Regrid
open Finset

section
variable {α : Type} [CommRing α]

theorem foldl_sum {β : Type} (f : β → α) (l : List β) (a : α) : l.foldl (fun s e => s + f e) a = a + (l.map f).sum := by
  induction l generalizing a with
  | nil => simp
  | cons x l ih => rw [List.foldl_cons, ih]; simp; ring

theorem sum_take {β : Type} (f : β → α) (l : List β) (d : β) : ∀ n, n ≤ l.length → ((l.take n).map f).sum = ∑ k ∈ range n, f (l.getD k d) := by
  intro n
  induction n with
  | zero => intro _; simp
  | succ n ih =>
    intro hn
    rw [sum_range_succ, ← ih (by omega), List.take_add_one, List.getD_eq_getElem?_getD, List.getElem?_eq_getElem (by omega)]
    simp only [List.map_append, List.sum_append, Option.toList_some, List.map_cons, List.map_nil, List.sum_cons, List.sum_nil,
      add_zero, Option.getD_some]

omit [CommRing α] in
theorem ptr_le (m : Csr α) (h : m.WF) (i : Nat) (hi : i ≤ m.rows) : m.ptr i ≤ m.indices.length := by
  have h1 := h.ptrs
  have hl : m.indptr[m.rows]? = some m.indices.length := by
    have := h.last
    rw [List.getLast?_eq_getElem?, h1] at this
    simpa using this
  have hi' : m.indptr[i]? = some (m.indptr[i]'(by omega)) := List.getElem?_eq_getElem (by omega)
  have := h.mono i m.rows _ _ hi hi' hl
  unfold Csr.ptr
  rw [List.getD_eq_getElem?_getD, hi']
  exact this

omit [CommRing α] in
theorem ptr_mono (m : Csr α) (h : m.WF) (i : Nat) (hi : i < m.rows) : m.ptr i ≤ m.ptr (i + 1) := by
  have h1 := h.ptrs
  have a : m.indptr[i]? = some (m.indptr[i]'(by omega)) := List.getElem?_eq_getElem (by omega)
  have b : m.indptr[i+1]? = some (m.indptr[i+1]'(by omega)) := List.getElem?_eq_getElem (by omega)
  have := h.mono i (i + 1) _ _ (by omega) a b
  unfold Csr.ptr
  rw [List.getD_eq_getElem?_getD, a, List.getD_eq_getElem?_getD, b]
  exact this

/-- A row's sum over its stored positions. -/
theorem dot_slots (m : Csr α) (h : m.WF) (x : List α) (i : Nat) (hi : i < m.rows) :
    m.dot x i = ∑ k ∈ m.slots i, m.data.getD k 0 * x.getD (m.indices.getD k 0) 0 := by
  have hle := ptr_le m h (i + 1) (by omega)
  have hmo := ptr_mono m h i hi
  have hz : (m.indices.zip m.data).length = m.indices.length := by rw [List.length_zip, ← h.sizes]; simp
  unfold Csr.dot Csr.row
  rw [foldl_sum (fun e : Nat × α => e.2 * x.getD e.1 0), zero_add, sum_take _ _ (0, 0) _ (by rw [List.length_drop, hz]; omega)]
  unfold Csr.slots
  rw [sum_Ico_eq_sum_range]
  apply sum_congr rfl
  intro k hk
  have hk' : k < m.ptr (i + 1) - m.ptr i := mem_range.1 hk
  have e1 : ((m.indices.zip m.data).drop (m.ptr i)).getD k (0, 0) = (m.indices.getD (m.ptr i + k) 0, m.data.getD (m.ptr i + k) 0) := by
    have hs := h.sizes
    rw [List.getD_eq_getElem?_getD, List.getElem?_drop, List.getElem?_eq_getElem (by rw [hz]; omega),
      List.getD_eq_getElem?_getD, List.getElem?_eq_getElem (by omega), List.getD_eq_getElem?_getD, List.getElem?_eq_getElem (by omega)]
    simp
  rw [e1]
  rfl

omit [CommRing α] in
theorem slot_col (m : Csr α) (h : m.WF) (i : Nat) (hi : i < m.rows) (k : Nat) (hk : k ∈ m.slots i) : m.indices.getD k 0 < m.cols := by
  have hle := ptr_le m h (i + 1) (by omega)
  have hk2 : k < m.ptr (i + 1) := (mem_Ico.1 hk).2
  rw [List.getD_eq_getElem?_getD, List.getElem?_eq_getElem (by omega)]
  exact h.inside _ (List.getElem_mem _)

theorem dot_weight (m : Csr α) (h : m.WF) (x : List α) (i : Nat) (hi : i < m.rows) :
    m.dot x i = ∑ j ∈ range m.cols, m.weight i j * x.getD j 0 := by
  rw [dot_slots m h x i hi]
  rw [← sum_fiberwise_of_maps_to (g := fun k => m.indices.getD k 0) (t := range m.cols) (fun k hk => mem_range.2 (slot_col m h i hi k hk))]
  apply sum_congr rfl
  intro j _
  unfold Csr.weight
  rw [sum_mul]
  apply sum_congr rfl
  intro k hk
  rw [(mem_filter.1 hk).2]

theorem offset_lt : ∀ (shape idx : List Nat), Inside shape idx → offset shape idx < shape.prod := by
  intro shape idx h
  induction h with
  | nil => simp [offset]
  | @cons n i s t hi ht ih =>
    simp only [offset, List.prod_cons]
    calc i * s.prod + offset s t < i * s.prod + s.prod := by omega
      _ = (i + 1) * s.prod := by ring
      _ ≤ n * s.prod := Nat.mul_le_mul_right _ hi

theorem apply_ok {G : Type} (z : Csr α) (shape : List Nat) (x : Arr α) (g g' : G) (y : Arr α) :
    applyWeights (some (z, shape)) x g = .ok (y, g') ↔
    x.flat.length = z.cols ∧ shape.prod = z.rows ∧ g' = g ∧ y = ⟨shape, (List.range z.rows).map (z.dot x.flat)⟩ := by
  unfold applyWeights Csr.mul Arr.reshape
  by_cases h1 : x.flat.length = z.cols
  · by_cases h2 : shape.prod = z.rows
    · simp only [h1, if_true, bind, Except.bind, List.length_map, List.length_range, h2, pure, Except.pure,
        Except.ok.injEq, Prod.mk.injEq, true_and]
      constructor <;> rintro ⟨rfl, rfl⟩ <;> exact ⟨rfl, rfl⟩
    · simp [h1, h2, bind, Except.bind]
  · simp [h1, bind, Except.bind]

/-- The result has the target's shape, and each of its elements is the product of its row of the stored matrix with the input. -/
theorem C46_product {G : Type} (z : Csr α) (h : z.WF) (shape : List Nat) (x : Arr α) (g g' : G) (y : Arr α)
    (hr : applyWeights (some (z, shape)) x g = .ok (y, g')) : y.shape = shape ∧ y.Proper ∧ g' = g ∧
    ∀ idx, Inside shape idx → y.elem idx = some (∑ j ∈ range z.cols, z.weight (offset shape idx) j * x.flat.getD j 0) := by
  obtain ⟨_, h2, rfl, rfl⟩ := (apply_ok z shape x g g' y).1 hr
  refine ⟨rfl, by simp [Arr.Proper, h2], rfl, ?_⟩
  intro idx hidx
  have hlt := offset_lt shape idx hidx
  rw [h2] at hlt
  unfold Arr.elem
  simp only [List.getElem?_map, List.getElem?_range hlt, Option.map_some]
  rw [dot_weight z h x.flat _ hlt]

/-- Every element of the result is at some multi-index: nothing else is in it. -/
theorem C46_all_elements : ∀ (shape : List Nat) (k : Nat), k < shape.prod → ∃ idx, Inside shape idx ∧ offset shape idx = k := by
  intro shape
  induction shape with
  | nil => intro k hk; simp at hk; exact ⟨[], .nil, by simp [offset, hk]⟩
  | cons n s ih =>
    intro k hk
    rw [List.prod_cons] at hk
    have hp : 0 < s.prod := Nat.pos_of_ne_zero (by rintro h0; rw [h0] at hk; simp at hk)
    obtain ⟨idx, h1, h2⟩ := ih (k % s.prod) (Nat.mod_lt _ hp)
    refine ⟨k / s.prod :: idx, .cons (Nat.div_lt_of_lt_mul (by rw [Nat.mul_comm]; exact hk)) h1, ?_⟩
    simp only [offset, h2]
    exact Nat.div_add_mod' k s.prod

/-- Linear in the values. -/
theorem C46_linear {G : Type} (z : Csr α) (h : z.WF) (shape : List Nat) (x x' u : Arr α) (a b : α) (g : G) (y y' w : Arr α)
    (hu : ∀ j, j < z.cols → u.flat.getD j 0 = a * x.flat.getD j 0 + b * x'.flat.getD j 0)
    (hx : applyWeights (some (z, shape)) x g = .ok (y, g)) (hx' : applyWeights (some (z, shape)) x' g = .ok (y', g))
    (hw : applyWeights (some (z, shape)) u g = .ok (w, g)) :
    ∀ idx, Inside shape idx → ∃ p q, y.elem idx = some p ∧ y'.elem idx = some q ∧ w.elem idx = some (a * p + b * q) := by
  intro idx hidx
  refine ⟨_, _, (C46_product z h shape x g g y hx).2.2.2 idx hidx, (C46_product z h shape x' g g y' hx').2.2.2 idx hidx, ?_⟩
  rw [(C46_product z h shape u g g w hw).2.2.2 idx hidx, mul_sum, mul_sum, ← sum_add_distrib]
  congr 1
  apply sum_congr rfl
  intro j hj
  rw [hu j (mem_range.1 hj)]
  ring

/-- Local: an output point is determined by the input points with a stored weight in its row. -/
theorem C46_local {G : Type} (z : Csr α) (h : z.WF) (shape : List Nat) (x x' : Arr α) (g : G) (y y' : Arr α) (idx : List Nat)
    (hidx : Inside shape idx) (hs : ∀ j, z.Stores (offset shape idx) j → x.flat.getD j 0 = x'.flat.getD j 0)
    (hx : applyWeights (some (z, shape)) x g = .ok (y, g)) (hx' : applyWeights (some (z, shape)) x' g = .ok (y', g)) :
    y.elem idx = y'.elem idx := by
  obtain ⟨_, h2, _, rfl⟩ := (apply_ok z shape x g g y).1 hx
  obtain ⟨_, _, _, rfl⟩ := (apply_ok z shape x' g g y').1 hx'
  have hlt := offset_lt shape idx hidx
  rw [h2] at hlt
  unfold Arr.elem
  simp only [List.getElem?_map, List.getElem?_range hlt, Option.map_some]
  rw [dot_slots z h x.flat _ hlt, dot_slots z h x'.flat _ hlt]
  congr 1
  apply sum_congr rfl
  intro k hk
  rw [hs _ ⟨k, hk, rfl⟩]

/-- A row whose only non-zero weight is 1 copies the input value. -/
theorem C46_copy {G : Type} (z : Csr α) (h : z.WF) (shape : List Nat) (x : Arr α) (g : G) (y : Arr α) (idx : List Nat)
    (hidx : Inside shape idx) (j : Nat) (hj : j < z.cols) (h1 : z.weight (offset shape idx) j = 1)
    (h0 : ∀ j', j' ≠ j → z.weight (offset shape idx) j' = 0) (hx : applyWeights (some (z, shape)) x g = .ok (y, g)) :
    y.elem idx = some (x.flat.getD j 0) := by
  rw [(C46_product z h shape x g g y hx).2.2.2 idx hidx]
  rw [sum_eq_single j]
  · rw [h1, one_mul]
  · intro j' _ hne; rw [h0 j' hne, zero_mul]
  · intro hn; exact absurd (mem_range.2 hj) hn

/-- Weights that add up to one keep constants. -/
theorem C46_constant {G : Type} (z : Csr α) (h : z.WF) (shape : List Nat) (x : Arr α) (g : G) (y : Arr α) (idx : List Nat)
    (hidx : Inside shape idx) (hsum : ∑ j ∈ range z.cols, z.weight (offset shape idx) j = 1) (c : α)
    (hc : ∀ j, j < z.cols → z.weight (offset shape idx) j ≠ 0 → x.flat.getD j 0 = c)
    (hx : applyWeights (some (z, shape)) x g = .ok (y, g)) : y.elem idx = some c := by
  classical
  rw [(C46_product z h shape x g g y hx).2.2.2 idx hidx]
  congr 1
  calc _ = ∑ j ∈ range z.cols, z.weight (offset shape idx) j * c := by
        apply sum_congr rfl
        intro j hj
        by_cases h0 : z.weight (offset shape idx) j = 0
        · rw [h0, zero_mul, zero_mul]
        · rw [hc j (mem_range.1 hj) h0]
    _ = c := by rw [← sum_mul, hsum, one_mul]

/-- A request without weights, a field of another size, a matrix that does not fill the shape: exactly then the call raises. -/
theorem C47_refused {G : Type} (found : Option (Csr α × List Nat)) (x : Arr α) (g : G) :
    (∃ r, applyWeights found x g = .ok r) ↔ ∃ z shape, found = some (z, shape) ∧ x.flat.length = z.cols ∧ shape.prod = z.rows := by
  cases found with
  | none => simp [applyWeights]
  | some p =>
    obtain ⟨z, shape⟩ := p
    constructor
    · rintro ⟨⟨y, g'⟩, hr⟩
      obtain ⟨h1, h2, _⟩ := (apply_ok z shape x g g' y).1 hr
      exact ⟨z, shape, rfl, h1, h2⟩
    · rintro ⟨z', shape', he, h1, h2⟩
      cases he
      exact ⟨_, (apply_ok z shape x g g _).2 ⟨h1, h2, rfl, rfl⟩⟩

/-- ... and what it raises is ValueError. -/
theorem C47_value_error {G : Type} (found : Option (Csr α × List Nat)) (x : Arr α) (g : G) (e : Err)
    (h : applyWeights found x g = .error e) : e = .value := by
  unfold applyWeights Csr.mul Arr.reshape at h
  cases found with
  | none => cases h; rfl
  | some p =>
    simp only at h
    by_cases h1 : x.flat.length = p.1.cols
    · simp only [h1, if_true, bind, Except.bind] at h
      split at h
      · rename_i e' he
        split at he
        · cases he
        · cases he; cases h; rfl
      · cases h
    · simp only [h1, if_false, bind, Except.bind] at h
      cases h; rfl

end

section
variable {α : Type} [Field α] [LinearOrder α] [IsStrictOrderedRing α]

/-- Non-negative weights that add up to one keep values within the range of the inputs they are for. -/
theorem C46_range {G : Type} (z : Csr α) (h : z.WF) (shape : List Nat) (x : Arr α) (g : G) (y : Arr α) (idx : List Nat)
    (hidx : Inside shape idx) (hpos : ∀ j, 0 ≤ z.weight (offset shape idx) j)
    (hsum : ∑ j ∈ range z.cols, z.weight (offset shape idx) j = 1) (lo hi : α)
    (hb : ∀ j, j < z.cols → z.weight (offset shape idx) j ≠ 0 → lo ≤ x.flat.getD j 0 ∧ x.flat.getD j 0 ≤ hi)
    (hx : applyWeights (some (z, shape)) x g = .ok (y, g)) : ∃ v, y.elem idx = some v ∧ lo ≤ v ∧ v ≤ hi := by
  refine ⟨_, (C46_product z h shape x g g y hx).2.2.2 idx hidx, ?_, ?_⟩
  · calc lo = ∑ j ∈ range z.cols, z.weight (offset shape idx) j * lo := by rw [← sum_mul, hsum, one_mul]
      _ ≤ _ := by
        apply sum_le_sum
        intro j hj
        by_cases h0 : z.weight (offset shape idx) j = 0
        · rw [h0, zero_mul, zero_mul]
        · exact mul_le_mul_of_nonneg_left (hb j (mem_range.1 hj) h0).1 (hpos j)
  · calc _ ≤ ∑ j ∈ range z.cols, z.weight (offset shape idx) j * hi := by
          apply sum_le_sum
          intro j hj
          by_cases h0 : z.weight (offset shape idx) j = 0
          · rw [h0, zero_mul, zero_mul]
          · exact mul_le_mul_of_nonneg_left (hb j (mem_range.1 hj) h0).2 (hpos j)
      _ = hi := by rw [← sum_mul, hsum, one_mul]

end

/-! ### A matrix -/

/-- Two points to three: the mean, the second point, the first point (stored twice as a half). -/
def demo : Csr ℚ := ⟨3, 2, [0, 2, 3, 5], [0, 1, 1, 0, 0], [1/2, 1/2, 1, 1/2, 1/2]⟩

theorem demo_wf : demo.WF := by
  refine ⟨rfl, ?_, ?_, rfl, rfl, by decide⟩
  · intro p hp; cases hp; rfl
  · intro i j a b hij ha hb
    have hi : i < 4 := (List.getElem?_eq_some_iff.1 ha).1
    have hj : j < 4 := (List.getElem?_eq_some_iff.1 hb).1
    simp only [demo] at ha hb
    interval_cases i <;> interval_cases j <;> first | omega | (simp at ha hb; omega)

example : ∃ y, applyWeights (some (demo, [3, 1])) ⟨[1, 2], [10, 20]⟩ () = .ok (y, ()) ∧ y.elem [0, 0] = some 15 ∧
    y.elem [1, 0] = some 20 ∧ y.elem [2, 0] = some 10 := by
  refine ⟨⟨[3, 1], [15, 20, 10]⟩, ?_, rfl, rfl, rfl⟩
  rw [apply_ok]
  refine ⟨rfl, rfl, rfl, ?_⟩
  simp [demo, Csr.dot, Csr.row, Csr.ptr, List.range, List.range.loop]
  norm_num
example : Inside [3, 1] [2, 0] := .cons (by decide) (.cons (by decide) .nil)
example : demo.weight 2 0 = 1 ∧ demo.weight 2 1 = 0 ∧ ¬ demo.Stores 2 1 := by
  refine ⟨?_, ?_, ?_⟩
  · simp [Csr.weight, Csr.slots, demo]; decide +kernel
  · simp [Csr.weight, Csr.slots, demo]; decide +kernel
  · rintro ⟨k, hk, he⟩
    simp [Csr.slots, demo] at hk he
    obtain ⟨h1, h2⟩ := hk
    interval_cases k <;> simp at he
example : ∀ g, applyWeights (some (demo, [3])) (⟨[3], [1, 2, 3]⟩ : Arr ℚ) () ≠ .ok g := by
  intro g h
  obtain ⟨z, s, he, h1, _⟩ := (C47_refused _ _ _).1 ⟨g, h⟩
  cases he
  simp [demo] at h1

/-- The mean, the second and the first of two values. -/
theorem demo_apply (a b : ℚ) : applyWeights (some (demo, [3, 1])) ⟨[1, 2], [a, b]⟩ () = .ok (⟨[3, 1], [(a + b) / 2, b, a]⟩, ()) := by
  rw [apply_ok]
  refine ⟨rfl, rfl, rfl, ?_⟩
  simp [demo, Csr.dot, Csr.row, Csr.ptr, List.range, List.range.loop]
  constructor <;> ring

theorem demo_inside (k : Nat) (h : k < 3) : Inside [3, 1] [k, 0] := .cons h (.cons (by decide) .nil)

theorem demo_weights : (∀ j, demo.weight 0 j = if j < 2 then 1 / 2 else 0) ∧ ∀ j, demo.weight 2 j = if j = 0 then 1 else 0 := by
  constructor <;> intro j
  · rcases j with _ | _ | j
    · simp [Csr.weight, Csr.slots, demo]; decide +kernel
    · simp [Csr.weight, Csr.slots, demo]; decide +kernel
    · rw [if_neg (by omega)]
      simp only [Csr.weight, Csr.slots, demo]
      apply sum_eq_zero
      intro k hk
      obtain ⟨hk, hj⟩ := mem_filter.1 hk
      simp at hk hj
      have : k < 2 := by omega
      interval_cases k <;> simp at hj
  · rcases j with _ | j
    · simp [Csr.weight, Csr.slots, demo]; decide +kernel
    · rw [if_neg (by omega)]
      simp only [Csr.weight, Csr.slots, demo]
      apply sum_eq_zero
      intro k hk
      obtain ⟨hk, hj⟩ := mem_filter.1 hk
      simp at hk hj
      have : k < 5 := by omega
      interval_cases k <;> simp at hj hk

example : ∀ idx, Inside [3, 1] idx → (⟨[3, 1], [15, 20, 10]⟩ : Arr ℚ).elem idx =
    some (∑ j ∈ range 2, demo.weight (offset [3, 1] idx) j * [10, 20].getD j 0) := by
  have h := demo_apply 10 20
  norm_num at h
  exact (C46_product demo demo_wf [3, 1] _ () () _ h).2.2.2
example : ∃ idx, Inside [3, 1] idx ∧ offset [3, 1] idx = 2 := C46_all_elements [3, 1] 2 (by decide)
example : ∃ p q, (⟨[3, 1], [(1 + 2) / 2, 2, 1]⟩ : Arr ℚ).elem [0, 0] = some p ∧ (⟨[3, 1], [(5 + 7) / 2, 7, 5]⟩ : Arr ℚ).elem [0, 0] = some q ∧
    (⟨[3, 1], [(13 + 20) / 2, 20, 13]⟩ : Arr ℚ).elem [0, 0] = some (3 * p + 2 * q) :=
  C46_linear demo demo_wf [3, 1] ⟨[1, 2], [1, 2]⟩ ⟨[1, 2], [5, 7]⟩ ⟨[1, 2], [13, 20]⟩ 3 2 () _ _ _
    (by intro j hj; have : j < 2 := hj; interval_cases j <;> norm_num) (demo_apply 1 2) (demo_apply 5 7) (demo_apply 13 20) [0, 0]
    (demo_inside 0 (by decide))
/-- The last point does not depend on the second value. -/
example (a b b' : ℚ) : (⟨[3, 1], [(a + b) / 2, b, a]⟩ : Arr ℚ).elem [2, 0] = (⟨[3, 1], [(a + b') / 2, b', a]⟩ : Arr ℚ).elem [2, 0] := by
  refine C46_local demo demo_wf [3, 1] ⟨[1, 2], [a, b]⟩ ⟨[1, 2], [a, b']⟩ () _ _ [2, 0] (demo_inside 2 (by decide)) ?_ (demo_apply a b)
    (demo_apply a b')
  rintro j ⟨k, hk, he⟩
  simp [Csr.slots, demo, offset] at hk he
  obtain ⟨h1, h2⟩ := hk
  interval_cases k <;> simp at he <;> subst he <;> rfl
example (a b : ℚ) : (⟨[3, 1], [(a + b) / 2, b, a]⟩ : Arr ℚ).elem [2, 0] = some a :=
  C46_copy demo demo_wf [3, 1] ⟨[1, 2], [a, b]⟩ () _ [2, 0] (demo_inside 2 (by decide)) 0 (by decide) (demo_weights.2 0)
    (fun j hj => by rw [show offset [3, 1] [2, 0] = 2 from rfl, demo_weights.2 j, if_neg hj]) (demo_apply a b)
example : (⟨[3, 1], [(7 + 7) / 2, 7, 7]⟩ : Arr ℚ).elem [0, 0] = some 7 := by
  refine C46_constant demo demo_wf [3, 1] ⟨[1, 2], [7, 7]⟩ () _ [0, 0] (demo_inside 0 (by decide)) ?_ 7 ?_ (demo_apply 7 7)
  · rw [show demo.cols = 2 from rfl, sum_range_succ, sum_range_one]
    rw [show offset [3, 1] [0, 0] = 0 from rfl, demo_weights.1, demo_weights.1]
    norm_num
  · intro j hj _
    have : j < 2 := hj
    interval_cases j <;> rfl
example : ∃ v, (⟨[3, 1], [(10 + 20) / 2, 20, 10]⟩ : Arr ℚ).elem [0, 0] = some v ∧ 10 ≤ v ∧ v ≤ 20 := by
  refine C46_range demo demo_wf [3, 1] ⟨[1, 2], [10, 20]⟩ () _ [0, 0] (demo_inside 0 (by decide)) ?_ ?_ 10 20 ?_ (demo_apply 10 20)
  · intro j
    rw [show offset [3, 1] [0, 0] = 0 from rfl, demo_weights.1]
    split <;> norm_num
  · rw [show demo.cols = 2 from rfl, sum_range_succ, sum_range_one]
    rw [show offset [3, 1] [0, 0] = 0 from rfl, demo_weights.1, demo_weights.1]
    norm_num
  · intro j hj _
    have : j < 2 := hj
    interval_cases j <;> norm_num
example : applyWeights (some (demo, [3])) (⟨[3], [1, 2, 3]⟩ : Arr ℚ) () = .error .value := by
  cases h : applyWeights (some (demo, [3])) (⟨[3], [1, 2, 3]⟩ : Arr ℚ) () with
  | error e => rw [C47_value_error _ _ _ e h]
  | ok g => exact absurd ((C47_refused _ _ _).1 ⟨g, h⟩) (by rintro ⟨z, s, he, h1, _⟩; cases he; simp [demo] at h1)

end Verif.Regrid

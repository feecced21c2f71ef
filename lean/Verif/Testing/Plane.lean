import Verif.Testing.Props

/-! # C124: two-dimensional coordinates of numbers

`compare_coord` flattens the values, then compares the coordinate as it is with the flattened values. Shapes (m, c) and (m·c) are broadcast
by numpy if the last sizes are equal or one of them is 1. -/

namespace Verif.Testing

abbrev Plane := List (List (Option ℚ))

def COORD_TOL : Tol := ⟨1 / 100000, 1 / 100000000⟩

/-- `np.allclose(values, flat)` for rows of `c` elements and a flat array — numpy's broadcasting; other sizes raise ValueError. -/
def allcloseRows (c : Nat) (vals : Plane) (flat : List (Option ℚ)) : Except Fail Bool :=
  if c = flat.length then .ok (vals.all fun row => (row.zip flat).all fun p => close COORD_TOL p.1 p.2)
  else if c = 1 then .ok (vals.all fun row => row.all fun a => flat.all fun b => close COORD_TOL a b)
  else if flat.length = 1 then .ok (vals.all fun row => row.all fun a => flat.all fun b => close COORD_TOL a b)
  else .error .value

/-- `compare_coord` for a coordinate of numbers in rows of `c`, compared with rows (`mode="coord"`) — utils/testing.py:117-137. Only for a
coordinate that is there; a reference without rows raises in `ref_vals[0]`. -/
def comparePlane (c : Nat) (vals ref : Plane) : Except Fail Unit := do
  if ref.length = 0 then throw .index
  check (vals.flatten.length == ref.flatten.length)
  let b ← allcloseRows c vals vals.flatten
  check b

/-- |x - y| ≤ 1e-8 + 1e-5·|y|, neither missing. -/
def Near (a b : Option ℚ) : Prop := ∃ x y : ℚ, a = some x ∧ b = some y ∧ |x - y| ≤ 1 / 100000000 + 1 / 100000 * |y|

theorem close_near (a b : Option ℚ) : close COORD_TOL a b = true ↔ Near a b := by
  cases a <;> cases b <;> simp [close, Near, COORD_TOL]

theorem near_self (a : Option ℚ) : Near a a ↔ a ≠ none := by
  cases a with
  | none => simp [Near]
  | some x =>
    simp only [ne_eq, reduceCtorEq, not_false_eq_true, iff_true]
    refine ⟨x, x, rfl, rfl, ?_⟩
    rw [sub_self, abs_zero]
    have := abs_nonneg x
    positivity

theorem flat_length (c : Nat) (vals : Plane) (hc : ∀ row ∈ vals, row.length = c) : vals.flatten.length = vals.length * c := by
  induction vals with
  | nil => simp
  | cons r vals ih =>
    rw [List.flatten_cons, List.length_append, ih (fun x hx => hc x (by simp [hx])), hc r (by simp), List.length_cons]
    rw [Nat.add_mul, Nat.one_mul, Nat.add_comm]

theorem zip_self_all (l : List (Option ℚ)) : (l.zip l).all (fun p => close COORD_TOL p.1 p.2) = true ↔ none ∉ l := by
  induction l with
  | nil => simp
  | cons a l ih =>
    rw [List.zip_cons_cons, List.all_cons, Bool.and_eq_true, ih, close_near, near_self]
    simp only [List.mem_cons, not_or]
    exact and_congr_left fun _ => ne_comm

theorem comparePlane_ok (c : Nat) (vals ref : Plane) : comparePlane c vals ref = .ok () ↔
    ref ≠ [] ∧ vals.flatten.length = ref.flatten.length ∧ allcloseRows c vals vals.flatten = .ok true := by
  unfold comparePlane
  cases ref with
  | nil => simp [throw, throwThe, MonadExceptOf.throw, bind, Except.bind]
  | cons r ref =>
    simp only [List.length_cons, Nat.add_one_ne_zero, if_false, bind, Except.bind, ne_eq, reduceCtorEq, not_false_eq_true, true_and]
    by_cases h : vals.flatten.length = ((r :: ref).flatten).length
    · have hb : check (vals.flatten.length == ((r :: ref).flatten).length) = .ok () := by rw [h]; simp [check]
      rw [hb]
      simp only [h, true_and]
      cases allcloseRows c vals vals.flatten with
      | error x => simp
      | ok b => cases b <;> simp [check]
    · have hb : check (vals.flatten.length == ((r :: ref).flatten).length) = .error .assertion := by
        unfold check
        rw [if_neg (by simpa using h)]
      rw [hb]
      simp only [h, false_and, reduceCtorEq]

/-- C124 (exact) for coordinates in two or more rows of one or more numbers: accepted iff there are as many numbers in the reference, the
rows have one number each, and any two of the numbers are near one another. What the numbers of the reference are does not matter. -/
theorem C124_plane (c : Nat) (vals ref : Plane) (hc : ∀ row ∈ vals, row.length = c) (hm : 2 ≤ vals.length) (h0 : 0 < c) :
    comparePlane c vals ref = .ok () ↔
      ref ≠ [] ∧ vals.flatten.length = ref.flatten.length ∧ c = 1 ∧ ∀ a ∈ vals.flatten, ∀ b ∈ vals.flatten, Near a b := by
  rw [comparePlane_ok]
  refine and_congr_right fun _ => and_congr_right fun _ => ?_
  have hl := flat_length c vals hc
  unfold allcloseRows
  have h1 : c ≠ vals.flatten.length := by
    rw [hl]; nlinarith
  have h2 : vals.flatten.length ≠ 1 := by
    rw [hl]; nlinarith
  rw [if_neg h1, if_neg h2]
  by_cases hc1 : c = 1
  · rw [if_pos hc1]
    simp only [Except.ok.injEq, List.all_eq_true, close_near, hc1, true_and]
    constructor
    · intro h a ha b hb
      obtain ⟨row, hr, har⟩ := List.mem_flatten.1 ha
      exact h row hr a har b hb
    · intro h row hr a har b hb
      exact h a (List.mem_flatten.2 ⟨row, hr, har⟩) b hb
  · rw [if_neg hc1]
    simp [hc1]

/-- C124 for a coordinate in one row: as for one dimension, any numbers are accepted if there are as many as in the reference. -/
theorem C124_one_row (row : List (Option ℚ)) (ref : Plane) :
    comparePlane row.length [row] ref = .ok () ↔ ref ≠ [] ∧ row.length = ref.flatten.length ∧ none ∉ row := by
  rw [comparePlane_ok]
  have : [row].flatten = row := by simp
  rw [this]
  refine and_congr_right fun _ => and_congr_right fun _ => ?_
  unfold allcloseRows
  rw [if_pos rfl]
  simp only [Except.ok.injEq, List.all_cons, List.all_nil, Bool.and_true]
  exact zip_self_all row

/-- C124 refuted for latitudes and longitudes of curvilinear grids: no coordinate with two or more rows and columns is accepted, not even
when compared with itself; the comparison raises ValueError. -/
theorem C124_plane_refuted (c : Nat) (vals : Plane) (hc : ∀ row ∈ vals, row.length = c) (hm : 2 ≤ vals.length) (h2 : 2 ≤ c) :
    comparePlane c vals vals = .error .value := by
  have hl := flat_length c vals hc
  have h1 : c ≠ vals.flatten.length := by
    rw [hl]; nlinarith
  have h3 : vals.flatten.length ≠ 1 := by
    rw [hl]; nlinarith
  unfold comparePlane allcloseRows
  rw [if_neg (by omega), if_neg h1, if_neg (by omega), if_neg h3]
  simp [check, bind, Except.bind]

/-- `C124_plane_refuted`: latitudes of a grid of 2 × 2 points. -/
example : comparePlane 2 [[some 10, some 11], [some 0, some 1]] [[some 10, some 11], [some 0, some 1]] = .error .value :=
  C124_plane_refuted 2 _ (by simp) (by simp) (by simp)

/-- `C124_plane`: a column is refused if its numbers differ, even from itself; a constant column is accepted whatever the reference. -/
example : comparePlane 1 [[some 10], [some 0]] [[some 10], [some 0]] ≠ .ok () := by
  rw [ne_eq, C124_plane 1 _ _ (by simp) (by simp) (by simp)]
  rintro ⟨_, _, _, h⟩
  obtain ⟨x, y, hx, hy, h⟩ := h (some 10) (by simp) (some 0) (by simp)
  cases hx; cases hy
  norm_num at h

example : comparePlane 1 [[some 3], [some 3]] [[some 10], [some 0]] = .ok () :=
  (C124_plane 1 _ _ (by simp) (by simp) (by simp)).2 ⟨by simp, by simp, rfl, by
    intro a ha b hb
    simp at ha hb
    subst ha; subst hb
    exact (near_self _).2 (by simp)⟩

/-- `C124_one_row` -/
example : comparePlane 2 [[some 3, some 4]] [[some 10], [some 0]] = .ok () :=
  (C124_one_row [some 3, some 4] _).2 ⟨by simp, by simp, by simp⟩

end Verif.Testing

import Verif.Xarray.Spec
import Mathlib.Data.List.Forall2
import Mathlib.Tactic.Linarith
import Mathlib.Tactic.Ring
import Mathlib.Tactic.NormNum
import Mathlib.Algebra.Order.AbsoluteValue.Basic

/-! # C73: distinct latitudes and longitudes -/

namespace Verif.Xarray

theorem diff_linear (v s : ℚ) : ∀ c : Nat, ∀ k : Nat, diff ((List.range' k (c + 1)).map (fun j : Nat => v + s * (j : ℚ))) = List.replicate c s
  | 0, k => rfl
  | c + 1, k => by
    have ih := diff_linear v s c (k + 1)
    rw [List.range'_succ] at ih ⊢
    rw [List.range'_succ]
    simp only [List.map_cons] at ih ⊢
    rw [diff, ih, List.replicate_succ]
    congr 1
    push_cast; ring

theorem allclose_self (b : ℚ) (n : Nat) : allclose (List.replicate n b) b = true := by
  unfold allclose
  rw [List.all_eq_true]
  intro x hx
  rw [List.eq_of_mem_replicate hx]
  have : (0 : ℚ) ≤ |b| := abs_nonneg b
  simp only [sub_self, abs_zero, decide_eq_true_eq]
  linarith

/-- A row of at least two values that change by equal steps is accepted, and its first value taken. -/
theorem start_linear (v s : ℚ) (c : Nat) : start ((List.range (c + 2)).map (fun j : Nat => v + s * (j : ℚ))) = .ok (some v) := by
  unfold start
  have h := diff_linear v s (c + 1) 0
  rw [← List.range_eq_range'] at h
  rw [h, List.replicate_succ, List.range_succ_eq_map]
  simp only [List.map_cons]
  rw [← List.replicate_succ, allclose_self]
  simp

theorem starts_rows (c : Nat) (a s : Nat → ℚ) : ∀ is : List Nat,
    starts (is.map (fun i => (List.range (c + 2)).map (fun j : Nat => a i + s i * (j : ℚ)))) = .ok (some (is.map a))
  | [] => rfl
  | i :: is => by
    simp only [List.map_cons, starts, start_linear, starts_rows c a s is, bind, Except.bind, pure, Except.pure, Option.map_some]

/-- C73 fails: rows along which the latitude changes by equal steps pass for rows of one latitude. -/
theorem C73_refuted (r c : Nat) (a s : Nat → ℚ) :
    distinctLats (ofFn (r + 1) (c + 2) (fun i j => a i + s i * (j : ℚ))) = .ok (some ((List.range (r + 1)).map a)) := by
  unfold distinctLats ofFn
  rw [if_pos (Nat.succ_pos r)]
  exact starts_rows c a s _

theorem columns_ofFn (r c : Nat) (f : Nat → Nat → ℚ) :
    (ofFn r c f).columns = (List.range c).map (fun j => (List.range r).map (fun i => f i j)) := by
  unfold Mesh.columns ofFn
  simp only [List.map_map]
  apply List.map_congr_left
  intro j hj
  apply List.map_congr_left
  intro i _
  have : j < c := by simpa using hj
  simp [List.getD, this]

theorem distinctLons_linear (r c : Nat) (a s : Nat → ℚ) :
    distinctLons (ofFn (r + 2) (c + 1) (fun i j => a j + s j * (i : ℚ))) = .ok (some ((List.range (c + 1)).map a)) := by
  unfold distinctLons
  rw [if_pos (show (ofFn (r + 2) (c + 1) fun i j => a j + s j * (i : ℚ)).cols > 0 from Nat.succ_pos c), columns_ofFn]
  exact starts_rows r a s _

theorem chunk_append (r c : Nat) (f : Nat → List ℚ) (hf : ∀ i, (f i).length = c) : ∀ is : List Nat, is.length = r →
    chunk r c (is.flatMap f) = is.map f := by
  induction r with
  | zero => intro is h; rw [List.length_eq_zero_iff.1 h]; rfl
  | succ r ih =>
    intro is h
    cases is with
    | nil => simp at h
    | cons i is =>
      simp only [List.flatMap_cons, List.map_cons, chunk]
      rw [List.take_left' (hf i), List.drop_left' (hf i), ih is (by simpa using h)]

theorem flatMap_length (c : Nat) (f : Nat → List ℚ) (hf : ∀ i, (f i).length = c) : ∀ is : List Nat, (is.flatMap f).length = is.length * c
  | [] => by simp
  | i :: is => by
    rw [List.flatMap_cons, List.length_append, hf, flatMap_length c f hf is, List.length_cons]; ring

theorem reshape_flat (r c : Nat) (f : Nat → Nat → ℚ) : reshape r c (flat r c f) = .ok (ofFn r c f) := by
  unfold reshape flat ofFn
  have hf : ∀ i, ((List.range c).map (f i)).length = c := by simp
  rw [if_pos (by rw [flatMap_length c _ hf]; simp), chunk_append r c _ hf _ (by simp)]

/-- C73 fails, seen from outside: a sheared grid — here latitude `i + j`, longitude `j` — gets latitudes along one dimension
although its points in a row all have different latitudes. -/
theorem C73_sheared_refuted (r c : Nat) (g : Grid) (hs : g.shape = [r + 2, c + 2])
    (hg : g.latlons = .ok (flat (r + 2) (c + 2) (fun i j => (i : ℚ) + 1 * (j : ℚ)), flat (r + 2) (c + 2) (fun i j => (j : ℚ) + 0 * (i : ℚ)))) :
    toDistinct g [r + 2, c + 2] = .ok (some ((List.range (r + 2)).map (fun i : Nat => (i : ℚ)), (List.range (c + 2)).map (fun j : Nat => (j : ℚ)))) := by
  unfold toDistinct
  rw [hs]
  simp only [hg, bind, Except.bind, reshape_flat]
  rw [C73_refuted (r + 1) c (fun i => (i : ℚ)) (fun _ => 1)]
  simp only
  rw [distinctLons_linear r (c + 1) (fun j => (j : ℚ)) (fun _ => 0)]
  simp [pure, Except.pure]

/-- Grids that do have one latitude per row and one longitude per column get exactly these (from two rows and columns on). -/
theorem C73_tensor_partial (r c : Nat) (lat lon : Nat → ℚ) (g : Grid) (hs : g.shape = [r + 2, c + 2])
    (hg : g.latlons = .ok (flat (r + 2) (c + 2) (fun i _ => lat i), flat (r + 2) (c + 2) (fun _ j => lon j))) :
    toDistinct g [r + 2, c + 2] = .ok (some ((List.range (r + 2)).map lat, (List.range (c + 2)).map lon)) := by
  unfold toDistinct
  rw [hs]
  simp only [hg, bind, Except.bind, reshape_flat]
  have h1 := C73_refuted (r + 1) c lat (fun _ => 0)
  have h2 := distinctLons_linear r (c + 1) lon (fun _ => 0)
  simp only [zero_mul, add_zero] at h1 h2
  rw [h1]
  simp only
  rw [h2]
  simp [pure, Except.pure]

theorem start_single {xs : List ℚ} (h : xs.length = 1) : start xs = .error .index := by
  obtain ⟨v, rfl⟩ := List.length_eq_one_iff.1 h
  rfl

theorem chunk_lengths (c : Nat) : ∀ (r : Nat) (xs : List ℚ), xs.length = r * c → ∀ row ∈ chunk r c xs, row.length = c
  | 0, _, _, row, h => by simp [chunk] at h
  | r + 1, xs, hl, row, h => by
    simp only [chunk, List.mem_cons] at h
    rcases h with rfl | h
    · rw [List.length_take, hl, Nat.succ_mul]; omega
    · exact chunk_lengths c r (xs.drop c) (by rw [List.length_drop, hl, Nat.succ_mul]; omega) row h

/-- One row or one column is never enough (`delta[0]` raises): such grids get no latitudes and longitudes of their own, though they
would always have them. -/
theorem C73_single (g : Grid) (r c : Nat) (hs : g.shape = [r, c]) (h1 : r = 1 ∨ c = 1) : tensor g r c = none := by
  have key : ∀ x, toDistinct g [r, c] ≠ .ok (some x) := by
    intro x h
    unfold toDistinct at h
    rw [hs] at h
    simp only [bind, Except.bind] at h
    cases hl : g.latlons with
    | error e => rw [hl] at h; cases h
    | ok ll =>
      obtain ⟨la, lo⟩ := ll
      rw [hl] at h
      simp only at h
      unfold reshape at h
      by_cases ha : la.length = r * c
      swap
      · rw [if_neg ha] at h; cases h
      rw [if_pos ha] at h
      simp only at h
      by_cases hb : lo.length = r * c
      swap
      · rw [if_neg hb] at h; cases h
      rw [if_pos hb] at h
      simp only at h
      rcases h1 with rfl | rfl
      · cases hd : distinctLats ⟨1, c, chunk 1 c la⟩ with
        | error e => rw [hd] at h; cases h
        | ok o =>
          rw [hd] at h
          cases o with
          | none => cases h
          | some v =>
            simp only [distinctLons, Mesh.columns] at h
            cases c with
            | zero => rw [if_neg (by simp)] at h; cases h
            | succ c =>
              rw [if_pos (Nat.succ_pos c), List.range_succ_eq_map, List.map_cons] at h
              simp only [starts, bind, Except.bind] at h
              rw [start_single (by simp [chunk])] at h
              cases h
      · cases r with
        | zero =>
          simp only [distinctLats] at h
          rw [if_neg (by simp)] at h; cases h
        | succ r =>
          simp only [distinctLats] at h
          rw [if_pos (Nat.succ_pos r)] at h
          simp only [chunk, starts, bind, Except.bind] at h
          rw [start_single (by rw [List.length_take, ha]; omega)] at h
          cases h
  unfold tensor
  split
  · rename_i lat lon h
    exact absurd h (key _)
  · rfl

/-! ### What acceptance does say -/

/-- Steps within `t` of `d` keep the values within `j * t` of equal steps. -/
theorem near_linear (d t : ℚ) : ∀ (xs : List ℚ) (v : ℚ), (∀ x ∈ diff (v :: xs), |x - d| ≤ t) → ∀ (j : Nat) (y : ℚ),
    (v :: xs)[j]? = some y → |y - (v + d * (j : ℚ))| ≤ t * (j : ℚ)
  | _, v, _, 0, y, hy => by
    simp only [List.getElem?_cons_zero, Option.some.injEq] at hy
    subst hy
    simp
  | [], v, _, j + 1, y, hy => by simp at hy
  | x :: xs, v, h, j + 1, y, hy => by
    rw [List.getElem?_cons_succ] at hy
    simp only [diff, List.mem_cons, forall_eq_or_imp] at h
    have ih := near_linear d t xs x h.2 j y hy
    have h0 := h.1
    rw [abs_le] at ih h0 ⊢
    push_cast
    constructor <;> linarith [ih.1, ih.2, h0.1, h0.2]

/-- If a row is accepted, its coordinate is its first value, and all its values are near equal steps from there: within 1e-8 plus
1e-5 of the step, per step. -/
theorem start_sound (xs : List ℚ) (v : ℚ) (h : start xs = .ok (some v)) :
    ∃ a b r, xs = a :: b :: r ∧ v = a ∧ ∀ (j : Nat) (y : ℚ), xs[j]? = some y →
      |y - (a + (b - a) * (j : ℚ))| ≤ (1 / 100000000 + 1 / 100000 * |b - a|) * (j : ℚ) := by
  match xs, h with
  | [], h => simp [start] at h
  | [a], h => simp [start, diff] at h
  | a :: b :: r, h =>
    simp only [start, diff] at h
    by_cases hc : allclose ((b - a) :: diff (b :: r)) (b - a) = true
    · rw [if_pos hc] at h
      simp only [Except.ok.injEq, Option.some.injEq] at h
      refine ⟨a, b, r, rfl, h.symm, ?_⟩
      unfold allclose at hc
      rw [List.all_eq_true] at hc
      exact near_linear (b - a) _ (b :: r) a (fun x hx => by simpa using hc x (by simpa [diff] using hx))
    · rw [if_neg hc] at h; cases h

theorem starts_sound : ∀ (rows : List (List ℚ)) (vs : List ℚ), starts rows = .ok (some vs) →
    List.Forall₂ (fun row v => start row = .ok (some v)) rows vs
  | [], vs, h => by simp only [starts, Except.ok.injEq, Option.some.injEq] at h; subst h; exact .nil
  | row :: rows, vs, h => by
    simp only [starts, bind, Except.bind] at h
    cases h1 : start row with
    | error e => rw [h1] at h; cases h
    | ok o =>
      rw [h1] at h
      cases o with
      | none => cases h
      | some v =>
        simp only at h
        cases h2 : starts rows with
        | error e => rw [h2] at h; cases h
        | ok o =>
          rw [h2] at h
          cases o with
          | none => cases h
          | some ws =>
            simp only [pure, Except.pure, Option.map_some, Except.ok.injEq, Option.some.injEq] at h
            subst h
            exact .cons h1 (starts_sound rows ws h2)

/-- C73 for rows whose first two points have the same latitude: every point of row `i` has latitude `vs[i]`, up to 1e-8 per point. -/
theorem C73_latitudes_partial (m : Mesh) (vs : List ℚ) (h : distinctLats m = .ok (some vs)) (i : Nat) (row : List ℚ) (v : ℚ)
    (hr : m.row[i]? = some row) (hv : vs[i]? = some v) (hflat : row[0]? = row[1]?) (j : Nat) (y : ℚ) (hy : row[j]? = some y) :
    |y - v| ≤ 1 / 100000000 * (j : ℚ) := by
  unfold distinctLats at h
  split at h
  · have hf := starts_sound _ _ h
    replace hf := List.forall₂_iff_get.1 hf
    obtain ⟨hl, hf⟩ := hf
    have hi : i < m.row.length := (List.getElem?_eq_some_iff.1 hr).1
    have := hf i hi (hl ▸ hi)
    rw [List.get_eq_getElem, List.get_eq_getElem] at this
    obtain ⟨_, e1⟩ := List.getElem?_eq_some_iff.1 hr
    obtain ⟨_, e2⟩ := List.getElem?_eq_some_iff.1 hv
    rw [e1, e2] at this
    obtain ⟨a, b, r, rfl, rfl, hn⟩ := start_sound _ _ this
    simp only [List.getElem?_cons_zero, List.getElem?_cons_succ, Option.some.injEq] at hflat
    subst hflat
    have := hn j y hy
    simpa using this
  · cases h

/-- The same for longitudes of columns. -/
theorem C73_longitudes_partial (m : Mesh) (vs : List ℚ) (h : distinctLons m = .ok (some vs)) (i : Nat) (col : List ℚ) (v : ℚ)
    (hr : m.columns[i]? = some col) (hv : vs[i]? = some v) (hflat : col[0]? = col[1]?) (j : Nat) (y : ℚ) (hy : col[j]? = some y) :
    |y - v| ≤ 1 / 100000000 * (j : ℚ) := by
  unfold distinctLons at h
  split at h
  · have hf := starts_sound _ _ h
    replace hf := List.forall₂_iff_get.1 hf
    obtain ⟨hl, hf⟩ := hf
    have hi : i < m.columns.length := (List.getElem?_eq_some_iff.1 hr).1
    have := hf i hi (hl ▸ hi)
    rw [List.get_eq_getElem, List.get_eq_getElem] at this
    obtain ⟨_, e1⟩ := List.getElem?_eq_some_iff.1 hr
    obtain ⟨_, e2⟩ := List.getElem?_eq_some_iff.1 hv
    rw [e1, e2] at this
    obtain ⟨a, b, r, rfl, rfl, hn⟩ := start_sound _ _ this
    simp only [List.getElem?_cons_zero, List.getElem?_cons_succ, Option.some.injEq] at hflat
    subst hflat
    have := hn j y hy
    simpa using this
  · cases h

/-- A sheared grid meets the hypotheses of `C73_sheared_refuted`: its rows have latitudes 0, 1, 2 and 1, 2, 3. -/
example : toDistinct ⟨[2, 3], .ok ([0, 1, 2, 1, 2, 3], [0, 1, 2, 0, 1, 2])⟩ [2, 3] = .ok (some ([0, 1], [0, 1, 2])) := by
  have h := C73_sheared_refuted 0 1 ⟨[2, 3], .ok (flat 2 3 (fun i j => (i : ℚ) + 1 * (j : ℚ)), flat 2 3 (fun i j => (j : ℚ) + 0 * (i : ℚ)))⟩ rfl rfl
  have e1 : flat 2 3 (fun i j => (i : ℚ) + 1 * (j : ℚ)) = [0, 1, 2, 1, 2, 3] := by decide +kernel
  have e2 : flat 2 3 (fun i j => (j : ℚ) + 0 * (i : ℚ)) = [0, 1, 2, 0, 1, 2] := by decide +kernel
  have e3 : (List.range 2).map (fun i : Nat => (i : ℚ)) = [0, 1] := by decide +kernel
  have e4 : (List.range 3).map (fun i : Nat => (i : ℚ)) = [0, 1, 2] := by decide +kernel
  simp only [e1, e2, e3, e4, Nat.zero_add, Nat.reduceAdd] at h
  exact h

/-- A true mesh, and one accepted mesh of nearly equal latitudes. -/
example : toDistinct ⟨[2, 2], .ok ([50, 50, 49, 49], [7, 8, 7, 8])⟩ [2, 2] = .ok (some ([50, 49], [7, 8])) := by decide +kernel

example : distinctLats ⟨1, 3, [[50, 50, 50 + 1 / 1000000000]]⟩ = .ok (some [50]) := by decide +kernel

/-- `C73_tensor_partial`: three latitudes and two longitudes in no order. -/
example : toDistinct ⟨[3, 2], .ok (flat 3 2 (fun i _ => ([60, 10, 40] : List ℚ).getD i 0), flat 3 2 (fun _ j => ([7, 5] : List ℚ).getD j 0))⟩ [3, 2] =
    .ok (some ((List.range 3).map (fun i => ([60, 10, 40] : List ℚ).getD i 0), (List.range 2).map (fun j => ([7, 5] : List ℚ).getD j 0))) :=
  C73_tensor_partial 1 0 (fun i => ([60, 10, 40] : List ℚ).getD i 0) (fun j => ([7, 5] : List ℚ).getD j 0) _ rfl rfl

/-- `C73_single`: one row. -/
example : tensor ⟨[1, 3], .ok ([50, 50, 50], [1, 2, 3])⟩ 1 3 = none := C73_single _ 1 3 rfl (.inl rfl)

/-- `C73_latitudes_partial`, `C73_longitudes_partial`: rows and columns of nearly equal values. -/
example : |(50 + 1 / 1000000000 : ℚ) - 50| ≤ 1 / 100000000 * (2 : Nat) :=
  C73_latitudes_partial ⟨1, 3, [[50, 50, 50 + 1 / 1000000000]]⟩ [50] (by decide +kernel) 0 _ 50 rfl rfl rfl 2 _ rfl
example : |(7 + 1 / 1000000000 : ℚ) - 7| ≤ 1 / 100000000 * (2 : Nat) :=
  C73_longitudes_partial ⟨3, 1, [[7], [7], [7 + 1 / 1000000000]]⟩ [7] (by decide +kernel) 0 [7, 7, 7 + 1 / 1000000000] 7 (by decide +kernel) rfl rfl 2 _ rfl

end Verif.Xarray

import Verif.Testing.Model
import Mathlib.Data.List.Nodup
import Mathlib.Data.List.Perm.Subperm
import Mathlib.Tactic.Positivity
import Mathlib.Tactic.Linarith
import Mathlib.Tactic.NormNum
import Mathlib.Algebra.Order.Ring.Rat

/-!
# What an accepted comparison says (C124)

Specification: element `(i, j)` of rows, element `i * c + j` of the reference; `Within`: missing in both, or within the tolerance.
-/

namespace Verif.Testing

/-- Missing in both, or numbers that differ by at most the tolerance. -/
inductive Within (t : Tol) : Option ℚ → Option ℚ → Prop
  | missing : Within t none none
  | number (a b : ℚ) : a - b ≤ t.atol + t.rtol * |b| → b - a ≤ t.atol + t.rtol * |b| → Within t (some a) (some b)

theorem closeNan_iff (t : Tol) (a b : Option ℚ) : closeNan t a b = true ↔ Within t a b := by
  constructor
  · intro h
    rcases a with _ | a <;> rcases b with _ | b <;> simp [closeNan] at h
    · exact .missing
    · rw [abs_le] at h
      exact .number a b h.2 (by linarith [h.1])
  · rintro (_ | ⟨a, b, h1, h2⟩)
    · rfl
    · simp only [closeNan, decide_eq_true_eq, abs_le]
      exact ⟨by linarith, h1⟩

theorem check_ok (b : Bool) : check b = .ok () ↔ b = true := by cases b <;> simp [check]

/-- Lists of the same length whose elements are within the tolerance of one another. -/
def AllWithin (t : Tol) (a b : List (Option ℚ)) : Prop :=
  a.length = b.length ∧ ∀ (i : Nat) (x y : Option ℚ), a[i]? = some x → b[i]? = some y → Within t x y

theorem assertClose_iff (t : Tol) (a b : List (Option ℚ)) : assertClose t a b = .ok () ↔ AllWithin t a b := by
  unfold assertClose AllWithin
  rw [check_ok]
  simp only [Bool.and_eq_true, beq_iff_eq, List.all_eq_true]
  refine and_congr_right fun hl => ?_
  constructor
  · intro h i x y hx hy
    rw [← closeNan_iff]
    refine h (x, y) (List.mem_iff_getElem?.mpr ⟨i, ?_⟩)
    rw [List.getElem?_zip_eq_some]
    exact ⟨hx, hy⟩
  · rintro h ⟨x, y⟩ hp
    obtain ⟨i, hi⟩ := List.mem_iff_getElem?.mp hp
    rw [List.getElem?_zip_eq_some] at hi
    exact (closeNan_iff ..).mpr (h i x y hi.1 hi.2)

/-- C124, results of every method but nearest neighbour: accepted iff there are as many values as in the reference and each is within the
tolerance. -/
theorem C124_values_partial (c : Nat) (res : List (List (Option ℚ))) (ref : List (Option ℚ)) (method : String) (t : Tol)
    (hm : method ≠ "nearest-neighbour" ∧ method ≠ "nn" ∧ method ≠ "nearest-neighbor") :
    compareResults c res ref method t = .ok () ↔ AllWithin t res.flatten ref := by
  have : isNearest method = false := by simp [isNearest, hm.1, hm.2.1, hm.2.2]
  simp only [compareResults, this]
  exact assertClose_iff t _ _

example : compareResults 2 [[some 1, none], [some 3, some 4]] [some 1, none, some 3, some 4] "linear" .default = .ok () := by decide +kernel
example : compareResults 2 [[some 1, none], [some 3, some 4]] [some 1, some 0, some 3, some 4] "linear" .default = .error .assertion := by decide +kernel
example : compareResults 2 [[some 1, none], [some 3, some 4]] [some 1, none, some 3, some 5] "linear" .default = .error .assertion := by decide +kernel

/-! ### Nearest neighbour -/

/-- Row `i` of the reference. -/
def refRow (c : Nat) (ref : List (Option ℚ)) (i : Nat) : List (Option ℚ) := (ref.drop (i * c)).take c

theorem AllWithin.append (t : Tol) (a a' b b' : List (Option ℚ)) (h : a.length = a'.length) :
    AllWithin t (a ++ b) (a' ++ b') ↔ AllWithin t a a' ∧ AllWithin t b b' := by
  unfold AllWithin
  simp only [List.length_append, h, Nat.add_left_cancel_iff, true_and]
  constructor
  · rintro ⟨hl, hi⟩
    refine ⟨fun i x y hx hy => ?_, hl, fun i x y hx hy => ?_⟩
    · have h1 : i < a.length := by
        rw [List.getElem?_eq_some_iff] at hx
        exact hx.1
      exact hi i x y (by rw [List.getElem?_append_left h1]; exact hx) (by rw [List.getElem?_append_left (h ▸ h1)]; exact hy)
    · exact hi (a.length + i) x y (by rw [List.getElem?_append_right (by omega)]; simpa using hx)
        (by rw [List.getElem?_append_right (by omega)]; simpa [h] using hy)
  · rintro ⟨h1, hl, h2⟩
    refine ⟨hl, fun i x y hx hy => ?_⟩
    by_cases hi : i < a.length
    · rw [List.getElem?_append_left hi] at hx
      rw [List.getElem?_append_left (h ▸ hi)] at hy
      exact h1 i x y hx hy
    · rw [List.getElem?_append_right (by omega)] at hx
      rw [List.getElem?_append_right (by omega)] at hy
      exact h2 _ x y hx (by rw [h]; exact hy)

theorem allWithin_flatten (t : Tol) (c : Nat) : ∀ (A B : List (List (Option ℚ))), A.length = B.length → (∀ r ∈ A, r.length = c) →
    (∀ r ∈ B, r.length = c) →
    (AllWithin t A.flatten B.flatten ↔ ∀ (i : Nat) (a b : List (Option ℚ)), A[i]? = some a → B[i]? = some b → AllWithin t a b)
  | [], [], _, _, _ => by simp [AllWithin]
  | a :: A, b :: B, hl, hA, hB => by
    rw [List.flatten_cons, List.flatten_cons, AllWithin.append t a b _ _ ((hA a (by simp)).trans (hB b (by simp)).symm),
      allWithin_flatten t c A B (by simpa using hl) (fun r h => hA r (by simp [h])) (fun r h => hB r (by simp [h]))]
    constructor
    · rintro ⟨h1, h2⟩ i x y hx hy
      cases i with
      | zero => simp at hx hy; subst hx hy; exact h1
      | succ i => exact h2 i x y (by simpa using hx) (by simpa using hy)
    · intro h
      exact ⟨h 0 a b rfl rfl, fun i x y hx hy => h (i + 1) x y (by simpa using hx) (by simpa using hy)⟩

theorem inner_getElem? {α : Type} (l : List α) (i : Nat) (x : α) : (inner l)[i]? = some x ↔ i + 2 < l.length ∧ l[i + 1]? = some x := by
  unfold inner
  rw [List.getElem?_dropLast, List.getElem?_drop, List.length_drop, Nat.add_comm 1 i]
  split
  · simp; omega
  · simp; omega

/-- C124, nearest neighbour, exactly: as many values as in the reference, the rows between the first and the last within the tolerance, the
first *and the last* within ten times the value in the *first* row of the reference. -/
theorem C124_nearest (c : Nat) (res : List (List (Option ℚ))) (a0 a1 : List (Option ℚ)) (ref : List (Option ℚ)) (method : String) (t : Tol)
    (hm : method = "nearest-neighbour" ∨ method = "nn" ∨ method = "nearest-neighbor")
    (h0 : res[0]? = some a0) (h1 : res[res.length - 1]? = some a1) (hc : ∀ row ∈ res, row.length = c) :
    compareResults c res ref method t = .ok () ↔
      ref.length = res.length * c ∧ AllWithin ⟨10, 0⟩ a0 (refRow c ref 0) ∧ AllWithin ⟨10, 0⟩ a1 (refRow c ref 0) ∧
        ∀ (i : Nat) (row : List (Option ℚ)), 0 < i → i + 1 < res.length → res[i]? = some row → AllWithin t row (refRow c ref i) := by
  have hn : isNearest method = true := by rcases hm with rfl | rfl | rfl <;> rfl
  have hpos : 0 < res.length := by
    rw [List.getElem?_eq_some_iff] at h0
    exact h0.1
  simp only [compareResults, hn, if_true]
  by_cases hs : ref.length = res.length * c
  · have hrow : ∀ i < res.length, (refRow c ref i).length = c := by
      intro i hi
      have : i * c + c ≤ ref.length := by
        rw [hs, ← Nat.succ_mul]
        exact Nat.mul_le_mul_right c hi
      simp only [refRow, List.length_take, List.length_drop]
      omega
    have hh : ((List.range res.length).map (refRow c ref)).head? = some (refRow c ref 0) := by
      rw [List.head?_eq_getElem?, List.getElem?_map, List.getElem?_range hpos]; rfl
    have hin : (∀ (i : Nat) (a b : List (Option ℚ)), (inner res)[i]? = some a →
        (inner ((List.range res.length).map (refRow c ref)))[i]? = some b → AllWithin t a b) ↔
        ∀ (i : Nat) (row : List (Option ℚ)), 0 < i → i + 1 < res.length → res[i]? = some row → AllWithin t row (refRow c ref i) := by
      constructor
      · intro h i row hi hi' hr
        obtain ⟨i, rfl⟩ : ∃ j, i = j + 1 := ⟨i - 1, by omega⟩
        refine h i row _ ((inner_getElem? ..).mpr ⟨by omega, hr⟩) ((inner_getElem? ..).mpr ⟨by simp; omega, ?_⟩)
        rw [List.getElem?_map, List.getElem?_range (by omega)]; rfl
      · intro h i a b ha hb
        rw [inner_getElem?] at ha hb
        rw [List.getElem?_map, List.getElem?_range (by omega)] at hb
        simp only [Option.map_some, Option.some.injEq] at hb
        rw [← hb.2]
        exact h (i + 1) a (by omega) (by omega) ha.2
    have hlen : (inner res).length = (inner ((List.range res.length).map (refRow c ref))).length := by simp [inner]
    have hmem : ∀ {α : Type} (l : List α), ∀ x ∈ inner l, x ∈ l := fun l x hx => List.mem_of_mem_drop ((List.dropLast_sublist _).subset hx)
    rw [← hin, ← allWithin_flatten t c _ _ hlen (fun r h => hc r (hmem _ r h)) (fun r h => by
      obtain ⟨i, hi, rfl⟩ := List.mem_map.mp (hmem _ r h)
      exact hrow i (List.mem_range.mp hi)), ← assertClose_iff, ← assertClose_iff, ← assertClose_iff]
    have hr : reshape res.length c ref = .ok ((List.range res.length).map (refRow c ref)) := by
      unfold reshape
      rw [if_pos hs]
      rfl
    rw [hr]
    rw [List.head?_eq_getElem?, h0, List.getLast?_eq_getElem?, h1]
    simp only [bind, Except.bind, hh, hs, true_and]
    rcases h2 : assertClose ⟨10, 0⟩ a0 (refRow c ref 0) with e | _
    · simp
    · rcases h3 : assertClose ⟨10, 0⟩ a1 (refRow c ref 0) with e | _
      · simp
      · simp
  · have hr : reshape res.length c ref = .error .value := by
      unfold reshape
      rw [if_neg hs]
    rw [hr]
    simp [bind, Except.bind, hs]

example : compareResults 2 [[some 1, some 2], [some 3, some 4], [some 5, some 6]] [some 1, some 2, some 3, some 4, some 5, some 6] "nn" .default = .ok () := by
  decide +kernel
example : compareResults 2 [[some 1, some 2], [some 3, some 7], [some 5, some 6]] [some 1, some 2, some 3, some 4, some 5, some 6] "nn" .default
    = .error .assertion := by decide +kernel

/-- C124, nearest neighbour: what an accepted result says about the rows between the first and the last. -/
theorem C124_inner_partial (c : Nat) (res : List (List (Option ℚ))) (ref : List (Option ℚ)) (method : String) (t : Tol)
    (hm : method = "nearest-neighbour" ∨ method = "nn" ∨ method = "nearest-neighbor") (hc : ∀ row ∈ res, row.length = c)
    (hr : res ≠ []) (h : compareResults c res ref method t = .ok ()) (i : Nat) (row : List (Option ℚ)) (h0 : 0 < i) (hi : i + 1 < res.length)
    (hrow : res[i]? = some row) : AllWithin t row (refRow c ref i) := by
  have hpos : 0 < res.length := List.length_pos_iff.mpr hr
  exact ((C124_nearest c res _ _ ref method t hm (List.getElem?_eq_getElem hpos) (List.getElem?_eq_getElem (by omega)) hc).mp h).2.2.2 i row h0 hi hrow

/-! ### Coordinates -/

/-- C124, coordinates of texts: accepted iff equal (and there is something to compare with). -/
theorem C124_texts_partial (vals : Vals) (r : List String) : compareVals vals (.strs r) = .ok () ↔ r ≠ [] ∧ vals = .strs r := by
  unfold compareVals
  rcases r with _ | ⟨x, r⟩
  · simp [Vals.length, throw, throwThe, MonadExceptOf.throw, bind, Except.bind]
  · cases vals <;> simp [Vals.length, throw, throwThe, MonadExceptOf.throw, bind, Except.bind, pure, Except.pure, check_ok]

/-- C124, coordinates of times: accepted iff equal and none missing. -/
theorem C124_times_partial (l : List (Option Int)) (r : List (Option Int)) :
    compareVals (.times l) (.times r) = .ok () ↔ r ≠ [] ∧ l = r ∧ none ∉ r := by
  have key : ∀ (l r : List (Option Int)), (l.length = r.length ∧ (l.zip r).all (fun p => sameTime p.1 p.2) = true) ↔ l = r ∧ none ∉ r := by
    intro l
    induction l with
    | nil => intro r; cases r <;> simp
    | cons a l ih =>
      intro r
      cases r with
      | nil => simp
      | cons b r =>
        have := ih r
        simp only [List.length_cons, Nat.add_right_cancel_iff, List.zip_cons_cons, List.all_cons, Bool.and_eq_true, List.cons.injEq,
          List.mem_cons, not_or]
        constructor
        · rintro ⟨hl, hab, hz⟩
          obtain ⟨h1, h2⟩ := this.mp ⟨hl, hz⟩
          rcases a with _ | a <;> rcases b with _ | b <;> simp [sameTime] at hab
          subst hab h1
          exact ⟨⟨rfl, rfl⟩, by simp, h2⟩
        · rintro ⟨⟨rfl, h1⟩, h2, h3⟩
          obtain ⟨h4, h5⟩ := this.mpr ⟨h1, h3⟩
          refine ⟨h4, ?_, h5⟩
          rcases a with _ | a
          · exact absurd rfl h2
          · simp [sameTime]
  unfold compareVals
  rcases r with _ | ⟨x, r⟩
  · simp [Vals.length, throw, throwThe, MonadExceptOf.throw, bind, Except.bind]
  · rw [← key l (x :: r)]
    simp only [Vals.length, List.length_cons, bind, Except.bind, pure, Except.pure]
    by_cases hl : l.length = r.length + 1
    · simp [hl, check, check_ok]
    · simp [hl, check]

/-- C124, coordinates of numbers, exactly: accepted iff there are as many as expected and none is missing — whatever the values. -/
theorem C124_numbers (l : List (Option ℚ)) (r : List (Option ℚ)) :
    compareVals (.nums l) (.nums r) = .ok () ↔ r ≠ [] ∧ l.length = r.length ∧ none ∉ l := by
  have key : ∀ (l : List (Option ℚ)), (l.zip l).all (fun p => close ⟨1 / 100000, 1 / 100000000⟩ p.1 p.2) = true ↔ none ∉ l := by
    intro l
    induction l with
    | nil => simp
    | cons a l ih =>
      simp only [List.zip_cons_cons, List.all_cons, Bool.and_eq_true, ih, List.mem_cons, not_or]
      refine and_congr_left fun _ => ?_
      rcases a with _ | a
      · simp [close]
      · have : (0 : ℚ) ≤ 1 / 100000000 + 1 / 100000 * |a| := by positivity
        simp [close]
        simpa using this
  unfold compareVals
  rcases r with _ | ⟨x, r⟩
  · simp [Vals.length, throw, throwThe, MonadExceptOf.throw, bind, Except.bind]
  · rw [← key l]
    simp only [Vals.length, List.length_cons, bind, Except.bind, pure, Except.pure]
    by_cases hl : l.length = r.length + 1
    · simp [hl, check, check_ok]
    · simp [hl, check]

/-! ### Dimensions -/

theorem filter_eq_iff_sublist (dims ref : List String) (hn : dims.Nodup) : dims.filter (fun d => ref.contains d) = ref ↔ ref.Sublist dims := by
  constructor
  · intro h
    rw [← h]
    exact List.filter_sublist
  · intro h
    have h1 : ref.Sublist (dims.filter (fun d => ref.contains d)) := by
      have := h.filter (fun d => ref.contains d)
      rwa [List.filter_eq_self.mpr (by simp)] at this
    refine (h1.eq_of_length_le ?_).symm
    exact ((hn.filter _).subperm (by intro d hd; simpa using (List.mem_filter.mp hd).2)).length_le

/-- C124, order of dimensions: accepted iff the expected ones are dimensions of the variable, in this order, and have coordinates. -/
theorem C124_order_partial (ds : Ds) (ref : List String) (v : String) (dims : List String) (hv : ds.vars.lookup v = some dims) (hn : dims.Nodup) :
    compareDimOrder ds ref (some v) = .ok () ↔ ref.Sublist dims ∧ ∀ d ∈ ref, ∃ c, ds.coords.lookup d = some c := by
  rw [← filter_eq_iff_sublist dims ref hn]
  simp only [compareDimOrder, hv]
  by_cases h : dims.filter (fun d => ref.contains d) = ref
  · simp only [h, true_and]
    by_cases hc : (ref.all fun d => (ds.coords.lookup d).isSome) = true
    · simp only [hc, check, if_true, bind, Except.bind, beq_self_eq_true, true_iff]
      simpa [Option.isSome_iff_exists] using hc
    · have : ¬ ∀ d ∈ ref, ∃ c, ds.coords.lookup d = some c := by simpa [Option.isSome_iff_exists] using hc
      simp [hc, check, bind, Except.bind, this]
  · simp only [h, false_and, iff_false]
    generalize (dims.filter (fun d => ref.contains d)).all _ = b
    have h' : (dims.filter (fun d => ref.contains d) == ref) = false := by rw [beq_eq_false_iff_ne]; exact h
    rw [h']
    cases b <;> simp [check, bind, Except.bind]

theorem forM_ok {α : Type} (f : α → Except Fail Unit) : ∀ l : List α, l.forM f = .ok () ↔ ∀ x ∈ l, f x = .ok ()
  | [] => by simp [pure, Except.pure]
  | a :: l => by
    have ih := forM_ok f l
    rw [List.forM]
    rcases h : f a with e | u
    · simp [bind, Except.bind, h]
    · simp [bind, Except.bind, h]
      exact ih

/-- C124, sizes of dimensions: accepted iff all expected dimensions have the expected sizes. -/
theorem C124_sizes_partial (ds : Ds) (ref : List (String × Nat)) :
    compareDimsSizes ds ref none = .ok () ↔ ∀ d n, (d, n) ∈ ref → ds.sizes.lookup d = some n := by
  have h : compareDimsSizes ds ref none = compareDimSize ds ref := rfl
  rw [h, compareDimSize, forM_ok]
  constructor
  · intro h d n hm
    have := h (d, n) hm
    rcases hs : ds.sizes.lookup d with _ | k
    · simp [hs, throw, throwThe, MonadExceptOf.throw] at this
    · simp [hs, check_ok] at this
      rw [this]
  · rintro h ⟨d, n⟩ hm
    simp [h d n hm, check_ok]

namespace Demo

/-- A variable on a 3 × 2 grid for two times and two levels. -/
def ds : Ds where
  coords := [("time", .times [some 0, some 6]), ("level", .strs ["500", "850"]), ("latitude", .nums [some 90, some 0, some (-90)]),
    ("longitude", .nums [some 0, some 180])]
  sizes := [("time", 2), ("level", 2), ("latitude", 3), ("longitude", 2)]
  vars := [("t", ["time", "level", "latitude", "longitude"])]

end Demo

example : compareDims Demo.ds [("time", .times [some 0, some 6]), ("level", .strs ["500", "850"])] (some "t") = .ok () := by decide +kernel
example : compareDims Demo.ds [("time", .times [some 0, some 7]), ("level", .strs ["500", "850"])] (some "t") = .error .assertion := by decide +kernel
example : compareDims Demo.ds [("level", .strs ["500", "850"]), ("time", .times [some 0, some 6])] (some "t") = .error .assertion := by decide +kernel
example : compareDims Demo.ds [("latitude", .nums [some 5, some 7, some 7])] (some "t") = .ok () := by decide +kernel
example : compareDimsSizes Demo.ds [("latitude", 3), ("longitude", 2)] none = .ok () := by decide +kernel
example : compareDimsSizes Demo.ds [("latitude", 3), ("longitude", 3)] none = .error .assertion := by decide +kernel
example : Demo.ds.vars.lookup "t" = some ["time", "level", "latitude", "longitude"] ∧ ["time", "level", "latitude", "longitude"].Nodup := by decide +kernel

/-- C124 fails: (1) with nearest neighbour the last row of the reference is not looked at — results with any last row that is within ten times
the first reference row are accepted, and correct results are refused; (2) coordinates of numbers are compared with themselves. -/
theorem C124_refuted :
    (∀ (w x : ℚ) (t : Tol), 0 ≤ t.atol → 0 ≤ t.rtol → 0 ≤ x → x ≤ 11 →
      compareResults 1 [[some 1], [some 2], [some x]] [some 1, some 2, some w] "nn" t = .ok ()) ∧
    (∃ rows ref, rows.flatten = ref ∧ compareResults 1 rows ref "nn" .default = .error .assertion) ∧
    (∀ l r : List ℚ, l.length = r.length → r ≠ [] →
      compareCoord ⟨[("latitude", .nums (l.map some))], [("latitude", l.length)], []⟩ "latitude" (.nums (r.map some)) true = .ok ()) := by
  refine ⟨?_, ⟨[[some 0], [some 1], [some 2]], _, rfl, by decide +kernel⟩, ?_⟩
  · intro w x t ha hr hx hx'
    rw [C124_nearest 1 _ [some 1] [some x] _ _ t (Or.inr (Or.inl rfl)) rfl rfl (by simp)]
    have one : ∀ (t : Tol) (a b : ℚ), Within t (some a) (some b) → AllWithin t [some a] [some b] := by
      intro t a b h
      refine ⟨rfl, fun i x y hx hy => ?_⟩
      cases i with
      | zero => simp at hx hy; subst hx hy; exact h
      | succ i => simp at hx
    refine ⟨rfl, one _ _ _ (.number _ _ ?_ ?_), one _ _ _ (.number _ _ ?_ ?_), ?_⟩
    · norm_num
    · norm_num
    · norm_num; linarith
    · norm_num; linarith
    · intro i row h0 hi hrow
      have : i = 1 := by simp at hi; omega
      subst this
      simp at hrow
      subst hrow
      refine one _ _ _ (.number _ _ ?_ ?_)
      · have : 0 ≤ t.rtol * |(2 : ℚ)| := mul_nonneg hr (abs_nonneg _)
        linarith
      · have : 0 ≤ t.rtol * |(2 : ℚ)| := mul_nonneg hr (abs_nonneg _)
        linarith
  · intro l r hl hr
    have := (C124_numbers (l.map some) (r.map some)).mpr ⟨by simpa using hr, by simpa using hl, by simp⟩
    simp [compareCoord, check, Vals.length, hl, bind, Except.bind, this]

/-- `C124_inner_partial`: the row between the first and the last. -/
example : AllWithin .default [some 3, some 4] (refRow 2 [some 1, some 2, some 3, some 4, some 1, some 2] 1) :=
  C124_inner_partial 2 [[some 1, some 2], [some 3, some 4], [some 5, some 6]] [some 1, some 2, some 3, some 4, some 1, some 2] "nn" .default (by simp)
    (by simp) (by simp) (by decide +kernel) 1 _ (by decide) (by decide) rfl

/-- `C124_order_partial`: levels before times are not accepted. -/
example : compareDimOrder Demo.ds ["level", "time"] (some "t") ≠ .ok () := fun h =>
  absurd ((C124_order_partial Demo.ds ["level", "time"] "t" ["time", "level", "latitude", "longitude"] (by decide +kernel) (by decide)).1 h).1 (by decide)

end Verif.Testing

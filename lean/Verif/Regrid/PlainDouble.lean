import Verif.Regrid.IeeeProps
import Verif.Regrid.PlainProps

/-!
# From the index file and the request to the values, in doubles (C135)

C133 for the numbers numpy uses: the weights and values are IEEE doubles, each product and sum rounded.
-/

namespace Verif.Regrid
open Verif.GridSpec Verif.Index Finset

/-! ## Specification -/

/-- What the result `v` of a point whose weights are row `i` of `z` may be, for the values `x`. -/
structure PointD (z : Csr (Fp double)) (x : List (Fp double)) (i : Nat) (v : Fp double) : Prop where
  /-- missing if a stored weight is for a missing value -/
  missing : ∀ j, z.Stores i j → x.getD j 0 = .nan → v = .nan
  /-- a number only if the values with a stored weight are -/
  finite : v.Finite → ∀ j, z.Stores i j → (x.getD j 0).Finite
  /-- close to the exact weighted sum -/
  near : ∀ q, v = .fin q → (z.slots i).card < 2 ^ 51 →
    |q - exactSum z x i| ≤ ((z.slots i).card + 1) / 2 ^ 52 * sizeSum z x i + (z.slots i).card * 2 ^ (-1072 : Int)
  /-- a number if the weights and values are, not too large -/
  number : z.FiniteWeights → (∀ j, z.Stores i j → (x.getD j 0).Finite) → (z.slots i).card < 2 ^ 51 → sizeSum z x i ≤ 2 ^ 1000 → v.Finite
  /-- the value itself for a single weight 1 -/
  copied : ∀ k, z.slots i = {k} → z.data.getD k 0 = .fin 1 → (x.getD (z.indices.getD k 0) 0).Held → v = x.getD (z.indices.getD k 0) 0

/-- What a regrid comes to: `es` the entries of the index file, `weights` what reading the weights of an entry gives. -/
inductive OutcomeD (P : Py) (es : List (String × Raw)) (weights : String × Raw → Except Err (Csr (Fp double))) (x : Arr (Fp double)) (di dO : Dict)
    (m : List Char) : Except Err (Arr (Fp double) × Dict) → Prop
  | unavailable (hf : First (Index.Answers P di dO m) es none) : OutcomeD P es weights x di dO m (.error .value)
  | unreadable (r : String × Raw) (err : Err) (hf : First (Index.Answers P di dO m) es (some r)) (hw : weights r = .error err) :
      OutcomeD P es weights x di dO m (.error err)
  | unfitting (r : String × Raw) (z : Csr (Fp double)) (shape : List Nat) (hf : First (Index.Answers P di dO m) es (some r)) (hw : weights r = .ok z)
      (hs : GivenShape r.2 shape) (hn : x.flat.length ≠ z.cols ∨ shape.prod ≠ z.rows) : OutcomeD P es weights x di dO m (.error .value)
  | values (r : String × Raw) (z : Csr (Fp double)) (shape : List Nat) (y : Arr (Fp double)) (hf : First (Index.Answers P di dO m) es (some r))
      (hw : weights r = .ok z) (hs : GivenShape r.2 shape) (hx : x.flat.length = z.cols) (hz : shape.prod = z.rows) (hshape : y.shape = shape)
      (hp : y.Proper) (hy : ∀ idx, Inside shape idx → ∃ v, y.elem idx = some v ∧ PointD z x.flat (offset shape idx) v) :
      OutcomeD P es weights x di dO m (.ok (y, dO))

/-! ## C135 -/

theorem pointD {G : Type} (z : Csr (Fp double)) (h : z.WF) (shape : List Nat) (x : Arr (Fp double)) (g g' : G) (y : Arr (Fp double))
    (hr : applyWeights (some (z, shape)) x g = .ok (y, g')) (idx : List Nat) (hidx : Inside shape idx) :
    ∃ v, y.elem idx = some v ∧ PointD z x.flat (offset shape idx) v := by
  obtain ⟨-, he⟩ := elem_dot z shape x g g' y hr idx hidx
  obtain ⟨s1, s2⟩ := C121_spread z h shape x g g' y hr idx hidx
  refine ⟨_, he, ?_⟩
  constructor
  · intro j hj hx
    have := s1 ⟨j, hj, hx⟩
    rw [he] at this
    exact Option.some.inj this
  · rintro ⟨q, hq⟩
    exact s2 q (he.trans (congrArg some hq))
  · intro q hq hc
    exact C122_doubles z h shape x g g' y hr idx hidx q (he.trans (congrArg some hq)) _ rfl hc
  · intro hw hx hc hm
    obtain ⟨q, hq⟩ := C122_doubles_number z h hw shape x g g' y hr idx hidx hx _ rfl hc hm
    rw [he] at hq
    exact ⟨q, Option.some.inj hq⟩
  · intro k hk hw hx
    have := C122_copy z h shape x g g' y hr idx hidx k hk hw hx
    rw [he] at this
    exact Option.some.inj this

theorem outcomeD_of_applied {P : Py} {es : List (String × Raw)} {weights : String × Raw → Except Err (Csr (Fp double))}
    (hwf : ∀ r z, weights r = .ok z → z.WF) {x : Arr (Fp double)} {di dO : Dict} {n : List Char} {res : Except Err (Arr (Fp double) × Dict)}
    (this : Applied P es weights x di dO n dO res) : OutcomeD P es weights x di dO n res := by
  cases this with
  | unavailable hf => exact .unavailable hf
  | unreadable r err hf hz => exact .unreadable r err hf hz
  | applied r z shape hfirst hz hshape =>
    by_cases hfit : x.flat.length = z.cols ∧ shape.prod = z.rows
    · obtain ⟨h1, h2⟩ := hfit
      have hr := (apply_ok' z shape x dO dO _).2 ⟨h1, h2, rfl, rfl⟩
      rw [hr]
      exact .values _ z shape _ hfirst hz hshape h1 h2 rfl (by simp [Arr.Proper, h2]) (fun idx hi => pointD z (hwf _ z hz) shape x dO dO _ hr idx hi)
    · rw [mismatch z shape x dO (Classical.not_and_iff_not_or_not.1 hfit)]
      exact .unfitting _ z shape hfirst hz hshape (Classical.not_and_iff_not_or_not.1 hfit)

/-- C135: with an index file of published entries, each with a shape, and documented grids, a regrid in doubles at any point of any history comes
to what the specification says. -/
theorem C135_outcome (w : World) (hw : w.Sane) (ho : Enumerates w.order) (sizeFn : Csr (Fp double) → Nat) (f : IndexFile) (es : List (String × Raw))
    (hv : OneVersion f.version) (hf : f.matrix = some es) (hn : (es.map Prod.fst).Nodup) (hu : ∀ e ∈ es, Index.Usable w.P e.2)
    (hs : ∀ e ∈ es, ∃ shape, GivenShape e.2 shape) (weights : String × Raw → Except Err (Csr (Fp double))) (hwf : ∀ r z, weights r = .ok z → z.WF)
    (memory : Entry → Option Int) :
    ∃ ix, load w.P f = .ok ix ∧ ∀ (h : List (PipeOp (Fp double))), HistoryUsable w h → HistoryValid h →
      ∀ (x : Arr (Fp double)) (di dO : Dict) (m n : List Char),
      GridSpec.Plain w.P di → GridSpec.Plain w.P dO → Usable w di → Usable w dO → Published m n →
      OutcomeD w.P es weights x di dO n (regridArray w sizeFn ⟨ix, memory, fun e => weights e.shown⟩ x di dO m
        (pipeRun w sizeFn ⟨ix, memory, fun e => weights e.shown⟩ h)).1 := by
  obtain ⟨ix, hl, hall⟩ := outcome_any w hw ho sizeFn f es hv hf hn hu hs weights memory
  refine ⟨ix, hl, fun h hh hv' x di dO m n pi pO ui uo hm => ?_⟩
  exact outcomeD_of_applied hwf (hall h hh hv' x di dO m n pi pO ui hm dO rfl uo)

/-! ## The hypotheses can be met -/

namespace Demo

/-- The weights of `demo` in doubles. -/
def demoD : Csr (Fp double) := ⟨3, 2, [0, 2, 3, 5], [0, 1, 1, 0, 0], [.fin (1/2), .fin (1/2), .fin 1, .fin (1/2), .fin (1/2)]⟩

theorem demoD_wf : demoD.WF := by
  refine ⟨rfl, ?_, ?_, rfl, rfl, by decide⟩
  · intro p hp; cases hp; rfl
  · intro i j a b hij ha hb
    have hi : i < 4 := (List.getElem?_eq_some_iff.1 ha).1
    have hj : j < 4 := (List.getElem?_eq_some_iff.1 hb).1
    simp only [demoD] at ha hb
    interval_cases i <;> interval_cases j <;> first | omega | (simp at ha hb; omega)

/-- A limited cache, a regrid, a clear, another regrid. -/
def historyD : List (PipeOp (Fp double)) := [.configure ⟨some (some 1000), false, some .lru⟩,
  .regrid ⟨[2], [.fin 1, .fin 2]⟩ (orca (some shape)) (orca (some shape)) "nearest-neighbour".toList, .clear,
  .regrid ⟨[2], [.inf true, .fin 2]⟩ (orca (some shape)) (orca (some shape)) "nn".toList]

theorem historyD_usable (P : Py) : HistoryUsable (world P) historyD := by
  intro x di dO m h
  simp [historyD] at h
  rcases h with ⟨_, rfl, rfl, _⟩ | ⟨_, rfl, rfl, _⟩ <;> exact ⟨usable P, usable P⟩

theorem historyD_valid : HistoryValid historyD := by
  intro cfg h
  simp [historyD] at h
  subst h
  exact ⟨⟨_, _, rfl, rfl, fun _ => ⟨1000, rfl, by decide⟩⟩, rfl⟩

/-- `C135_outcome`, after a history: with the first value missing the first point is missing, the second is the second value. -/
example (P : Py) : ∃ ix, load P file = .ok ix ∧ ∃ y,
    (regridArray (world P) (fun _ => 50) ⟨ix, fun _ => some 100, fun _ => .ok demoD⟩ ⟨[2], [.nan, .fin (1121 / 4)]⟩ (orca (some shape))
      (orca (some shape)) "nn".toList (pipeRun (world P) (fun _ => 50) ⟨ix, fun _ => some 100, fun _ => .ok demoD⟩ historyD)).1 =
      .ok (y, orca (some shape)) ∧ y.elem [0, 0] = some .nan ∧ y.elem [1, 0] = some (.fin (1121 / 4)) := by
  obtain ⟨ix, hl, h⟩ := C135_outcome (world P) (world_sane P) (fun _ => Iff.rfl) (fun _ => 50) file _ (.inl rfl) rfl (by decide)
    (by
      intro e he
      simp only [List.mem_cons, List.not_mem_nil, or_false] at he
      rcases he with rfl | rfl
      · exact .inr (fun h => icon_unaccepted P h.1)
      · exact .inl ⟨_, _, _, .text _ _ rfl, rfl, rfl, orca_plain P _, orca_plain P _⟩)
    (by
      intro e he
      simp only [List.mem_cons, List.not_mem_nil, or_false] at he
      rcases he with rfl | rfl
      · exact ⟨[3, 1], _, _, rfl, rfl, .inl rfl⟩
      · exact ⟨_, raw_shape⟩)
    (fun _ => .ok demoD) (by intro r z h; cases h; exact demoD_wf) (fun _ => some 100)
  refine ⟨ix, hl, ?_⟩
  have ho := h historyD (historyD_usable P) historyD_valid ⟨[2], [.nan, .fin (1121 / 4)]⟩ (orca (some shape)) (orca (some shape)) "nn".toList _
    (orca_plain P _) (orca_plain P _) (usable P) (usable P) .short
  have hfirst : First (Index.Answers P (orca (some shape)) (orca (some shape)) "nearest-neighbour".toList) [("i", iconShaped), ("w", raw)]
      (some ("w", raw)) := by
    refine .later _ _ _ ?_ (.here _ _ (raw_answers P))
    rintro ⟨i, o, _, hi, _, _, _, ai, _⟩
    cases hi
    exact icon_unaccepted P ai
  revert ho
  generalize (regridArray (α := Fp double) (world P) (fun _ => 50) _ _ _ _ _ _).1 = res
  intro ho
  cases ho with
  | unavailable hf => cases first_unique hf hfirst
  | unreadable r err hf hw => cases hw
  | unfitting r z sh hf hw hs hn =>
    cases first_unique hf hfirst
    cases hw
    cases shape_unique hs raw_shape
    exact absurd hn (by decide)
  | values r z sh y hf hw hs hx hz h1 h2 h3 =>
    cases first_unique hf hfirst
    cases hw
    cases shape_unique hs raw_shape
    obtain ⟨v, e1, p1⟩ := h3 [0, 0] (.cons (by decide) (.cons (by decide) .nil))
    obtain ⟨v', e2, p2⟩ := h3 [1, 0] (.cons (by decide) (.cons (by decide) .nil))
    refine ⟨y, rfl, ?_, ?_⟩
    · rw [e1, p1.missing 0 ⟨0, by decide, rfl⟩ rfl]
    · rw [e2, p2.copied 2 (by decide) rfl ⟨ieee_fixes 53 (-1074) _ _ ⟨1121, -2, by norm_num, by norm_num, by norm_num⟩, ?_⟩]
      · rfl
      · show |(1121 / 4 : ℚ)| ≤ ((2 : ℚ) ^ 53 - 1) * 2 ^ 971
        rw [abs_of_pos (by norm_num)]
        exact le_trans (by norm_num : (1121 / 4 : ℚ) ≤ (2 ^ 53 - 1) * 1) (mul_le_mul_of_nonneg_left (one_le_pow₀ (by norm_num)) (by norm_num))

end Demo

end Verif.Regrid

import Verif.Xarray.Weights
import Verif.Xarray.Props2
import Verif.Regrid.SparseProps

/-!
# xarray data and precomputed weights (C95, C108)
-/

namespace Verif.Xarray
open Verif.GridSpec (Dict)
open Finset (range)

/-- The grid the data is on, as documented for the code: the attribute, else the argument, else the accessor. -/
def InputGrid (attr kwarg acc : Option Dict) (g : Dict) : Prop :=
  attr = some g ∨ attr = none ∧ (kwarg = some g ∨ kwarg = none ∧ acc = some g)

/-! ### Positions in an array -/

theorem getElem?_flatMap_const {α β : Type} (f : α → List β) (k : Nat) (hk : ∀ a, (f a).length = k) :
    ∀ (l : List α) (i r : Nat), r < k → (l.flatMap f)[i * k + r]? = (l[i]?).bind (fun a => (f a)[r]?)
  | [], i, r, _ => by simp
  | a :: l, 0, r, hr => by
    simp only [List.flatMap_cons, Nat.zero_mul, Nat.zero_add, List.getElem?_cons_zero, Option.bind_some]
    rw [List.getElem?_append_left (by rw [hk]; exact hr)]
  | a :: l, i + 1, r, hr => by
    simp only [List.flatMap_cons, List.getElem?_cons_succ]
    rw [List.getElem?_append_right (by rw [hk]; nlinarith), hk]
    rw [← getElem?_flatMap_const f k hk l i r hr]
    congr 1
    rw [Nat.add_mul]
    omega

theorem offset_lt : ∀ {ns l : List Nat}, Regrid.Inside ns l → Regrid.offset ns l < ns.prod
  | _, _, .nil => by simp [Regrid.offset]
  | _, _, .cons (n := n) (i := i) (shape := shape) (idx := idx) h t => by
    have := offset_lt t
    simp only [Regrid.offset, List.prod_cons]
    calc i * shape.prod + Regrid.offset shape idx < i * shape.prod + shape.prod := by omega
      _ = (i + 1) * shape.prod := by ring
      _ ≤ n * shape.prod := Nat.mul_le_mul_right _ h

/-- Positions are listed in the order of the elements. -/
theorem ndindex_offset : ∀ {ns l : List Nat}, Regrid.Inside ns l → (ndindex ns)[Regrid.offset ns l]? = some l
  | _, _, .nil => rfl
  | _, _, .cons (n := n) (i := i) (shape := shape) (idx := idx) h t => by
    simp only [ndindex, Regrid.offset]
    rw [getElem?_flatMap_const (fun i => (ndindex shape).map (i :: ·)) shape.prod (by intro a; simp [length_ndindex]) _ _ _ (offset_lt t)]
    simp [h, ndindex_offset t]

theorem nodup_ndindex : ∀ ns : List Nat, (ndindex ns).Nodup
  | [] => by simp [ndindex]
  | n :: ns => by
    simp only [ndindex]
    rw [List.nodup_flatMap]
    refine ⟨fun i _ => (nodup_ndindex ns).map (fun a b h => by simpa using h), ?_⟩
    refine List.Nodup.pairwise_of_forall_ne List.nodup_range ?_
    intro a _ b _ hab
    simp only [Function.onFun, List.disjoint_left, List.mem_map]
    rintro x ⟨y, _, rfl⟩ ⟨z, _, h⟩
    simp only [List.cons.injEq] at h
    exact hab h.1.symm

theorem lookup_zip {α β : Type} [BEq α] [LawfulBEq α] : ∀ (ks : List α) (vs : List β) (k : Nat) (x : α), ks.Nodup → ks[k]? = some x →
    (ks.zip vs).lookup x = vs[k]?
  | [], _, k, x, _, h => by simp at h
  | a :: ks, [], k, x, _, h => by simp
  | a :: ks, v :: vs, 0, x, _, h => by
    simp only [List.getElem?_cons_zero, Option.some.injEq] at h
    subst h
    simp
  | a :: ks, v :: vs, k + 1, x, hn, h => by
    simp only [List.getElem?_cons_succ] at h
    have hne : (x == a) = false := by
      rw [beq_eq_false_iff_ne]
      rintro rfl
      exact (List.nodup_cons.1 hn).1 (List.mem_of_getElem? h)
    simp only [List.zip_cons_cons, List.lookup, hne, List.getElem?_cons_succ]
    exact lookup_zip ks vs k x (List.nodup_cons.1 hn).2 h

theorem at_elem {α : Type} (shape : List Nat) (data : List α) (l : List Nat) (h : Regrid.Inside shape l) :
    Arr.at ⟨shape, data⟩ l = Regrid.Arr.elem ⟨shape, data⟩ l := by
  unfold Arr.at Regrid.Arr.elem
  exact lookup_zip _ _ _ _ (nodup_ndindex shape) (ndindex_offset h)

/-! ### One slice -/

theorem weightsMethod_ok {α : Type} [Zero α] [Add α] [Mul α] (find : Lookup α) (gi go : Dict) (kw : Regrid.Kw) (a b : Arr α) (g : Dict)
    (h : weightsMethod find gi go kw a = .ok (b, g)) :
    kw.extra = [] ∧ ∃ z shape, find gi go kw.interpolation = .ok (some (z, shape)) ∧
      Regrid.applyWeights (some (z, shape)) ⟨a.shape, a.data⟩ go = .ok (⟨b.shape, b.data⟩, g) := by
  unfold weightsMethod Regrid.matrixBackend at h
  simp only at h
  by_cases hx : kw.extra = []
  · refine ⟨hx, ?_⟩
    rw [if_neg (by simp [hx])] at h
    cases hf : find gi go kw.interpolation with
    | error e => rw [hf] at h; cases h
    | ok w =>
      rw [hf] at h
      simp only at h
      cases hw : Regrid.applyWeights w ⟨a.shape, a.data⟩ go with
      | error e => rw [hw] at h; cases h
      | ok r =>
        obtain ⟨y, g'⟩ := r
        rw [hw] at h
        simp only [Except.ok.injEq, Prod.mk.injEq] at h
        obtain ⟨rfl, rfl⟩ := h
        cases w with
        | none => cases hw
        | some w => exact ⟨w.1, w.2, rfl, hw⟩
  · rw [if_pos hx] at h
    cases h

theorem inGrid_ok (attr kwarg acc : Option Dict) (g : Dict) (rest : Option Dict) (h : inGrid attr kwarg acc = .ok (g, rest)) :
    InputGrid attr kwarg acc g ∧ (rest ≠ none → attr ≠ none ∧ kwarg ≠ none) ∧ (attr ≠ none → kwarg ≠ none → rest ≠ none) := by
  cases attr with
  | some a =>
    obtain ⟨rfl, rfl⟩ : a = g ∧ kwarg = rest := by simpa [inGrid] using h
    exact ⟨Or.inl rfl, fun h => ⟨by simp, h⟩, fun _ h => h⟩
  | none =>
    cases kwarg with
    | some k =>
      obtain ⟨rfl, rfl⟩ : k = g ∧ none = rest := by simpa [inGrid] using h
      exact ⟨Or.inr ⟨rfl, Or.inl rfl⟩, fun h => absurd rfl h, fun h => absurd rfl h⟩
    | none =>
      cases acc with
      | some k =>
        obtain ⟨rfl, rfl⟩ : k = g ∧ none = rest := by simpa [inGrid] using h
        exact ⟨Or.inr ⟨rfl, Or.inr ⟨rfl, rfl⟩⟩, fun h => absurd rfl h, fun h => absurd rfl h⟩
      | none => cases h

theorem regridWeights_ok {α : Type} [Zero α] [Add α] [Mul α] (find : Lookup α) (canon : Dict → M Dict) (grid : Dict → M Grid)
    (attr kwarg acc out : Option Dict) (kw : Regrid.Kw) (d : DA α) (i j : Option (List String)) (o : DA α) (cs : List (String × Var))
    (h : regridWeights find canon grid attr kwarg acc out kw d i j = .ok (o, cs)) :
    ∃ g rest gi go, inGrid attr kwarg acc = .ok (g, rest) ∧ canon g = .ok gi ∧ out = some go ∧
      regrid grid (weightsMethod find gi go (leftOver kw rest)) go d i j = .ok (o, cs) := by
  unfold regridWeights at h
  simp only [bind, Except.bind] at h
  cases h1 : inGrid attr kwarg acc with
  | error e => rw [h1] at h; cases h
  | ok r =>
    obtain ⟨g, rest⟩ := r
    rw [h1] at h
    simp only at h
    cases h2 : canon g with
    | error e => rw [h2] at h; cases h
    | ok gi =>
      rw [h2] at h
      simp only at h
      cases out with
      | none => cases h
      | some go => exact ⟨g, rest, gi, go, rfl, h2, rfl, h⟩

/-! ### C108 -/

/-- C108: a data array that is returned has, at every position along the dimensions that are not geographic and every point of the target,
the sum of the values of the input at that position with the weights stored for the input grid, the target and the method. -/
theorem C108_values (find : Lookup) (hwf : ∀ gi go m z shape, find gi go m = .ok (some (z, shape)) → z.WF) (canon : Dict → M Dict)
    (grid : Dict → M Grid) (attr kwarg acc out : Option Dict) (kw : Regrid.Kw) (d : DA) (hd : Proper d) (i j : Option (List String))
    (o : DA) (cs : List (String × Var)) (h : regridWeights find canon grid attr kwarg acc out kw d i j = .ok (o, cs)) :
    ∃ g gi go z shape ins outs, InputGrid attr kwarg acc g ∧ canon g = .ok gi ∧ out = some go ∧
      find gi go kw.interpolation = .ok (some (z, shape)) ∧
      (i = some ins ∨ i = none ∧ LastDims d.names ins) ∧ (j = some outs ∨ j = none ∧ ∃ gr, grid go = .ok gr ∧ GridDims gr outs) ∧
      shape.length = outs.length ∧
      o.dims = d.dims.filter (fun x => decide (x.1 ∉ ins)) ++ outs.zip shape ∧
      ∀ q, (∀ x ∈ d.dims, x.1 ∉ ins → q x.1 < x.2) → Regrid.Inside shape (outs.map q) →
        o.val q = ∑ k ∈ range z.cols, z.weight (Regrid.offset shape (outs.map q)) k * (sliceAt d ins q).data.getD k 0 := by
  obtain ⟨g, rest, gi, go, h1, h2, h3, h4⟩ := regridWeights_ok find canon grid attr kwarg acc out kw d i j o cs h
  obtain ⟨g0, ins, outs, s, hg, hi, ho, hs, hdims, hval, ⟨p0, a0, g0', gr', geo, hp0, hf0, _⟩, _⟩ :=
    C74_array_partial grid (weightsMethod find gi go (leftOver kw rest)) go d o hd i j cs h4
  obtain ⟨_, z, shape, hz, hap⟩ := weightsMethod_ok _ _ _ _ _ _ _ hf0
  have hint : (leftOver kw rest).interpolation = kw.interpolation := by unfold leftOver; split <;> rfl
  rw [hint] at hz
  have hs0 : s = shape := by
    obtain ⟨a, ga, ha, hsh, _⟩ := hval p0 hp0
    rw [hf0] at ha
    simp only [Except.ok.injEq, Prod.mk.injEq] at ha
    obtain ⟨rfl, _⟩ := ha
    rw [← hsh]
    exact (Regrid.C46_product z (hwf _ _ _ _ _ hz) shape _ go g0' _ hap).1
  subst hs0
  refine ⟨g, gi, go, z, s, ins, outs, (inGrid_ok _ _ _ _ _ h1).1, h2, h3, hz, hi, ho.imp id (fun h => ⟨h.1, g0, hg, h.2⟩), hs, hdims, ?_⟩
  intro q hq hin
  obtain ⟨a, ga, ha, hsh, hv⟩ := hval q hq
  obtain ⟨_, z', shape', hz', hap'⟩ := weightsMethod_ok _ _ _ _ _ _ _ ha
  rw [hint, hz] at hz'
  simp only [Except.ok.injEq, Option.some.injEq, Prod.mk.injEq] at hz'
  obtain ⟨rfl, rfl⟩ := hz'
  have hp := Regrid.C46_product z (hwf _ _ _ _ _ hz) s _ go ga _ hap'
  have he := hp.2.2.2 _ hin
  rw [hv q (fun _ _ _ => rfl)]
  have hat : a.at (outs.map q) = Regrid.Arr.elem ⟨a.shape, a.data⟩ (outs.map q) := at_elem a.shape a.data _ (by rw [hsh]; exact hin)
  rw [hat, he]
  rfl

/-- C108: without weights for the two grids and the method, or with keyword arguments the backend does not know, nothing is returned. -/
theorem C108_refused (find : Lookup) (canon : Dict → M Dict) (grid : Dict → M Grid) (attr kwarg acc out : Option Dict) (kw : Regrid.Kw)
    (d : DA) (hd : Proper d) (i j : Option (List String))
    (h : kw.extra ≠ [] ∨ ∀ g gi go, InputGrid attr kwarg acc g → canon g = .ok gi → out = some go →
      ∀ w, find gi go kw.interpolation ≠ .ok (some w)) :
    ∃ e, regridWeights find canon grid attr kwarg acc out kw d i j = .error e := by
  cases hr : regridWeights find canon grid attr kwarg acc out kw d i j with
  | error e => exact ⟨e, rfl⟩
  | ok r =>
    exfalso
    obtain ⟨o, cs⟩ := r
    obtain ⟨g, rest, gi, go, h1, h2, h3, h4⟩ := regridWeights_ok find canon grid attr kwarg acc out kw d i j o cs hr
    obtain ⟨g0, ins, outs, s, hg, hi, ho, hs, hdims, hval, ⟨p0, a0, g0', gr', geo, hp0, hf0, _⟩, _⟩ :=
      C74_array_partial grid (weightsMethod find gi go (leftOver kw rest)) go d o hd i j cs h4
    obtain ⟨hx, z, shape, hz, hap⟩ := weightsMethod_ok _ _ _ _ _ _ _ hf0
    rcases h with h | h
    · apply h
      unfold leftOver at hx
      split at hx
      · simp at hx
      · exact hx
    · have hint : (leftOver kw rest).interpolation = kw.interpolation := by unfold leftOver; split <;> rfl
      rw [hint] at hz
      exact h g gi go (inGrid_ok _ _ _ _ _ h1).1 h2 h3 _ hz

/-- C108: when the weights are there, fit the slices and the target's shape, the geographic dimensions are recognised and the other ones
are not empty and not named like the new ones, the array is returned. -/
theorem C108_returned (find : Lookup) (hwf : ∀ gi go m z shape, find gi go m = .ok (some (z, shape)) → z.WF) (canon : Dict → M Dict) (grid : Dict → M Grid) (attr kwarg acc : Option Dict) (kw : Regrid.Kw)
    (d : DA) (g gi go : Dict) (gr : Grid) (z : Regrid.Csr ℚ) (ins outs : List String)
    (hone : attr = none ∨ kwarg = none) (hin : InputGrid attr kwarg acc g) (hx : kw.extra = [])
    (hc : canon g = .ok gi) (hz : find gi go kw.interpolation = .ok (some (z, gr.shape)))
    (hg : grid go = .ok gr) (hp : Plain gr) (hi : inGeoDims d.names = .ok ins) (ho : geoDims gr = .ok outs)
    (hpos : ∀ x ∈ d.dims, x.1 ∉ ins → 0 < x.2 ∧ x.1 ∉ outs)
    (hcols : z.cols = (ins.map d.size).prod) (hrows : gr.shape.prod = z.rows) :
    ∃ o cs, regridWeights find canon grid attr kwarg acc (some go) kw d none none = .ok (o, cs) ∧
      o.dims = d.dims.filter (fun x => decide (x.1 ∉ ins)) ++ outs.zip gr.shape := by
  have hrest : inGrid attr kwarg acc = .ok (g, none) := by
    rcases hin with rfl | ⟨rfl, rfl | ⟨rfl, rfl⟩⟩
    · rcases hone with h | rfl
      · cases h
      · rfl
    · rfl
    · rfl
  have hreg : regridWeights find canon grid attr kwarg acc (some go) kw d none none =
      regrid grid (weightsMethod find gi go kw) go d none none := by
    unfold regridWeights
    simp only [hrest, hc, bind, Except.bind, leftOver]
  rw [hreg]
  refine C74_returned grid (weightsMethod find gi go kw) go d gr ins outs hg hp hi ho hpos ?_
  intro x _ hlen
  have hok : ∃ r, Regrid.applyWeights (some (z, gr.shape)) ⟨x.shape, x.data⟩ go = .ok r :=
    (Regrid.C47_refused _ _ _).2 ⟨z, gr.shape, rfl, by rw [hlen, hcols], hrows⟩
  obtain ⟨⟨y, g'⟩, hy⟩ := hok
  have hgg : g' = go := by
    simp only [Regrid.applyWeights, bind, Except.bind, pure, Except.pure] at hy
    split at hy
    · cases hy
    · split at hy
      · cases hy
      · cases hy; rfl
  refine ⟨⟨y.shape, y.flat⟩, g', ?_, ?_, by rw [hgg]; exact hg⟩
  · unfold weightsMethod Regrid.matrixBackend
    simp only
    rw [if_neg (by simp [hx]), hz]
    simp only [hy]
  · exact (Regrid.C46_product z (hwf _ _ _ _ _ hz) gr.shape _ go g' _ hy).1

/-! ### C95 -/

/-- C95 fails for precomputed weights: with a gridspec attribute on the data, every call that gives `grid_spec` too raises, be it the same
grid. -/
theorem C95_both_refuted (find : Lookup) (canon : Dict → M Dict) (grid : Dict → M Grid) (a k : Dict) (acc out : Option Dict)
    (kw : Regrid.Kw) (d : DA) (hd : Proper d) (i j : Option (List String)) :
    ∃ e, regridWeights find canon grid (some a) (some k) acc out kw d i j = .error e := by
  cases hr : regridWeights find canon grid (some a) (some k) acc out kw d i j with
  | error e => exact ⟨e, rfl⟩
  | ok r =>
    exfalso
    obtain ⟨o, cs⟩ := r
    obtain ⟨g, rest, gi, go, h1, h2, h3, h4⟩ := regridWeights_ok find canon grid _ _ acc out kw d i j o cs hr
    obtain ⟨g0, ins, outs, s, hg, hi, ho, hs, hdims, hval, ⟨p0, a0, g0', gr', geo, hp0, hf0, _⟩, _⟩ :=
      C74_array_partial grid (weightsMethod find gi go (leftOver kw rest)) go d o hd i j cs h4
    obtain ⟨hx, _⟩ := weightsMethod_ok _ _ _ _ _ _ _ hf0
    cases rest with
    | none => exact (inGrid_ok _ _ _ _ _ h1).2.2 (by simp) (by simp) rfl
    | some r => simp [leftOver] at hx

/-- C95 for precomputed weights: without that attribute the weights used are those for the grid given. -/
theorem C95_given_partial (find : Lookup) (hwf : ∀ gi go m z shape, find gi go m = .ok (some (z, shape)) → z.WF) (canon : Dict → M Dict) (grid : Dict → M Grid) (k : Dict) (acc out : Option Dict)
    (kw : Regrid.Kw) (d : DA) (hd : Proper d) (i j : Option (List String)) (r : DA × List (String × Var))
    (h : regridWeights find canon grid none (some k) acc out kw d i j = .ok r) :
    ∃ gi go z shape ins outs, canon k = .ok gi ∧ out = some go ∧ find gi go kw.interpolation = .ok (some (z, shape)) ∧
      (i = some ins ∨ i = none ∧ LastDims d.names ins) ∧ (j = some outs ∨ j = none ∧ ∃ gr, grid go = .ok gr ∧ GridDims gr outs) ∧
      ∀ q, (∀ x ∈ d.dims, x.1 ∉ ins → q x.1 < x.2) → Regrid.Inside shape (outs.map q) →
        r.1.val q = ∑ n ∈ range z.cols, z.weight (Regrid.offset shape (outs.map q)) n * (sliceAt d ins q).data.getD n 0 := by
  obtain ⟨g, gi, go, z, shape, ins, outs, h1, h2, h3, h4, h5, h6, _, _, h7⟩ :=
    C108_values find hwf canon grid none (some k) acc out kw d hd i j r.1 r.2 h
  have : k = g := by
    rcases h1 with h1 | ⟨_, h1 | ⟨h1, _⟩⟩
    · cases h1
    · exact Option.some.inj h1
    · cases h1
  subst this
  exact ⟨gi, go, z, shape, ins, outs, h2, h3, h4, h5, h6, h7⟩

/-! ### Examples -/

/-- Weights that keep the first two of three points, the second one doubled. -/
def keepTwo : Regrid.Csr ℚ := ⟨2, 3, [0, 1, 2], [0, 1], [1, 2]⟩

theorem keepTwo_wf : keepTwo.WF where
  ptrs := rfl
  start := by simp [keepTwo]
  mono := by
    intro i j a b hij h1 h2
    simp only [keepTwo] at h1 h2
    rcases i with _ | _ | _ | i <;> rcases j with _ | _ | _ | j <;> simp at h1 h2 <;> omega
  last := rfl
  sizes := rfl
  inside := by simp [keepTwo]

/-- An inventory with these weights for every pair of grids, for the method `linear`. -/
def keepers : Lookup := fun _ _ m => if m = "linear".toList then .ok (some (keepTwo, [2])) else .ok none

theorem keepers_wf (gi go : Dict) (m : List Char) (z : Regrid.Csr ℚ) (shape : List Nat) (h : keepers gi go m = .ok (some (z, shape))) : z.WF := by
  unfold keepers at h
  split at h
  · simp only [Except.ok.injEq, Option.some.injEq, Prod.mk.injEq] at h
    rw [← h.1]; exact keepTwo_wf
  · simp at h

/-- A gridspec with one entry. -/
def spec (c : Char) : Dict := fun k => if k = "grid" then some (.str [c]) else none

/-- The hypotheses of `C108_returned` hold, so `C108_values` and `C95_given_partial` are about something. -/
example : ∃ o cs, regridWeights keepers .ok (fun _ => .ok two) none (some (spec 'a')) none (some (spec 'b')) ⟨"linear".toList, []⟩ days none none
    = .ok (o, cs) ∧ o.dims = [("time", 3), ("values", 2)] := by
  refine C108_returned keepers keepers_wf .ok (fun _ => .ok two) none (some (spec 'a')) none ⟨"linear".toList, []⟩ days (spec 'a') (spec 'a')
    (spec 'b') two keepTwo ["values"] ["values"] (Or.inl rfl) (Or.inr ⟨rfl, Or.inl rfl⟩) rfl rfl rfl rfl ?_ rfl rfl ?_ rfl rfl
  · refine .inl ⟨2, rfl, ?_⟩
    intro la lo h
    simp only [two, Except.ok.injEq, Prod.mk.injEq] at h
    rw [← h.1, ← h.2]; exact ⟨rfl, rfl⟩
  · simp [days]

/-- At day 2 the second point has twice the value 21. -/
example : ∃ o g, applyUfunc (weightsMethod keepers (spec 'a') (spec 'b') ⟨"linear".toList, []⟩) (spec 'b') days ["values"] ["values"] = .ok (o, g) ∧
    o.val (fun n => if n = "time" then 2 else 1) = 42 := by
  refine ⟨_, _, rfl, ?_⟩
  decide +kernel

/-- No weights for another method; the grid given beside the attribute. -/
example : ∃ e, regridWeights keepers .ok (fun _ => .ok two) none (some (spec 'a')) none (some (spec 'b')) ⟨"nearest".toList, []⟩ days none none
    = .error e :=
  C108_refused _ _ _ _ _ _ _ _ days days_proper _ _ (Or.inr (by intro g gi go _ _ _ w h; simp [keepers] at h))

example : ∃ e, regridWeights keepers .ok (fun _ => .ok two) (some (spec 'a')) (some (spec 'a')) none (some (spec 'b')) ⟨"linear".toList, []⟩
    days none none = .error e :=
  C95_both_refuted _ _ _ _ _ _ _ _ days days_proper _ _

/-- `C108_values`, `C95_given_partial`: the regrid above, with the grid given. -/
example : ∃ r, regridWeights keepers .ok (fun _ => .ok two) none (some (spec 'a')) none (some (spec 'b')) ⟨"linear".toList, []⟩ days none none = .ok r ∧
    (∃ gi go z shape, Except.ok (ε := Err) (spec 'a') = .ok gi ∧ some (spec 'b') = some go ∧ keepers gi go "linear".toList = .ok (some (z, shape))) ∧
    ∃ z, r.1.dims.length = 2 ∧ keepers (spec 'a') (spec 'b') "linear".toList = .ok (some z) := by
  refine ⟨_, rfl, ?_, ?_⟩
  · obtain ⟨gi, go, z, shape, -, -, h1, h2, h3, -⟩ := C95_given_partial keepers keepers_wf .ok (fun _ => .ok two) (spec 'a') none (some (spec 'b'))
      ⟨"linear".toList, []⟩ days days_proper none none _ rfl
    exact ⟨gi, go, z, shape, h1, h2, h3⟩
  · obtain ⟨g, gi, go, z, shape, ins, outs, hin, h1, h2, h3, -⟩ := C108_values keepers keepers_wf .ok (fun _ => .ok two) none (some (spec 'a')) none
      (some (spec 'b')) ⟨"linear".toList, []⟩ days days_proper none none _ _ rfl
    exact ⟨_, rfl, h3⟩

end Verif.Xarray

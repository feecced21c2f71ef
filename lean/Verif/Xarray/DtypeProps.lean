import Verif.Xarray.Dtype
import Verif.Xarray.WeightsProps

/-!
# The type of the data (C120)

Specification: what a data array holds is interpolated like the same numbers in an array — the values of the result are the weighted
sums. `Fits t q` says that a number can be stored in an array of type `t`.
-/

namespace Verif.Xarray
open Verif.GridSpec (Dict)
open Finset (range)

/-- Numbers an array of type `t` can hold. -/
def Fits : Dtype → ℚ → Prop
  | .float, _ => True
  | .int, q => ∃ n : ℤ, q = n
  | .bool, q => q = 0 ∨ q = 1

/-- The same array with its values stored as `t`. -/
def DA.stored (t : Dtype) (d : DA) : DA := ⟨d.dims, fun p => t.cast (d.val p)⟩

theorem cast_zero (t : Dtype) : t.cast 0 = 0 := by cases t <;> simp [Dtype.cast]

/-- Storing changes a number exactly when it cannot be held. -/
theorem cast_eq_iff (t : Dtype) (q : ℚ) : t.cast q = q ↔ Fits t q := by
  cases t with
  | float => simp [Dtype.cast, Fits]
  | int =>
    simp only [Dtype.cast, Fits]
    constructor
    · intro h
      split at h
      · exact ⟨_, h.symm⟩
      · exact ⟨_, h.symm⟩
    · rintro ⟨n, rfl⟩
      simp
  | bool =>
    simp only [Dtype.cast, Fits]
    split
    · rename_i h; simp [h]
    · rename_i h; simp [h, eq_comm]

/-- What is stored can be held, -/
theorem cast_fits (t : Dtype) (q : ℚ) : Fits t (t.cast q) := by
  cases t with
  | float => trivial
  | int =>
    simp only [Dtype.cast, Fits]
    split
    · exact ⟨_, rfl⟩
    · exact ⟨_, rfl⟩
  | bool => simp only [Dtype.cast, Fits]; split <;> simp

/-- and an integer is less than one away, towards zero. -/
theorem cast_int_near (q : ℚ) : |q - Dtype.int.cast q| < 1 ∧ |Dtype.int.cast q| ≤ |q| := by
  simp only [Dtype.cast]
  split
  · rename_i h
    have h1 := Int.floor_le q
    have h2 := Int.lt_floor_add_one q
    have h3 : (0 : ℚ) ≤ ⌊q⌋ := by exact_mod_cast Int.floor_nonneg.mpr h
    rw [abs_of_nonneg (by linarith), abs_of_nonneg h3, abs_of_nonneg h]
    exact ⟨by linarith, h1⟩
  · rename_i h
    have h0 : q < 0 := not_le.mp h
    have h1 := Int.le_ceil q
    have h2 := Int.ceil_lt_add_one q
    have h3 : ((⌈q⌉ : ℤ) : ℚ) ≤ 0 := by exact_mod_cast Int.ceil_nonpos.mpr h0.le
    rw [abs_of_nonpos (by linarith), abs_of_nonpos h3, abs_of_neg h0]
    exact ⟨by linarith, by linarith⟩

/-! ### Storing and stacking commute -/

def storedArr (t : Dtype) (a : Arr) : Arr := ⟨a.shape, a.data.map t.cast⟩

theorem lookup_zip_map (t : Dtype) (is : List Nat) : ∀ (ks : List (List Nat)) (vs : List ℚ),
    (ks.zip (vs.map t.cast)).lookup is = ((ks.zip vs).lookup is).map t.cast
  | [], vs => by simp
  | k :: ks, [] => by simp
  | k :: ks, v :: vs => by
    simp only [List.map_cons, List.zip_cons_cons, List.lookup_cons]
    split
    · rfl
    · exact lookup_zip_map t is ks vs

theorem at_stored (t : Dtype) (a : Arr) (is : List Nat) : ((storedArr t a).at is).getD 0 = t.cast ((a.at is).getD 0) := by
  simp only [storedArr, Arr.at, lookup_zip_map]
  cases ((ndindex a.shape).zip a.data).lookup is with
  | none => simp [cast_zero]
  | some q => rfl

def storedAll (t : Dtype) (acc : List (List Nat × Arr)) : List (List Nat × Arr) := acc.map (fun x => (x.1, storedArr t x.2))

theorem lookup_storedAll (t : Dtype) (l : List Nat) : ∀ acc, (storedAll t acc).lookup l = (acc.lookup l).map (storedArr t)
  | [] => rfl
  | (k, a) :: acc => by
    simp only [storedAll, List.map_cons, List.lookup_cons]
    split
    · rfl
    · exact lookup_storedAll t l acc

theorem stacked_stored (t : Dtype) (loop : List (String × Nat)) (outs : List String) (shape : List Nat) (acc : List (List Nat × Arr)) :
    stacked loop outs shape (storedAll t acc) = (stacked loop outs shape acc).stored t := by
  simp only [stacked, DA.stored, DA.mk.injEq, true_and]
  funext p
  rw [lookup_storedAll]
  cases acc.lookup (loop.map (fun x => p x.1)) with
  | none => simp [cast_zero]
  | some a => exact at_stored t a _

theorem vectorize_typed {G : Type} (t : Dtype) (f : Method G) (d : DA) (ins : List String) (ok : List Nat → Bool) :
    ∀ (ls : List (List Nat)) (acc : List (List Nat × Arr)) (shape : Option (List Nat)) (g : G),
      vectorize (typed t f) d ins ok ls (storedAll t acc) shape g
        = (vectorize f d ins ok ls acc shape g).map (fun r => (storedAll t r.1, r.2))
  | [], acc, shape, g => rfl
  | l :: ls, acc, shape, g => by
    simp only [vectorize, typed]
    cases hf : f (d.slice ins l) with
    | error e => rfl
    | ok r =>
      obtain ⟨a, g'⟩ := r
      simp only [bind, Except.bind]
      split
      · have := vectorize_typed t f d ins ok ls (acc ++ [(l, a)]) (some a.shape) g'
        simp only [storedAll, List.map_append, List.map_cons, List.map_nil, storedArr] at this
        simp only [storedAll, storedArr]
        exact this
      · rfl

theorem applyUfunc_typed {G : Type} (t : Dtype) (f : Method G) (g0 : G) (d : DA) (ins outs : List String) :
    applyUfunc (typed t f) g0 d ins outs = (applyUfunc f g0 d ins outs).map (fun r => (r.1.stored t, r.2)) := by
  unfold applyUfunc
  split
  · have := vectorize_typed t f d ins (fits d ins outs (ins.all outs.contains && outs.all ins.contains))
      (ndindex ((d.loop ins).map Prod.snd)) [] none g0
    simp only [storedAll, List.map_nil] at this
    simp only [bind, Except.bind, this]
    cases vectorize f d ins (fits d ins outs (ins.all outs.contains && outs.all ins.contains))
      (ndindex ((d.loop ins).map Prod.snd)) [] none g0 with
    | error e => rfl
    | ok r =>
      obtain ⟨acc, shape, g⟩ := r
      simp only [Except.map]
      cases shape with
      | none => rfl
      | some s =>
        simp only [pure, Except.pure, Except.ok.injEq, Prod.mk.injEq, and_true]
        exact stacked_stored t (d.loop ins) outs s acc
  · rfl

theorem attachAll_stored (t : Dtype) (geo : Geo) (d : DA) : ∀ cs, attachAll geo (d.stored t) cs = attachAll geo d cs
  | [] => rfl
  | c :: cs => by
    simp only [attachAll, attachAll_stored t geo d cs]
    rfl

/-- Regridding data of type `t` stores the values of the interpolation as `t`; everything else is the same. -/
theorem regrid_typed {G : Type} (t : Dtype) (grid : G → M Grid) (f : Method G) (out : G) (d : DA) (i j : Option (List String)) :
    regrid grid (typed t f) out d i j = (regrid grid f out d i j).map (fun r => (r.1.stored t, r.2)) := by
  unfold regrid
  simp only [bind, Except.bind]
  cases grid out with
  | error e => rfl
  | ok geo =>
    simp only []
    cases dimsOr i (inGeoDims d.names) with
    | error e => rfl
    | ok ins =>
      simp only []
      cases dimsOr j (geoDims geo) with
      | error e => rfl
      | ok outs =>
        simp only [applyUfunc_typed]
        cases applyUfunc f out d ins outs with
        | error e => rfl
        | ok r =>
          obtain ⟨o, g⟩ := r
          simp only [Except.map]
          cases grid g with
          | error e => rfl
          | ok geo' =>
            simp only []
            cases coords geo' with
            | error e => rfl
            | ok cs =>
              simp only [addGeo, bind, Except.bind, attachAll_stored]
              cases attachAll cs o cs.coords <;> rfl

theorem regridTyped_eq (t : Dtype) (find : Lookup) (canon : Dict → M Dict) (grid : Dict → M Grid) (attr kwarg acc out : Option Dict)
    (kw : Regrid.Kw) (d : DA) (i j : Option (List String)) :
    regridTyped t find canon grid attr kwarg acc out kw d i j
      = (regridWeights find canon grid attr kwarg acc out kw d i j).map (fun r => (r.1.stored t, r.2)) := by
  unfold regridTyped regridWeights
  simp only [bind, Except.bind]
  cases inGrid attr kwarg acc with
  | error e => rfl
  | ok r =>
    simp only []
    cases canon r.1 with
    | error e => rfl
    | ok gi =>
      simp only []
      cases out with
      | none => rfl
      | some go => exact regrid_typed t grid _ go d i j

/-! ### The claim -/

/-- The value the weights give at a point of the target and a position along the other dimensions. -/
def wanted (z : Regrid.Csr ℚ) (shape : List Nat) (ins outs : List String) (d : DA) (q : String → Nat) : ℚ :=
  ∑ k ∈ range z.cols, z.weight (Regrid.offset shape (outs.map q)) k * (sliceAt d ins q).data.getD k 0

/-- A position along the other dimensions and a point of the target. -/
def Position (d : DA) (ins outs : List String) (shape : List Nat) (q : String → Nat) : Prop :=
  (∀ x ∈ d.dims, x.1 ∉ ins → q x.1 < x.2) ∧ Regrid.Inside shape (outs.map q)

/-- C120, the exact extent: the array that is returned has the weighted sum at a point exactly where the type of the data can hold it. What
it has always fits the type; with integers it is less than one away, towards zero. -/
theorem C120_values_partial (t : Dtype) (find : Lookup) (hwf : ∀ gi go m z shape, find gi go m = .ok (some (z, shape)) → z.WF)
    (canon : Dict → M Dict) (grid : Dict → M Grid) (attr kwarg acc out : Option Dict) (kw : Regrid.Kw) (d : DA) (hd : Proper d)
    (i j : Option (List String)) (o : DA) (cs : List (String × Var))
    (h : regridTyped t find canon grid attr kwarg acc out kw d i j = .ok (o, cs)) :
    ∃ g gi go z shape ins outs, InputGrid attr kwarg acc g ∧ canon g = .ok gi ∧ out = some go ∧
      find gi go kw.interpolation = .ok (some (z, shape)) ∧
      (i = some ins ∨ i = none ∧ LastDims d.names ins) ∧ (j = some outs ∨ j = none ∧ ∃ gr, grid go = .ok gr ∧ GridDims gr outs) ∧
      o.dims = d.dims.filter (fun x => decide (x.1 ∉ ins)) ++ outs.zip shape ∧
      ∀ q, Position d ins outs shape q →
        (o.val q = wanted z shape ins outs d q ↔ Fits t (wanted z shape ins outs d q)) ∧ Fits t (o.val q) ∧
        (t = .int → |wanted z shape ins outs d q - o.val q| < 1 ∧ |o.val q| ≤ |wanted z shape ins outs d q|) := by
  rw [regridTyped_eq] at h
  cases hr : regridWeights find canon grid attr kwarg acc out kw d i j with
  | error e => rw [hr] at h; cases h
  | ok r =>
    obtain ⟨o', cs'⟩ := r
    rw [hr] at h
    simp only [Except.map, Except.ok.injEq, Prod.mk.injEq] at h
    obtain ⟨rfl, rfl⟩ := h
    obtain ⟨g, gi, go, z, shape, ins, outs, h1, h2, h3, h4, h5, h6, _, h7, h8⟩ :=
      C108_values find hwf canon grid attr kwarg acc out kw d hd i j o' cs' hr
    refine ⟨g, gi, go, z, shape, ins, outs, h1, h2, h3, h4, h5, h6, h7, ?_⟩
    rintro q ⟨hq1, hq2⟩
    have e : (o'.stored t).val q = t.cast (wanted z shape ins outs d q) := congrArg t.cast (h8 q hq1 hq2)
    rw [e]
    refine ⟨cast_eq_iff t _, cast_fits t _, ?_⟩
    rintro rfl
    exact cast_int_near _

/-- C120: floating-point data is not touched by this: nothing is stored differently. -/
theorem C120_float (find : Lookup) (canon : Dict → M Dict) (grid : Dict → M Grid) (attr kwarg acc out : Option Dict) (kw : Regrid.Kw)
    (d : DA) (i j : Option (List String)) :
    regridTyped .float find canon grid attr kwarg acc out kw d i j = regridWeights find canon grid attr kwarg acc out kw d i j := by
  rw [regridTyped_eq]
  cases regridWeights find canon grid attr kwarg acc out kw d i j <;> rfl

/-- C120: the type decides nothing but the values: the same calls are refused, with the same dimensions and coordinates otherwise. -/
theorem C120_same_calls (t u : Dtype) (find : Lookup) (canon : Dict → M Dict) (grid : Dict → M Grid) (attr kwarg acc out : Option Dict)
    (kw : Regrid.Kw) (d : DA) (i j : Option (List String)) :
    (∀ e, regridTyped t find canon grid attr kwarg acc out kw d i j = .error e ↔
      regridTyped u find canon grid attr kwarg acc out kw d i j = .error e) ∧
    ∀ o cs, regridTyped t find canon grid attr kwarg acc out kw d i j = .ok (o, cs) →
      ∃ o', regridTyped u find canon grid attr kwarg acc out kw d i j = .ok (o', cs) ∧ o'.dims = o.dims := by
  rw [regridTyped_eq, regridTyped_eq]
  cases regridWeights find canon grid attr kwarg acc out kw d i j with
  | error e => exact ⟨fun e' => Iff.rfl, fun o cs h => by cases h⟩
  | ok r =>
    refine ⟨fun e' => ⟨fun h => (by cases h), fun h => (by cases h)⟩, fun o cs h => ?_⟩
    simp only [Except.map, Except.ok.injEq, Prod.mk.injEq] at h
    obtain ⟨rfl, rfl⟩ := h
    exact ⟨_, rfl, rfl⟩

/-! ### Integers -/

/-- Weights for the mean of two points. -/
def mean : Regrid.Csr ℚ := ⟨1, 2, [0, 2], [0, 1], [1 / 2, 1 / 2]⟩

theorem mean_wf : mean.WF where
  ptrs := rfl
  start := by simp [mean]
  mono := by
    intro i j a b hij h1 h2
    simp only [mean] at h1 h2
    rcases i with _ | _ | i <;> rcases j with _ | _ | j <;> simp at h1 h2 <;> omega
  last := rfl
  sizes := rfl
  inside := by simp [mean]

def means : Lookup := fun _ _ _ => .ok (some (mean, [1]))

theorem means_wf (gi go : Dict) (m : List Char) (z : Regrid.Csr ℚ) (shape : List Nat) (h : means gi go m = .ok (some (z, shape))) : z.WF := by
  simp only [means, Except.ok.injEq, Option.some.injEq, Prod.mk.injEq] at h
  rw [← h.1]; exact mean_wf

/-- One point. -/
def point : Grid := ⟨[1], .ok ([0], [0])⟩

/-- Two integers, 2 and 3. -/
def pair : DA := ⟨[("values", 2)], fun p => if p "values" = 0 then 2 else 3⟩

theorem pair_proper : Proper pair := by
  simp only [Proper, pair, DA.names]
  refine ⟨by decide, ?_⟩
  intro p q h
  simp only [List.map_cons, List.map_nil, List.mem_singleton, forall_eq] at h
  rw [h]

/-- C120 fails for integers: of 2 and 3, the mean is 5/2 in an array of floats and 2 in one of integers. -/
theorem C120_refuted : ∃ o o' : DA, ∃ cs,
    regridTyped .float means .ok (fun _ => .ok point) none (some (spec 'a')) none (some (spec 'b')) ⟨"linear".toList, []⟩ pair none none = .ok (o, cs) ∧
    regridTyped .int means .ok (fun _ => .ok point) none (some (spec 'a')) none (some (spec 'b')) ⟨"linear".toList, []⟩ pair none none = .ok (o', cs) ∧
    o.val (fun _ => 0) = 5 / 2 ∧ o'.val (fun _ => 0) = 2 := by
  refine ⟨_, _, _, rfl, rfl, ?_, ?_⟩ <;> decide +kernel

/-- So the hypotheses of `C120_values_partial` hold for integers, with a sum that does not fit. -/
example : ¬ Fits .int (wanted mean [1] ["values"] ["values"] pair (fun _ => 0)) := by
  have e : wanted mean [1] ["values"] ["values"] pair (fun _ => 0) = 5 / 2 := by decide +kernel
  rw [e]
  rintro ⟨n, hn⟩
  have : (5 : ℚ) = ((2 * n : ℤ) : ℚ) := by push_cast; linarith
  have : (5 : ℤ) = 2 * n := by exact_mod_cast this
  omega

example : Position pair ["values"] ["values"] [1] (fun _ => 0) := by
  refine ⟨by simp [pair], ?_⟩
  exact .cons (by decide) .nil

example : ∀ p, Fits .int (pair.val p) := by
  intro p
  simp only [pair]
  split
  · exact ⟨2, by norm_num⟩
  · exact ⟨3, by norm_num⟩

/-- `C120_values_partial`, `C120_same_calls`: the mean of the two integers. -/
example : ∃ (o : DA) (cs : List (String × Var)), regridTyped .int means .ok (fun _ => .ok point) none (some (spec 'a')) none (some (spec 'b'))
      ⟨"linear".toList, []⟩ pair none none = .ok (o, cs) ∧
    (∃ o', regridTyped .bool means .ok (fun _ => .ok point) none (some (spec 'a')) none (some (spec 'b')) ⟨"linear".toList, []⟩ pair none none
      = .ok (o', cs) ∧ o'.dims = o.dims) := by
  obtain ⟨-, o, cs, -, h, -⟩ := C120_refuted
  exact ⟨o, cs, h, (C120_same_calls .int .bool means .ok (fun _ => .ok point) none (some (spec 'a')) none (some (spec 'b')) ⟨"linear".toList, []⟩
    pair none none).2 o cs h⟩

/-- `C120_float`: with floats it is the regrid of `C108_values`. -/
example : regridTyped .float means .ok (fun _ => .ok point) none (some (spec 'a')) none (some (spec 'b')) ⟨"linear".toList, []⟩ pair none none =
    regridWeights means .ok (fun _ => .ok point) none (some (spec 'a')) none (some (spec 'b')) ⟨"linear".toList, []⟩ pair none none :=
  C120_float means .ok _ none _ none _ _ pair none none

end Verif.Xarray

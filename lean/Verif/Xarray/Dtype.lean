import Mathlib.Data.Rat.Floor
import Verif.Xarray.Weights

/-!
# The type of the data — data/xarray.py:315-330

`apply_ufunc(..., vectorize=True, output_dtypes=[da.dtype])` makes the results of the type of the data: numpy's `vectorize` stores what the
function returns in an array of that type. For integers this cuts off the fraction, for bool everything but 0 is True. Floats are exact
here; integers do not overflow.
-/

namespace Verif.Xarray
open Verif.GridSpec (Dict)

/-- Kinds of numpy types. -/
inductive Dtype where
  | float | int | bool
  deriving DecidableEq

/-- Storing a float in an array of a type. -/
def Dtype.cast : Dtype → ℚ → ℚ
  | .float, q => q
  | .int, q => if 0 ≤ q then (⌊q⌋ : ℚ) else (⌈q⌉ : ℚ)
  | .bool, q => if q = 0 then 0 else 1

/-- The function mapped over the slices, its results stored in an array of type `t` — xarray.py:315-330 (`output_dtypes`). -/
def typed {G : Type} (t : Dtype) (f : Method G) : Method G := fun a =>
  match f a with
  | .ok (b, g) => .ok (⟨b.shape, b.data.map t.cast⟩, g)
  | .error e => .error e

/-- `XarrayDataHandler.regrid` of a data array of type `t` with precomputed weights — xarray.py:265-345 -/
def regridTyped (t : Dtype) (find : Lookup) (canon : Dict → M Dict) (grid : Dict → M Grid) (attr kwarg acc out : Option Dict) (kw : Regrid.Kw)
    (d : DA) (inDims outDims : Option (List String)) : M (DA × List (String × Var)) := do
  let (g, rest) ← inGrid attr kwarg acc
  let gi ← canon g
  match out with
  | none => .error .value
  | some go => regrid grid (typed t (weightsMethod find gi go (leftOver kw rest))) go d inDims outDims

end Verif.Xarray

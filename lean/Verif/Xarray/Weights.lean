import Verif.Xarray.Model
import Verif.Regrid.Handlers

/-!
# xarray data and precomputed weights, end to end

data/xarray.py with data/numpy.py and backends/precomputed.py: the function that `apply_ufunc` maps over the slices is the array handler
with the precomputed backend. The lookup of weights (`find`, db.py) is a parameter here; it is modelled in `Verif.Index` and `Verif.Regrid.Pipeline`.
-/

namespace Verif.Xarray
open Verif.GridSpec (Dict)

/-- Weights and the shape of the target for two grids and a method: `MatrixDb.find`, as a function (an inventory that does not change). -/
abbrev Lookup (α : Type := ℚ) := Dict → Dict → List Char → Except Regrid.Err (Option (Regrid.Csr α × List Nat))

variable {α : Type} [Zero α] [Add α] [Mul α]

/-- `_RegridMethod.__call__` — xarray.py:298-311, through `NumpyDataHandler.regrid` (numpy.py:24-28) to `MatrixBackend.regrid`
(precomputed.py:22-40). Simplified: the backend is found (C50), exceptions of the backend are not told apart. -/
def weightsMethod (find : Lookup α) (gi go : Dict) (kw : Regrid.Kw) : Method Dict α := fun a =>
  match ((Regrid.matrixBackend (B := Unit) (fun x y m (s : Unit) => (find x y m, s))).regrid ⟨a.shape, a.data⟩ gi go kw ()).1 with
  | .ok (y, g) => .ok (⟨y.shape, y.flat⟩, g)
  | .error _ => .error .other

/-- What is left of the keyword arguments: a `grid_spec` that was not taken stays among them (its value is of no account here). -/
def leftOver (kw : Regrid.Kw) (rest : Option Dict) : Regrid.Kw :=
  match rest with
  | some _ => { kw with extra := kw.extra ++ [("grid_spec", .none)] }
  | none => kw

/-- `XarrayDataHandler.regrid` of a data array with precomputed weights — xarray.py:265-345. `canon`: the gridspec MIR gives for the input
grid (`GridWrapper`, xarray.py:21-44); `grid`: the geography of a target (`XarrrayGeographyBuilder`). -/
def regridWeights (find : Lookup α) (canon : Dict → M Dict) (grid : Dict → M Grid) (attr kwarg acc out : Option Dict) (kw : Regrid.Kw)
    (d : DA α) (inDims outDims : Option (List String)) : M (DA α × List (String × Var)) := do
  let (g, rest) ← inGrid attr kwarg acc
  let gi ← canon g
  match out with
  | none => .error .value
  | some go => regrid grid (weightsMethod find gi go (leftOver kw rest)) go d inDims outDims

end Verif.Xarray

import Verif.Xarray.Weights
import Verif.Regrid.Pipeline

/-!
# xarray data with the weights of an inventory

data/xarray.py over backends/db.py: the lookup of weights goes through the in-memory cache, which every slice may change. One thread.
-/

namespace Verif.Xarray
open Verif.GridSpec (Dict)

section
variable {G α S : Type}

/-- `_RegridMethod` as a function with a state: the caches behind it. -/
abbrev MethodS (G S : Type) (α : Type := ℚ) := Arr α → S → M (Arr α × G) × S

/-- numpy's `vectorize` — as `vectorize`, with the state passed from call to call; it stays when a call raises. -/
def vectorizeS (f : MethodS G S α) (d : DA α) (inDims : List String) (ok : List Nat → Bool) :
    List (List Nat) → List (List Nat × Arr α) → Option (List Nat) → G → S → M (List (List Nat × Arr α) × Option (List Nat) × G) × S
  | [], acc, shape, g, s => (.ok (acc, shape, g), s)
  | l :: ls, acc, shape, _, s =>
    match f (d.slice inDims l) s with
    | (.error e, s) => (.error e, s)
    | (.ok (a, g), s) =>
      if ok a.shape && (shape == none || shape == some a.shape) then vectorizeS f d inDims ok ls (acc ++ [(l, a)]) (some a.shape) g s
      else (.error .value, s)

/-- `xr.apply_ufunc` as called here — xarray.py:315-330, with `exclude_dims` of 292-294 -/
def applyUfuncS [Zero α] (f : MethodS G S α) (g0 : G) (d : DA α) (inDims outDims : List String) (s : S) : M (DA α × G) × S :=
  if inDims.all d.names.contains && inDims.Nodup && outDims.Nodup && (d.loop inDims).all (fun x => !outDims.contains x.1) then
    let excluded := inDims.all outDims.contains && outDims.all inDims.contains
    let loop := d.loop inDims
    match vectorizeS f d inDims (fits d inDims outDims excluded) (ndindex (loop.map Prod.snd)) [] none g0 s with
    | (.error e, s) => (.error e, s)
    | (.ok (_, none, _), s) => (.error .value, s)
    | (.ok (acc, some sh, g), s) => (.ok (stacked loop outDims sh acc, g), s)
  else (.error .value, s)

/-- What follows the interpolation: the geography of the grid it reports — xarray.py:337-345 -/
def withGeo (grid : G → M Grid) (r : DA α × G) : M (DA α × List (String × Var)) := do
  let geo' ← grid r.2
  let cs ← coords geo'
  addGeo cs r.1

/-- `regrid` of a data array — xarray.py:265-345 -/
def regridS [Zero α] (grid : G → M Grid) (f : MethodS G S α) (out : G) (d : DA α) (inDims outDims : Option (List String)) (s : S) :
    M (DA α × List (String × Var)) × S :=
  match grid out with
  | .error e => (.error e, s)
  | .ok geo =>
    match dimsOr inDims (inGeoDims d.names) with
    | .error e => (.error e, s)
    | .ok ins =>
      match dimsOr outDims (geoDims geo) with
      | .error e => (.error e, s)
      | .ok outs =>
        match applyUfuncS f out d ins outs s with
        | (.error e, s) => (.error e, s)
        | (.ok r, s) => (withGeo grid r, s)

end

open Regrid (World Inventory Csr)

/-- The in-memory cache. -/
abbrev Cache (α : Type) := MemCache.Cache (List Char) (Csr α) (List Nat)

variable {α : Type} [Zero α] [Add α] [Mul α]

/-- `_RegridMethod.__call__` — xarray.py:298-311 with the inventory's `find` (db.py:452-477). -/
def storedMethod (w : World) (sizeFn : Csr α → Nat) (inv : Inventory α) (gi go : Dict) (kw : Regrid.Kw) : MethodS Dict (Cache α) α := fun a s =>
  match (Regrid.matrixBackend (B := Unit) (Regrid.dbFind w sizeFn inv)).regrid ⟨a.shape, a.data⟩ gi go kw s with
  | (.ok (y, g), s) => (.ok (⟨y.shape, y.flat⟩, g), s)
  | (.error _, s) => (.error .other, s)

/-- `XarrayDataHandler.regrid` of a data array — xarray.py:265-345 with the inventory `inv`. `canon`, `grid`: as in `regridWeights`. -/
def regridStored (w : World) (sizeFn : Csr α → Nat) (inv : Inventory α) (canon : Dict → M Dict) (grid : Dict → M Grid)
    (attr kwarg acc out : Option Dict) (kw : Regrid.Kw) (d : DA α) (inDims outDims : Option (List String)) (s : Cache α) :
    M (DA α × List (String × Var)) × Cache α :=
  match inGrid attr kwarg acc with
  | .error e => (.error e, s)
  | .ok (g, rest) =>
    match canon g with
    | .error e => (.error e, s)
    | .ok gi =>
      match out with
      | none => (.error .value, s)
      | some go => regridS grid (storedMethod w sizeFn inv gi go (leftOver kw rest)) go d inDims outDims s

end Verif.Xarray

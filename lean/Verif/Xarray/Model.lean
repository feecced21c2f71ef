import Mathlib.Data.Rat.Init
import Mathlib.Algebra.Order.Field.Rat
import Mathlib.Data.List.Basic

/-!
# Model of src/earthkit/regrid/data/xarray.py

MIR's `Grid` is a parameter: a shape, and what `to_latlons` gives. Floats are exact rationals (no NaN). Of xarray the model has named
dimensions with sizes, `apply_ufunc(..., vectorize=True)` (numpy's `vectorize` loop over all positions along the dimensions that are
not core dimensions), and the assignment of coordinates. Attributes, other coordinates, dask and dtypes are outside the model.
-/

namespace Verif.Xarray

inductive Err where
  | value | index | assertion | other
  deriving DecidableEq, Repr

abbrev M := Except Err

/-! ### Distinct latitudes and longitudes -/

/-- `np.diff` -/
def diff : List ℚ → List ℚ
  | a :: b :: r => (b - a) :: diff (b :: r)
  | _ => []

/-- `np.allclose(xs, b)` with its default tolerances -/
def allclose (xs : List ℚ) (b : ℚ) : Bool := xs.all (fun x => decide (|x - b| ≤ 1 / 100000000 + 1 / 100000 * |b|))

/-- One pass of the loops — xarray.py:65-72, 83-90: `delta[0]` raises IndexError when there is no difference. -/
def start (vals : List ℚ) : M (Option ℚ) :=
  match vals, diff vals with
  | v :: _, d :: ds => .ok (if allclose (d :: ds) d then some v else none)
  | _, _ => .error .index

/-- The loops — xarray.py:64-73, 82-91 -/
def starts : List (List ℚ) → M (Option (List ℚ))
  | [] => .ok (some [])
  | r :: rs => do
    let a ← start r
    match a with
    | none => return none
    | some v =>
      let b ← starts rs
      return b.map (v :: ·)

/-- A 2-D array: its shape and its rows. -/
structure Mesh where
  rows : Nat
  cols : Nat
  row : List (List ℚ)

/-- `lons[:, i]` for each `i` -/
def Mesh.columns (m : Mesh) : List (List ℚ) := (List.range m.cols).map (fun j => m.row.map (fun r => r.getD j 0))

/-- `_distinct_lats` — xarray.py:57-74 -/
def distinctLats (m : Mesh) : M (Option (List ℚ)) := if m.rows > 0 then starts m.row else .ok none

/-- `_distinct_lons` — xarray.py:75-92 -/
def distinctLons (m : Mesh) : M (Option (List ℚ)) := if m.cols > 0 then starts m.columns else .ok none

def chunk : Nat → Nat → List ℚ → List (List ℚ)
  | 0, _, _ => []
  | r + 1, c, xs => xs.take c :: chunk r c (xs.drop c)

/-- `xs.reshape((r, c))` -/
def reshape (r c : Nat) (xs : List ℚ) : M Mesh := if xs.length = r * c then .ok ⟨r, c, chunk r c xs⟩ else .error .value

/-- MIR's grid. -/
structure Grid where
  shape : List Nat
  latlons : M (List ℚ × List ℚ)

/-- `to_distinct_latlons` — xarray.py:44-55 -/
def toDistinct (g : Grid) (fieldShape : List Nat) : M (Option (List ℚ × List ℚ)) :=
  match g.shape with
  | [r, c] => do
    let (la, lo) ← g.latlons
    let lat ← reshape r c la
    let lon ← reshape r c lo
    let dlat ← distinctLats lat
    match dlat with
    | none => return none
    | some dlat =>
      let dlon ← distinctLons lon
      match dlon with
      | none => return none
      | some dlon =>
        if fieldShape[0]? = some dlat.length ∧ fieldShape[1]? = some dlon.length then return some (dlat, dlon) else return none
  | _ => .ok none

/-! ### Coordinates -/

/-- A coordinate: its dimensions and its values (row by row). -/
structure Var where
  dims : List String
  data : List ℚ

/-- What `coords` returns. -/
structure Geo where
  dims : List (String × Nat)
  coords : List (String × Var)

/-- `dims[x]` -/
def sizeOf (dims : List (String × Nat)) (n : String) : Option Nat := dims.lookup n

/-- `math.prod` of the sizes -/
def prod (dims : List (String × Nat)) (ns : List String) : Nat := (ns.map (fun n => (sizeOf dims n).getD 0)).prod

/-- The final assertions — xarray.py:179-182 -/
def checked (g : Geo) : M Geo :=
  if g.coords.all (fun c => c.2.dims.all (fun n => (sizeOf g.dims n).isSome) && c.2.data.length == prod g.dims c.2.dims)
  then .ok g else .error .assertion

/-- Latitude and longitude along their own dimensions — xarray.py:140-160; `none`: not possible. Any exception is caught. -/
def tensor (g : Grid) (r c : Nat) : Option Geo :=
  match toDistinct g [r, c] with
  | .ok (some (lat, lon)) =>
    if lat.length = r ∧ lon.length = c then
      some ⟨[("latitude", lat.length), ("longitude", lon.length)], [("latitude", ⟨["latitude"], lat⟩), ("longitude", ⟨["longitude"], lon⟩)]⟩
    else none
  | _ => none

/-- Latitudes and longitudes of all points — xarray.py:162-175 -/
def curvilinear (g : Grid) (r c : Nat) : M Geo := do
  let (la, lo) ← g.latlons
  if la.length = r * c ∧ lo.length = r * c then
    return ⟨[("y", r), ("x", c)], [("latitude", ⟨["y", "x"], la⟩), ("longitude", ⟨["y", "x"], lo⟩)]⟩
  else .error .value

/-- Coordinates of a list of points; any exception of `to_latlons` is caught — xarray.py:129-138 -/
def unstructured (g : Grid) (n : Nat) : Geo :=
  match g.latlons with
  | .ok (la, lo) => ⟨[("values", n)], [("latitude", ⟨["values"], la⟩), ("longitude", ⟨["values"], lo⟩)]⟩
  | .error _ => ⟨[("values", n)], []⟩

/-- `coords` — xarray.py:116-184; grids are never spectral (41-42). -/
def coords (g : Grid) : M Geo :=
  match g.shape with
  | [n] => checked (unstructured g n)
  | [r, c] =>
    match tensor g r c with
    | some geo => checked geo
    | none => do
      let geo ← curvilinear g r c
      checked geo
  | _ => .error .value

/-- `geo_dims` — xarray.py:104-114 -/
def geoDims (g : Grid) : M (List String) :=
  if g.shape.length ≥ 2 then .ok ["latitude", "longitude"]
  else if g.shape.length = 1 then .ok ["values"]
  else .error .value

/-- `xr_geo_dims` on the names of the dimensions — xarray.py:187-199 -/
def inGeoDims (names : List String) : M (List String) :=
  match names.reverse with
  | "values" :: _ => .ok ["values"]
  | "longitude" :: "latitude" :: _ => .ok ["latitude", "longitude"]
  | _ => .error .value

/-! ### Named arrays and `apply_ufunc` -/

/-- All positions of an array of a shape, in order: `np.ndindex`. -/
def ndindex : List Nat → List (List Nat)
  | [] => [[]]
  | n :: ns => (List.range n).flatMap (fun i => (ndindex ns).map (i :: ·))

/-- A numpy array; `α` its elements. -/
structure Arr (α : Type := ℚ) where
  shape : List Nat
  data : List α

/-- `a[i, j, ...]` -/
def Arr.at {α : Type} (a : Arr α) (is : List Nat) : Option α := ((ndindex a.shape).zip a.data).lookup is

/-- A data array: dimensions in order, and its values by position along each of them. -/
structure DA (α : Type := ℚ) where
  dims : List (String × Nat)
  val : (String → Nat) → α

def DA.names {α : Type} (d : DA α) : List String := d.dims.map Prod.fst

def DA.size {α : Type} (d : DA α) (n : String) : Nat := (sizeOf d.dims n).getD 0

/-- Position `is` along the dimensions `names`, elsewhere `p`. -/
def place (p : String → Nat) : List String → List Nat → String → Nat
  | n :: ns, i :: is => fun m => if m = n then i else place p ns is m
  | _, _ => p

/-- Dimensions that are looped over. -/
def DA.loop {α : Type} (d : DA α) (inDims : List String) : List (String × Nat) := d.dims.filter (fun x => !inDims.contains x.1)

/-- The array handed to the function at one position of the loop. -/
def DA.slice {α : Type} (d : DA α) (inDims : List String) (l : List Nat) : Arr α :=
  let shape := inDims.map d.size
  ⟨shape, (ndindex shape).map (fun is => d.val (place (place (fun _ => 0) ((d.loop inDims).map Prod.fst) l) inDims is))⟩

/-- `_RegridMethod` (xarray.py:298-311) as a function: the values, and the grid they are on. -/
abbrev Method (G : Type) (α : Type := ℚ) := Arr α → M (Arr α × G)

/-- numpy's `vectorize` over the positions `ls`: results by position; all must have one shape. The grid of the last call stays. -/
def vectorize {G α : Type} (f : Method G α) (d : DA α) (inDims : List String) (ok : List Nat → Bool) :
    List (List Nat) → List (List Nat × Arr α) → Option (List Nat) → G → M (List (List Nat × Arr α) × Option (List Nat) × G)
  | [], acc, shape, g => .ok (acc, shape, g)
  | l :: ls, acc, shape, _ => do
    let (a, g) ← f (d.slice inDims l)
    if ok a.shape && (shape == none || shape == some a.shape) then vectorize f d inDims ok ls (acc ++ [(l, a)]) (some a.shape) g
    else .error .value

/-- The stacked results. -/
def stacked {α : Type} [Zero α] (loop : List (String × Nat)) (outDims : List String) (shape : List Nat) (acc : List (List Nat × Arr α)) : DA α :=
  ⟨loop ++ outDims.zip shape, fun p =>
    match acc.lookup (loop.map (fun x => p x.1)) with
    | some a => (a.at (outDims.map p)).getD 0
    | none => 0⟩

/-- Sizes a result may have: as many as there are output dimensions; a dimension that is also an input dimension keeps its size unless
it is excluded. -/
def fits {α : Type} (d : DA α) (inDims outDims : List String) (excluded : Bool) (shape : List Nat) : Bool :=
  shape.length == outDims.length &&
    (excluded || (outDims.zip shape).all (fun x => !inDims.contains x.1 || d.size x.1 == x.2))

/-- `xr.apply_ufunc` as called here — xarray.py:315-330, with `exclude_dims` of 292-294: the new array, and the grid kept by the
method. -/
def applyUfunc {G α : Type} [Zero α] (f : Method G α) (g0 : G) (d : DA α) (inDims outDims : List String) : M (DA α × G) :=
  if inDims.all d.names.contains && inDims.Nodup && outDims.Nodup &&
      (d.loop inDims).all (fun x => !outDims.contains x.1) then do
    let excluded := inDims.all outDims.contains && outDims.all inDims.contains
    let loop := d.loop inDims
    let (acc, shape, g) ← vectorize f d inDims (fits d inDims outDims excluded) (ndindex (loop.map Prod.snd)) [] none g0
    match shape with
    | none => .error .value
    | some s => return (stacked loop outDims s acc, g)
  else .error .value

/-- `ds.coords[k] = xr.Variable(...)` on a data array: no new dimensions, sizes must agree — xarray.py:259-261. -/
def attachOne {α : Type} (geo : Geo) (d : DA α) (c : String × Var) : M Unit :=
  if c.2.dims.all (fun n => d.names.contains n && sizeOf geo.dims n == sizeOf d.dims n) then .ok () else .error .value

def attachAll {α : Type} (geo : Geo) (d : DA α) : List (String × Var) → M Unit
  | [] => .ok ()
  | c :: cs => do
    attachOne geo d c
    attachAll geo d cs

/-- `add_geo_coords` on a data array — xarray.py:251-263 -/
def addGeo {α : Type} (geo : Geo) (d : DA α) : M (DA α × List (String × Var)) := do
  attachAll geo d geo.coords
  return (d, geo.coords)

/-- Dimensions given by the caller, else the default — xarray.py:273-285 -/
def dimsOr (given : Option (List String)) (default : M (List String)) : M (List String) :=
  match given with
  | some ns => .ok ns
  | none => default

/-- `regrid` of a data array — xarray.py:265-345. `grid`: the geography of a gridspec (`XarrrayGeographyBuilder`). -/
def regrid {G α : Type} [Zero α] (grid : G → M Grid) (f : Method G α) (out : G) (d : DA α) (inDims outDims : Option (List String)) :
    M (DA α × List (String × Var)) := do
  let geo ← grid out
  let ins ← dimsOr inDims (inGeoDims d.names)
  let outs ← dimsOr outDims (geoDims geo)
  let (d', g') ← applyUfunc f out d ins outs
  let geo' ← grid g'
  let cs ← coords geo'
  addGeo cs d'

/-- Coordinates may bring new dimensions to a dataset; only sizes must agree. -/
def attachDataset {α : Type} (geo : Geo) (ds : List (String × DA α)) : M Unit :=
  if geo.coords.all (fun c => c.2.dims.all (fun n => ds.all (fun v => !v.2.names.contains n || sizeOf geo.dims n == sizeOf v.2.dims n)))
  then .ok () else .error .value

/-- The loop over the variables — xarray.py:332-335 -/
def regridVars {G α : Type} [Zero α] (f : Method G α) (ins outs : List String) : List (String × DA α) → G → M (List (String × DA α) × G)
  | [], g => .ok ([], g)
  | (n, v) :: vs, g => do
    let (v', g') ← applyUfunc f g v ins outs
    let (vs', g'') ← regridVars f ins outs vs g'
    return ((n, v') :: vs', g'')

/-- `regrid` of a dataset; `names`: all its dimensions. -/
def regridDataset {G α : Type} [Zero α] (grid : G → M Grid) (f : Method G α) (out : G) (names : List String) (ds : List (String × DA α))
    (inDims outDims : Option (List String)) : M (List (String × DA α) × List (String × Var)) := do
  let geo ← grid out
  let ins ← dimsOr inDims (inGeoDims names)
  let outs ← dimsOr outDims (geoDims geo)
  let (ds', g') ← regridVars f ins outs ds out
  let geo' ← grid g'
  let cs ← coords geo'
  attachDataset cs ds'
  return (ds', cs.coords)

/-! ### The input grid -/

/-- `get_in_grid` — xarray.py:218-236: the grid, and what is left of the keyword arguments for the interpolation. `attr`: the
attribute "gridspec"; `accessor`: what `ds.earthkit.grid_spec` gives, `none` without that accessor (AttributeError). -/
def inGrid {G : Type} (attr kwarg : Option G) (accessor : Option G) : M (G × Option G) :=
  match attr with
  | some g => .ok (g, kwarg)
  | none =>
    match kwarg with
    | some g => .ok (g, none)
    | none =>
      match accessor with
      | some g => .ok (g, none)
      | none => .error .value

end Verif.Xarray

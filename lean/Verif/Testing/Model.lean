import Mathlib.Data.Rat.Defs
import Mathlib.Algebra.Order.Ring.Abs
import Mathlib.Algebra.Order.Ring.Rat

/-!
# Comparisons used by the tests

utils/testing.py:87-161. Numbers are rationals or NaN (`none`), no infinities; times are counts or NaT (`none`). Coordinates are
one-dimensional; results on a global grid are a list of rows.
-/

namespace Verif.Testing

/-- How a comparison fails. -/
inductive Fail where
  | assertion | index | type | value | key
  deriving DecidableEq

/-- `assert condition`. -/
def check (b : Bool) : Except Fail Unit := if b then .ok () else .error .assertion

/-- Relative and absolute tolerance. -/
structure Tol where
  rtol : ℚ
  atol : ℚ
  deriving DecidableEq

/-- Defaults of `np.testing.assert_allclose`. -/
def Tol.default : Tol := ⟨1 / 10000000, 0⟩

/-- One element in `np.testing.assert_allclose` (`equal_nan=True`): |a - b| ≤ atol + rtol·|b|. -/
def closeNan (t : Tol) : Option ℚ → Option ℚ → Bool
  | none, none => true
  | some a, some b => decide (|a - b| ≤ t.atol + t.rtol * |b|)
  | _, _ => false

/-- `np.testing.assert_allclose(a, b)` for flat arrays: other lengths fail. -/
def assertClose (t : Tol) (a b : List (Option ℚ)) : Except Fail Unit :=
  check (a.length == b.length && (a.zip b).all fun p => closeNan t p.1 p.2)

/-- `v_ref.reshape(v_res.shape)` for r rows of c elements — utils/testing.py:94. -/
def reshape (r c : Nat) (v : List (Option ℚ)) : Except Fail (List (List (Option ℚ))) :=
  if v.length = r * c then .ok ((List.range r).map fun i => (v.drop (i * c)).take c) else .error .value

/-- `l[1:-1]`. -/
def inner {α : Type} (l : List α) : List α := (l.drop 1).dropLast

/-- `interpolation in ("nearest-neighbour", "nn", "nearest-neighbor")` — utils/testing.py:93. -/
def isNearest (m : String) : Bool := m == "nearest-neighbour" || m == "nn" || m == "nearest-neighbor"

/-- `compare_global_ll_results` — utils/testing.py:87-100. `res`: rows of the result, all of `c` elements; `ref`: the reference, flattened. -/
def compareResults (c : Nat) (res : List (List (Option ℚ))) (ref : List (Option ℚ)) (method : String) (t : Tol) : Except Fail Unit :=
  if isNearest method then do
    let ref ← reshape res.length c ref
    let some a0 := res.head? | .error .index
    let some b0 := ref.head? | .error .index
    assertClose ⟨10, 0⟩ a0 b0
    let some a1 := res.getLast? | .error .index
    assertClose ⟨10, 0⟩ a1 b0
    assertClose t (inner res).flatten (inner ref).flatten
  else assertClose t res.flatten ref

/-- Values of a coordinate, or given to compare it with. -/
inductive Vals where
  | strs (l : List String)
  | nums (l : List (Option ℚ))
  | times (l : List (Option Int))
  deriving DecidableEq

def Vals.length : Vals → Nat
  | .strs l => l.length
  | .nums l => l.length
  | .times l => l.length

/-- A dataset: its one-dimensional coordinates, sizes of dimensions, dimensions of its variables. -/
structure Ds where
  coords : List (String × Vals)
  sizes : List (String × Nat)
  vars : List (String × List String)

/-- One element in `np.allclose` (`equal_nan=False`). -/
def close (t : Tol) : Option ℚ → Option ℚ → Bool
  | some a, some b => decide (|a - b| ≤ t.atol + t.rtol * |b|)
  | _, _ => false

/-- Comparison of times by `==`; NaT differs from everything. -/
def sameTime : Option Int → Option Int → Bool
  | some a, some b => a == b
  | _, _ => false

/-- The comparison of values in `compare_coord` — utils/testing.py:123-137. Line 137 compares the values with themselves. -/
def compareVals (vals ref : Vals) : Except Fail Unit := do
  if ref.length = 0 then throw .index
  match ref with
  | .strs r => match vals with
    | .strs l => check (l == r)
    | _ => throw .assertion
  | _ =>
    check (vals.length == ref.length)
    match vals with
    | .times l => match ref with
      | .times r => check ((l.zip r).all fun p => sameTime p.1 p.2)
      | _ => throw .assertion
    | .nums l => check ((l.zip l).all fun p => close ⟨1 / 100000, 1 / 100000000⟩ p.1 p.2)
    | .strs _ => throw .type

/-- `compare_coord` — utils/testing.py:117-137; `dim`: mode "dim". -/
def compareCoord (ds : Ds) (name : String) (ref : Vals) (dim : Bool) : Except Fail Unit := do
  let some vals := ds.coords.lookup name | throw .assertion
  if dim then
    let some n := ds.sizes.lookup name | throw .assertion
    check (n == ref.length)
  compareVals vals ref

/-- `compare_coords` — utils/testing.py:112-114. -/
def compareCoords (ds : Ds) (ref : List (String × Vals)) : Except Fail Unit := ref.forM fun kv => compareCoord ds kv.1 kv.2 false

/-- `compare_dim_order` with `check_coord=True` — utils/testing.py:140-155. -/
def compareDimOrder (ds : Ds) (dims : List String) (var : Option String) : Except Fail Unit :=
  match var with
  | none => .ok ()
  | some v =>
    match ds.vars.lookup v with
    | none => .error .key
    | some ds' => do
      let order := ds'.filter (fun d => dims.contains d)
      check (order.all fun d => (ds.coords.lookup d).isSome)
      check (order == dims)

/-- `compare_dim_size` — utils/testing.py:158-161. -/
def compareDimSize (ds : Ds) (dims : List (String × Nat)) : Except Fail Unit :=
  dims.forM fun kv => do
    let some n := ds.sizes.lookup kv.1 | throw .assertion
    check (n == kv.2)

/-- `compare_dims` with `sizes=False` — utils/testing.py:103-107. -/
def compareDims (ds : Ds) (ref : List (String × Vals)) (var : Option String) : Except Fail Unit := do
  compareDimOrder ds (ref.map Prod.fst) var
  ref.forM fun kv => compareCoord ds kv.1 kv.2 true

/-- `compare_dims` with `sizes=True` — utils/testing.py:103-109. -/
def compareDimsSizes (ds : Ds) (ref : List (String × Nat)) (var : Option String) : Except Fail Unit := do
  compareDimOrder ds (ref.map Prod.fst) var
  compareDimSize ds ref

end Verif.Testing

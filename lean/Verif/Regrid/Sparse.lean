import Mathlib.Algebra.BigOperators.Ring.Finset
import Mathlib.Algebra.BigOperators.Intervals
import Mathlib.Algebra.Order.BigOperators.Ring.Finset
import Mathlib.Tactic.Ring
import Mathlib.Tactic.Linarith

/-!
# Sparse matrices and arrays as the precomputed backend uses them — backends/precomputed.py:25-40

`scipy.sparse.load_npz` gives a CSR matrix; `z @ values` is scipy's `csr_matvecs`. Numbers are the elements of any commutative
ring (ordered field where order matters): rounding, NaN and the float types are not modelled. An array is its shape with its
elements in C order, which is what `reshape` preserves whatever the memory layout.
-/

namespace Verif.Regrid

/-- The fields of a scipy `csr_matrix`. -/
structure Csr (α : Type) where
  rows : Nat
  cols : Nat
  indptr : List Nat
  indices : List Nat
  data : List α

variable {α : Type}

def Csr.ptr (m : Csr α) (i : Nat) : Nat := m.indptr.getD i 0

/-- The stored entries visited for row `i`: `jj` from `indptr[i]` to `indptr[i+1]`. -/
def Csr.row (m : Csr α) (i : Nat) : List (Nat × α) :=
  ((m.indices.zip m.data).drop (m.ptr i)).take (m.ptr (i + 1) - m.ptr i)

/-- The sum of one row: `for jj in row: sum += data[jj] * x[indices[jj]]`. -/
def Csr.dot [Zero α] [Add α] [Mul α] (m : Csr α) (x : List α) (i : Nat) : α :=
  (m.row i).foldl (fun s e => s + e.2 * x.getD e.1 0) 0

inductive Err where
  /-- ValueError -/
  | value
  /-- KeyError -/
  | key
  /-- TypeError -/
  | type
  /-- AttributeError -/
  | attribute
  /-- AssertionError -/
  | assertion
  /-- IndexError -/
  | index
  /-- an exception of another component -/
  | other
  deriving DecidableEq, Repr

/-- `z @ values` for a column: refused on a dimension mismatch. -/
def Csr.mul [Zero α] [Add α] [Mul α] (m : Csr α) (x : List α) : Except Err (List α) :=
  if x.length = m.cols then .ok ((List.range m.rows).map (m.dot x)) else .error .value

/-- A numpy array. -/
structure Arr (α : Type) where
  shape : List Nat
  flat : List α

/-- `values.reshape(shape)` for a shape without negative numbers. -/
def Arr.reshape (a : Arr α) (shape : List Nat) : Except Err (Arr α) :=
  if shape.prod = a.flat.length then .ok ⟨shape, a.flat⟩ else .error .value

/-- `MatrixBackend.regrid` after the lookup — precomputed.py:28-40; `found`: the result of `db.find`, a matrix and a shape. -/
def applyWeights [Zero α] [Add α] [Mul α] {G : Type} (found : Option (Csr α × List Nat)) (values : Arr α) (outGrid : G) :
    Except Err (Arr α × G) :=
  match found with
  | none => .error .value
  | some (z, shape) => do
    let column ← z.mul values.flat
    let r ← Arr.reshape ⟨[column.length, 1], column⟩ shape
    return (r, outGrid)

end Verif.Regrid

import Verif.Regrid.Sparse

/-! # What the fields of a sparse matrix and the elements of an array mean (for C46, C47) -/

namespace Verif.Regrid
variable {α : Type}
open Finset

/-- A well-formed CSR matrix. -/
structure Csr.WF (m : Csr α) : Prop where
  ptrs : m.indptr.length = m.rows + 1
  start : ∀ p : Nat, m.indptr[0]? = some p → p = 0
  mono : ∀ i j a b : Nat, i ≤ j → m.indptr[i]? = some a → m.indptr[j]? = some b → a ≤ b
  last : m.indptr.getLast? = some m.indices.length
  sizes : m.indices.length = m.data.length
  inside : ∀ j ∈ m.indices, j < m.cols

/-- The positions stored for row `i`. -/
def Csr.slots (m : Csr α) (i : Nat) : Finset Nat := Ico (m.indptr.getD i 0) (m.indptr.getD (i + 1) 0)

/-- The matrix: weight of input point `j` for output point `i` (duplicates add up). -/
def Csr.weight [AddCommMonoid α] (m : Csr α) (i j : Nat) : α :=
  ∑ k ∈ (m.slots i).filter (fun k => m.indices.getD k 0 = j), m.data.getD k 0

/-- Row `i` has a stored weight for input point `j`. -/
def Csr.Stores (m : Csr α) (i j : Nat) : Prop := ∃ k ∈ m.slots i, m.indices.getD k 0 = j

/-- Position of an element in C order. -/
def offset : List Nat → List Nat → Nat
  | _ :: shape, i :: idx => i * shape.prod + offset shape idx
  | _, _ => 0

/-- A multi-index of an array. -/
inductive Inside : List Nat → List Nat → Prop where
  | nil : Inside [] []
  | cons {n i : Nat} {shape idx : List Nat} (h : i < n) (t : Inside shape idx) : Inside (n :: shape) (i :: idx)

/-- The element at a multi-index. -/
def Arr.elem (a : Arr α) (idx : List Nat) : Option α := a.flat[offset a.shape idx]?

/-- The shape is that of the elements. -/
def Arr.Proper (a : Arr α) : Prop := a.flat.length = a.shape.prod

end Verif.Regrid

import Verif.Mir.Spec

/-!
# Reading MIR's cached matrices — src/earthkit/regrid/utils/mir.py:24-73

Weights stay bit patterns: no arithmetic is done on them. `csr_array((data, inner, outer), shape)` is modelled by the checks of
scipy's constructor (`check_format(full_check=False)` and `prune`), which keep the numbers.
-/

namespace Verif.Mir

open Verif.Regrid (Csr)

/-- The number of one element of an array of the given byte order. -/
def wordNat (little : Bool) (b : Bytes) : Nat := if little then beNat b.reverse else beNat b

/-- `np.frombuffer(b, dtype)` for elements of `size` bytes. -/
def frombuffer (little : Bool) (size : Nat) (b : Bytes) : Except Err (List Nat) :=
  if b.length % size = 0 then
    .ok ((List.range (b.length / size)).map fun i => wordNat little ((b.drop (i * size)).take size))
  else .error .value

/-- `{4: np.uint32}[size]` — mir.py:24-26 -/
def uintSize (size : Nat) : Except Err Nat := if size = 4 then .ok size else .error .key

/-- `{4: np.float32, 8: np.float64}[size]` — mir.py:29-31 -/
def floatSize (size : Nat) : Except Err Nat := if size = 4 ∨ size = 8 then .ok size else .error .key

/-- `csr_array((data, indices, indptr), shape=(rows, cols))` -/
def csrArray (rows cols : Nat) (data indices indptr : List Nat) : Except Err (Csr Nat) :=
  let nnz := indptr.getLastD 0
  if indptr.length ≠ rows + 1 then .error .value
  else if indptr.headD 0 ≠ 0 then .error .value
  else if indices.length ≠ data.length then .error .value
  else if nnz > indices.length then .error .value
  else .ok ⟨rows, cols, indptr, indices.take nnz, data.take nnz⟩

def readUlong (s : Bytes) : Except Err (Nat × Bytes) := readTagged TAG_UNSIGNED_LONG 4 s

def readLargeBlob (s : Bytes) : Except Err (Bytes × Bytes) := readBlob TAG_LARGE_BLOB 8 s

/-- The numbers in front of the blocks — mir.py:37-44 -/
structure Header where
  rows : Nat
  cols : Nat
  little : Bool
  indexSize : Nat
  scalarSize : Nat

def readHeader (s : Bytes) : Except Err (Header × Bytes) := do
  let (rows, s) ← readUlong s
  let (cols, s) ← readUlong s
  let (_, s) ← readUlong s
  let (little, s) ← readTagged TAG_INT 4 s
  let (indexSize, s) ← readUlong s
  let (scalarSize, s) ← readUlong s
  let (_, s) ← readUlong s
  return (⟨rows, cols, little ≠ 0, indexSize, scalarSize⟩, s)

/-- The three blocks — mir.py:46-48 -/
def readBlocks (s : Bytes) : Except Err ((Bytes × Bytes × Bytes) × Bytes) := do
  let (outer, s) ← readLargeBlob s
  let (inner, s) ← readLargeBlob s
  let (data, s) ← readLargeBlob s
  return ((outer, inner, data), s)

/-- From the blocks to the matrix — mir.py:50-65 -/
def assemble (h : Header) (b : Bytes × Bytes × Bytes) : Except Err (Csr Nat) := do
  let outer ← frombuffer h.little (← uintSize h.indexSize) b.1
  let inner ← frombuffer h.little (← uintSize h.indexSize) b.2.1
  let data ← frombuffer h.little (← floatSize h.scalarSize) b.2.2
  csrArray h.rows h.cols data inner outer

/-- `mir_cached_matrix_to_array` on the content of the file — mir.py:34-65 -/
def decode (s : Bytes) : Except Err (Csr Nat) := do
  let (h, s) ← readHeader s
  let (b, _) ← readBlocks s
  assemble h b

end Verif.Mir

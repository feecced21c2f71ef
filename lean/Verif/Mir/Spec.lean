import Verif.Regrid.Sparse
import Verif.Mir.Stream

/-!
# The file formats, stated without the readers and writers

MIR writes its cached matrices with eckit's stream; MIR is not part of the repository, the layout below is the one
mir.py:34-65 documents by its comments.
-/

namespace Verif.Mir

/-- Byte `i` of a number, counted from the least significant one. -/
def byteOf (n i : Nat) : UInt8 := UInt8.ofNat (n / 256 ^ i)

/-- A number as `size` bytes, least significant byte first. -/
def littleWord (size n : Nat) : Bytes := (List.range size).map (byteOf n)

/-- A number as `size` bytes, most significant byte first. -/
def bigWord (size n : Nat) : Bytes := (littleWord size n).reverse

def word (little : Bool) (size n : Nat) : Bytes := if little then littleWord size n else bigWord size n

def words (little : Bool) (size : Nat) (l : List Nat) : Bytes := (l.map (word little size)).flatten

/-- A tagged number. -/
def field (tag size n : Nat) : Bytes := UInt8.ofNat tag :: bigWord size n

/-- A tagged block of bytes, its length in front. -/
def block (tag size : Nat) (b : Bytes) : Bytes := field tag size b.length ++ b

/-- A matrix in MIR's cache: numbers of the header, row pointers, columns, and the bit patterns of the weights. -/
structure MirMatrix where
  rows : Nat
  cols : Nat
  nonZeros : Nat
  little : Bool
  scalarSize : Nat
  sizeSize : Nat
  outer : List Nat
  inner : List Nat
  data : List Nat

/-- The file MIR writes. -/
def MirMatrix.file (m : MirMatrix) : Bytes :=
  field 10 4 m.rows ++ field 10 4 m.cols ++ field 10 4 m.nonZeros ++ field 5 4 (if m.little then 1 else 0) ++
    field 10 4 4 ++ field 10 4 m.scalarSize ++ field 10 4 m.sizeSize ++
    block 21 8 (words m.little 4 m.outer) ++ block 21 8 (words m.little 4 m.inner) ++
    block 21 8 (words m.little m.scalarSize m.data)

/-- Numbers fit their fields and the arrays describe a compressed row matrix. -/
structure MirMatrix.Wf (m : MirMatrix) : Prop where
  rows : m.rows < 2 ^ 32
  cols : m.cols < 2 ^ 32
  nonZeros : m.nonZeros < 2 ^ 32
  scalar : m.scalarSize = 4 ∨ m.scalarSize = 8
  sizeSize : m.sizeSize < 2 ^ 32
  outerFits : ∀ x ∈ m.outer, x < 2 ^ 32
  innerFits : ∀ x ∈ m.inner, x < 2 ^ 32
  dataFits : ∀ x ∈ m.data, x < 2 ^ (8 * m.scalarSize)
  outerBytes : 4 * m.outer.length < 2 ^ 64
  innerBytes : 4 * m.inner.length < 2 ^ 64
  dataBytes : m.scalarSize * m.data.length < 2 ^ 64
  pointers : m.outer.length = m.rows + 1
  first : m.outer.head? = some 0
  last : m.outer.getLast? = some m.inner.length
  lengths : m.inner.length = m.data.length

/-! ### Items of a stream -/

/-- The bytes that stand for an item. -/
def Item.layout : Item → Bytes
  | .char c => 3 :: c
  | .uchar c => 4 :: c
  | .int n => field 5 4 n.toNat
  | .uint n => field 6 4 n.toNat
  | .long n => field 9 4 n.toNat
  | .ulong n => field 10 4 n.toNat
  | .longlong n => field 11 4 n.toNat
  | .ulonglong n => field 12 8 n.toNat
  | .double b => 14 :: (bigWord 4 (b.toNat % 4294967296) ++ bigWord 4 (b.toNat / 4294967296))
  | .string s => block 15 4 s

/-- The first byte of an item. -/
def Item.tag : Item → Nat
  | .char _ => 3
  | .uchar _ => 4
  | .int _ => 5
  | .uint _ => 6
  | .long _ => 9
  | .ulong _ => 10
  | .longlong _ => 11
  | .ulonglong _ => 12
  | .double _ => 14
  | .string _ => 15

/-- What the writers take: numbers below 2 ^ 32. -/
def Item.Fits : Item → Prop
  | .char c | .uchar c => c.length = 1
  | .int n | .uint n | .long n | .ulong n | .longlong n | .ulonglong n => 0 ≤ n ∧ n < 4294967296
  | .double _ => True
  | .string s => (s.length : Int) < 4294967296

/-- What the readers give back. -/
def Item.Readable : Item → Prop
  | .longlong _ | .double _ => False
  | _ => True

/-- A griddef file: a version, the number of points, and the coordinates of each point. -/
def griddefFile (points : List (UInt64 × UInt64)) : Bytes :=
  field 10 4 1 ++ field 10 4 points.length ++
    points.flatMap (fun p => (Item.double p.1).layout ++ (Item.double p.2).layout)

end Verif.Mir

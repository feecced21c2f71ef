import Verif.GridSpec.Model

/-! Specification vocabulary for gridspecs; written without the matching functions of the model. -/

namespace Verif.GridSpec
open Verif.Humanize

/-- Texts that differ only in the case of ascii letters. -/
def CaseVariant (a b : List Char) : Prop := a.map Char.toLower = b.map Char.toLower

/-- Grid values for which the documentation promises a type. -/
inductive Supported (P : Py) : Kind → V → Prop
  | ll (x y : V) : Supported P .ll (.list [x, y])
  | rgg (c d : Char) (r : List Char) : c ∈ ['O', 'o', 'N', 'n'] → P.C.isDigit d = true → Supported P .rgg (.str (c :: d :: r))
  | healpix (c d : Char) (r : List Char) : c ∈ ['H', 'h'] → P.C.isDigit d = true → Supported P .healpix (.str (c :: d :: r))
  | orca (pre ds tail : List Char) (c : Char) : pre ∈ [[], ['e']] → ds ≠ [] → (∀ x ∈ ds, P.C.isDigit x = true) →
      c ∈ ['F', 'T', 'U', 'V'] → tail ∈ [[], ['\n']] →
      Supported P .orca (.str (pre ++ "ORCA".toList ++ ds ++ '_' :: c :: tail))

/-- Tuples are read as lists (only the outermost level). -/
def asList : V → V
  | .tuple xs => .list xs
  | .none => .none
  | v => v

/-- The order in which the keys are compared may be any enumeration of the five keys. -/
def Enumerates (order : List String) : Prop := ∀ k, k ∈ order ↔ k ∈ COMPARE_KEYS

/-- What python takes for the number `q`. -/
inductive Number : V → ℚ → Prop
  | yes : Number (.bool true) 1
  | no : Number (.bool false) 0
  | int (i : Int) : Number (.int i) i
  | flt (q : ℚ) : Number (.flt q) q

/-- Values that are equal to python: numbers of one value whatever their type, sequences of one type item by item. -/
inductive Equal : V → V → Prop
  | none : Equal .none .none
  | str (s : List Char) : Equal (.str s) (.str s)
  | num {a b : V} {q : ℚ} : Number a q → Number b q → Equal a b
  | listNil : Equal (.list []) (.list [])
  | listCons {a b : V} {as bs : List V} : Equal a b → Equal (.list as) (.list bs) → Equal (.list (a :: as)) (.list (b :: bs))
  | tupleNil : Equal (.tuple []) (.tuple [])
  | tupleCons {a b : V} {as bs : List V} : Equal a b → Equal (.tuple as) (.tuple bs) → Equal (.tuple (a :: as)) (.tuple (b :: bs))

/-- Two values are numbers and equal. -/
def SameNum (a b : V) : Prop := ∃ q, a.num = some q ∧ b.num = some q

/-- `y` is the longitude `x` up to whole turns. -/
def Congruent (x y : ℚ) : Prop := ∃ k : ℤ, y = x + 360 * k

/-- The 25 listed global resolutions. -/
def LISTED : List ℚ := [5/100, 1/10, 125/1000, 15/100, 2/10, 25/100, 3/10, 4/10, 5/10, 6/10, 7/10, 75/100, 8/10, 9/10, 1,
  12/10, 125/100, 14/10, 15/10, 16/10, 18/10, 2, 25/10, 5, 10]

/-- The ordering a HEALPix description asks for. -/
def askedOrder (d : Dict) : V :=
  match d "ordering" with
  | some v => v
  | none => match d "order" with
    | some v => v
    | none => .str "ring".toList

/-- `{'grid': [x, y]}` -/
def shortSpec (x y : V) : Dict := fun k => if k = "grid" then some (.list [x, y]) else none

/-- `{'grid': [x, y], 'shape': shape, 'area': [n, w, s, e], 'global': 1}`: the inventory's description. -/
def fullSpec (x y shape n w s e : V) : Dict := fun k =>
  if k = "grid" then some (.list [x, y]) else if k = "shape" then some shape
  else if k = "area" then some (.list [n, w, s, e]) else if k = "global" then some (.int 1) else none

/-- Going east from `w` to `e` takes `d` degrees, less than a turn. -/
def Eastward (w e d : ℚ) : Prop := Congruent (e - w) d ∧ 0 ≤ d ∧ d < 360

end Verif.GridSpec

import Verif.Json.Model

/-!
Specification vocabulary: when two python values are the same JSON value, and which values are well formed.
Nothing here mentions the encoder.
-/

namespace Verif.Json

mutual
/-- Same JSON value: list/tuple spelling and dict item order do not matter, everything else does. -/
inductive JEq : J → J → Prop
  | null : JEq .null .null
  | bool (b : Bool) : JEq (.bool b) (.bool b)
  | int (i : Int) : JEq (.int i) (.int i)
  | float (r : List Char) : JEq (.float r) (.float r)
  | str (s : List Char) : JEq (.str s) (.str s)
  | ll {xs ys} : JEqL xs ys → JEq (.list xs) (.list ys)
  | lt {xs ys} : JEqL xs ys → JEq (.list xs) (.tuple ys)
  | tl {xs ys} : JEqL xs ys → JEq (.tuple xs) (.list ys)
  | tt {xs ys} : JEqL xs ys → JEq (.tuple xs) (.tuple ys)
  | obj {fs gs hs} : fs.Perm gs → JEqF gs hs → JEq (.obj fs) (.obj hs)
inductive JEqL : List J → List J → Prop
  | nil : JEqL [] []
  | cons {x y xs ys} : JEq x y → JEqL xs ys → JEqL (x :: xs) (y :: ys)
inductive JEqF : List (List Char × J) → List (List Char × J) → Prop
  | nil : JEqF [] []
  | cons {k v w fs gs} : JEq v w → JEqF fs gs → JEqF ((k, v) :: fs) ((k, w) :: gs)
end

/-- Characters of numeric texts (`NaN`, `Infinity` included). -/
def isNumChar (c : Char) : Bool :=
  ('0' ≤ c && c ≤ '9') || c = '-' || c = '+' || c = '.' || c = 'e' || c = 'N' || c = 'a' || c = 'I' || c = 'n' ||
    c = 'f' || c = 'i' || c = 't' || c = 'y'

/-- What `float.__repr__` (or the words NaN, Infinity, -Infinity) can look like: made of numeric characters,
beginning with a digit, a minus sign, `N` or `I`, and containing a point, an `e` or a capital. -/
def FloatRepr (r : List Char) : Prop :=
  (∀ c ∈ r, isNumChar c = true) ∧
  (∃ c t, r = c :: t ∧ (('0' ≤ c ∧ c ≤ '9') ∨ c = '-' ∨ c = 'N' ∨ c = 'I')) ∧
  (∃ c ∈ r, c = '.' ∨ c = 'e' ∨ c = 'N' ∨ c = 'I')

mutual
/-- Dict keys are distinct (at every level) and float texts are float texts. -/
def WF : J → Prop
  | .null | .bool _ | .int _ | .str _ => True
  | .float r => FloatRepr r
  | .list xs => WFL xs
  | .tuple xs => WFL xs
  | .obj fs => (fs.map Prod.fst).Nodup ∧ WFF fs
def WFL : List J → Prop
  | [] => True
  | x :: xs => WF x ∧ WFL xs
def WFF : List (List Char × J) → Prop
  | [] => True
  | (_, v) :: fs => WF v ∧ WFF fs
end

end Verif.Json

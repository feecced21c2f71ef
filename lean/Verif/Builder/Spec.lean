import Verif.Builder.Model
import Verif.Index.Spec
import Verif.Mir.Spec

/-! Specification vocabulary for building and merging inventories. -/

namespace Verif.Builder
open Verif.GridSpec Verif.Index
open Verif.Regrid (Csr)

/-- The value of "global" for a grid: its own, else the caller's. -/
def globalFlag (asked : Option Bool) (x : MirGrid) : Option V :=
  match x.plain "global", asked with
  | some v, _ => some v
  | none, some true => some (.int 1)
  | none, some false => some (.int 0)
  | none, none => none

/-- `{'grid': grid, 'shape': shape, 'area': area, 'global': flag}`, the last one if there is a flag. -/
def areaSpec (grid shape area : V) (flag : Option V) : Dict := fun k =>
  if k = "grid" then some grid else if k = "shape" then some shape else if k = "area" then some area
  else if k = "global" then flag else none

/-- The bounding box of a MIR grid. -/
def BBox (x : MirGrid) (n w s e : V) : Prop :=
  ∃ bb, x.bbox = some bb ∧ bb "north" = some n ∧ bb "west" = some w ∧ bb "south" = some s ∧ bb "east" = some e

/-- The gridspec of a MIR grid, with the caller's "global" flag. -/
inductive Describes (P : Py) (asked : Option Bool) (x : MirGrid) : Dict → Prop
  | latlon (inc : Dict) (we sn nj ni n w s e : V) : x.type = some "regular_ll".toList → x.increments = some inc →
      inc "west_east" = some we → inc "south_north" = some sn → x.plain "nj" = some nj → x.plain "ni" = some ni →
      BBox x n w s e → Describes P asked x (areaSpec (.list [we, sn]) (.list [nj, ni]) (.list [n, w, s, e]) (globalFlag asked x))
  | octahedral (p0 : Int) (rest : List Int) (N n w s e : V) : x.type = some "reduced_gg".toList →
      x.plain "pl" = some (.list ((p0 :: (p0 + 4) :: rest).map V.int)) → x.plain "N" = some N → BBox x n w s e →
      Describes P asked x (areaSpec (.str ('O' :: P.pyStr N)) (.list [.int (p0 :: (p0 + 4) :: rest).sum]) (.list [n, w, s, e])
        (globalFlag asked x))
  | classical (p0 p1 : Int) (rest : List Int) (N n w s e : V) : x.type = some "reduced_gg".toList → p1 ≠ p0 + 4 →
      x.plain "pl" = some (.list ((p0 :: p1 :: rest).map V.int)) → x.plain "N" = some N → BBox x n w s e →
      Describes P asked x (areaSpec (.str ('N' :: P.pyStr N)) (.list [.int (p0 :: p1 :: rest).sum]) (.list [n, w, s, e])
        (globalFlag asked x))
  | healpix (g o : V) : x.type = some "healpix".toList → x.plain "grid" = some g → x.plain "order" = some o →
      Describes P asked x (fun k => if k = "grid" then some g else if k = "order" then some o else none)
  | orca (t s : List Char) : x.type = some "orca".toList → x.plain "unstructuredGridType" = some (.str t) →
      x.plain "unstructuredGridSubtype" = some (.str s) →
      Describes P asked x (fun k => if k = "grid" then some (.str (t ++ '_' :: s)) else none)

/-- The method of an interpolation: text, or the "type" of a dict. -/
def MethodOf (i : Inter) (n : List Char) : Prop := i.method = some (.name n) ∨ ∃ o, i.method = some (.dict (some n) o)

/-- One entry is added at the end, or replaces the entry of that name where it is; all else stays. -/
def Inserted (es es' : List (String × Raw)) (k : String) (r : Raw) : Prop :=
  (k ∉ es.map Prod.fst ∧ es' = es ++ [(k, r)]) ∨
    ∃ a old b, k ∉ a.map Prod.fst ∧ es = a ++ (k, old) :: b ∧ es' = a ++ (k, r) :: b

/-- The entries a build finds. -/
def Holds (ix : Option IndexFile) (es : List (String × Raw)) : Prop :=
  (ix = none ∧ es = []) ∨ ∃ f, ix = some f ∧ OneVersion f.version ∧ f.matrix = some es

/-- Where lookups in an inventory kept at `root` read the matrix of an entry — db.py:287-288 (`LocalAccessor.matrix_path`). -/
def ReadAt (root : List Char) (k : String) (engine version method : List Char) : List Char :=
  join root (join (engine ++ '_' :: version ++ '_' :: method) (k.toList ++ ".npz".toList))

end Verif.Builder

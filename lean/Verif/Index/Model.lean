import Verif.GridSpec.Model

/-!
# Model of the inventory index of src/earthkit/regrid/backends/db.py (MatrixIndex, parts of MatrixDb)

The index file is modelled after `json.load`: a version, and entries by name. Of an entry the model keeps what the code reads:
the two grid descriptions, the interpolation method, engine and version; everything else is the opaque number `extra`.
-/

namespace Verif.Index
open Verif.GridSpec

/-- `entry["interpolation"]["method"]`: text, a dict (its "type" if any, the rest opaque), or something else. -/
inductive Method where
  | name (s : List Char)
  | dict (type : Option (List Char)) (opts : Nat)
  | other

/-- An entry of the index file; `none`: the key is missing (or, for grids, not a dict). -/
structure Raw where
  input : Option Dict
  output : Option Dict
  method : Option Method
  engine : List Char
  version : List Char
  extra : Nat

/-- A loaded entry — db.py:315-325 -/
structure Entry where
  name : String
  input : GS
  output : GS
  raw : Raw

set_option linter.dupNamespace false in
/-- A python dict from names to entries, in insertion order. -/
abbrev Index := List (String × Entry)

/-- `d[k] = v` on a dict: in place if the key is there, at the end otherwise. -/
def upsert {α : Type} : List (String × α) → String → α → List (String × α)
  | [], k, v => [(k, v)]
  | (k', v') :: r, k, v => if k' = k then (k, v) :: r else (k', v') :: upsert r k v

/-- The parsed json; `matrix = none`: the key is missing. -/
structure IndexFile where
  version : Option V
  matrix : Option (List (String × Raw))

/-- `VERSION` — db.py:24 -/
def VERSION : V := .int 1

/-- The two grids of an entry — db.py:315-316 -/
def parse (P : Py) (r : Raw) : M (GS × GS) :=
  match r.input with
  | none => .error .key
  | some i => do
    let gi ← fromDict P i
    match r.output with
    | none => .error .key
    | some o => do
      let go ← fromDict P o
      return (gi, go)

/-- The body of the loop — db.py:311-327: any exception skips the entry. -/
def loadOne (P : Py) (ix : Index) (e : String × Raw) : Index :=
  match parse P e.2 with
  | .ok (gi, go) => upsert ix e.1 ⟨e.1, gi, go, e.2⟩
  | .error _ => ix

/-- `MatrixIndex.load` into an empty index — db.py:303-327: the index, and the exception if one is raised. -/
def load (P : Py) (f : IndexFile) : M Index :=
  if pyEq (f.version.getD .none) VERSION then
    match f.matrix with
    | none => .error .key
    | some es => .ok (es.foldl (loadOne P) [])
  else .error .value

/-- `interpolation_method_name` — db.py:330-338 -/
def methodName (r : Raw) : M (List Char) :=
  match r.method with
  | none => .error .key
  | some (.name s) => .ok s
  | some (.dict (some t) _) => .ok t
  | some (.dict none _) => .error .key
  | some .other => .error .value

/-- `match` — db.py:388-395: `and` from left to right. -/
def matches_ (P : Py) (order : List String) (e : Entry) (gi go : GS) (m : List Char) : M Bool := do
  let n ← methodName e.raw
  if n ≠ m then return false
  let a ← eq P order e.input gi
  if !a then return false
  eq P order e.output go

/-- The loop of `find` — db.py:382-385 -/
def search (P : Py) (order : List String) (gi go : GS) (m : List Char) : Index → M (Option Entry)
  | [] => .ok none
  | (_, e) :: rest => do
    let b ← matches_ P order e gi go m
    if b then return some e else search P order gi go m rest

/-- `find` — db.py:375-385; the descriptions may be gridspecs already: those are dicts too. -/
def find (P : Py) (order : List String) (ix : Index) (di dO : Dict) (m : List Char) : M (Option Entry) := do
  let gi ← fromDict P di
  let go ← fromDict P dO
  search P order gi go m ix

/-- One filter of a subset — db.py:405-407 -/
structure Filter where
  input : Dict
  output : Dict
  method : Option (List Char)

def Filter.methodOf (f : Filter) : List Char := f.method.getD "linear".toList

/-- `subset` — db.py:401-421 (with `raw=False`). -/
def subset (P : Py) (order : List String) (ix : Index) (failOnMissing : Bool) : List Filter → Index → M Index
  | [], res => .ok res
  | f :: fs, res => do
    let e ← find P order ix f.input f.output f.methodOf
    match e with
    | some e => subset P order ix failOnMissing fs (upsert res e.name e)
    | none => if failOnMissing then .error .value else subset P order ix failOnMissing fs res

/-- `to_raw` — db.py:423-427 -/
def toRaw (ix : Index) : IndexFile :=
  ⟨some VERSION, some (ix.foldl (fun r e => upsert r e.2.name e.2.raw) [])⟩

/-- `_method_alias` — db.py:446-450 with `_METHOD_ALIAS` (30) -/
def methodAlias (m : List Char) : List Char :=
  if m = "nn".toList ∨ m = "nearest-neighbor".toList then "nearest-neighbour".toList else m

/-- `matrix_dir_name` — db.py:360-369 -/
def dirName (r : Raw) : M (List Char) := do
  let n ← methodName r
  return r.engine ++ '_' :: r.version ++ '_' :: n

/-- `os.path.join(a, b)` -/
def join (a b : List Char) : List Char :=
  match b with
  | '/' :: _ => b
  | _ => if a = [] ∨ a.getLast? = some '/' then a ++ b else a ++ '/' :: b

/-- `matrix_path` — db.py:372-373 -/
def matrixPath (e : Entry) : M (List Char) := do
  let d ← dirName e.raw
  return join d (e.name.toList ++ ".npz".toList)

/-- The outcome of a lookup with weights — db.py:482-486 `entry["output"]["shape"]`. -/
def entryShape (e : Entry) : M V := e.output.d.item "shape"

end Verif.Index

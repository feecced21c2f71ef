import Verif.Regrid.Handlers
import Verif.Index.Model
import Verif.MemCache.Model
import Verif.Json.Model
import Mathlib.Data.List.Lex
import Mathlib.Data.Char

/-!
# A regrid with precomputed weights from end to end

`MatrixDb.find` (backends/db.py:452-486) put together from the models of its parts: gridspecs, the in-memory cache with the key it
really uses, the index, the weights file. The inventory does not change (a local one, or a remote one without new versions;
`Index/Session` is about those). One thread.
-/

namespace Verif.Regrid
open Verif.GridSpec Verif.Json

/-- What is taken from python: gridspec text functions, the iteration order of a set, the text of a float, the items of a dict in
order, the digest. -/
structure World where
  P : Py
  order : List String
  floatText : ℚ → List Char
  items : Dict → List (String × V)
  sha : List Char → List Char

mutual
/-- A value of a gridspec as `json.dumps` sees it. -/
def toJ (fl : ℚ → List Char) : V → J
  | .none => .null
  | .bool b => .bool b
  | .int i => .int i
  | .flt q => .float (fl q)
  | .str s => .str s
  | .list xs => .list (toJL fl xs)
  | .tuple xs => .tuple (toJL fl xs)
def toJL (fl : ℚ → List Char) : List V → List J
  | [] => []
  | x :: xs => toJ fl x :: toJL fl xs
end

def dictJ (fl : ℚ → List Char) (items : List (String × V)) : J := .obj (items.map (fun p => (p.1.toList, toJ fl p.2)))

/-- The arguments of `MEMORY_CACHE.get` — db.py:468-472 -/
structure Request where
  gi : GS
  go : GS
  method : List Char

/-- The key of a request — memcache.py:231 -/
def World.key (w : World) (r : Request) : List Char :=
  lookupKey w.sha (dictJ w.floatText (w.items r.gi.d)) (dictJ w.floatText (w.items r.go.d)) r.method

/-- An inventory: its index, the "memory" of an entry, and reading the weights file of an entry (db.py:500-503, may raise). -/
structure Inventory (α : Type) where
  index : Index.Index
  memory : Index.Entry → Option Int
  file : Index.Entry → Except Err (Csr α)

/-- Exceptions as the cache model carries them. -/
def Err.code : Err → Nat
  | .value => 0
  | .key => 1
  | .type => 2
  | .attribute => 3
  | .assertion => 4
  | .index => 5
  | .other => 6

def Err.ofCode : Nat → Err
  | 0 => .value
  | 1 => .key
  | 2 => .type
  | 3 => .attribute
  | 4 => .assertion
  | 5 => .index
  | _ => .other

/-- An exception leaving the cache: those of the inventory pass through, strict mode raises ValueError, others are its own. -/
def ofCache : MemCache.Err → Err
  | .source c => .ofCode c
  | .tooLarge => .value
  | .badLimit => .value
  | .unknownPolicy => .value
  | .typeError => .type
  | .config => .other

/-- A shape: a sequence of non-negative ints (others are refused here; numpy's -1 is not modelled). -/
def natL : List V → Except Err (List Nat)
  | [] => .ok []
  | .int (.ofNat n) :: r => do
    let ns ← natL r
    return n :: ns
  | _ => .error .type

def shapeOf (e : Index.Entry) : Except Err (List Nat) :=
  match Index.entryShape e with
  | .error x => .error (ofSpec x)
  | .ok (.list xs) => natL xs
  | .ok (.tuple xs) => natL xs
  | .ok _ => .error .type

/-- Position of the entry with a name: how the cache model refers to an entry. -/
def posOf (ix : Index.Index) (name : String) : Nat := ix.findIdx (fun x => x.2.name == name)

variable {α : Type}

/-- `_create_matrix_from_entry` for an entry — db.py:482-485: the file is read before the shape. -/
def readEntry (inv : Inventory α) (e : Index.Entry) : Except Err (Csr α × List Nat) := do
  let z ← inv.file e
  let s ← shapeOf e
  return (z, s)

/-- The callables given to the cache — db.py:473-475, 488-498 -/
def source (w : World) (inv : Inventory α) : MemCache.Source Request (Csr α) (List Nat) where
  findEntry r :=
    match Index.find w.P w.order inv.index r.gi.d r.go.d (Index.methodAlias r.method) with
    | .error e => .error (.source (ofSpec e).code)
    | .ok none => .ok none
    | .ok (some e) => .ok (some ⟨inv.memory e, posOf inv.index e.name⟩)
  createFromEntry
    | none => .ok (none, none)
    | some m =>
      match inv.index[m.tag]? with
      | none => .error (.source Err.other.code)
      | some (_, e) =>
        match readEntry inv e with
        | .error x => .error (.source x.code)
        | .ok (z, s) => .ok (some z, some s)

/-- What `find` makes of the pair the cache returns: `z is None` decides (precomputed.py:25). -/
def ofPair : Option (Csr α) × Option (List Nat) → Option (Csr α × List Nat)
  | (some z, some s) => some (z, s)
  | _ => none

/-- `MatrixDb.find` — db.py:452-477 -/
def dbFind (w : World) (sizeFn : Csr α → Nat) (inv : Inventory α) (di dO : Dict) (m : List Char)
    (s : MemCache.Cache (List Char) (Csr α) (List Nat)) :
    Except Err (Option (Csr α × List Nat)) × MemCache.Cache (List Char) (Csr α) (List Nat) :=
  match fromDict w.P di with
  | .error e => (.error (ofSpec e), s)
  | .ok gi =>
    match fromDict w.P dO with
    | .error e => (.error (ofSpec e), s)
    | .ok go =>
      let r := MemCache.get w.key sizeFn (source w inv) ⟨gi, go, m⟩ s
      match r.1.res with
      | .error e => (.error (ofCache e), r.2)
      | .ok p => (.ok (ofPair p), r.2)

/-- `earthkit.regrid.array.regrid(values, in_grid, out_grid, interpolation=m, backend="precomputed")` -/
def regridArray [Zero α] [Add α] [Mul α] (w : World) (sizeFn : Csr α → Nat) (inv : Inventory α) (x : Arr α) (di dO : Dict) (m : List Char)
    (s : MemCache.Cache (List Char) (Csr α) (List Nat)) : Except Err (Arr α × Dict) × MemCache.Cache (List Char) (Csr α) (List Nat) :=
  (matrixBackend (B := Unit) (dbFind w sizeFn inv)).regrid x di dO ⟨m, []⟩ s

/-! ### The deprecated interface — interpolate.py, data_interpolate.py -/

/-- `MatrixBackend.interpolate` — precomputed.py:43-54: `find` again, without the grid in the result; further keyword arguments
go to `MEMORY_CACHE.get`, which has none. -/
def matrixInterpolate [Zero α] [Add α] [Mul α] {S : Type} (find : Dict → Dict → List Char → S → Except Err (Option (Csr α × List Nat)) × S)
    (x : Arr α) (di dO : Dict) (m : List Char) (s : S) : Except Err (Arr α) × S :=
  match find di dO m s with
  | (.error e, s) => (.error e, s)
  | (.ok none, s) => (.error .value, s)
  | (.ok (some (z, shape)), s) =>
    (do
      let column ← z.mul x.flat
      Arr.reshape ⟨[column.length, 1], column⟩ shape, s)

/-- The input grid of a field — data_interpolate.py:73-84: the user's, else that of the metadata. -/
def userGridspec {A B : Type} (user : Option Dict) (f : Fld A B) : Except Err Dict :=
  match user with
  | some g => .ok g
  | none => inputGridspec f

/-- The loop of `FieldListDataHandler.interpolate` — data_interpolate.py:104-118 -/
def interpolateLoop {A B S : Type} (interp : A → Dict → Dict → List Char → S → Except Err A × S) (m : List Char) (user : Option Dict) (go : Dict) :
    List (Fld A B) → S → Except Err (List (OutFld A B)) × S
  | [], s => (.ok [], s)
  | f :: fs, s =>
    match userGridspec user f with
    | .error e => (.error e, s)
    | .ok g =>
      match interp f.values g go m s with
      | (.error e, s) => (.error e, s)
      | (.ok v, s) =>
        match interpolateLoop interp m user go fs s with
        | (.error e, s) => (.error e, s)
        | (.ok r, s) => (.ok (.array v f.md go :: r), s)

/-- `FieldListDataHandler.interpolate` — data_interpolate.py:87-120; `None` as target has no `get`. -/
def interpolateList {A B S : Type} (P : Py) (interp : A → Dict → Dict → List Char → S → Except Err A × S) (m : List Char) (user : Option Dict)
    (grid : Option Dict) (fs : List (Fld A B)) (s : S) : Except Err (List (OutFld A B)) × S :=
  match grid with
  | none => (.error .type, s)
  | some g =>
    match fromDict P g with
    | .error e => (.error (ofSpec e), s)
    | .ok gs => if gs.kind = .ll then interpolateLoop interp m user gs.d fs s else (.error .value, s)

end Verif.Regrid

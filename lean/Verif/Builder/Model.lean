import Verif.Index.Model
import Verif.Mir.Griddef

/-!
# Model of src/earthkit/regrid/utils/builder.py (make_matrix) and tools/manage/merge_index.py (merge)

A MIR description is modelled after `json.load`, key by key as the code reads it. The two digests (`make_sha` of builder.py and of
db.py) are parameters. The converters are looked up among all globals of builder.py; names other than the four converters are
taken to be unknown. Writing the index file is one step: a crash in the middle of `json.dump` is outside the model.
-/

namespace Verif.Builder
open Verif.GridSpec Verif.Index
open Verif.Regrid (Csr)

/-- A grid of a MIR description: its type, its plain values, and the two nested dicts. -/
structure MirGrid where
  type : Option (List Char)
  plain : Dict
  increments : Option Dict
  bbox : Option Dict

/-- `entry["interpolation"]`; `opts`: keys other than method, engine, version (0: none). -/
structure Inter where
  method : Option Method
  engine : Option (List Char)
  version : Option (List Char)
  opts : Nat

/-- The file given to `make_matrix`. -/
structure Desc where
  input : Option MirGrid
  output : Option MirGrid
  inter : Option Inter
  cacheFile : Option (List Char)
  nnz : Option Nat

inductive Err where
  | grid (e : GridSpec.Err)
  | mir (e : Mir.Err)
  | version
  | assertion

/-- `x[k]` where `x` may itself be missing -/
def sub (x : Option Dict) (k : String) : M V :=
  match x with
  | none => .error .key
  | some d => d.item k

/-- `[bb["north"], bb["west"], bb["south"], bb["east"]]` — builder.py:28, 44 -/
def area (bb : Option Dict) : M V := do
  let n ← sub bb "north"
  let w ← sub bb "west"
  let s ← sub bb "south"
  let e ← sub bb "east"
  return .list [n, w, s, e]

/-- `if "global" in entry: d["global"] = entry["global"]` — builder.py:30-31, 47-48 -/
def copyGlobal (x : MirGrid) (d : Dict) : Dict :=
  match x.plain "global" with
  | some v => d.set "global" v
  | none => d

def empty : Dict := fun _ => none

/-- `regular_ll` — builder.py:23-32 -/
def regularLL (x : MirGrid) : M Dict := do
  let we ← sub x.increments "west_east"
  let sn ← sub x.increments "south_north"
  let nj ← x.plain.item "nj"
  let ni ← x.plain.item "ni"
  let a ← area x.bbox
  return copyGlobal x (((empty.set "grid" (.list [we, sn])).set "shape" (.list [nj, ni])).set "area" a)

/-- `a + b` on numbers -/
def add (a b : V) : M V :=
  match a, b with
  | .int x, .int y => .ok (.int (x + y))
  | a, b =>
    match a.num, b.num with
    | some x, some y => .ok (.flt (x + y))
    | _, _ => .error .type

/-- `sum(pl)`, from `acc` -/
def sum (acc : V) : List V → M V
  | [] => .ok acc
  | x :: xs => do
    let a ← add acc x
    sum a xs

/-- `reduced_gg` — builder.py:35-50 -/
def reducedGG (P : Py) (x : MirGrid) : M Dict := do
  let pl ← x.plain.item "pl"
  let p1 ← pl.item 1
  let p0 ← pl.item 0
  let a ← numM p1
  let b ← numM p0
  let n ← x.plain.item "N"
  let xs ← pl.seq
  let total ← sum (.int 0) xs
  let ar ← area x.bbox
  let g := if a - b = 4 then 'O' else 'N'
  return copyGlobal x (((empty.set "grid" (.str (g :: P.pyStr n))).set "shape" (.list [total])).set "area" ar)

/-- `healpix` — builder.py:53-55 -/
def healpix (x : MirGrid) : M Dict := do
  let g ← x.plain.item "grid"
  let o ← x.plain.item "order"
  return (empty.set "grid" g).set "order" o

/-- `orca` — builder.py:58-60 -/
def orca (x : MirGrid) : M Dict := do
  let t ← x.plain.item "unstructuredGridType"
  let s ← x.plain.item "unstructuredGridSubtype"
  match t, s with
  | .str t, .str s => return empty.set "grid" (.str (t ++ '_' :: s))
  | _, _ => .error .type

/-- `convert` — builder.py:125-127 -/
def convert (P : Py) (x : MirGrid) : M Dict :=
  match x.type with
  | none => .error .key
  | some t =>
    if t = "regular_ll".toList then regularLL x
    else if t = "reduced_gg".toList then reducedGG P x
    else if t = "healpix".toList then healpix x
    else if t = "orca".toList then orca x
    else .error .key

/-- builder.py:129-133: a flag given by the caller is added unless the description has one. -/
def withGlobal (flag : Option Bool) (x : MirGrid) : MirGrid :=
  match flag with
  | none => x
  | some b => if (x.plain "global").isSome then x else { x with plain := x.plain.set "global" (.int (if b then 1 else 0)) }

/-- The options of `_GRIDBOX_DEFAULT` — db.py:32-40 — among the numbers that stand for options of a method. -/
def GRIDBOX_OPTS : Nat := 0

/-- `is_gridbox_default` — db.py:43-55 -/
def isGridboxDefault (m : Method) : Bool :=
  match m with
  | .dict t o => t == some "grid-box-average".toList && o == GRIDBOX_OPTS
  | .name s => s == "grid-box-average".toList
  | .other => false

/-- `interpolation_method_name` of an interpolation — db.py:330-338 -/
def interName (i : Inter) : M (List Char) := methodName ⟨none, none, i.method, [], [], 0⟩

/-- `make_interpolation_uid` — db.py:345-358 -/
def interUid (sha : Inter → List Char) (i : Inter) : M (List Char) := do
  let n ← interName i
  match i.method with
  | none => .error .key
  | some m =>
    if n = "grid-box-average".toList ∧ isGridboxDefault m = true then return n
    else
      match m with
      | .dict _ _ => return sha i
      | _ => if i.engine.isSome ∧ i.version.isSome ∧ i.opts = 0 then return n else return sha i

/-- The interpolation written to the index — builder.py:84-88: method, and the uid if it is written too. -/
def settled (sha : Inter → List Char) (i : Inter) : M (Inter × Option (List Char)) := do
  let n ← interName i
  let u ← interUid sha i
  if u ≠ n then return (i, some u) else return ({ i with method := some (.name n) }, none)

/-- `matrix_dir_name` — db.py:360-370 -/
def interDir (i : Inter) : M (List Char) := do
  match i.engine with
  | none => .error .key
  | some e =>
    match i.version with
    | none => .error .key
    | some v => dirName ⟨none, none, i.method, e, v, 0⟩

def needs {α : Type} (x : Option α) : M α :=
  match x with
  | none => .error .key
  | some a => .ok a

/-- What is known of the world: the digests, and the number that stands for what lookups do not read of an entry. -/
structure Digests where
  key : MirGrid → MirGrid → Inter → String
  sha : Inter → List Char
  extra : Inter → Option (List Char) → Nat → Csr Nat → Nat

/-- Arguments of `make_matrix`, with the description already read. -/
structure Args where
  desc : Desc
  outputPath : List Char
  globalInput : Option Bool
  globalOutput : Option Bool

/-- The files: matrices, and the index file if it exists. -/
structure World where
  files : Mir.Files
  index : Option IndexFile

/-- Where the matrix goes, its key, the source, and the parts of the description — builder.py:81-109. -/
structure Plan where
  input : MirGrid
  output : MirGrid
  inter : Inter
  uid : Option (List Char)
  key : String
  source : List Char
  target : List Char

def plan (D : Digests) (a : Args) : M Plan := do
  let i ← needs a.desc.inter
  let (i', u) ← settled D.sha i
  let dir ← interDir i'
  let src ← needs a.desc.cacheFile
  let x ← needs a.desc.input
  let y ← needs a.desc.output
  let k := D.key x y i
  return ⟨x, y, i', u, k, src, join (join a.outputPath dir) (k.toList ++ ".npz".toList)⟩

/-- The index as it is read — builder.py:115-123 -/
def readIndex (w : World) : Except Err IndexFile :=
  match w.index with
  | some f => if pyEq (f.version.getD .none) VERSION then .ok f else .error .version
  | none => .ok ⟨some VERSION, some []⟩

/-- The matrix just written, as `load_npz` reads it. -/
def readNpz (f : Mir.Files) (p : List Char) : Except Err (Csr Nat) :=
  match f p with
  | some (.npz m) => .ok m
  | _ => .error (.mir .notFound)

def lift {α : Type} (x : M α) : Except Err α :=
  match x with
  | .ok a => .ok a
  | .error e => .error (.grid e)

/-- The new entry — builder.py:140-146 -/
def newEntry (P : Py) (D : Digests) (a : Args) (p : Plan) (m : Csr Nat) : M Raw := do
  let i ← convert P (withGlobal a.globalInput p.input)
  let o ← convert P (withGlobal a.globalOutput p.output)
  let nnz ← needs a.desc.nnz
  let e ← needs p.inter.engine
  let v ← needs p.inter.version
  return ⟨some i, some o, p.inter.method, e, v, D.extra p.inter p.uid nnz m⟩

/-- The index with the new entry — builder.py:115-146 -/
def newIndex (P : Py) (D : Digests) (a : Args) (p : Plan) (w : World) : Except Err IndexFile := do
  let f ← readIndex w
  let m ← readNpz w.files p.target
  let r ← lift (newEntry P D a p m)
  match f.matrix with
  | none => .error (.grid .key)
  | some es => return ⟨f.version, some (upsert es p.key r)⟩

/-- After the conversion of the matrix — builder.py:112-149 -/
def record (P : Py) (D : Digests) (a : Args) (p : Plan) (w : World) : Except Err Unit × World :=
  match newIndex P D a p w with
  | .ok f => (.ok (), { w with index := some f })
  | .error e => (.error e, w)

/-- `make_matrix` — builder.py:76-152 — with `out` the form in which the path of the matrix is handed to
`mir_cached_matrix_to_file`. Creating the output directory cannot fail here. -/
def makeMatrixWith (out : List Char → Mir.Output) (P : Py) (D : Digests) (a : Args) (w : World) : Except Err Unit × World :=
  match plan D a with
  | .error e => (.error (.grid e), w)
  | .ok p =>
    match Mir.toFile w.files p.source (out p.target) with
    | (.error e, f) => (.error (.mir e), { w with files := f })
    | (.ok _, f) => record P D a p { w with files := f }

/-- As written: `os.path.join` gives a string — builder.py:109-110 -/
def makeMatrix (P : Py) (D : Digests) (a : Args) (w : World) : Except Err Unit × World :=
  makeMatrixWith (fun p => .str p ".npz".toList) P D a w

/-- As `mir_cached_matrix_to_file` expects it: a `Path`. -/
def makeMatrixPath (P : Py) (D : Digests) (a : Args) (w : World) : Except Err Unit × World :=
  makeMatrixWith (fun p => .path p ".npz".toList) P D a w

/-! ### merge_index.py -/

/-- `a.update(b)` -/
def update {α : Type} (a b : List (String × α)) : List (String × α) := b.foldl (fun d e => upsert d e.1 e.2) a

/-- The merged content and the expected number of entries — merge_index.py:32-63. `len(db_res["matrix"])` raises KeyError for a file
without entries, so a system file is never empty at `if not db_res`. -/
def mergeContent (system : Option IndexFile) (input : IndexFile) : M (IndexFile × Nat) :=
  match system with
  | none => do
    let es ← needs input.matrix
    return (input, es.length)
  | some s => do
    let ss ← needs s.matrix
    let es ← needs input.matrix
    return (⟨s.version, some (update ss es)⟩, ss.length + es.length)

/-- `check_file` — merge_index.py:25-28 -/
def checkFile (f : IndexFile) (n : Nat) : Except Err Unit := do
  let es ← lift (needs f.matrix)
  if es.length = n then return () else .error .assertion

/-- `merge` — merge_index.py:31-68; the result file before and after. -/
def merge (system : Option IndexFile) (input : IndexFile) (dryRun : Bool) (result : Option IndexFile) :
    Except Err Unit × Option IndexFile :=
  match mergeContent system input with
  | .error e => (.error (.grid e), result)
  | .ok (f, n) => if dryRun then (.ok (), result) else (checkFile f n, some f)

end Verif.Builder

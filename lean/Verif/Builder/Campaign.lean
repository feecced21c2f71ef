import Verif.Builder.Props2

/-!
# Building an inventory: tools/utils/grid.py, tools/utils/matrix.py (make_matrix, create_matrix_files), tools/manage/build_db.py

MARS and MIR are parameters: what MARS delivers for a grid, and the description MIR writes for data, target grid and method. Paths are
texts without special meaning (the shell in which MIR is called does not interpret them). A download of the index file is not modelled:
`download_index_file` imports a module that does not exist. MIR's own cache of weights is part of the files from the start.
-/

namespace Verif.Builder
open Verif.GridSpec Verif.Index

/-! ### tools/utils/grid.py -/

inductive Kind where
  | ll
  | oRgg
  | nRgg
  | hRing
  | hNested
  | other
deriving DecidableEq

/-- The makers — grid.py:11-35; the argument is the number as `str` writes it. -/
def makeGrid : Kind → List Char → List Char
  | .ll, g => g ++ '/' :: g
  | .oRgg, g => 'O' :: g
  | .nRgg, g => 'N' :: g
  | .hRing, g => 'H' :: g ++ "_ring".toList
  | .hNested, g => 'H' :: g ++ "_nested".toList
  | .other, g => g

/-- `make_grid_id` — grid.py:38-44 -/
def makeGridId (grids : List (Kind × List (List Char))) : List (List Char) := grids.flatMap (fun e => e.2.map (makeGrid e.1))

/-! ### tools/utils/matrix.py -/

def replace (a b : Char) (s : List Char) : List Char := s.map (fun c => if c = a then b else c)

/-- `adjust_grid_name` — matrix.py:41-45 -/
def adjustName (s : List Char) : List Char := replace '/' 'x' (replace 'f' 'F' (replace 'o' 'O' (replace 'n' 'N' s)))

/-- `re.match(r"[Hh]\d+_[A-z]+", name)` — matrix.py:151, 157; digits are 0-9 here. What follows the first letter does not matter. -/
def looksHealpix (s : List Char) : Bool :=
  match s with
  | c :: r =>
    (c == 'H' || c == 'h') && !(r.takeWhile Char.isDigit).isEmpty &&
      (match r.dropWhile Char.isDigit with
       | u :: l :: _ => u == '_' && ('A' ≤ l && l ≤ 'z')
       | _ => false)
  | [] => false

/-- `src_grid_label`, `target_grid_label` — matrix.py:146-158 -/
def label (s : List Char) : List Char := if looksHealpix s then s else adjustName s

structure Request where
  src : List Char
  target : List Char
  method : List Char
  dir : List Char
deriving DecidableEq

/-- `grib_file` — matrix.py:172 (GRIB_DIR is "grib") -/
def gribFile (src : List Char) : List Char := join "grib".toList (label src ++ ".grib".toList)

/-- `matrix_json` — matrix.py:103-106; the method is always among the options (149) -/
def jsonName (r : Request) : List Char := label r.target ++ '-' :: label r.src ++ '-' :: r.method
def jsonFile (r : Request) : List Char := join r.dir (jsonName r ++ ".json".toList)

/-- What MARS delivers for a grid (none: the request fails), and what MIR describes (none: it writes no file). -/
structure Engines where
  mars : List Char → Option Nat
  mir : Nat → List Char → List Char → Option Desc

/-- The directory tree of a build: grib files, descriptions, matrices and index; and what was done: the runs of MIR and the
descriptions handed to the builder with the requests they were handed in for. -/
structure Site where
  grib : List Char → Option Nat
  json : List Char → Option Desc
  world : World
  runs : List (Nat × List Char × List Char)
  built : List (Request × Desc)

inductive BErr where
  | assertion
  | mars
  | notFound
  | builder (e : Err)

def put {α : Type} (f : List Char → Option α) (p : List Char) (v : Option α) : List Char → Option α := fun q => if q = p then v else f q

/-- `get_grib_file` — matrix.py:61-83: the data used afterwards. -/
def getGrib (E : Engines) (r : Request) (s : Site) : Except BErr Nat × Site :=
  match s.grib (gribFile r.src) with
  | some g => (.ok g, s)
  | none =>
    match E.mars r.src with
    | none => (.error .mars, s)
    | some g => (.ok g, { s with grib := put s.grib (gribFile r.src) (some g) })

/-- MIR is run unless there is a description — matrix.py:108-114 -/
def runMir (E : Engines) (r : Request) (g : Nat) (s : Site) : Site :=
  match s.json (jsonFile r) with
  | some _ => s
  | none => { s with json := put s.json (jsonFile r) (E.mir g r.target r.method), runs := s.runs ++ [(g, r.target, r.method)] }

/-- The builder's part: `open(input_path)` (builder.py:78), then the rest of its `make_matrix`. `mk` is the builder on a description. -/
def handIn (mk : Args → World → Except Err Unit × World) (r : Request) (s : Site) : Except BErr Unit × Site :=
  match s.json (jsonFile r) with
  | none => (.error .notFound, s)
  | some d =>
    match mk ⟨d, r.dir, some true, some true⟩ s.world with
    | (.ok _, w) => (.ok (), { s with world := w, built := s.built ++ [(r, d)] })
    | (.error e, w) => (.error (.builder e), { s with world := w, built := s.built ++ [(r, d)] })

/-- `make_matrix` with `create_matrix_files` — matrix.py:86-189; `haveDir`: the directory "grib" exists (164), `delete`:
`delete_tmp_json` (131-132). -/
def request (E : Engines) (mk : Args → World → Except Err Unit × World) (haveDir delete : Bool) (r : Request) (s : Site) :
    Except BErr Unit × Site :=
  if haveDir then
    match getGrib E r s with
    | (.error e, s) => (.error e, s)
    | (.ok g, s) =>
      match handIn mk r (runMir E r g s) with
      | (.error e, s) => (.error e, s)
      | (.ok _, s) => (.ok (), if delete then { s with json := put s.json (jsonFile r) none } else s)
  else (.error .assertion, s)

/-- A sequence of requests, ended by the first exception. -/
def requests (E : Engines) (mk : Args → World → Except Err Unit × World) (haveDir delete : Bool) : List Request → Site → Except BErr Unit × Site
  | [], s => (.ok (), s)
  | r :: rs, s =>
    match request E mk haveDir delete r s with
    | (.error e, s) => (.error e, s)
    | (.ok _, s) => requests E mk haveDir delete rs s

/-! ### tools/manage/build_db.py -/

/-- The requests of build_db.py:118-142. -/
def plannedFor (root : List Char) (ins outs : List (List Char)) (extra : List (List Char × List Char)) (m : List Char) : List Request :=
  let dir := join root ("matrices_".toList ++ m)
  (ins.flatMap fun i => (outs.filter fun o => i ≠ o).map fun o => ⟨i, o, m, dir⟩) ++ extra.map fun e => ⟨e.1, e.2, m, dir⟩

def planned (root : List Char) (methods : List (List Char)) (ins outs : List (List Char)) (extra : List (List Char × List Char)) : List Request :=
  methods.flatMap (plannedFor root ins outs extra)

end Verif.Builder

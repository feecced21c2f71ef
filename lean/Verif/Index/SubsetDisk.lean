import Verif.Index.Model

/-!
# A subset inventory on disk — tools/subset/subset_remote_db.py, `copy_matrix_file` (backends/db.py:517-536)

The disk is the contents of its files by path; directories are not modelled (`os.makedirs` succeeds). `W` is the content of a weights
file. Reading the configuration file (yaml) is not modelled: the tool starts with the list of filters; its command line is in
`SubsetCmd.lean`. What is read from an index that `json.dump` has not finished is `Json/LoadProps.lean` (C151). As written, the tool cannot be started: it imports `earthkit.regrid.db`, which does not exist
(DESIGN.md, Findings); this is the program with that line corrected.
-/

namespace Verif.Index.SubsetDisk
open Verif.GridSpec

variable {W : Type}

inductive Content (W : Type) where
  | weights (w : W)
  | index (f : IndexFile)

abbrev Disk (W : Type) := List Char → Option (Content W)

def Disk.set (d : Disk W) (p : List Char) (c : Content W) : Disk W := fun x => if x = p then some c else d x

inductive Fail where
  /-- from the index or its entries -/
  | spec (e : Err)
  /-- the weights cannot be had: the download failed, or the file is missing -/
  | source
  /-- FileExistsError -/
  | fileExists
  /-- `Exception("out_dir must be empty when strict=True")` -/
  | notEmpty

/-- The inventory the subset is taken from: its index, and `_matrix_fs_path` followed by reading the file — db.py:511-512 -/
structure Source (W : Type) where
  index : Index
  file : Entry → Except Fail W

/-- `copy_matrix_file` — db.py:517-536 -/
def copyMatrixFile (src : Source W) (out : List Char) (existOk dry : Bool) (e : Entry) (d : Disk W) : Except Fail (List Char) × Disk W :=
  match matrixPath e with
  | .error x => (.error (.spec x), d)
  | .ok p =>
    match src.file e with
    | .error x => (.error x, d)
    | .ok w =>
      let target := join out p
      if !existOk && (d target).isSome && !dry then (.error .fileExists, d)
      else if dry then (.ok target, d)
      else (.ok target, d.set target (.weights w))

/-- The loop over the entries — subset_remote_db.py:47-51 -/
def copyAll (src : Source W) (out : List Char) (existOk dry : Bool) : Index → Disk W → Except Fail Unit × Disk W
  | [], d => (.ok (), d)
  | x :: ix, d =>
    match copyMatrixFile src out existOk dry x.2 d with
    | (.error e, d) => (.error e, d)
    | (.ok _, d) => copyAll src out existOk dry ix d

/-- `os.path.join(out_dir, "index.json")` -/
def indexAt (out : List Char) : List Char := join out "index.json".toList

/-- `subset_remote_db` — subset_remote_db.py:27-59; `occupied`: `len(os.listdir(out_dir)) > 0`. -/
def subsetDb (P : Py) (order : List String) (src : Source W) (fs : List Filter) (out : List Char) (strict failOnMissing dry occupied : Bool)
    (d : Disk W) : Except Fail Unit × Disk W :=
  if !dry && strict && occupied then (.error .notEmpty, d)
  else
    match subset P order src.index failOnMissing fs [] with
    | .error e => (.error (.spec e), d)
    | .ok res =>
      match copyAll src out (!strict) dry res d with
      | (.error e, d) => (.error e, d)
      | (.ok _, d) => if dry then (.ok (), d) else (.ok (), d.set (indexAt out) (.index (toRaw res)))

/-- A local inventory opened on a directory — db.py:274-291, 441-444, 500-512: its index, and the weights of an entry. -/
def openIndex (P : Py) (out : List Char) (d : Disk W) : Option Index :=
  match d (indexAt out) with
  | some (.index f) => (load P f).toOption
  | _ => none

def localFile (out : List Char) (d : Disk W) (e : Entry) : Option W :=
  match matrixPath e with
  | .error _ => none
  | .ok p =>
    match d (join out p) with
    | some (.weights w) => some w
    | _ => none

end Verif.Index.SubsetDisk

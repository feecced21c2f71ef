import Verif.Builder.CampaignProps2
import Verif.Regrid.PipelineProps

/-!
# The inventory of a build put together and opened

A build leaves the index in the build directory and the matrices below one directory per method (tools/manage/build_db.py:115-145).
`tools/manage/test_db.py` puts the two together in a directory that can be used as an inventory: links to the directories of the
matrices, and a copy of the index. `MatrixDb.from_path` (backends/db.py:545-546) then opens it. A link is followed: what is below it is
what is below the directory it points to. That the script runs `interpolate` afterwards is not modelled here. What `memory` an entry
announces is left open; a stored weight is the number its bit pattern stands for (`val`).
-/

namespace Verif.Builder
open Verif.GridSpec Verif.Index
open Verif.Regrid (Csr Inventory)

/-! ### test_db.py -/

/-- The test directory: its links (name of a sub-directory, the directory of matrices it comes from) and its index. -/
structure TestDir where
  links : List (List Char × List Char)
  index : Option IndexFile

/-- Just made — test_db.py:46 -/
def TestDir.fresh : TestDir := ⟨[], none⟩

/-- The links, for (directory, name of a sub-directory) in the order they are listed; whether all could be made — test_db.py:50-59.
`os.symlink` raises FileExistsError for a name that is taken. -/
def linkAll : List (List Char × List Char) → List (List Char × List Char) → Bool × List (List Char × List Char)
  | [], ls => (true, ls)
  | (d, n) :: r, ls => if n ∈ ls.map Prod.fst then (false, ls) else linkAll r (ls ++ [(n, d)])

/-- `build_test_dir` — test_db.py:44-68. It fails on a name that is taken, without any matrices, and without an index to copy. -/
def buildTestDir (subs : List (List Char × List Char)) (index : Option IndexFile) (t : TestDir) : Bool × TestDir :=
  match linkAll subs t.links with
  | (false, ls) => (false, { t with links := ls })
  | (true, ls) =>
    if subs = [] then (false, { t with links := ls })
    else
      match index with
      | none => (false, { t with links := ls })
      | some f => (true, ⟨ls, some f⟩)

/-- The preparation of a run of the script — test_db.py:71-72: nothing is done when the directory exists. -/
def prepare (subs : List (List Char × List Char)) (index : Option IndexFile) : Option TestDir → Bool × TestDir
  | some t => (true, t)
  | none => buildTestDir subs index .fresh

/-! ### Opening -/

/-- In which directory a sub-directory of the inventory is found. -/
abbrev Places := List Char → Option (List Char)

/-- An inventory that is the directory it was built in. -/
def placed (root : List Char) : Places := fun _ => some root

/-- An inventory of links. -/
def TestDir.places (t : TestDir) : Places := fun n => (t.links.find? (fun l => l.1 == n)).map Prod.snd

section
variable {α : Type}

/-- A matrix with its weights as numbers. -/
def numbers (val : Nat → α) (z : Csr Nat) : Csr α := ⟨z.rows, z.cols, z.indptr, z.indices, z.data.map val⟩

/-- `load_matrix` with `_matrix_fs_path` and `LocalAccessor.matrix_path` — db.py:287-288, 500-512 -/
def weightsFile (val : Nat → α) (pl : Places) (files : Mir.Files) (e : Entry) : Except Regrid.Err (Csr α) :=
  match dirName e.raw, matrixPath e with
  | .ok d, .ok p =>
    match pl d with
    | none => .error .other
    | some root =>
      match files (join root p) with
      | some (.npz z) => .ok (numbers val z)
      | _ => .error .other
  | .error x, _ => .error (Regrid.ofSpec x)
  | _, .error x => .error (Regrid.ofSpec x)

/-- `MatrixDb.from_path` with `_load_index` — db.py:545-546, 444-450: none when the index cannot be opened or read. -/
def opened (P : Py) (val : Nat → α) (memory : Entry → Option Int) (pl : Places) (files : Mir.Files) (index : Option IndexFile) : Option (Inventory α) :=
  match index with
  | none => none
  | some f =>
    match load P f with
    | .error _ => none
    | .ok ix => some ⟨ix, memory, weightsFile val pl files⟩

end

end Verif.Builder

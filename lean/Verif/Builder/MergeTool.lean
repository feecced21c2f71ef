import Verif.Builder.Model

/-!
# The merging tool with its command line — tools/manage/merge_index.py:71-116

A disk is the directories that exist and the contents of files by path. `os.makedirs` succeeds and adds one directory (its parents are not
modelled). Paths are compared as text. As written `download_index_file` imports a module that does not exist; this is a download that fails.
-/

namespace Verif.Builder.MergeTool
open Verif.GridSpec Verif.Index Verif.Builder

inductive Content where
  | index (f : IndexFile)
  /-- anything that is not an index -/
  | other (n : Nat)

structure Disk where
  dirs : List (List Char)
  files : List Char → Option Content

def Disk.write (d : Disk) (p : List Char) (c : Content) : Disk := { d with files := fun x => if x = p then some c else d.files x }

/-- `os.makedirs(dir, exist_ok=True)` -/
def Disk.makedirs (d : Disk) (p : List Char) : Disk := if p ∈ d.dirs then d else { d with dirs := p :: d.dirs }

inductive Fail where
  /-- ValueError of the checks of the arguments -/
  | args
  /-- the download fails -/
  | download
  /-- a file is missing, or not an index -/
  | unreadable
  | merge (e : Err)

inductive Mode where
  | local_ | system
  deriving DecidableEq

def readIndex (d : Disk) (p : List Char) : Except Fail IndexFile :=
  match d.files p with
  | some (.index f) => .ok f
  | _ => .error .unreadable

/-- `os.path.join(dir, "index.json")` -/
def indexAt (dir : List Char) : List Char := join dir "index.json".toList

/-- `os.path.join(args.output_dir, "index.json.remote")` -/
def remoteAt (dir : List Char) : List Char := join dir "index.json.remote".toList

/-- `download_index_file` — tools/utils/matrix.py:22-38: first the packed file, then the index. `reply`: what the server sent, if it did. -/
def download (reply : Option Content) (target : List Char) (d : Disk) : Except Fail Unit × Disk :=
  match reply with
  | none => (.error .download, d)
  | some c =>
    let d := d.write (target ++ ".gz".toList) (.other 0)
    match c with
    | .index f => (.ok (), d.write target (.index f))
    | .other _ => (.error .download, d)

/-- The system's index, if one is given — merge_index.py:34-38 -/
def readSystem (d : Disk) : Option (List Char) → Except Fail (Option IndexFile)
  | none => .ok none
  | some p => (readIndex d p).map some

/-- `merge` on the disk — merge_index.py:31-68: the system's index is read before the input. -/
def mergeFiles (input : List Char) (result : List Char) (system : Option (List Char)) (dry : Bool) (d : Disk) : Except Fail Unit × Disk :=
  match readSystem d system with
  | .error e => (.error e, d)
  | .ok s =>
    match readIndex d (indexAt input) with
    | .error e => (.error e, d)
    | .ok i =>
      match mergeContent s i with
      | .error e => (.error (.merge (.grid e)), d)
      | .ok (f, n) =>
        if dry then (.ok (), d)
        else (match checkFile f n with
          | .error e => .error (.merge e)
          | .ok _ => .ok (), d.write result (.index f))

/-- `main` — merge_index.py:90-116 -/
def main (mode : Mode) (input output : List Char) (dry : Bool) (reply : Option Content) (d : Disk) : Except Fail Unit × Disk :=
  if input ∉ d.dirs then (.error .args, d)
  else if output = [] then (.error .args, d)
  else
    let d := d.makedirs output
    match mode with
    | .local_ => mergeFiles input (indexAt output) none dry d
    | .system =>
      match download reply (remoteAt output) d with
      | (.error e, d) => (.error e, d)
      | (.ok _, d) => mergeFiles input (indexAt output) (some (remoteAt output)) dry d

end Verif.Builder.MergeTool

import Verif.Mir.Decode

/-!
# Griddef files and MIR jobs that write matrices — src/earthkit/regrid/utils/mir.py:68-180

A coordinate is the bit pattern of a float, or `none` for anything `struct.pack("!d", …)` refuses. `str` of a python list is
modelled exactly given the text of its elements; `str` of a numpy array is modelled by the rule that arrays of more than 1000
elements print as their first three and last three elements (numpy's default print options). MIR itself is a parameter.
-/

namespace Verif.Mir

open Verif.Regrid (Csr)

abbrev Coord := Option UInt64

/-- `write_double` of any object: the tag is written before `pack` raises — stream.py:133-137 -/
def writeCoord : Coord → Written
  | some b => writeDouble b
  | none => (writeTag TAG_DOUBLE).andThen ⟨[], some .struct⟩

/-- `for lat, lon in zip(lats, lons)` — mir.py:86-88 -/
def writePairs : List Coord → List Coord → Written
  | lat :: lats, lon :: lons => ((writeCoord lat).andThen (writeCoord lon)).andThen (writePairs lats lons)
  | _, _ => ⟨[], none⟩

/-- Everything written to the file — mir.py:81-88 -/
def griddefContent (lats lons : List Coord) : Written :=
  ((Item.ulong 1).write.andThen (Item.ulong lats.length).write).andThen (writePairs lats lons)

/-- The files of a directory, by name. -/
abbrev Dir (N : Type) := N → Option Bytes

variable {N : Type} [DecidableEq N]

def Dir.set (d : Dir N) (n : N) (b : Bytes) : Dir N := fun x => if x = n then some b else d x

/-- `mir_write_latlon_to_griddef` — mir.py:76-88: the checks come before the file is opened; what was written before an exception
stays. -/
def writeGriddef (d : Dir N) (name : N) (lats lons : List Coord) : Except Err Unit × Dir N :=
  if lats.length ≠ lons.length ∨ lats.length = 0 then (.error .value, d)
  else
    let w := griddefContent lats lons
    (match w.err with | some e => .error e | none => .ok (), d.set name w.bytes)

/-- A sequence of coordinates as given: a python list or a numpy array. -/
inductive Seq where
  | list (l : List Coord)
  | array (l : List Coord)

def Seq.items : Seq → List Coord
  | .list l => l
  | .array l => l

/-- How python prints: an element of a list, a short array, a long array by its edges; and md5. -/
structure Texts (N : Type) where
  elem : Coord → List Char
  full : List Coord → List Char
  edges : List Coord → List Coord → List Char
  md5 : List Char → N

/-- `", ".join(…)` -/
def commaJoin : List (List Char) → List Char
  | [] => []
  | [a] => a
  | a :: b :: l => a ++ [',', ' '] ++ commaJoin (b :: l)

/-- `str(x)` -/
def Texts.str (t : Texts N) : Seq → List Char
  | .list l => ['['] ++ commaJoin (l.map t.elem) ++ [']']
  | .array l => if l.length > 1000 then t.edges (l.take 3) (l.drop (l.length - 3)) else t.full l

/-- The name of the file — mir.py:100-106 -/
def Texts.name (t : Texts N) (lat lon : Seq) : N := t.md5 (['1'] ++ t.str lat ++ t.str lon)

/-- `_griddef_from_latlon` — mir.py:97-111 -/
def griddefFrom (t : Texts N) (d : Dir N) (lat lon : Seq) : Except Err N × Dir N :=
  let name := t.name lat lon
  match d name with
  | some _ => (.ok name, d)
  | none =>
    match writeGriddef d name lat.items lon.items with
    | (.ok _, d) => (.ok name, d)
    | (.error e, d) => (.error e, d)

/-! ### `mir_make_matrix` — mir.py:114-171 -/

/-- `output`: `None`, a string or a `pathlib.Path`, with the path and its suffix. -/
inductive Output where
  | none
  | str (path suffix : List Char)
  | path (path suffix : List Char)

/-- What is given for a grid: a gridspec (as text), latitudes, longitudes (as the name of the griddef they would give). -/
structure GridArg where
  grid : Option (List Char)
  lat : Option (List Char)
  lon : Option (List Char)

/-- The content of a file: bytes, or a matrix saved by `save_npz`. -/
inductive Content where
  | bytes (b : Bytes)
  | npz (m : Csr Nat)

abbrev Files := List Char → Option Content

def Files.set (f : Files) (p : List Char) (c : Content) : Files := fun x => if x = p then some c else f x

def Files.unlink (f : Files) (p : List Char) : Files := fun x => if x = p then Option.none else f x

/-- Options of a job; a later `set` replaces an earlier one. -/
abbrev Settings := List (List Char × List Char)

def Settings.get (s : Settings) (k : List Char) : Option (List Char) := (s.reverse.find? (fun x => x.1 == k)).map (·.2)

def matrixKey : List Char := "interpolation-matrix".toList

/-- MIR: a job with an input either fails or writes the file named by `interpolation-matrix`, if any. -/
abbrev Engine := Settings → List Char → Option Bytes

/-- `mir_cached_matrix_to_file(path, target)` — mir.py:68-73; a string has no attribute `suffix`. -/
def toFile (f : Files) (source : List Char) (target : Output) : Except Err Unit × Files :=
  match target with
  | .path p suffix =>
    if suffix ≠ ".npz".toList then (.error .value, f)
    else
      match f source with
      | some (.bytes b) =>
        match decode b with
        | .ok m => (.ok (), f.set p (.npz m))
        | .error e => (.error e, f)
      | _ => (.error .notFound, f)
  | _ => (.error .attribute, f)

/-- The setting or the input that stands for a grid — mir.py:132-143 -/
def gridSetting (a : GridArg) : Except Err (List Char × List Char) :=
  match a.grid, a.lat, a.lon with
  | some g, Option.none, Option.none => .ok ("grid".toList, g)
  | Option.none, some x, some _ => .ok ("griddef".toList, x)
  | _, _, _ => .error .value

/-- After the job — mir.py:161-171. The matrix is at `mat`. -/
def finish (f : Files) (mat : List Char) (output : Output) (ext : List Char) : Except Err Unit × Files :=
  match f mat with
  | Option.none => (.error .notFound, f)
  | some _ =>
    if ext = ".npz".toList then
      match toFile f mat output with
      | (.ok _, f) => (.ok (), f.unlink mat)
      | (.error e, f) => (.error e, f)
    else (.ok (), f)

/-- The job and what follows, for an output with a path — mir.py:145-171. -/
def runJob (engine : Engine) (f : Files) (kwargs : Settings) (input outGrid : List Char × List Char) (output : Output)
    (path ext : List Char) : Except Err Unit × Files :=
  let mat := if ext = ".npz".toList then path ++ ".mat".toList else path
  let settings := [outGrid, (matrixKey, mat)] ++ kwargs
  match engine settings input.2 with
  | Option.none => (.error .runtime, f)
  | some b =>
    match Settings.get settings matrixKey with
    | some p => finish (f.set p (.bytes b)) mat output ext
    | Option.none => finish f mat output ext

/-- `mir_make_matrix` — mir.py:114-171. Griddef files of coordinates are written by `griddefFrom`, not shown here. -/
def makeMatrix (engine : Engine) (f : Files) (inp out : GridArg) (kwargs : Settings) (output : Output) :
    Except Err Unit × Files :=
  match output with
  | .none =>
    match gridSetting inp, gridSetting out with
    | .ok _, .ok _ => (.error .type, f)
    | _, _ => (.error .value, f)
  | .str path ext | .path path ext =>
    if ext ≠ ".mat".toList ∧ ext ≠ ".npz".toList then (.error .value, f)
    else
      match gridSetting inp, gridSetting out with
      | .ok i, .ok o => runJob engine f kwargs i o output path ext
      | _, _ => (.error .value, f)

end Verif.Mir

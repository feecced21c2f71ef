import Mathlib.Logic.Function.Basic
import Mathlib.Data.List.Induction

/-!
# Temporary files — src/earthkit/regrid/utils/temporary.py:13-57

The directory of temporary files: what is at each path. Files are numbered as they are made, whoever makes them, so that a file made later at
the same path is another one. `TmpFile` objects are numbered too. Other code may remove and make files at any time.
Temporary directories are in `DiskCache/Life.lean`.
-/

namespace Verif.Temporary

/-- A `TmpFile` — temporary.py:13-26: its attribute `path`, and whether there still is an object. -/
structure Obj where
  path : Option Nat
  alive : Bool
  deriving DecidableEq, Repr

/-- What happened: a file was made or removed by an object or by others. -/
inductive Event where
  | made (obj file : Nat)
  | removed (obj file : Nat)
  | raised (obj : Nat)
  deriving DecidableEq, Repr

structure Sys where
  /-- the file at a path -/
  at_ : Nat → Option Nat
  objs : List Obj
  nextFile : Nat
  log : List Event

/-- `os.unlink` -/
def Sys.unlink (s : Sys) (p : Nat) : Sys := { s with at_ := Function.update s.at_ p none }

/-- `TmpFile.cleanup` — temporary.py:37-40: when `os.unlink` raises (FileNotFoundError) the path stays. -/
def Sys.cleanup (s : Sys) (i : Nat) : Sys :=
  match s.objs[i]? with
  | none => s
  | some o =>
    match o.path with
    | none => s
    | some p =>
      match s.at_ p with
      | none => { s with log := s.log ++ [.raised i] }
      | some f => { s.unlink p with objs := s.objs.set i { o with path := none }, log := s.log ++ [.removed i f] }

/-- Does the cleanup raise? -/
def Sys.cleanupRaises (s : Sys) (i : Nat) : Bool :=
  match s.objs[i]? with
  | none => false
  | some o =>
    match o.path with
    | none => false
    | some p => (s.at_ p).isNone

/-- `__del__` — temporary.py:28-29: what it raises is ignored by python; there is no object any more. -/
def Sys.del (s : Sys) (i : Nat) : Sys :=
  match s.objs[i]? with
  | none => s
  | some o =>
    if o.alive then
      let s := s.cleanup i
      match s.objs[i]? with
      | none => s
      | some o => { s with objs := s.objs.set i { o with alive := false } }
    else s

/-- `temp_file` — temporary.py:43-57: `mkstemp` makes a file at a path where there is none. -/
def Sys.tempFile (s : Sys) (p : Nat) : Sys :=
  match s.at_ p with
  | some _ => s
  | none =>
    { at_ := Function.update s.at_ p (some s.nextFile), objs := s.objs ++ [⟨some p, true⟩], nextFile := s.nextFile + 1,
      log := s.log ++ [.made s.objs.length s.nextFile] }

/-- Somebody else makes a file. -/
def Sys.make (s : Sys) (p : Nat) : Sys := { s with at_ := Function.update s.at_ p (some s.nextFile), nextFile := s.nextFile + 1 }

inductive Act where
  | tempFile (p : Nat)
  /-- `cleanup()`, or leaving a `with` block (`__exit__`, temporary.py:34-35), of an object that is there -/
  | cleanup (i : Nat)
  | del (i : Nat)
  /-- others -/
  | make (p : Nat)
  | remove (p : Nat)
  deriving DecidableEq, Repr

def Sys.act (s : Sys) : Act → Sys
  | .tempFile p => s.tempFile p
  | .cleanup i => if (s.objs[i]?.map Obj.alive).getD false then s.cleanup i else s
  | .del i => s.del i
  | .make p => s.make p
  | .remove p => s.unlink p

def Sys.init (at_ : Nat → Option Nat) (n : Nat) : Sys := ⟨at_, [], n, []⟩

def Sys.run (s : Sys) (h : List Act) : Sys := h.foldl Sys.act s

/-- `with temp_file() as path: body` for the `p` that mkstemp chooses — temporary.py:31-35: the body gets the path; what it raises goes on
unless leaving the block raises; after the block nothing refers to the object. -/
def withFile {E : Type} (gone : E) (s : Sys) (p : Nat) (body : Sys → Except E Unit × Sys) : Except E Unit × Sys :=
  let i := s.objs.length
  let (r, s) := body (s.tempFile p)
  (if s.cleanupRaises i then .error gone else r, (s.cleanup i).del i)

end Verif.Temporary

import Mathlib.Logic.Function.Basic

/-!
# Many processes asking for one file of the disk cache — src/earthkit/regrid/utils/caching.py:979-1031

Any number of processes (or threads) run `cache_file` of a managed policy for the same path. The file system is the names `path`,
`path.tmp` and `path.lock` with their inodes, and the data of inodes; the table is the row of the path: absent, or with a size that may
be missing. A step is one access to the file system, the lock or the table. `FileLock` is `open` (creating the file) and `flock` on the
open inode, again and again until it succeeds; a lock vanishes with its process. `create` truncates or creates its target and writes
the content piece by piece; it may raise. Resuming an earlier partial download is not modelled.
-/

namespace Verif.DiskCache.Create

abbrev Body := List Nat

/-- Where a process is in `cache_file`; `i` is the open lock file, `f` the open temporary file. -/
inductive Pc where
  | idle
  /-- `CACHE._register_cache_file` — caching.py:1003 -/
  | register
  /-- `if os.path.exists(path)`, `if force` — caching.py:1004-1011 -/
  | look
  /-- `CACHE._decache_file`: the file, then the row — caching.py:1013, 385-398 -/
  | dropFile
  | dropRow
  /-- caching.py:1014 -/
  | register2
  /-- `if not os.path.exists(path)` — caching.py:1016 -/
  | look2
  /-- `with FileLock(lock)` — caching.py:1019-1020 -/
  | openLock
  | tryLock (i : Nat)
  /-- caching.py:1021 -/
  | check (i : Nat)
  /-- `create(path + ".tmp", args)` — caching.py:1022 -/
  | create (i : Nat)
  | writing (i f off : Nat) (rest : Body)
  /-- caching.py:1023 -/
  | rename (i : Nat)
  /-- `CACHE._update_entry` — caching.py:1025 -/
  | update (i : Nat)
  /-- end of `with` -/
  | release (i : Nat)
  /-- `os.unlink(lock)` — caching.py:1028-1031 -/
  | unlink
  /-- `return path` -/
  | done
  /-- an exception left `cache_file` -/
  | failed
  deriving DecidableEq, Repr

/-- A process: where it is, whether the file is to be regenerated, what its `create` would write. -/
structure Proc where
  pc : Pc
  force : Bool
  body : Body
  deriving DecidableEq, Repr

structure Sys where
  procs : Nat → Proc
  file : Option Nat
  tmp : Option Nat
  lock : Option Nat
  /-- who has locked a lock file -/
  locked : Nat → Option Nat
  /-- data of inodes -/
  data : Nat → Body
  /-- unused inodes -/
  nextFile : Nat
  nextLock : Nat
  row : Option (Option Nat)

inductive Act where
  /-- a process calls `cache_file` -/
  | start (p : Nat) (force : Bool) (body : Body)
  /-- it does its next step -/
  | go (p : Nat)
  /-- its `create` raises -/
  | fail (p : Nat)
  /-- it dies -/
  | crash (p : Nat)
  /-- trimming or purging deletes the file, the row, the other files -/
  | evict
  | forget
  | evictTmp
  | evictLock
  /-- housekeeping: the size of a finished file is recorded — caching.py:252-279 -/
  | house
  /-- the same with `clean=True`: the row of a missing file is deleted -/
  | clean
  deriving DecidableEq, Repr

def Sys.pc (s : Sys) (p : Nat) : Pc := (s.procs p).pc

def Sys.goto (s : Sys) (p : Nat) (pc : Pc) : Sys := { s with procs := Function.update s.procs p { s.procs p with pc := pc } }

def Sys.unlock (s : Sys) (i : Nat) : Sys := { s with locked := Function.update s.locked i none }

/-- `write` at a position of a file that may have been truncated by someone else: a hole reads as zeros. -/
def writeAt (d : Body) (off c : Nat) : Body := d.take off ++ List.replicate (off - d.length) 0 ++ c :: d.drop (off + 1)

/-- `_register_cache_file`: a new row has no size. -/
def Sys.enter (s : Sys) : Sys := { s with row := some (s.row.getD none) }

/-- `open(path + ".tmp", "wb")` -/
def Sys.openTmp (s : Sys) (p i : Nat) : Sys :=
  match s.tmp with
  | some f => { s with data := Function.update s.data f [] }.goto p (.writing i f 0 (s.procs p).body)
  | none => { s with tmp := some s.nextFile, nextFile := s.nextFile + 1, data := Function.update s.data s.nextFile [] }.goto p
      (.writing i s.nextFile 0 (s.procs p).body)

/-- `open(path + ".lock", O_CREAT)` -/
def Sys.openLock (s : Sys) (p : Nat) : Sys :=
  match s.lock with
  | some i => s.goto p (.tryLock i)
  | none => { s with lock := some s.nextLock, nextLock := s.nextLock + 1 }.goto p (.tryLock s.nextLock)

/-- `os.rename(path + ".tmp", path)` -/
def Sys.publish (s : Sys) (p i : Nat) : Sys :=
  match s.tmp with
  | none => (s.unlock i).goto p .failed
  | some f => { s with file := some f, tmp := none }.goto p (.update i)

/-- `_update_entry`: `os.path.getsize` and `UPDATE cache SET size=?` -/
def Sys.record (s : Sys) (p i : Nat) : Sys :=
  match s.file with
  | none => (s.unlock i).goto p .failed
  | some f => { s with row := s.row.map (fun _ => some (s.data f).length) }.goto p (.release i)

def Sys.go (s : Sys) (p : Nat) : Sys :=
  match s.pc p with
  | .idle => s
  | .register => s.enter.goto p .look
  | .look => s.goto p (if s.file.isSome && (s.procs p).force then .dropFile else .look2)
  | .dropFile => { s with file := none }.goto p .dropRow
  | .dropRow => { s with row := none }.goto p .register2
  | .register2 => s.enter.goto p .look2
  | .look2 => s.goto p (if s.file.isSome then .done else .openLock)
  | .openLock => s.openLock p
  | .tryLock i => if (s.locked i).isNone then { s with locked := Function.update s.locked i (some p) }.goto p (.check i) else s.goto p .openLock
  | .check i => s.goto p (if s.file.isSome then .release i else .create i)
  | .create i => s.openTmp p i
  | .writing i f off (c :: rest) => { s with data := Function.update s.data f (writeAt (s.data f) off c) }.goto p (.writing i f (off + 1) rest)
  | .writing i _ _ [] => s.goto p (.rename i)
  | .rename i => s.publish p i
  | .update i => s.record p i
  | .release i => (s.unlock i).goto p .unlink
  | .unlink => { s with lock := none }.goto p .done
  | .done => s
  | .failed => s

/-- Is this a place from which a new call can start? -/
def Pc.ended : Pc → Bool
  | .idle | .done | .failed => true
  | _ => false

def Sys.failing (s : Sys) (p : Nat) : Sys :=
  match s.pc p with
  | .create i => (s.unlock i).goto p .failed
  | .writing i _ _ _ => (s.unlock i).goto p .failed
  | _ => s

def Sys.house (s : Sys) : Sys :=
  match s.row, s.file with
  | some none, some f => { s with row := some (some (s.data f).length) }
  | _, _ => s

def Sys.clean (s : Sys) : Sys :=
  match s.row, s.file with
  | some none, none => { s with row := none }
  | _, _ => s.house

def Sys.start (s : Sys) (p : Nat) (force : Bool) (body : Body) : Sys :=
  if (s.pc p).ended then { s with procs := Function.update s.procs p ⟨.register, force, body⟩ } else s

def Sys.act (s : Sys) : Act → Sys
  | .start p force body => s.start p force body
  | .go p => s.go p
  | .fail p => s.failing p
  | .crash p => { s with locked := fun i => if s.locked i = some p then none else s.locked i }.goto p .idle
  | .evict => { s with file := none }
  | .forget => { s with row := none }
  | .evictTmp => { s with tmp := none }
  | .evictLock => { s with lock := none }
  | .house => s.house
  | .clean => s.clean

/-- An empty cache and processes that have asked for nothing. -/
def Sys.init : Sys := ⟨fun _ => ⟨.idle, false, []⟩, none, none, none, fun _ => none, fun _ => [], 0, 0, none⟩

def Sys.run (s : Sys) (h : List Act) : Sys := h.foldl Sys.act s

end Verif.DiskCache.Create

import Mathlib.Logic.Function.Basic
import Verif.DiskCache.TableSpec

/-!
# Files in use while the cache is trimmed — src/earthkit/regrid/utils/caching.py:799-813, 847-865, 979-1031

Threads of one process run `cache_file` with a managed policy; the functions `create` and `force` may call `cache_file` again (the index
of a remote inventory does so, backends/db.py:130-240). The manager thread (`Table.lean`) answers requests in their order. `check_size` is
the only request nobody waits for: it is counted as pending and runs at any later time. A request that is waited for comes after all
pending checks, and while it waits nobody else can send one (`_call_manager` holds the manager lock), so it is one step, possible when
nothing is pending. The settings do not change the policy meanwhile (`Switch.lean`); lock files and `.tmp` files are in `Create.lean`.
-/

namespace Verif.DiskCache.Use

/-- Where a thread is in `cache_file`. -/
inductive Pc where
  /-- `if os.path.exists(path):` with `force` — caching.py:1004-1009 -/
  | first
  /-- `CACHE._decache_file(path)` — caching.py:1013 -/
  | decache
  /-- `record = CACHE._register_cache_file(path, owner, args)` — caching.py:1014 -/
  | again
  /-- `if not os.path.exists(path):` — caching.py:1016 -/
  | second
  /-- `with FileLock(lock): if not os.path.exists(path):` — caching.py:1020-1021 -/
  | lock
  /-- `owner_data = create(path + ".tmp", args); os.rename(…)` — caching.py:1022-1023 -/
  | make
  /-- `CACHE._update_entry(path, owner_data)` — caching.py:1025 -/
  | update
  /-- `CACHE.check_size()` and the end — caching.py:1026-1031 -/
  | finish
  deriving DecidableEq, Repr

/-- A running call of `cache_file`. `fresh`: its last registration made a new row; `leaf`: no other call was made within it. -/
structure Frame where
  path : Path
  pc : Pc
  fresh : Bool
  leaf : Bool
  deriving DecidableEq, Repr

/-- A path that was returned: to be opened by the caller. `made`: the call created the file. -/
structure Held where
  path : Path
  made : Bool
  fresh : Bool
  leaf : Bool
  deriving DecidableEq, Repr

structure St where
  table : DiskCache.St
  /-- checks that were asked for and not run yet -/
  pending : Nat
  /-- calls of each thread, innermost first -/
  calls : Nat → List Frame
  /-- what the last call of the thread returned, until the thread goes on -/
  held : Nat → Option Held
  /-- file locks taken -/
  locks : List Path

inductive Act where
  /-- `cache_file` is called, up to the answer to `_register_cache_file` — caching.py:1003 -/
  | ask (i : Nat) (t : Nat) (p : Path) (owner : List Char)
  | first (i : Nat) (force : Bool)
  | decache (i : Nat)
  | again (i : Nat) (t : Nat) (owner : List Char)
  | second (i : Nat)
  | lock (i : Nat)
  | make (i : Nat) (f : File)
  | update (i : Nat) (d : Option Nat)
  | finish (i : Nat)
  /-- `create` or `force` raises -/
  | raise (i : Nat)
  /-- the manager runs `_check_cache_size` -/
  | manage (t : Nat) (limit usage : Option Nat) (disk : Disk)

/-- The thread of an action; none for the manager. -/
def Act.thread : Act → Option Nat
  | .ask i _ _ _ => some i
  | .first i _ => some i
  | .decache i => some i
  | .again i _ _ => some i
  | .second i => some i
  | .lock i => some i
  | .make i _ => some i
  | .update i _ => some i
  | .finish i => some i
  | .raise i => some i
  | .manage _ _ _ _ => none

def St.setCalls (s : St) (i : Nat) (fs : List Frame) : St :=
  { s with calls := Function.update s.calls i fs, held := Function.update s.held i none }

/-- The innermost call of the thread returns. -/
def St.ret (s : St) (i : Nat) (h : Held) (fs : List Frame) : St :=
  { s with calls := Function.update s.calls i fs, held := Function.update s.held i (some h) }

def hasRow (s : DiskCache.St) (p : Path) : Bool := s.rows.any (fun r => r.path = p)

def putFile (s : DiskCache.St) (p : Path) (f : File) : DiskCache.St := { s with files := (p, f) :: s.files.filter (fun x => x.1 != p) }

/-- A call made within a call is no longer a leaf. -/
def inner : List Frame → List Frame
  | [] => []
  | f :: fs => { f with leaf := false } :: fs

/-- May the thread call `cache_file`? Outside, or in the functions `force` and `create`. -/
def mayCall : List Frame → Bool
  | [] => true
  | f :: _ => f.pc = .first || f.pc = .make

def St.step (e : Env) (s : St) : Act → Option St
  | .ask i t p owner =>
    if s.pending = 0 ∧ mayCall (s.calls i) = true then
      match register e t p owner none s.table with
      | (.error _, _) => none
      | (.ok _, tb) => some ({ s with table := tb }.setCalls i (⟨p, .first, !hasRow s.table p, true⟩ :: inner (s.calls i)))
    else none
  | .first i force =>
    match s.calls i with
    | f :: fs => if f.pc = .first then
        some (s.setCalls i ({ f with pc := if s.table.exists_ f.path && force then .decache else .second } :: fs)) else none
    | [] => none
  | .decache i =>
    match s.calls i with
    | f :: fs => if f.pc = .decache ∧ s.pending = 0 then
        match decacheFile e f.path s.table with
        | (.error _, tb) => some ({ s with table := tb }.setCalls i fs)
        | (.ok _, tb) => some ({ s with table := tb }.setCalls i ({ f with pc := .again } :: fs))
      else none
    | [] => none
  | .again i t owner =>
    match s.calls i with
    | f :: fs => if f.pc = .again ∧ s.pending = 0 then
        match register e t f.path owner none s.table with
        | (.error _, _) => none
        | (.ok _, tb) => some ({ s with table := tb }.setCalls i ({ f with pc := .second, fresh := !hasRow s.table f.path } :: fs))
      else none
    | [] => none
  | .second i =>
    match s.calls i with
    | f :: fs => if f.pc = .second then
        if s.table.exists_ f.path then some (s.ret i ⟨f.path, false, f.fresh, f.leaf⟩ fs)
        else some (s.setCalls i ({ f with pc := .lock } :: fs))
      else none
    | [] => none
  | .lock i =>
    match s.calls i with
    | f :: fs => if f.pc = .lock ∧ f.path ∉ s.locks then
        if s.table.exists_ f.path then some (s.ret i ⟨f.path, false, f.fresh, f.leaf⟩ fs)
        else some ({ s with locks := f.path :: s.locks }.setCalls i ({ f with pc := .make } :: fs))
      else none
    | [] => none
  | .make i file =>
    match s.calls i with
    | f :: fs => if f.pc = .make then some ({ s with table := putFile s.table f.path file }.setCalls i ({ f with pc := .update } :: fs)) else none
    | [] => none
  | .update i d =>
    match s.calls i with
    | f :: fs => if f.pc = .update ∧ s.pending = 0 then
        match updateEntry e f.path d s.table with
        | (.error _, tb) => some ({ s with table := tb, locks := s.locks.erase f.path }.setCalls i fs)
        | (.ok _, tb) => some ({ s with table := tb }.setCalls i ({ f with pc := .finish } :: fs))
      else none
    | [] => none
  | .finish i =>
    match s.calls i with
    | f :: fs => if f.pc = .finish then
        some ({ s with pending := s.pending + 1, locks := s.locks.erase f.path }.ret i ⟨f.path, true, f.fresh, f.leaf⟩ fs) else none
    | [] => none
  | .raise i =>
    match s.calls i with
    | f :: fs => if f.pc = .first ∨ f.pc = .make then
        some ({ s with locks := if f.pc = Pc.make then s.locks.erase f.path else s.locks }.setCalls i fs) else none
    | [] => none
  | .manage t limit usage disk =>
    if 0 < s.pending then some { s with table := (checkSize e t limit usage disk s.table).2, pending := s.pending - 1 } else none

def St.run (e : Env) (s : St) : List Act → Option St
  | [] => some s
  | a :: as => (s.step e a).bind (fun s => s.run e as)

/-- A process starts on a cache directory. -/
def St.start (table : DiskCache.St) (pending : Nat) : St := ⟨table, pending, fun _ => [], fun _ => none, []⟩

end Verif.DiskCache.Use

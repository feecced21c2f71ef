import Mathlib.Data.List.Sort

/-!
# The cache manager on its table and its directory — src/earthkit/regrid/utils/caching.py:137-559

The sqlite table is a list of rows in insertion order, the file system a list of files. Times are numbers (sqlite compares ISO
texts, which sort by time). A directory in the cache is one file with the size of its content. One manager thread runs these
operations one at a time; queries that are iterated while rows are deleted see the rows of their start (sqlite does so for the sorted
query and may skip deleted rows in the others; a row that is already gone has no file and counts nothing, unless the file could not be
deleted). The wildcards of `LIKE` are not modelled: without `%` in a path they do not matter. Exceptions are values and leave the
changes made before them. Files change only between operations.
-/

namespace Verif.DiskCache

abbrev Path := List Char

/-- A row of the table — caching.py:154-169; columns without a role are left out. -/
structure Row where
  path : Path
  owner : List Char
  created : Nat
  access : Nat
  size : Option Nat
  parent : Option Path
  accesses : Nat
  data : Option Nat
  deriving DecidableEq, Repr

structure File where
  size : Nat
  mtime : Nat
  deriving DecidableEq, Repr

structure St where
  rows : List Row
  files : List (Path × File)

/-- The directory of the policy, and the files the operating system refuses to delete. -/
structure Env where
  dir : Path
  stuck : Path → Bool

inductive Err where
  /-- AssertionError of `_ensure_in_cache` -/
  | assertion
  /-- OSError -/
  | os
  /-- TypeError -/
  | type
  deriving DecidableEq, Repr

def orphans : List Char := "orphans".toList

/-- `file_in_cache_directory` — caching.py:626-627 -/
def inCache (e : Env) (p : Path) : Bool := e.dir.isPrefixOf p

def St.file (s : St) (p : Path) : Option File := s.files.lookup p

/-- `os.path.exists` -/
def St.exists_ (s : St) (p : Path) : Bool := (s.file p).isSome

/-- `DELETE FROM cache WHERE path=?` -/
def St.dropRow (s : St) (p : Path) : St := { s with rows := s.rows.filter (fun r => r.path != p) }

def St.dropFile (s : St) (p : Path) : St := { s with files := s.files.filter (fun f => f.1 != p) }

def touch (t : Nat) (p : Path) (r : Row) : Row := if r.path = p then { r with accesses := r.accesses + 1, access := t } else r

/-- `_register_cache_file` — caching.py:429-479 -/
def register (e : Env) (t : Nat) (p : Path) (owner : List Char) (parent : Option Path) (s : St) : Except Err Unit × St :=
  if inCache e p then
    if s.rows.any (fun r => r.path = p) then (.ok (), { s with rows := s.rows.map (touch t p) })
    else (.ok (), { s with rows := s.rows ++ [⟨p, owner, t, t, none, parent, 1, none⟩] })
  else (.error .assertion, s)

def setSize (p : Path) (n : Nat) (d : Option Nat) (r : Row) : Row := if r.path = p then { r with size := some n, data := d } else r

/-- `_update_entry` — caching.py:228-250 -/
def updateEntry (e : Env) (p : Path) (d : Option Nat) (s : St) : Except Err Unit × St :=
  if inCache e p then
    match s.file p with
    | none => (.error .os, s)
    | some f => (.ok (), { s with rows := s.rows.map (setSize p f.size d) })
  else (.error .assertion, s)

/-- One unfinished row in `_update_cache`: what becomes of it. -/
def refresh (s : St) (clean : Bool) (r : Row) : Option Row :=
  match r.size with
  | some _ => some r
  | none =>
    match s.file r.path with
    | some f => some { r with size := some f.size }
    | none => if clean then none else some r

/-- `_update_cache` — caching.py:252-279 -/
def updateCache (clean : Bool) (s : St) : St := { s with rows := s.rows.filterMap (refresh s clean) }

/-- `full.split(".")[0]` -/
def beforeDot (p : Path) : Path := p.takeWhile (· ≠ '.')

/-- The parent of a file without a row — caching.py:293-302; `LIKE` with the text before the first dot. -/
def findParent (s : St) (full : Path) : Option Path :=
  (s.rows.find? (fun r => r.parent = none && (beforeDot full).isPrefixOf r.path && r.path.isPrefixOf full)).map (·.path)

/-- One name of the directory in `_housekeeping` — caching.py:284-320 -/
def adopt (e : Env) (t : Nat) (s : St) (full : Path) : St :=
  if s.rows.any (fun r => r.path = full) then s
  else
    match s.file full with
    | some f => if t - f.mtime < 120 then s else (register e t full orphans (findParent s full) s).2
    | none => (register e t full orphans (findParent s full) s).2

def dbName : Path := "/cache-2.db".toList

/-- A file directly in the directory, other than the database. -/
def direct (e : Env) (p : Path) : Bool :=
  (e.dir ++ ['/']).isPrefixOf p && !((p.drop (e.dir.length + 1)).contains '/') && p != e.dir ++ dbName && p != e.dir ++ "/..".toList

/-- `_housekeeping` — caching.py:281-322 -/
def housekeeping (e : Env) (t : Nat) (clean : Bool) (s : St) : St :=
  updateCache clean (((s.files.map (·.1)).filter (direct e)).foldl (adopt e t) s)

/-- `_delete_file` — caching.py:324-334: errors of the operating system are swallowed. -/
def deleteFile (e : Env) (p : Path) (s : St) : Except Err Unit × St :=
  if inCache e p then (if e.stuck p then (.ok (), s) else (.ok (), s.dropFile p)) else (.error .assertion, s)

/-- The end of `_delete_entry` — caching.py:385-398 -/
def deleteOwn (e : Env) (p : Path) (size total : Nat) (s : St) : Except Err Nat × St :=
  if s.exists_ p then
    match deleteFile e p s with
    | (.error x, s) => (.error x, s)
    | (.ok _, s) => (.ok (total + size), s.dropRow p)
  else (.ok total, s.dropRow p)

def St.children (s : St) (p : Path) : List Row := s.rows.filter (fun r => r.parent = some p)

/-- `for child in …: total += delete(child)` -/
def forRows (delete : Path → Nat → St → Except Err Nat × St) : List Row → St → Except Err Nat × St
  | [], s => (.ok 0, s)
  | r :: rs, s =>
    match delete r.path (r.size.getD 0) s with
    | (.error x, s) => (.error x, s)
    | (.ok n, s) =>
      match forRows delete rs s with
      | (.error x, s) => (.error x, s)
      | (.ok m, s) => (.ok (n + m), s)

/-- `_delete_entry` — caching.py:347-398: files with this parent first, then the file itself. `fuel` bounds the depth of the
recursion, which python does not; `closed_deleteEntry` shows that the bound used is never reached. -/
def deleteEntry (e : Env) : Nat → Path → Nat → St → Except Err Nat × St
  | 0, _, _, s => (.ok 0, s)
  | fuel + 1, p, size, s =>
    match forRows (deleteEntry e fuel) (s.children p) s with
    | (.error x, s) => (.error x, s)
    | (.ok total, s) => deleteOwn e p size total s

/-- `for entry in …: self._delete_entry(entry)` -/
def deleteAll (e : Env) (fuel : Nat) : List Row → St → Except Err Nat × St := forRows (deleteEntry e fuel)

def longest : List Row → Nat
  | [] => 0
  | r :: rs => max r.path.length (longest rs)

/-- Depth of the recursion: the parent of a file is a proper prefix of it, so a chain of parents is not longer than a path. -/
def St.depth (s : St) : Nat := longest s.rows + 1

/-- `_cache_size` — caching.py:481-487 -/
def St.size (s : St) : Nat := (s.rows.map (fun r => r.size.getD 0)).sum

def minDate : List Row → Option Nat
  | [] => none
  | r :: rs => match minDate rs with
    | none => some r.created
    | some m => some (min r.created m)

def maxDate : List Row → Option Nat
  | [] => none
  | r :: rs => match maxDate rs with
    | none => some r.created
    | some m => some (max r.created m)

/-- `_latest_date` — caching.py:189-201 -/
def latestDate (t : Nat) (s : St) : Nat :=
  match minDate (s.rows.filter (fun r => r.size.isNone)) with
  | some d => d
  | none => match maxDate (s.rows.filter (fun r => r.size.isSome)) with
    | some d => d
    | none => t

/-- The two queries of `_decache` — caching.py:414-417 -/
def firstQuery (latest : Nat) (s : St) : List Row :=
  s.rows.filter (fun r => r.size.isSome && r.owner = orphans && r.created < latest)

def secondQuery (latest : Nat) (s : St) : List Row :=
  (s.rows.filter (fun r => r.size.isSome && r.created < latest)).insertionSort (fun a b => a.access ≤ b.access)

/-- `for entry in …: total += self._delete_entry(entry); if total >= bytes: return` — caching.py:418-425. The amount to free is in
hundredths of a byte (percentages of the disk need them); the flag says that it was reached. -/
def trim (e : Env) (goal : Nat) : List Row → Nat → St → Except Err (Bool × Nat) × St
  | [], total, s => (.ok (false, total), s)
  | r :: rs, total, s =>
    match deleteEntry e s.depth r.path (r.size.getD 0) s with
    | (.error x, s) => (.error x, s)
    | (.ok n, s) => if 100 * (total + n) ≥ goal then (.ok (true, total + n), s) else trim e goal rs (total + n) s

/-- The two loops of `_decache` — caching.py:414-427 -/
def sweep (e : Env) (goal latest : Nat) (s : St) : Except Err Unit × St :=
  match trim e goal (firstQuery latest s) 0 s with
  | (.error x, s) => (.error x, s)
  | (.ok (true, _), s) => (.ok (), s)
  | (.ok (false, total), s) =>
    match trim e goal (secondQuery latest s) total s with
    | (.error x, s) => (.error x, s)
    | (.ok _, s) => (.ok (), s)

/-- `_decache` — caching.py:400-427 -/
def decache (e : Env) (t : Nat) (goal : Nat) (purge : Bool) (s : St) : Except Err Unit × St :=
  if goal = 0 then (.ok (), s) else sweep e goal (if purge then t else latestDate t s) s

/-- What `os.statvfs` gives: use in percent, size of the disk. -/
structure Disk where
  percent : Nat
  total : Nat

/-- The absolute limit in `_check_cache_size` — caching.py:494-500 -/
def checkMax (e : Env) (t : Nat) (limit : Option Nat) (s : St) : Except Err Unit × St :=
  match limit with
  | none => (.ok (), s)
  | some m => if s.size > m then decache e t (100 * (s.size - m)) false (housekeeping e t false s) else (.ok (), s)

/-- The relative limit — caching.py:502-511 -/
def checkUsage (e : Env) (t : Nat) (usage : Option Nat) (disk : Disk) (s : St) : Except Err Unit × St :=
  match usage with
  | none => (.ok (), s)
  | some u => if disk.percent > u then decache e t ((disk.percent - u) * disk.total) false (housekeeping e t false s) else (.ok (), s)

/-- `_check_cache_size` of a managed policy — caching.py:492-511; `disk`: seen at the second check. -/
def checkSize (e : Env) (t : Nat) (limit usage : Option Nat) (disk : Disk) (s : St) : Except Err Unit × St :=
  match checkMax e t limit s with
  | (.error x, s) => (.error x, s)
  | (.ok _, s) => checkUsage e t usage disk s

/-- `_purge_cache()` — caching.py:203-208; the clock is read again, later, in `_decache`. -/
def purge (e : Env) (t t' : Nat) (s : St) : Except Err Unit × St :=
  decache e t' (100 * (housekeeping e t true s).size) true (housekeeping e t true s)

/-- `_purge_cache(matcher)` — caching.py:210-212 -/
def purgeMatch (e : Env) (matcher : Row → Bool) (s : St) : Except Err Unit × St :=
  match deleteAll e s.depth (s.rows.filter matcher) s with
  | (.error x, s) => (.error x, s)
  | (.ok _, s) => (.ok (), s)

/-- `_decache_file` — caching.py:489-490 with the path as a string: the size is that of the file. -/
def decacheFile (e : Env) (p : Path) (s : St) : Except Err Unit × St :=
  match deleteEntry e s.depth p (((s.file p).map (·.size)).getD 0) s with
  | (.error x, s) => (.error x, s)
  | (.ok _, s) => (.ok (), s)

/-- `_cache_entries` — caching.py:214-226 -/
def entries (s : St) : List Row := s.rows.filter (fun r => s.exists_ r.path)

/-- `_summary_dump_cache_database` — caching.py:552-558: `size += None` raises. -/
def summary (s : St) : Except Err (Nat × Nat) :=
  if s.rows.any (fun r => r.size.isNone) then .error .type else .ok (s.rows.length, s.size)

end Verif.DiskCache

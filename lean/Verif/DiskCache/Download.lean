import Verif.Config.Model

/-!
# Downloads — src/earthkit/regrid/utils/download.py:22-107, with caching.py:979-1061

The class `Downloader` of the package multiurl is a parameter (`Downloader`): what its methods return or raise, and whether they talk to
the server. One process; concurrent creation is in `Create.lean`, the table in `Table.lean`. Here a file and the row of its entry are
`Cached`; for policy `off` each request has a new path.
-/

namespace Verif.DiskCache.Download
open Verif.Config

inductive DErr where
  | config (e : Err)
  /-- raised by the downloader -/
  | net
  deriving DecidableEq

/-- Requests the server sees. -/
inductive Contact where
  | extension
  | outOfDate
  | download
  deriving DecidableEq, Repr

/-- An object of multiurl's `Downloader` for one URL. -/
structure Downloader (B D : Type) where
  /-- `extension()`; it asks the server when the URL itself has none -/
  extension : Except DErr String
  asksExtension : Bool
  /-- `local_path()` -/
  localPath : Option String
  /-- `out_of_date(path, cache_data)` -/
  outOfDate : B → Option D → Except DErr Bool
  /-- `download(target)`: what is in `target` -/
  download : Except DErr B
  /-- `cache_data()` -/
  cacheData : Option D

/-- Where a file of the cache is. -/
inductive Loc where
  | keyed (owner url : String) (parts : Option String) (extension : String)
  | unique (n : Nat)
  deriving DecidableEq

/-- Files of the cache with the `owner_data` of their rows; requests seen by the server; number of unique names used. -/
structure Disk (B D : Type) where
  files : Loc → Option B
  data : Loc → Option D
  contacts : List Contact
  next : Nat

def Disk.ask {B D : Type} (s : Disk B D) (c : Contact) : Disk B D := { s with contacts := s.contacts ++ [c] }

/-- What the caller gives as `force`: nothing, a value, or a function (with the outcome it has for this call). -/
inductive Force where
  | default
  | value (b : Bool)
  | callable (r : Except DErr Bool)

/-- `out_of_date` — download.py:71-89 -/
def outOfDate {B D : Type} (cfg : String → Except Err V) (P : Py) (dl : Downloader B D) (updateFlag : Bool) (old : B) (data : Option D)
    (s : Disk B D) : Except DErr Bool × Disk B D :=
  match cfg "check-out-of-date-urls" with
  | .error e => (.error (.config e), s)
  | .ok x =>
    if x = .bool false then (.ok false, s)
    else
      match dl.outOfDate old data with
      | .error e => (.error e, s.ask .outOfDate)
      | .ok false => (.ok false, s.ask .outOfDate)
      | .ok true =>
        match cfg "download-out-of-date-urls" with
        | .error e => (.error (.config e), s.ask .outOfDate)
        | .ok y => (.ok (truthy P y || updateFlag), s.ask .outOfDate)

/-- `force`, decided — caching.py:1004-1009 -/
def decide' {B D : Type} (cfg : String → Except Err V) (P : Py) (dl : Downloader B D) (updateFlag : Bool) (old : B) (data : Option D)
    (s : Disk B D) : Force → Except DErr Bool × Disk B D
  | .default => outOfDate cfg P dl updateFlag old data s
  | .value b => (.ok b, s)
  | .callable r => (r, s)

/-- Creation when the file is missing — caching.py:1016-1027; a failed download leaves no file at the path. -/
def fetch {B D : Type} (dl : Downloader B D) (l : Loc) (s : Disk B D) : Except DErr Loc × Disk B D :=
  match dl.download with
  | .error e => (.error e, s.ask .download)
  | .ok c =>
    let s := s.ask .download
    (.ok l, { s with files := fun l' => if l' = l then some c else s.files l', data := fun l' => if l' = l then dl.cacheData else s.data l' })

/-- `_decache_file` followed by `_register_cache_file` — caching.py:1011-1014 -/
def drop {B D : Type} (l : Loc) (s : Disk B D) : Disk B D :=
  { s with files := fun l' => if l' = l then none else s.files l', data := fun l' => if l' = l then none else s.data l' }

/-- `cache_file` for managed policies — caching.py:981-1031 -/
def cacheFileAt {B D : Type} (cfg : String → Except Err V) (P : Py) (dl : Downloader B D) (updateFlag : Bool) (force : Force) (l : Loc)
    (s : Disk B D) : Except DErr Loc × Disk B D :=
  match s.files l with
  | none => fetch dl l s
  | some old =>
    match decide' cfg P dl updateFlag old (s.data l) s force with
    | (.error e, s) => (.error e, s)
    | (.ok true, s) => fetch dl l (drop l s)
    | (.ok false, s) => (.ok l, s)

/-- The call. -/
structure Call where
  url : String
  owner : String := "url"
  parts : Option String := none
  force : Force := .default
  updateFlag : Bool := false

/-- `return path` -/
def returned {B D : Type} : Except DErr Loc × Disk B D → Except DErr (Option Loc) × Disk B D
  | (.error e, s) => (.error e, s)
  | (.ok l, s) => (.ok (some l), s)

/-- `download_and_cache` — download.py:22-107 -/
def downloadAndCache {B D : Type} (cfg : String → Except Err V) (P : Py) (managed : Bool) (dl : Downloader B D) (c : Call) (s : Disk B D) :
    Except DErr (Option Loc) × Disk B D :=
  match cfg "url-download-timeout" with
  | .error e => (.error (.config e), s)
  | .ok _ =>
    let s := if dl.asksExtension then s.ask .extension else s
    match dl.extension with
    | .error e => (.error e, s)
    | .ok ext =>
      match dl.localPath with
      | some _ => (.ok none, s)
      | none =>
        returned (if managed then cacheFileAt cfg P dl c.updateFlag c.force (.keyed c.owner c.url c.parts ext) s
          else fetch dl (.unique s.next) { s with next := s.next + 1 })

end Verif.DiskCache.Download

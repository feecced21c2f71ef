import Verif.Index.Props

/-!
# Model of MatrixDb with its accessor over a session — backends/db.py:69-299, 430-513

One process, one thread. The disk cache holds at most one entry for the index (its path is a function of the url); creating,
forcing and decaching it follows `cache_file` (utils/caching.py:934-1061). Files other users of the machine, a purge or the size
limit take away are operations of the environment. Each url can be reachable or not. Weights files are not part of this model.
-/

namespace Verif.Index
open Verif.GridSpec

/-- Things fetched from the network. -/
inductive Access where
  | sha
  | index
  deriving DecidableEq

/-- The value of `_index_path`: the cache's file, or a file of its own in the temporary directory (policy "off"). -/
inductive IndexPath where
  | cache
  | tmp (n : Nat)
  deriving DecidableEq

inductive SErr where
  | spec (e : Err)
  /-- a download failed -/
  | network
  /-- the index file cannot be opened -/
  | missing
  deriving DecidableEq

/-- What the model takes from outside: gridspecs, and the checksum of the text of an index file. -/
structure Env where
  P : Py
  order : List String
  Sha : Type
  [dec : DecidableEq Sha]
  shaOf : IndexFile → Sha

attribute [instance] Env.dec

structure World (E : Env) where
  /-- remote index, remote checksum file, whether each can be reached -/
  remote : IndexFile
  remoteSha : E.Sha
  shaUp : Bool
  indexUp : Bool
  /-- cache entry of the index: content and `owner_data["sha256"]` -/
  cached : Option (IndexFile × Option E.Sha)
  /-- cache policy "user" or "temporary" -/
  managed : Bool
  tmp : Nat → Option IndexFile
  nextTmp : Nat
  log : List Access

/-- `UrlAccessor` and `MatrixDb` objects. -/
structure Db (E : Env) where
  w : World E
  path : Option IndexPath
  checked : Bool
  index : Option Index

variable {E : Env}

/-- `_remote_sha` — db.py:208-229 -/
def remoteSha (s : Db E) : Except SErr E.Sha × Db E :=
  let s := { s with w := { s.w with log := s.w.log ++ [Access.sha] } }
  if s.w.shaUp then (.ok s.w.remoteSha, s) else (.error .network, s)

/-- `_create` with `_gzip_file` — db.py:168-189, 231-251: the downloaded content. -/
def fetchIndex (s : Db E) : Except SErr IndexFile × Db E :=
  let s := { s with w := { s.w with log := s.w.log ++ [Access.index] } }
  if s.w.indexUp then (.ok s.w.remote, s) else (.error .network, s)

inductive Force where
  | no
  | compare
  | force

/-- The `force` callback — db.py:130-166 -/
def forceOf (f : Force) (owner : Option E.Sha) (s : Db E) : Except SErr Bool × Db E :=
  match f with
  | .no => (.ok false, s)
  | .compare =>
    match owner with
    | none => (.ok true, s)
    | some local_ =>
      match remoteSha s with
      | (.error e, s) => (.error e, s)
      | (.ok r, s) => (.ok (decide (local_ ≠ r)), { s with checked := true })
  | .force =>
    match remoteSha s with
    | (.error e, s) => (.error e, s)
    | (.ok _, s) => (.ok true, { s with checked := true })

/-- The rest of `cache_file` for a managed cache: create the file if it is not there — caching.py:1008-1024 -/
def createCached (s : Db E) : Except SErr IndexPath × Db E :=
  match s.w.cached with
  | some _ => (.ok .cache, s)
  | none =>
    match fetchIndex s with
    | (.error e, s) => (.error e, s)
    | (.ok f, s) => (.ok .cache, { s with w := { s.w with cached := some (f, some (E.shaOf f)) } })

/-- `_get_index` — db.py:125-206 with `cache_file` — caching.py:985-1061. Without a managed cache the callback is not used. -/
def getIndex (f : Force) (s : Db E) : Except SErr IndexPath × Db E :=
  if s.w.managed then
    match s.w.cached with
    | none => createCached s
    | some (_, owner) =>
      match forceOf f owner s with
      | (.error e, s) => (.error e, s)
      | (.ok true, s) => createCached { s with w := { s.w with cached := none } }
      | (.ok false, s) => createCached s
  else
    match fetchIndex s with
    | (.error e, s) => (.error e, s)
    | (.ok c, s) => (.ok (.tmp s.w.nextTmp),
        { s with w := { s.w with tmp := fun n => if n = s.w.nextTmp then some c else s.w.tmp n, nextTmp := s.w.nextTmp + 1 } })

/-- Content of the file at a path. -/
def World.read (w : World E) : IndexPath → Option IndexFile
  | .cache => w.cached.map Prod.fst
  | .tmp n => w.tmp n

/-- `UrlAccessor.reload` — db.py:117-118 -/
def reload (f : Force) (s : Db E) : Option SErr × Db E :=
  match getIndex f s with
  | (.error e, s) => (some e, s)
  | (.ok p, s) => (none, { s with path := some p })

/-- `UrlAccessor.index_path` — db.py:120-123 -/
def indexPath (s : Db E) : Except SErr IndexPath × Db E :=
  match s.path.bind (fun p => (s.w.read p).map (fun _ => p)) with
  | some p => (.ok p, s)
  | none =>
    match getIndex .no s with
    | (.error e, s) => (.error e, s)
    | (.ok p, s) => (.ok p, { s with path := some p })

/-- `_load_index` — db.py:441-444: an exception leaves the empty index. -/
def loadIndex (s : Db E) : Option SErr × Db E :=
  match indexPath { s with index := some [] } with
  | (.error e, s) => (some e, s)
  | (.ok p, s) =>
    match s.w.read p with
    | none => (some .missing, s)
    | some f =>
      match load E.P f with
      | .error e => (some (.spec e), s)
      | .ok ix => (none, { s with index := some ix })

/-- A request: the two grids and the method. -/
structure Req where
  input : Dict
  output : Dict
  method : List Char

/-- `index.find(...)` on the index in memory -/
def lookIn (r : Req) (s : Db E) : Except SErr (Option Entry) :=
  match find E.P E.order (s.index.getD []) r.input r.output (methodAlias r.method) with
  | .ok e => .ok e
  | .error e => .error (.spec e)

/-- The property `index` — db.py:435-439 -/
def ensureIndex (s : Db E) : Option SErr × Db E :=
  match s.index with
  | some _ => (none, s)
  | none => loadIndex s

/-- `find_entry` — db.py:488-498 for a remote inventory (`is_local()` is None, so `not is_local()` holds). -/
def findEntry (r : Req) (s : Db E) : Except SErr (Option Entry) × Db E :=
  match ensureIndex s with
  | (some e, s) => (.error e, s)
  | (none, s) =>
    match lookIn r s with
    | .error e => (.error e, s)
    | .ok (some e) => (.ok (some e), s)
    | .ok none =>
      if s.checked then (.ok none, s)
      else
        match reload .compare s with
        | (some e, s) => (.error e, s)
        | (none, s) =>
          match loadIndex s with
          | (some e, s) => (.error e, s)
          | (none, s) => (lookIn r s, s)

/-- What happens in a session. -/
inductive Op (E : Env) where
  | lookup (r : Req)
  /-- `reload(force=True)` then `_load_index` -/
  | refresh
  /-- the inventory's owner publishes an index -/
  | publish (f : IndexFile) (sha : E.Sha)
  | network (shaUp indexUp : Bool)
  /-- the cached index is deleted (purge, size limit, another process) -/
  | evict
  /-- the cache policy is changed -/
  | policy (managed : Bool)

def step (o : Op E) (s : Db E) : Db E :=
  match o with
  | .lookup r => (findEntry r s).2
  | .refresh =>
    match reload .force s with
    | (some _, s) => s
    | (none, s) => (loadIndex s).2
  | .publish f sha => { s with w := { s.w with remote := f, remoteSha := sha } }
  | .network a b => { s with w := { s.w with shaUp := a, indexUp := b } }
  | .evict => { s with w := { s.w with cached := none } }
  | .policy b => { s with w := { s.w with managed := b } }

def runOps (ops : List (Op E)) (s : Db E) : Db E := ops.foldl (fun s o => step o s) s

/-! ### local inventories -/

/-- `LocalAccessor` with `MatrixDb`: the directory's index file and the index in memory. -/
structure LocalDb where
  file : Option IndexFile
  index : Option Index

/-- `_load_index` — db.py:441-444 -/
def localLoad (P : Py) (s : LocalDb) : Option SErr × LocalDb :=
  let s := { s with index := some [] }
  match s.file with
  | none => (some .missing, s)
  | some f =>
    match load P f with
    | .error e => (some (.spec e), s)
    | .ok ix => (none, { s with index := some ix })

/-- `index.find` -/
def localLook (P : Py) (order : List String) (r : Req) (s : LocalDb) : Except SErr (Option Entry) :=
  match find P order (s.index.getD []) r.input r.output (methodAlias r.method) with
  | .ok e => .ok e
  | .error e => .error (.spec e)

/-- The property `index` — db.py:435-439 -/
def localEnsure (P : Py) (s : LocalDb) : Option SErr × LocalDb :=
  match s.index with
  | some _ => (none, s)
  | none => localLoad P s

/-- `find_entry` — db.py:488-498 for a local inventory: `is_local()` is None and `checked_remote()` False, `reload` does nothing. -/
def localFind (P : Py) (order : List String) (r : Req) (s : LocalDb) : Except SErr (Option Entry) × LocalDb :=
  match localEnsure P s with
  | (some e, s) => (.error e, s)
  | (none, s) =>
    match localLook P order r s with
    | .error e => (.error e, s)
    | .ok (some e) => (.ok (some e), s)
    | .ok none =>
      match localLoad P s with
      | (some e, s) => (.error e, s)
      | (none, s) => (localLook P order r s, s)

inductive LocalOp where
  | lookup (r : Req)
  | edit (f : Option IndexFile)

def localStep (P : Py) (order : List String) (o : LocalOp) (s : LocalDb) : LocalDb :=
  match o with
  | .lookup r => (localFind P order r s).2
  | .edit f => { s with file := f }

end Verif.Index

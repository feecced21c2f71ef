import Verif.Regrid.Pipeline
import Verif.Index.Session
import Verif.DiskCache.Download

/-!
# A regrid with a remote inventory from end to end

`MatrixDb.find` (backends/db.py:452-503) with `UrlAccessor` (98-271), put together from the models of its parts: gridspecs, the
in-memory cache, the index that is fetched and re-fetched (`Index/Session`), the weights files that are downloaded into the disk
cache (`DiskCache/Download`). One process, one thread, one inventory; the server and the cache directory change at any time.
-/

namespace Verif.Remote
open Verif.GridSpec Verif.Regrid Verif.DiskCache.Download

/-- What does not change: the python functions, the URL of the inventory, `load_npz` of the content of a file, the "memory" of an entry. -/
structure Setting (α B : Type) where
  E : Index.Env
  CP : Config.Py
  floatText : ℚ → List Char
  items : Dict → List (String × V)
  sha : List Char → List Char
  sizeFn : Csr α → Nat
  base : List Char
  parse : B → Except Regrid.Err (Csr α)
  memory : Index.Entry → Option Int

/-- The same as the pipeline model sees it. -/
def Setting.world {α B : Type} (S : Setting α B) : World := ⟨S.E.P, S.E.order, S.floatText, S.items, S.sha⟩

/-- The settings and the network during one call: all that `Downloader` says except the content. -/
structure Conn (B D : Type) where
  cfg : String → Except Config.Err Config.V
  up : Bool
  extension : String → Except DErr String
  asksExtension : String → Bool
  localPath : String → Option String
  outOfDate : String → B → Option D → Except DErr Bool
  cacheData : String → Option D

/-- What is sent for a URL. -/
def served {B : Type} (up : Bool) (file : Option B) : Except DErr B :=
  match up, file with
  | true, some b => .ok b
  | _, _ => .error .net

/-- `Downloader(url)` — download.py:40-49 -/
def Conn.downloader {B D : Type} (c : Conn B D) (server : String → Option B) (url : String) : Downloader B D :=
  ⟨c.extension url, c.asksExtension url, c.localPath url, c.outOfDate url, served c.up (server url), c.cacheData url⟩

/-- Inventory object, disk cache, files on the server, in-memory cache. -/
structure St {α B : Type} (S : Setting α B) (D : Type) where
  db : Index.Db S.E
  disk : Disk B D
  server : String → Option B
  mem : MemCache.Cache (List Char) (Csr α) (List Nat)

/-- Exceptions of the index and of downloads. -/
def ofSession : Index.SErr → Regrid.Err
  | .spec e => ofSpec e
  | .network => .other
  | .missing => .other

variable {α B D : Type} {S : Setting α B}

/-- `load_npz(path)` — db.py:502; for a `file:` URL the path is None; a file that is gone cannot be opened. -/
def loadFile (S : Setting α B) (disk : Disk B D) : Option Loc → Except Regrid.Err (Csr α)
  | none => .error .type
  | some l =>
    match disk.files l with
    | none => .error .other
    | some b => S.parse b

/-- `url = os.path.join(self._url, name)` — db.py:255 -/
def urlOf (S : Setting α B) (path : List Char) : String := String.ofList (Index.join S.base path)

/-- The call of `download_and_cache` — db.py:256-266 -/
def weightsCall (S : Setting α B) (path : List Char) : Call := { url := urlOf S path, owner := "url", parts := none, force := .default, updateFlag := false }

/-- `load_matrix` — db.py:500-503, 511-512, 253-271 -/
def loadMatrix (S : Setting α B) (c : Conn B D) (managed : Bool) (server : String → Option B) (e : Index.Entry) (disk : Disk B D) :
    Except Regrid.Err (Csr α) × Disk B D :=
  match Index.matrixPath e with
  | .error x => (.error (ofSpec x), disk)
  | .ok path =>
    match downloadAndCache c.cfg S.CP managed (c.downloader server (urlOf S path)) (weightsCall S path) disk with
    | (.error _, disk) => (.error .other, disk)
    | (.ok l, disk) => (loadFile S disk l, disk)

/-- `_create_matrix_from_entry` for an entry — db.py:482-485 -/
def createFrom (S : Setting α B) (c : Conn B D) (managed : Bool) (server : String → Option B) (e : Index.Entry) (disk : Disk B D) :
    Except Regrid.Err (Csr α × List Nat) × Disk B D :=
  match loadMatrix S c managed server e disk with
  | (.error x, disk) => (.error x, disk)
  | (.ok z, disk) =>
    match shapeOf e with
    | .error x => (.error x, disk)
    | .ok s => (.ok (z, s), disk)

def reqOf (q : Request) : Index.Req := ⟨q.gi.d, q.go.d, q.method⟩

/-- The entry the cache model refers to by its position in the index. -/
def entryAt (db : Index.Db S.E) (m : MemCache.Entry) : Option Index.Entry := ((db.index.getD [])[m.tag]?).map Prod.snd

/-- What loading gives for an entry (or none) found with the inventory object in state `db`. -/
def loadOut (c : Conn B D) (db : Index.Db S.E) (s : St S D) : Option MemCache.Entry → Except MemCache.Err (Option (Csr α) × Option (List Nat)) × Disk B D
  | none => (.ok (none, none), s.disk)
  | some m =>
    match entryAt db m with
    | none => (.error (.source Regrid.Err.other.code), s.disk)
    | some e =>
      match createFrom S c db.w.managed s.server e s.disk with
      | (.error x, disk) => (.error (.source x.code), disk)
      | (.ok (z, sh), disk) => (.ok (some z, some sh), disk)

/-- The entry as the cache model has it. -/
def foundOut (S : Setting α B) : Except Index.SErr (Option Index.Entry) × Index.Db S.E → Except MemCache.Err (Option MemCache.Entry)
  | (.error e, _) => .error (.source (ofSession e).code)
  | (.ok none, _) => .ok none
  | (.ok (some e), db) => .ok (some ⟨S.memory e, posOf (db.index.getD []) e.name⟩)

/-- The callables given to the cache for the request `q` — db.py:473-475: `find_entry` may fetch the index, `create_from_entry` the weights. -/
def source (c : Conn B D) (s : St S D) (q : Request) : MemCache.Source Request (Csr α) (List Nat) where
  findEntry r := foundOut S (Index.findEntry (reqOf r) s.db)
  createFromEntry m := (loadOut c (Index.findEntry (reqOf q) s.db).2 s m).1

/-- State after the calls that the cache made: none (a hit), the lookup, the lookup and the loading. -/
def afterCalls (c : Conn B D) (s : St S D) (q : Request) : List (MemCache.Call Request) → St S D
  | [] => s
  | [.find _] => { s with db := (Index.findEntry (reqOf q) s.db).2 }
  | .find _ :: .load m :: _ =>
    { s with db := (Index.findEntry (reqOf q) s.db).2, disk := (loadOut c (Index.findEntry (reqOf q) s.db).2 s m).2 }
  | _ => s

/-- `MatrixDb.find` — db.py:452-477 -/
def find (c : Conn B D) (di dO : Dict) (m : List Char) (s : St S D) : Except Regrid.Err (Option (Csr α × List Nat)) × St S D :=
  match fromDict S.E.P di with
  | .error e => (.error (ofSpec e), s)
  | .ok gi =>
    match fromDict S.E.P dO with
    | .error e => (.error (ofSpec e), s)
    | .ok go =>
      let r := MemCache.get S.world.key S.sizeFn (source c s ⟨gi, go, m⟩) ⟨gi, go, m⟩ s.mem
      let s' := { afterCalls c s ⟨gi, go, m⟩ r.1.calls with mem := r.2 }
      match r.1.res with
      | .error e => (.error (ofCache e), s')
      | .ok p => (.ok (ofPair p), s')

/-- `earthkit.regrid.array.regrid(values, in_grid, out_grid, interpolation=m, backend="precomputed", inventory=url)` -/
def regrid [Zero α] [Add α] [Mul α] (c : Conn B D) (x : Arr α) (di dO : Dict) (m : List Char) (s : St S D) :
    Except Regrid.Err (Arr α × Dict) × St S D :=
  (matrixBackend (B := Unit) (find c)).regrid x di dO ⟨m, []⟩ s

/-- What happens. -/
inductive Op {α B : Type} (S : Setting α B) (D : Type) where
  | regrid (c : Conn B D) (x : Arr α) (di dO : Dict) (m : List Char)
  /-- configuration of the in-memory cache -/
  | configure (cfg : MemCache.Cfg)
  | clear
  /-- things of `Index/Session`: a lookup or refresh by other code, a new index on the server, the network, the index file deleted, the policy -/
  | session (o : Index.Op S.E)
  /-- a file is put on the server or taken away -/
  | serve (url : String) (b : Option B)
  /-- a file of the disk cache is deleted (purge, size limit, other processes) -/
  | evict (l : Loc)
  /-- another download into the same cache -/
  | download (c : Conn B D) (call : Call)
  /-- the process ends and another one begins; the disk cache stays -/
  | restart

def step [Zero α] [Add α] [Mul α] (s : St S D) : Op S D → St S D
  | .regrid c x di dO m => (regrid c x di dO m s).2
  | .configure cfg => { s with mem := (MemCache.update cfg s.mem).2 }
  | .clear => { s with mem := MemCache.clear s.mem }
  | .session o => { s with db := Index.step o s.db }
  | .serve url b => { s with server := fun u => if u = url then b else s.server u }
  | .evict l => { s with disk := drop l s.disk }
  | .download c call => { s with disk := (downloadAndCache c.cfg S.CP s.db.w.managed (c.downloader s.server call.url) call s.disk).2 }
  | .restart => { s with db := { s.db with path := none, checked := false, index := none }, mem := MemCache.initial }

def run [Zero α] [Add α] [Mul α] (s : St S D) (h : List (Op S D)) : St S D := h.foldl step s

/-- A new process with an empty disk cache: the index on the server and what its checksum file says, the files on the server. -/
def start (S : Setting α B) (f : Index.IndexFile) (sha : S.E.Sha) (server : String → Option B) (managed : Bool) : St S D :=
  ⟨⟨⟨f, sha, true, true, none, managed, fun _ => none, 0, []⟩, none, false, none⟩, ⟨fun _ => none, fun _ => none, [], 0⟩, server, MemCache.initial⟩

end Verif.Remote

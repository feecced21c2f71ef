import Verif.Remote.Model
import Verif.DiskCache.CreateSpec

/-!
# Processes that share a disk cache

Any number of processes regrid with the weights of one remote inventory and share the directory of the disk cache. The steps inside `cache_file`
are those of `DiskCache/Create`, one file system of names and inodes for each URL; the rest of a regrid touches nothing shared. The index is
loaded and not exchanged meanwhile (C97 is about that). The in-memory caches may forget anything at any time: which of their items they drop is
decided by the policies (C05-C11) and does not matter here. `load_npz` reads the file in one step.
-/

namespace Verif.Remote.Shared
open Verif.GridSpec Verif.Regrid Verif.DiskCache

variable {α : Type}

/-- A call of `regrid`. -/
structure Req (α : Type) where
  x : Arr α
  di : Dict
  dO : Dict
  m : List Char

/-- Where a process is. -/
inductive Stage (α : Type) where
  | idle
  /-- inside `cache_file` for the weights of `e` — db.py:256-266, 500-503 -/
  | waiting (c : Req α) (q : Request) (e : Index.Entry) (url : String)

structure Sys (α : Type) where
  /-- what has happened to the files of each URL -/
  acts : String → List Create.Act
  stage : Nat → Stage α
  /-- the in-memory caches -/
  mem : Nat → List (List Char × (Csr α × List Nat))
  begun : List (Nat × Req α)
  ended : List (Nat × Req α × Except Regrid.Err (Arr α × Dict))

/-- The files of a URL. -/
def Sys.disk (s : Sys α) (url : String) : Create.Sys := Create.Sys.init.run (s.acts url)

def setStage (f : Nat → Stage α) (p : Nat) (g : Stage α) : Nat → Stage α := fun q => if q = p then g else f q

def setMem (f : Nat → List (List Char × (Csr α × List Nat))) (p : Nat) (g : List (List Char × (Csr α × List Nat))) :
    Nat → List (List Char × (Csr α × List Nat)) := fun q => if q = p then g else f q

def addAct (f : String → List Create.Act) (url : String) (a : Create.Act) : String → List Create.Act := fun u => if u = url then f u ++ [a] else f u

variable (S : Setting α Create.Body) (ix : Index.Index)

/-- The grids of a call — db.py:458-462 -/
def asked (c : Req α) : Except Regrid.Err Request :=
  match fromDict S.E.P c.di with
  | .error e => .error (ofSpec e)
  | .ok gi =>
    match fromDict S.E.P c.dO with
    | .error e => .error (ofSpec e)
    | .ok go => .ok ⟨gi, go, c.m⟩

/-- `find_entry` — db.py:488-498, and the path of the weights of what is found — db.py:500-503 -/
def located (q : Request) : Except Regrid.Err (Option (Index.Entry × List Char)) :=
  match Index.find S.E.P S.E.order ix q.gi.d q.go.d (Index.methodAlias q.method) with
  | .error e => .error (ofSpec e)
  | .ok none => .ok none
  | .ok (some e) =>
    match Index.matrixPath e with
    | .error x => .error (ofSpec x)
    | .ok path => .ok (some (e, path))

/-- `load_npz(path)` and the shape — db.py:482-485, 502 -/
def readOut (e : Index.Entry) (b : Create.Body) : Except Regrid.Err (Csr α × List Nat) :=
  match S.parse b with
  | .error x => .error x
  | .ok z =>
    match shapeOf e with
    | .error x => .error x
    | .ok sh => .ok (z, sh)

/-- The product — precomputed.py:38-50 -/
def product [Zero α] [Add α] [Mul α] (c : Req α) : Except Regrid.Err (Csr α × List Nat) → Except Regrid.Err (Arr α × Dict)
  | .error x => .error x
  | .ok d => applyWeights (some d) c.x c.dO

/-- What the in-memory cache may keep then. -/
def kept (key : List Char) (items : List (List Char × (Csr α × List Nat))) : Except Regrid.Err (Csr α × List Nat) → List (List Char × (Csr α × List Nat))
  | .error _ => items
  | .ok d => (key, d) :: items

/-- What others do to the files: everything but calls and crashes. -/
def Inner : Create.Act → Prop
  | .start _ _ _ => False
  | .crash _ => False
  | _ => True

/-- One step of one process, or of the disk cache. -/
inductive Step [Zero α] [Add α] [Mul α] : Sys α → Sys α → Prop
  /-- the grids are refused, or the lookup raises, or there is no entry -/
  | unfound (s : Sys α) (p : Nat) (c : Req α) (res : Except Regrid.Err (Arr α × Dict)) (hp : s.stage p = .idle)
      (h : (∃ e, asked S c = .error e ∧ res = .error e) ∨ ∃ q, asked S c = .ok q ∧
        ((∃ e, located S ix q = .error e ∧ res = .error e) ∨ located S ix q = .ok none ∧ res = applyWeights none c.x c.dO)) :
      Step s { s with begun := (p, c) :: s.begun, ended := (p, c, res) :: s.ended }
  /-- the in-memory cache has them -/
  | hit (s : Sys α) (p : Nat) (c : Req α) (q : Request) (d : Csr α × List Nat) (hp : s.stage p = .idle) (hq : asked S c = .ok q)
      (hd : (S.world.key q, d) ∈ s.mem p) :
      Step s { s with begun := (p, c) :: s.begun, ended := (p, c, applyWeights (some d) c.x c.dO) :: s.ended }
  /-- the file is asked for; `body` is what the server would send this time -/
  | fetch (s : Sys α) (p : Nat) (c : Req α) (q : Request) (e : Index.Entry) (path : List Char) (body : Create.Body) (hp : s.stage p = .idle)
      (hq : asked S c = .ok q) (he : located S ix q = .ok (some (e, path))) :
      Step s { s with
        begun := (p, c) :: s.begun
        acts := addAct s.acts (urlOf S path) (.start p false body)
        stage := setStage s.stage p (.waiting c q e (urlOf S path)) }
  /-- a step inside `cache_file`, or trimming, purging, housekeeping -/
  | inner (s : Sys α) (url : String) (a : Create.Act) (ha : Inner a) : Step s { s with acts := addAct s.acts url a }
  /-- the path was returned, the file is read -/
  | loaded (s : Sys α) (p : Nat) (c : Req α) (q : Request) (e : Index.Entry) (url : String) (b : Create.Body) (hp : s.stage p = .waiting c q e url)
      (hd : (s.disk url).pc p = .done) (hb : (s.disk url).content = some b) :
      Step s { s with
        stage := setStage s.stage p .idle
        mem := setMem s.mem p (kept (S.world.key q) (s.mem p) (readOut S e b))
        ended := (p, c, product c (readOut S e b)) :: s.ended }
  /-- the path was returned, but the file is gone again -/
  | gone (s : Sys α) (p : Nat) (c : Req α) (q : Request) (e : Index.Entry) (url : String) (hp : s.stage p = .waiting c q e url)
      (hd : (s.disk url).pc p = .done) (hb : (s.disk url).content = none) :
      Step s { s with stage := setStage s.stage p .idle, ended := (p, c, .error .other) :: s.ended }
  /-- `cache_file` raised -/
  | failed (s : Sys α) (p : Nat) (c : Req α) (q : Request) (e : Index.Entry) (url : String) (hp : s.stage p = .waiting c q e url)
      (hd : (s.disk url).pc p = .failed) :
      Step s { s with stage := setStage s.stage p .idle, ended := (p, c, .error .other) :: s.ended }
  /-- the in-memory cache drops items, or is cleared -/
  | forget (s : Sys α) (p : Nat) (items : List (List Char × (Csr α × List Nat))) (hi : ∀ i ∈ items, i ∈ s.mem p) :
      Step s { s with mem := setMem s.mem p items }
  /-- the process dies; another one may take its number -/
  | crash (s : Sys α) (p : Nat) :
      Step s { s with acts := fun u => s.acts u ++ [.crash p], stage := setStage s.stage p .idle, mem := setMem s.mem p [] }

/-- An empty cache directory, processes that have done nothing. -/
def init : Sys α := ⟨fun _ => [], fun _ => .idle, fun _ => [], [], []⟩

end Verif.Remote.Shared

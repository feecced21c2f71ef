import Verif.Regrid.PipelineProps
import Verif.MemCache.Concurrent

/-!
# Regrids of several threads

`regrid` (precomputed.py:19-41, db.py:452-477) called by any number of threads of one process. What a thread does before and after the lookup in
the in-memory cache (the descriptions of the grids, the product) touches nothing shared; the lookup itself goes step by step as in
`MemCache/Concurrent.lean`. The index is loaded and stays: lookups that load it, or load it again, are the subject of C96.
-/

namespace Verif.Regrid.Threads
open Verif.GridSpec MemCache.Concurrent

variable {α : Type} [Zero α] [Add α] [Mul α]

/-- What a call asks of the cache — db.py:466-477; a description of a grid may be refused before (db.py:464-465). -/
def lookupOf (w : World) (inv : Inventory α) : PipeOp α → Except Err (MemCache.Op Request (Csr α) (List Nat))
  | .regrid _ di dO m =>
    match fromDict w.P di with
    | .error e => .error (ofSpec e)
    | .ok gi =>
      match fromDict w.P dO with
      | .error e => .error (ofSpec e)
      | .ok go => .ok (.get (source w inv) ⟨gi, go, m⟩)
  | .configure cfg => .ok (.update cfg)
  | .clear => .ok .clear

/-- What a regrid makes of the answer of the cache — precomputed.py:25-41 -/
def answer : PipeOp α → CRes Request (Csr α) (List Nat) → Option (Except Err (Arr α × Dict))
  | .regrid x _ dO _, .res (.got ⟨.ok p, _⟩) => some (applyWeights (ofPair p) x dO)
  | .regrid _ _ _ _, .res (.got ⟨.error e, _⟩) => some (.error (ofCache e))
  | _, _ => none

/-- The cache with its threads, the call each thread is in, the calls made so far, the calls that ended and the results of the regrids among them,
newest first. -/
structure Sys (α : Type) where
  conf : Conf Request (List Char) (Csr α) (List Nat)
  pending : Nat → Option (PipeOp α)
  begun : List (PipeOp α)
  ended : List (Nat × PipeOp α)
  done : List (Nat × PipeOp α × Except Err (Arr α × Dict))

def start : Sys α := ⟨MemCache.Concurrent.start, fun _ => none, [], [], []⟩

def setPending (f : Nat → Option (PipeOp α)) (t : Nat) (x : Option (PipeOp α)) : Nat → Option (PipeOp α) := fun u => if u = t then x else f u

/-- The step of a thread inside a call. -/
def Inside' (w : World) (sizeFn : Csr α → Nat) (c c' : Conf Request (List Char) (Csr α) (List Nat)) : Prop :=
  MemCache.Concurrent.Step w.key sizeFn c c' ∧ (c'.log = c.log ∨ ∃ t o r, c'.log = .lin t o r :: c.log)

/-- One step of one thread. -/
inductive TStep (w : World) (sizeFn : Csr α → Nat) (inv : Inventory α) : Sys α → Sys α → Prop
  /-- a call whose description of a grid is refused -/
  | refused (s : Sys α) (t : Nat) (call : PipeOp α) (e : Err) (hi : s.conf.th t = .idle) (h : lookupOf w inv call = .error e) :
      TStep w sizeFn inv s { s with begun := call :: s.begun, ended := (t, call) :: s.ended, done := (t, call, .error e) :: s.done }
  /-- any other call -/
  | call (s : Sys α) (t : Nat) (call : PipeOp α) (o : MemCache.Op Request (Csr α) (List Nat)) (hi : s.conf.th t = .idle) (h : lookupOf w inv call = .ok o) :
      TStep w sizeFn inv s { s with
        conf := { s.conf with th := setTh s.conf.th t (.called (.op o)), log := .call t (.op o) :: s.conf.log }
        pending := setPending s.pending t (some call)
        begun := call :: s.begun }
  /-- a step inside a call -/
  | inside (s : Sys α) (c' : Conf Request (List Char) (Csr α) (List Nat)) (h : Inside' w sizeFn s.conf c') : TStep w sizeFn inv s { s with conf := c' }
  /-- a call ends -/
  | finish (s : Sys α) (t : Nat) (call : PipeOp α) (res : CRes Request (Csr α) (List Nat)) (hp : s.pending t = some call) (h : s.conf.th t = .returning res) :
      TStep w sizeFn inv s { s with
        conf := { s.conf with th := setTh s.conf.th t .idle, log := .ret t res :: s.conf.log }
        pending := setPending s.pending t none
        ended := (t, call) :: s.ended
        done := (answer call res).toList.map (fun r => (t, call, r)) ++ s.done }

/-- Any number of steps. -/
inductive Steps (w : World) (sizeFn : Csr α → Nat) (inv : Inventory α) (s : Sys α) : Sys α → Prop
  | none : Steps w sizeFn inv s s
  | step {s' s''} : Steps w sizeFn inv s s' → TStep w sizeFn inv s' s'' → Steps w sizeFn inv s s''

end Verif.Regrid.Threads

import Mathlib.Data.List.Induction

/-!
# Requests to the cache manager — src/earthkit/regrid/utils/caching.py:91-134, 173-178

The manager is a thread with a queue of futures. Its state (table, files, policy) is an arbitrary type `σ`; a request is a function on
it that returns an object, raises an exception, or raises something that is not an `Exception` (`SystemExit`), which ends the thread.
The queue is only touched under the condition's lock, so each of these steps is atomic.
-/

namespace Verif.DiskCache.Queue

/-- A python object, as far as `isinstance(_, Exception)` is concerned. -/
inductive Obj where
  | plain (n : Nat)
  | exc (n : Nat)
  deriving DecidableEq, Repr

/-- How a function ends. -/
inductive Reply where
  | ret (o : Obj)
  | raise (n : Nat)
  | exit
  deriving DecidableEq, Repr

abbrev Req (σ : Type) := σ → Reply × σ

structure Mgr (σ : Type) where
  st : σ
  queue : List (Nat × Req σ)
  current : Option (Nat × Req σ)
  /-- `_result` of the futures that are `_ready` -/
  ready : List (Nat × Obj)
  next : Nat
  alive : Bool

variable {σ : Type}

/-- `enqueue` — caching.py:173-178; futures are numbered. -/
def Mgr.enqueue (m : Mgr σ) (r : Req σ) : Mgr σ := { m with queue := m.queue ++ [(m.next, r)], next := m.next + 1 }

/-- `self._queue.pop(0)` in `run` — caching.py:127-133 -/
def Mgr.pop (m : Mgr σ) : Mgr σ :=
  if m.alive && m.current.isNone then
    match m.queue with
    | [] => m
    | x :: q => { m with queue := q, current := some x }
  else m

/-- `Future.execute` — caching.py:100-108 -/
def Mgr.finish (m : Mgr σ) (i : Nat) (x : Reply × σ) : Mgr σ :=
  match x.1 with
  | .ret o => { m with st := x.2, current := none, ready := (i, o) :: m.ready }
  | .raise n => { m with st := x.2, current := none, ready := (i, .exc n) :: m.ready }
  | .exit => { m with st := x.2, current := none, alive := false }

def Mgr.execute (m : Mgr σ) : Mgr σ :=
  match m.current with
  | none => m
  | some (i, r) => m.finish i (r m.st)

/-- What the caller sees. -/
inductive Answer where
  | returned (o : Obj)
  | raised (n : Nat)
  deriving DecidableEq, Repr

/-- `Future.result` — caching.py:110-116; `none`: still waiting. -/
def Mgr.result (m : Mgr σ) (i : Nat) : Option Answer :=
  (m.ready.lookup i).map (fun | .exc n => .raised n | .plain n => .returned (.plain n))

/-- A step of any caller, or of the manager thread. -/
inductive QAct (σ : Type) where
  | submit (r : Req σ)
  | pop
  | execute

def Mgr.act (m : Mgr σ) : QAct σ → Mgr σ
  | .submit r => m.enqueue r
  | .pop => m.pop
  | .execute => m.execute

def Mgr.init (s : σ) : Mgr σ := ⟨s, [], none, [], 0, true⟩

def Mgr.run (m : Mgr σ) (h : List (QAct σ)) : Mgr σ := h.foldl Mgr.act m

/-! ## Specification -/

/-- The requests of a history, in the order of submission. -/
def submitted : List (QAct σ) → List (Req σ)
  | [] => []
  | .submit r :: h => r :: submitted h
  | _ :: h => submitted h

/-- State after the first `k` requests, one after the other. -/
def after (s : σ) (rs : List (Req σ)) : σ := rs.foldl (fun s r => (r s).2) s

/-- What its caller should see of a request. -/
def Reply.seen : Reply → Option Answer
  | .ret o => some (.returned o)
  | .raise n => some (.raised n)
  | .exit => none

/-- A request that neither ends the thread nor returns an exception object as its value. -/
def Civil (r : Req σ) : Prop := ∀ s, (∃ n, (r s).1 = .ret (.plain n)) ∨ ∃ n, (r s).1 = .raise n

end Verif.DiskCache.Queue

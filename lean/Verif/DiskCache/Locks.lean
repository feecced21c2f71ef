import Mathlib.Logic.Function.Basic
import Mathlib.Data.List.Basic

/-!
# Locks around the caches — src/earthkit/regrid/utils/caching.py:751-815, 1016-1031; memcache.py:216-330; config.py:250-270

Threads of any number of processes. A lock is taken by one thread at a time and not twice by the same one (`threading.Lock`,
`FileLock`). Requests to the manager of a process are queued; a caller may wait for the end of its request. What happens between
lock operations is irrelevant here and is one step `work`. A thread runs a statement; branches are resolved in advance, so a program
has many statements (`Locks.lean`, second half: which ones).
-/

namespace Verif.DiskCache.Locks

/-- The locks; those in memory exist once per process. -/
inductive Lk where
  /-- `MemoryCache.lock` -/
  | memory (proc : Nat)
  /-- the lock file of the settings file -/
  | settings
  /-- the lock file of a cache file -/
  | file (path : Nat)
  /-- `Cache._policy_lock` -/
  | policy (proc : Nat)
  /-- `Cache._manager_lock` -/
  | manager (proc : Nat)
  deriving DecidableEq, Repr

inductive Stmt where
  | work
  /-- `self._manager.enqueue(job).result()`, `self._manager.enqueue(job)` -/
  | call (proc : Nat) (job : Stmt)
  | post (proc : Nat) (job : Stmt)
  | seq (a b : Stmt)
  /-- `with l: a` -/
  | within (l : Lk) (a : Stmt)

inductive Instr where
  | work
  | acq (l : Lk)
  | rel (l : Lk)
  | enq (proc : Nat) (job : Stmt) (wait : Bool)
  | await (ticket : Nat)

def Stmt.code : Stmt → List Instr
  | .work => [.work]
  | .call p j => [.enq p j true]
  | .post p j => [.enq p j false]
  | .seq a b => a.code ++ b.code
  | .within l a => .acq l :: a.code ++ [.rel l]

/-- Threads, and the manager threads. -/
inductive Who where
  | thread (n : Nat)
  | manager (proc : Nat)
  deriving DecidableEq, Repr

structure Net where
  /-- what is left to do for a thread -/
  threads : Nat → List Instr
  queue : Nat → List (Nat × List Instr)
  current : Nat → Option (Nat × List Instr)
  owner : Lk → Option Who
  done : List Nat
  next : Nat

/-- One instruction: new network, and what is left to do; `none` if it has to wait. -/
def Net.exec (s : Net) (w : Who) : Instr → List Instr → Option (Net × List Instr)
  | .work, r => some (s, r)
  | .acq l, r => if (s.owner l).isNone then some ({ s with owner := Function.update s.owner l (some w) }, r) else none
  | .rel l, r => some ({ s with owner := Function.update s.owner l none }, r)
  | .enq p j wait, r => some ({ s with queue := Function.update s.queue p (s.queue p ++ [(s.next, j.code)]), next := s.next + 1 },
      if wait then .await s.next :: r else r)
  | .await k, r => if k ∈ s.done then some (s, r) else none

/-- A step of a thread or of a manager; `none` if it has to wait or has nothing to do. -/
def Net.step (s : Net) : Who → Option Net
  | .thread t =>
    match s.threads t with
    | [] => none
    | i :: r => (s.exec (.thread t) i r).map (fun x => { x.1 with threads := Function.update x.1.threads t x.2 })
  | .manager p =>
    match s.current p with
    | some (k, []) => some { s with current := Function.update s.current p none, done := k :: s.done }
    | some (k, i :: r) => (s.exec (.manager p) i r).map (fun x => { x.1 with current := Function.update x.1.current p (some (k, x.2)) })
    | none =>
      match s.queue p with
      | [] => none
      | x :: q => some { s with current := Function.update s.current p (some x), queue := Function.update s.queue p q }

/-- Everybody at the beginning of what they have to do. -/
def Net.init (progs : Nat → Stmt) : Net := ⟨fun t => (progs t).code, fun _ => [], fun _ => none, fun _ => none, [], 0⟩

/-- Any schedule; a step that has to wait changes nothing. -/
def Net.run (s : Net) : List Who → Net
  | [] => s
  | w :: h => ((s.step w).getD s).run h

/-! ## Which statements the functions run -/

/-- `_make_policy` — caching.py:776-785: nothing to do, an unmanaged policy or an exception; or a managed policy. -/
inductive MakePolicy (p : Nat) (job : Stmt → Prop) : Stmt → Prop where
  | plain : MakePolicy p job .work
  | managed {j : Stmt} (hj : job j) : MakePolicy p job (.within (.manager p) (.seq .work (.call p j)))

/-- The property `policy` — caching.py:768-774 -/
inductive GetPolicy (p : Nat) (job : Stmt → Prop) : Stmt → Prop where
  | mk {a : Stmt} (h : MakePolicy p job a) : GetPolicy p job (.within (.policy p) a)

/-- `_call_manager` — caching.py:799-809, with and without `forget` -/
inductive CallManager (p : Nat) (job : Stmt → Prop) : Stmt → Prop where
  | unmanaged {a : Stmt} (h : GetPolicy p job a) : CallManager p job a
  | call {a j : Stmt} (h : GetPolicy p job a) (hj : job j) : CallManager p job (.seq a (.within (.manager p) (.call p j)))
  | forget {a j : Stmt} (h : GetPolicy p job a) (hj : job j) : CallManager p job (.seq a (.within (.manager p) (.post p j)))

/-- `Cache._config_changed` — caching.py:787-797 -/
inductive ConfigChanged (p : Nat) (job : Stmt → Prop) : Stmt → Prop where
  | outdated {a b : Stmt} (ha : GetPolicy p job a) (hb : MakePolicy p job b) : ConfigChanged p job (.seq a (.within (.policy p) b))
  | unchanged {a b : Stmt} (ha : GetPolicy p job a) (hb : GetPolicy p job b) : ConfigChanged p job (.seq a b)
  | updated {a b c : Stmt} (ha : GetPolicy p job a) (hb : GetPolicy p job b) (hc : GetPolicy p job c) : ConfigChanged p job (.seq a (.seq b c))
  | told {a b c j : Stmt} (ha : GetPolicy p job a) (hb : GetPolicy p job b) (hc : GetPolicy p job c) (hj : job j) :
      ConfigChanged p job (.seq a (.seq b (.seq c (.within (.manager p) (.call p j)))))

/-- A sequence of calls of the cache (of its policy, of its manager). -/
inductive Calls (p : Nat) (job : Stmt → Prop) : Stmt → Prop where
  | nothing : Calls p job .work
  | policy {a b : Stmt} (ha : GetPolicy p job a) (hb : Calls p job b) : Calls p job (.seq a b)
  | manager {a b : Stmt} (ha : CallManager p job a) (hb : Calls p job b) : Calls p job (.seq a b)

/-- `cache_file` — caching.py:979-1061: policy, directory, registration, regeneration; then, when the file is missing, creation, update
and check of the size under the lock file. -/
inductive CacheFile (p : Nat) (job : Stmt → Prop) : Stmt → Prop where
  | found {a : Stmt} (ha : Calls p job a) : CacheFile p job a
  | created {a b : Stmt} (path : Nat) (ha : Calls p job a) (hb : Calls p job b) : CacheFile p job (.seq a (.within (.file path) (.seq .work b)))

inductive CacheFiles (p : Nat) (job : Stmt → Prop) : Stmt → Prop where
  | nothing : CacheFiles p job .work
  | next {a b : Stmt} (ha : CacheFile p job a) (hb : CacheFiles p job b) : CacheFiles p job (.seq a b)

/-- What a thread of process `p` does with the caches, one thing after the other: lookups of weights through the memory cache
(memcache.py:223-252, which load index and matrices with `cache_file`), lookups without it, calls of the cache, and configuration
changes (save under the lock of the settings file, then the observers: `MemoryCache.update` and `Cache._config_changed`). -/
inductive Uses (p : Nat) (job : Stmt → Prop) : Stmt → Prop where
  | nothing : Uses p job .work
  | lookup {a b : Stmt} (ha : CacheFiles p job a) (hb : Uses p job b) : Uses p job (.seq (.within (.memory p) a) b)
  | files {a b : Stmt} (ha : CacheFiles p job a) (hb : Uses p job b) : Uses p job (.seq a b)
  | calls {a b : Stmt} (ha : Calls p job a) (hb : Uses p job b) : Uses p job (.seq a b)
  | config {a b : Stmt} (ha : ConfigChanged p job a) (hb : Uses p job b) :
      Uses p job (.seq (.within .settings .work) (.seq (.within (.memory p) .work) (.seq a b)))

/-- The functions of the manager use no locks and make no requests (caching.py:180-559). -/
inductive Quiet : Stmt → Prop where
  | work : Quiet .work
  | seq {a b : Stmt} (ha : Quiet a) (hb : Quiet b) : Quiet (.seq a b)

end Verif.DiskCache.Locks

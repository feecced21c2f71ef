import Mathlib.Logic.Function.Basic

/-!
# Concurrent lookups in one inventory — src/earthkit/regrid/backends/db.py:300-327, 366-383, 421-498, utils/memcache.py:222-226

`MatrixDb` has no lock of its own: `_index`, the `MatrixIndex` it points to and the flag of the accessor are shared. With a policy that keeps
weights the lookup runs under the lock of the in-memory cache, with policy `off` it does not. A step is what one thread does between two
accesses to shared data. Simplified: the index file can always be read and has the same entries throughout; entries are compared as a
whole (the file has one entry per name); the policy does not change meanwhile; `_clear_index`, `_reset` (for testing only) are left out.
-/

namespace Verif.Race

/-- Inventory, requests, and setting. -/
structure Env (E Q : Type) where
  /-- usable entries of the index file, in order -/
  entries : List E
  /-- `MatrixIndex.match` -/
  matches_ : Q → E → Bool
  /-- what each thread asks for -/
  query : Nat → Q
  /-- policy other than `off`: lookups run under the lock of the cache -/
  locked : Bool
  /-- does `reload` set `_checked_remote`? (never for local directories) -/
  marks : Bool

/-- How a lookup ends: entry, None, or `RuntimeError: dictionary changed size during iteration`. -/
inductive Res (E : Type) where
  | found (e : E)
  | notFound
  | changed
  deriving DecidableEq, Repr

/-- First `self.index.find`, or the one after `reload`. -/
inductive Stage where
  | first
  | second
  deriving DecidableEq, Repr

/-- Who calls `_load_index`: the property `index`, or `find_entry` after `reload`. -/
inductive Ctx where
  | prop (st : Stage)
  | reload
  deriving DecidableEq, Repr

/-- What a thread does next. -/
inductive Pc (E : Type) where
  | idle
  /-- `if self._index is None` -/
  | test (st : Stage)
  /-- `self._index = MatrixIndex()` -/
  | alloc (c : Ctx)
  /-- `self._index.load(path)`: reads the attribute -/
  | path (c : Ctx)
  /-- the loop of `load` into object `o` -/
  | fill (c : Ctx) (o : Nat) (rest : List E)
  /-- `return self._index` -/
  | read (st : Stage)
  /-- the loop of `find` over object `o`, which had `n` entries when the loop started -/
  | scan (st : Stage) (o pos n : Nat)
  /-- `self._accessor.reload()` -/
  | reload
  | done (r : Res E)
  deriving DecidableEq

structure St (E : Type) where
  /-- `MatrixIndex` objects, in order of creation -/
  objs : Nat → List E
  /-- number of objects created -/
  count : Nat
  /-- `MatrixDb._index` -/
  index : Option Nat
  /-- `UrlAccessor._checked_remote` -/
  checked : Bool
  /-- who holds `MemoryCache.lock` -/
  lock : Option Nat
  pc : Nat → Pc E

/-- `self[name] = entry` -/
def insert {E : Type} [DecidableEq E] (e : E) (obj : List E) : List E := if e ∈ obj then obj else obj ++ [e]

def St.go {E : Type} (s : St E) (t : Nat) (p : Pc E) : St E := { s with pc := Function.update s.pc t p }

/-- The lookup ends; so does the `with self.lock` around it. -/
def St.finish {E : Type} (s : St E) (locked : Bool) (t : Nat) (r : Res E) : St E :=
  { s with pc := Function.update s.pc t (.done r), lock := if locked then none else s.lock }

/-- After `_load_index`. -/
def Ctx.next {E : Type} : Ctx → Pc E
  | .prop st => .read st
  | .reload => .test .second

/-- End of the loop in `find` without a match, and the condition in `find_entry` (db.py:491; `is_local()` is always None). -/
def missed {E Q : Type} (e : Env E Q) (s : St E) (t : Nat) : Stage → St E
  | .first => if s.checked then s.finish e.locked t .notFound else s.go t .reload
  | .second => s.finish e.locked t .notFound

/-- One turn of the loop in `find` — db.py:376-379 -/
def scanStep {E Q : Type} (e : Env E Q) (s : St E) (t : Nat) (st : Stage) (o pos n : Nat) : St E :=
  if (s.objs o).length ≠ n then s.finish e.locked t .changed
  else
    match (s.objs o)[pos]? with
    | none => missed e s t st
    | some x => if e.matches_ (e.query t) x then s.finish e.locked t (.found x) else s.go t (.scan st o (pos + 1) n)

/-- A step of thread `t`; `none`: it waits. -/
def step {E Q : Type} [DecidableEq E] (e : Env E Q) (t : Nat) (s : St E) : Option (St E) :=
  match s.pc t with
  | .idle =>
    if e.locked then
      match s.lock with
      | none => some { s.go t (.test .first) with lock := some t }
      | some _ => none
    else some (s.go t (.test .first))
  | .test st => if s.index = none then some (s.go t (.alloc (.prop st))) else some (s.go t (.read st))
  | .alloc c =>
    some { s.go t (.path c) with objs := Function.update s.objs s.count [], count := s.count + 1, index := some s.count }
  | .path c =>
    match s.index with
    | none => none
    | some o => some (s.go t (.fill c o e.entries))
  | .fill c o (x :: rest) => some { s.go t (.fill c o rest) with objs := Function.update s.objs o (insert x (s.objs o)) }
  | .fill c _ [] => some (s.go t c.next)
  | .read st =>
    match s.index with
    | none => none
    | some o => some (s.go t (.scan st o 0 (s.objs o).length))
  | .scan st o pos n => some (scanStep e s t st o pos n)
  | .reload => some { s.go t (.alloc .reload) with checked := s.checked || e.marks }
  | .done _ => none

/-- A schedule: which thread moves; one that cannot move lets its turn pass. -/
def run {E Q : Type} [DecidableEq E] (e : Env E Q) (s : St E) (schedule : List Nat) : St E :=
  schedule.foldl (fun s t => (step e t s).getD s) s

/-- A new process. -/
def cold {E : Type} : St E := ⟨fun _ => [], 0, none, false, none, fun _ => .idle⟩

/-- The index was loaded by an earlier lookup. -/
def warm {E Q : Type} (e : Env E Q) (checked : Bool) : St E := ⟨fun n => if n = 0 then e.entries else [], 1, some 0, checked, none, fun _ => .idle⟩

end Verif.Race

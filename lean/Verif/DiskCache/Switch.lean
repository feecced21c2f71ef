import Mathlib.Logic.Function.Basic
import Mathlib.Data.List.Induction

/-!
# Files asked for while the cache settings change — src/earthkit/regrid/utils/caching.py:768-813, 979-1061

Threads of one process run `cache_file`; other threads change the configuration, so that the policy of the cache is replaced
(`_config_changed`, caching.py:787-793). A step is one use of `CACHE.policy`, one request to the manager, or one access to the file
system. Replacing the policy is one step: it is done under the policy lock, which every reader of the policy takes, and a thread that has
already read the policy and sends its request before the manager is told does so as if the policy had not been replaced yet.
Directories are numbered; that a path is in the cache directory is equality of numbers (the code compares texts, see C65). Locks,
temporary files and unfinished files are in `Create.lean`; here a file is created in one step. Whether a function of the caller raises or a
`force` function says yes is a choice of the schedule.
-/

namespace Verif.DiskCache.Switch

/-- Name of a file: the digest of the request, or of the time and a random number — caching.py:982-987, 1035-1037. -/
inductive Name where
  | keyed (k : Nat)
  | fresh (n : Nat)
  deriving DecidableEq, Repr

structure Path where
  dir : Nat
  name : Name
  deriving DecidableEq, Repr

/-- A policy: `managed()`, `directory()`, and whether the directory is a temporary one, removed with the policy (temporary.py:60-68) —
caching.py:661-741. -/
structure Pol where
  managed : Bool
  dir : Nat
  temp : Bool
  deriving DecidableEq, Repr

/-- The argument `force`. -/
inductive Force where
  | no | yes | func
  deriving DecidableEq, Repr

inductive Fail where
  /-- AssertionError of `_ensure_in_cache` — caching.py:180-181 -/
  | assertion
  /-- TypeError: `record["owner_data"]` of no record — caching.py:1006 -/
  | type
  /-- the file system or sqlite refuse, or `create` raises -/
  | other
  deriving DecidableEq, Repr

/-- Where a thread is in `cache_file`. -/
inductive Pc where
  | idle
  /-- `managed = CACHE.policy.managed() and …` — caching.py:979 (no policy that can be configured has no directory) -/
  | managed
  /-- `path = os.path.join(CACHE.directory(), …)` — caching.py:994-1001 -/
  | dir
  /-- `_call_manager`: `self.policy.managed()` — caching.py:800, in `CACHE._register_cache_file` -/
  | ask (p : Path)
  /-- the request itself — caching.py:808-809, 429-479 -/
  | register (p : Path)
  /-- `if os.path.exists(path): … force` — caching.py:1004-1011; is there a record? -/
  | look (p : Path) (rec : Bool)
  /-- `CACHE._decache_file(path)` — caching.py:1013, 489-490, 347-398 -/
  | askDrop (p : Path)
  | drop (p : Path)
  /-- `record = CACHE._register_cache_file(path, owner, args)` — caching.py:1014 -/
  | ask2 (p : Path)
  | register2 (p : Path)
  /-- `if not os.path.exists(path)` — caching.py:1016-1023 -/
  | create (p : Path)
  /-- `CACHE._update_entry(path, owner_data)` — caching.py:1025, 228-250 -/
  | askUpdate (p : Path)
  | update (p : Path)
  /-- `path` of the unmanaged branch — caching.py:1039-1046 -/
  | dirU
  | createU (p : Path)
  | done (p : Path)
  | failed (e : Fail)
  deriving DecidableEq, Repr

structure Thr where
  pc : Pc
  key : Nat
  force : Force
  deriving DecidableEq, Repr

structure Sys where
  active : Pol
  /-- directory of the policy the manager has a copy of -/
  mgr : Option Nat
  files : Path → Bool
  rows : Path → Bool
  /-- directories that were removed -/
  gone : Nat → Bool
  thr : Nat → Thr
  next : Nat

inductive Act where
  /-- a thread calls `cache_file` for the request `key` -/
  | start (t key : Nat) (force : Force)
  /-- it does its next step -/
  | go (t : Nat) (choice : Bool)
  /-- the configuration changes so that there is a new policy -/
  | replace (p : Pol)
  /-- trimming, purging, other processes: a file and its record go, or come -/
  | evict (p : Path)
  | appear (p : Path)
  deriving DecidableEq, Repr

def Sys.pc (s : Sys) (t : Nat) : Pc := (s.thr t).pc

def Sys.goto (s : Sys) (t : Nat) (pc : Pc) : Sys := { s with thr := Function.update s.thr t { s.thr t with pc := pc } }

def Sys.addFile (s : Sys) (p : Path) : Sys := { s with files := Function.update s.files p true }
def Sys.addRow (s : Sys) (p : Path) : Sys := { s with rows := Function.update s.rows p true }
def Sys.remove (s : Sys) (p : Path) : Sys :=
  { s with files := Function.update s.files p false, rows := Function.update s.rows p false }

/-- `_register_cache_file` in the manager — caching.py:429-479, and where the caller goes; with the database gone sqlite may refuse
(`choice` false). -/
def Sys.register (s : Sys) (t : Nat) (p : Path) (choice : Bool) (next : Pc) : Sys :=
  if s.mgr ≠ some p.dir then s.goto t (.failed .assertion)
  else if s.gone p.dir && !choice then s.goto t (.failed .other)
  else (s.addRow p).goto t next

/-- `_delete_entry(path)` in the manager — caching.py:347-398: `_ensure_in_cache` is called for files that exist only. -/
def Sys.dropEntry (s : Sys) (t : Nat) (p : Path) (choice : Bool) : Sys :=
  if s.files p && decide (s.mgr ≠ some p.dir) then s.goto t (.failed .assertion)
  else if s.gone p.dir && !choice then s.goto t (.failed .other)
  else (s.remove p).goto t (.ask2 p)

/-- `_update_entry` in the manager — caching.py:228-250 -/
def Sys.updateEntry (s : Sys) (t : Nat) (p : Path) (choice : Bool) : Sys :=
  if s.mgr ≠ some p.dir then s.goto t (.failed .assertion)
  else if !s.files p then s.goto t (.failed .other)
  else if s.gone p.dir && !choice then s.goto t (.failed .other)
  else s.goto t (.done p)

/-- the part of `cache_file` under the lock — caching.py:1016-1023; `create` may raise (`choice` false), and does in a directory that
is gone. -/
def Sys.createFile (s : Sys) (t : Nat) (p : Path) (choice : Bool) (next : Pc) : Sys :=
  if s.files p then s.goto t (.done p)
  else if s.gone p.dir || !choice then s.goto t (.failed .other)
  else (s.addFile p).goto t next

/-- `if os.path.exists(path): if callable(force): …; if force: …` — caching.py:1004-1013 -/
def Sys.lookAt (s : Sys) (t : Nat) (p : Path) (rec : Bool) (choice : Bool) : Sys :=
  if s.files p then
    match (s.thr t).force with
    | .no => s.goto t (.create p)
    | .yes => s.goto t (.askDrop p)
    | .func => if !rec then s.goto t (.failed .type) else if choice then s.goto t (.askDrop p) else s.goto t (.create p)
  else s.goto t (.create p)

/-- `cache_file`, step by step — caching.py:979-1061 -/
def Sys.go (s : Sys) (t : Nat) (choice : Bool) : Sys :=
  match s.pc t with
  | .idle => s
  | .managed => s.goto t (if s.active.managed then .dir else .dirU)
  | .dir => s.goto t (.ask ⟨s.active.dir, .keyed (s.thr t).key⟩)
  | .ask p => s.goto t (if s.active.managed then .register p else .look p false)
  | .register p => s.register t p choice (.look p true)
  | .look p rec => s.lookAt t p rec choice
  | .askDrop p => s.goto t (if s.active.managed then .drop p else .ask2 p)
  | .drop p => s.dropEntry t p choice
  | .ask2 p => s.goto t (if s.active.managed then .register2 p else .create p)
  | .register2 p => s.register t p choice (.create p)
  | .create p => s.createFile t p choice (.askUpdate p)
  | .askUpdate p => s.goto t (if s.active.managed then .update p else .done p)
  | .update p => s.updateEntry t p choice
  | .dirU => { s with next := s.next + 1 }.goto t (.createU ⟨s.active.dir, .fresh s.next⟩)
  | .createU p => s.createFile t p choice (.done p)
  | .done _ => s
  | .failed _ => s

def Pc.ended : Pc → Bool
  | .idle | .done _ | .failed _ => true
  | _ => false

/-- the new policy — caching.py:776-793: its predecessor is dropped, with its temporary directory; the manager is told if the new one
is managed. -/
def Sys.replace (s : Sys) (p : Pol) : Sys :=
  { s with
    active := p
    mgr := if p.managed then some p.dir else s.mgr
    gone := fun d => (s.gone d || (s.active.temp && d == s.active.dir)) && d != p.dir
    files := fun q => s.files q && !(s.active.temp && q.dir == s.active.dir)
    rows := fun q => s.rows q && !(s.active.temp && q.dir == s.active.dir) }

def Sys.start (s : Sys) (t key : Nat) (force : Force) : Sys :=
  if (s.pc t).ended then { s with thr := Function.update s.thr t ⟨.managed, key, force⟩ } else s

def Sys.act (s : Sys) : Act → Sys
  | .start t key force => s.start t key force
  | .go t c => s.go t c
  | .replace p => s.replace p
  | .evict p => s.remove p
  | .appear p => if s.gone p.dir then s else s.addFile p

/-- Cache with a first policy; nobody has asked for anything. -/
def Sys.init (p : Pol) : Sys :=
  ⟨p, if p.managed then some p.dir else none, fun _ => false, fun _ => false, fun _ => false, fun _ => ⟨.idle, 0, .no⟩, 0⟩

def Sys.run (s : Sys) (h : List Act) : Sys := h.foldl Sys.act s

/-! ## Specification -/

/-- A call of `cache_file` by thread `t`: the cache `s` before it, its request, and what happens from then on; `t` makes no second
call. -/
structure Call where
  first : Pol
  before : List Act
  t : Nat
  key : Nat
  force : Force
  during : List Act

def Call.start (c : Call) : Sys := (Sys.init c.first).run (c.before ++ [.start c.t c.key c.force])

/-- State after a part of what happened. -/
def Call.at (c : Call) (h : List Act) : Sys := c.start.run h

/-- `P` holds at some moment of the call. -/
def Call.sometime (c : Call) (P : Sys → Prop) : Prop := ∃ h, h <+: c.during ∧ P (c.at h)

structure Call.Ok (c : Call) : Prop where
  free : (((Sys.init c.first).run c.before).pc c.t).ended = true
  one : ∀ key force, Act.start c.t key force ∉ c.during

/-- The policy stays. -/
def Call.Steady (c : Call) : Prop := ∀ p, Act.replace p ∉ c.during

def Call.final (c : Call) : Sys := c.at c.during

def Call.returned (c : Call) (p : Path) : Prop := c.final.pc c.t = .done p

def Call.raised (c : Call) (e : Fail) : Prop := c.final.pc c.t = .failed e

end Verif.DiskCache.Switch

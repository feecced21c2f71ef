import Verif.MemCache.Model

/-!
# Specification vocabulary for the in-memory cache

Nothing here refers to the cache's own bookkeeping functions: sizes are added up with `List.sum`, use times
are read off the list of operations, configurations are judged by themselves.
-/

namespace Verif.MemCache

variable {Q K W S : Type}

/-- Total size in bytes of a list of held matrices. -/
def total (items : List (Item K W S)) : Int := (items.map (fun it => (it.size : Int))).sum

/-- The request with key `k` is held. -/
def Holds (s : Cache K W S) (k : K) : Prop := ∃ it ∈ s.items, it.key = k

/-- A configuration a user may legally have: the size parses, the policy name exists, and the limited policies
come with a positive limit. -/
def Cfg.Valid (cfg : Cfg) : Prop :=
  ∃ v p, cfg.maxMem = some v ∧ cfg.policy = some p ∧
    (p = .lru ∨ p = .largest → ∃ m, v = some m ∧ 0 < m)

/-- All reconfigurations in a history are valid. -/
def OpsValid (ops : List (Op Q W S)) : Prop :=
  ∀ cfg, Op.update cfg ∈ ops → cfg.Valid

/-- The policy keeps matrices up to a limit. -/
def Limited (p : Policy) : Prop := p = .lru ∨ p = .largest

/-- Scan of a history: `now` operations have passed, the last `get` of `k` was number `best`. -/
def lastGetFrom [DecidableEq K] (key : Q → K) (k : K) : Nat → Nat → List (Op Q W S) → Nat
  | _, best, [] => best
  | now, best, .get _ q :: ops => lastGetFrom key k (now + 1) (if key q = k then now + 1 else best) ops
  | now, best, .update _ :: ops => lastGetFrom key k (now + 1) best ops
  | now, best, .clear :: ops => lastGetFrom key k (now + 1) best ops

/-- Position (from 1) of the last `get` of a request with key `k` in a history, 0 if there is none. -/
def lastGet [DecidableEq K] (key : Q → K) (ops : List (Op Q W S)) (k : K) : Nat :=
  lastGetFrom key k 0 0 ops

/-- All lookups of a history use the given source. -/
def OnlySource (src : Source Q W S) (ops : List (Op Q W S)) : Prop :=
  ∀ src' q, Op.get src' q ∈ ops → src' = src

/-- How one operation changes the number of lookups served while caching was on, judged on what the caller sees:
the reported policy before and after and the result. -/
def servedNext (before : Info) (r : Res Q W S) (op : Op Q W S) (after : Info) (n : Nat) : Nat :=
  match r, op with
  | .got o, _ => if before.policy = .off then n else match o.res with | .ok _ => n + 1 | .error _ => n
  | .unit _, .clear => 0
  | .unit _, _ => if after.policy = .off then 0 else n

/-- Number of lookups that returned while caching was on, since the last clear or switch to policy `off`. -/
def served [LinearOrder K] (key : Q → K) (sizeFn : W → Nat) : Cache K W S → Nat → List (Op Q W S) → Nat
  | _, n, [] => n
  | s, n, op :: ops =>
    let r := step key sizeFn s op
    served key sizeFn r.2 (servedNext (info s) r.1 op (info r.2) n) ops

/-- Number of load calls made on the source. -/
def loads : List (Call Q) → Nat
  | [] => 0
  | .find _ :: cs => loads cs
  | .load _ :: cs => loads cs + 1

end Verif.MemCache

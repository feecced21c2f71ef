import Verif.DiskCache.Policy

/-!
# How long temporary directories exist — src/earthkit/regrid/utils/caching.py:656-741, 768-813, temporary.py:60-76

A policy object owns its `TmpDirectory`; when nothing refers to the object any more python destroys it and the directory is removed with
all its content (`tempfile.TemporaryDirectory`). Objects have numbers. What refers to a policy object is `Cache._policy` and whoever keeps
what `cache.policy` returned. The manager gets a deep copy (caching.py:812): the copy has the path but not the duty to remove it, and does
not keep the original alive. The cache itself is that of `Policy.lean`, step by step. That somebody asks a policy object kept from earlier
for its directory is not modelled, nor the end of the process, which removes what is left.
-/

namespace Verif.DiskCache.Policy
open Verif.Config

structure Life where
  cache : CacheSt
  /-- number of the object in `Cache._policy` -/
  cur : Option Nat
  /-- numbers of the policy objects somebody keeps -/
  held : List Nat
  next : Nat
  /-- temporary directories that exist, with the object that owns them -/
  dirs : List (Nat × Dir)

def Life.init (o : Os) : Life := ⟨CacheSt.init o, none, [], 0, []⟩

/-- Objects nothing refers to are destroyed, with their directories. -/
def Life.collect (l : Life) : Life :=
  { l with dirs := l.dirs.filter (fun x => decide (l.cur = some x.1) || decide (x.1 ∈ l.held)) }

/-- `_make_policy` — caching.py:776-785: the new object is in `self._policy` before the manager is told. -/
def lifeMake (expand : List Char → List Char) (v : View) (b : Bool) (l : Life) : Life :=
  match l.cache.policy with
  | some _ => l
  | none =>
    match fromConfig expand v l.cache.os with
    | .error _ => { l with cache := (makePolicy expand v b l.cache).2 }
    | .ok (p, _) =>
      { l with
        cache := (makePolicy expand v b l.cache).2
        cur := some l.next
        next := l.next + 1
        dirs := l.dirs ++ (p.dir.toList.map (fun d => (l.next, d))) }

/-- `self._policy = None` — caching.py:793 -/
def lifeDrop (l : Life) : Life := { l with cache := { l.cache with policy := none }, cur := none }.collect

/-- `_config_changed` once there is a policy — caching.py:789-797 -/
def lifeRefresh (expand : List Char → List Char) (v : View) (b : Bool) (p : Policy) (l : Life) : Life :=
  match p.outdated v with
  | .ok true => lifeMake expand v b (lifeDrop l)
  | _ => { l with cache := (refresh expand v b p l.cache).2 }

/-- `_config_changed` — caching.py:787-797 -/
def lifeChanged (expand : List Char → List Char) (v : View) (b : Bool) (l : Life) : Life :=
  match v "cache-policy" with
  | .ok (.str _) =>
    match (getPolicy expand v b l.cache).1, (lifeMake expand v b l).cache.policy with
    | .ok _, some p => lifeRefresh expand v b p (lifeMake expand v b l)
    | _, _ => lifeMake expand v b l
  | _ => l

/-- `directory()` of the policy in force — caching.py:669-674: policy `off` makes its directory when it is asked for. -/
def lifeAsk (expand : List Char → List Char) (l : Life) : Life :=
  match l.cache.policy, l.cur with
  | some p, some i =>
    match p.directory expand l.cache.os with
    | .error _ => l
    | .ok (d, p', o') =>
      { l with
        cache := { l.cache with policy := some p', os := o' }
        dirs := if p.kind = .off ∧ p.dir = none then l.dirs ++ [(i, d)] else l.dirs }
  | _, _ => l

/-- `cache.directory()` — caching.py:919-928 -/
def lifeDirectory (expand : List Char → List Char) (v : View) (b : Bool) (l : Life) : Life :=
  match (getPolicy expand v b l.cache).1 with
  | .ok _ => lifeAsk expand (lifeMake expand v b l)
  | .error _ => lifeMake expand v b l

inductive LifeEv where
  | cache (e : CacheEv)
  /-- somebody keeps `cache.policy` -/
  | keep
  /-- and lets it go -/
  | release (n : Nat)

def lifeStep (expand : List Char → List Char) (l : Life) : LifeEv → Life
  | .cache (.changed v b) => lifeChanged expand v b l
  | .cache (.used v b) => lifeMake expand v b l
  | .cache (.directory v b) => lifeDirectory expand v b l
  | .keep =>
    match l.cur with
    | some i => { l with held := i :: l.held }
    | none => l
  | .release n => { l with held := l.held.erase n }.collect

def lifeRun (expand : List Char → List Char) (l : Life) (h : List LifeEv) : Life := h.foldl (lifeStep expand) l

/-- The events the cache itself sees. -/
def cacheEvents : List LifeEv → List CacheEv
  | [] => []
  | .cache e :: h => e :: cacheEvents h
  | _ :: h => cacheEvents h

end Verif.DiskCache.Policy

import Verif.Config.Model

/-!
# Cache policies — src/earthkit/regrid/utils/caching.py:562-812, temporary.py:60-76

`CONFIG.get` is a function `View` (of the moment; it may raise). Directories that exist are those of the machine (`Os.has`) and those
made here; `os.makedirs` and `mkdtemp` may be refused. A temporary directory has a new name, given by a number, below a root directory
(`none`: that of the system). `os.path.expanduser` is a parameter. One thread; what the locks do is in `Locks.lean`; when
temporary directories are removed is in `Life.lean`.
-/

namespace Verif.DiskCache.Policy
open Verif.Config

abbrev View := String → Except Err V

/-- `self._config` of a policy -/
abbrev Snap := String → Option V

inductive Kind' where
  | off | temporary | user
  deriving DecidableEq, Repr

/-- `_name` — caching.py:663, 694, 733 -/
def Kind'.name : Kind' → List Char
  | .off => "off".toList
  | .temporary => "temporary".toList
  | .user => "user".toList

/-- CACHE_KEYS — caching.py:563-569 -/
def CACHE_KEYS : List String :=
  ["cache-policy", "user-cache-directory", "temporary-cache-directory-root", "maximum-cache-disk-usage", "maximum-cache-size"]

/-- OUTDATED_CHECK_KEYS — caching.py:662, 693, 732 -/
def Kind'.outdatedKeys : Kind' → List String
  | .off => ["cache-policy", "temporary-directory-root"]
  | .temporary => ["cache-policy", "temporary-cache-directory-root"]
  | .user => ["cache-policy", "user-cache-directory"]

/-- `managed()` — caching.py:666-667, 702-703 -/
def Kind'.managed : Kind' → Bool
  | .off => false
  | _ => true

inductive Dir where
  | at (p : List Char)
  | fresh (root : Option (List Char)) (n : Nat)
  deriving DecidableEq, Repr

structure Os where
  /-- directories that exist anyway -/
  has : List Char → Bool
  /-- `os.makedirs` is refused -/
  denied : List Char → Bool
  /-- `mkdtemp` is refused -/
  full : Option (List Char) → Bool
  made : List Dir
  next : Nat

inductive Fail where
  | config (e : Err)
  /-- NotImplementedError: unknown policy -/
  | unknown
  | type
  | value
  | os
  /-- raised by the manager, from `_check_cache_size` -/
  | manager
  | attribute
  deriving DecidableEq

def Os.exists (o : Os) (p : List Char) : Bool := o.has p || decide (Dir.at p ∈ o.made)

/-- `if not os.path.exists(p): os.makedirs(p)` -/
def Os.ensure (o : Os) (p : List Char) : Except Fail Os :=
  if o.exists p then .ok o else if o.denied p then .error .os else .ok { o with made := o.made ++ [.at p] }

/-- `TmpDirectory(dir=root)` — temporary.py:60-68 -/
def Os.temp (o : Os) (root : Option (List Char)) : Except Fail (Dir × Os) :=
  match root with
  | none => if o.full none then .error .os else .ok (.fresh none o.next, { o with made := o.made ++ [.fresh none o.next], next := o.next + 1 })
  | some r =>
    if r = [] then .error .value
    else match o.ensure r with
      | .error e => .error e
      | .ok o' => if o'.full (some r) then .error .os
        else .ok (.fresh (some r) o'.next, { o' with made := o'.made ++ [.fresh (some r) o'.next], next := o'.next + 1 })

/-- `_expand_path` — caching.py:629-633 -/
def expandPath (expand : List Char → List Char) : Option V → Except Fail (Option (List Char))
  | none => .ok none
  | some .none => .ok none
  | some (.str s) => .ok (some (expand s))
  | some _ => .error .type

structure Policy where
  kind : Kind'
  snap : Snap
  /-- `_path` -/
  path : List Char
  /-- `_dir` -/
  dir : Option Dir

/-- `{k: CONFIG.get(k) for k in CACHE_KEYS}` — caching.py:574-575 -/
def readKeys (v : View) : List String → Except Err Snap
  | [] => .ok (fun _ => none)
  | k :: ks =>
    match v k with
    | .error e => .error e
    | .ok x =>
      match readKeys v ks with
      | .error e => .error e
      | .ok sn => .ok (fun k' => if k' = k then some x else sn k')

/-- `UserCachePolicy.__init__` (also called by `TmpCachePolicy.__init__`) — caching.py:696-700 -/
def userInit (expand : List Char → List Char) (kind : Kind') (sn : Snap) (o : Os) : Except Fail (Policy × Os) :=
  match expandPath expand (sn "user-cache-directory") with
  | .error e => .error e
  | .ok none => .error .type
  | .ok (some p) =>
    match o.ensure p with
    | .error e => .error e
    | .ok o' => .ok (⟨kind, sn, p, none⟩, o')

/-- `TmpCachePolicy.__init__` — caching.py:735-738 -/
def tmpInit (expand : List Char → List Char) (sn : Snap) (o : Os) : Except Fail (Policy × Os) :=
  match userInit expand .temporary sn o with
  | .error e => .error e
  | .ok (p, o') =>
    match expandPath expand (sn "temporary-cache-directory-root") with
    | .error e => .error e
    | .ok root =>
      match o'.temp root with
      | .error e => .error e
      | .ok (d, o'') => .ok ({ p with dir := some d }, o'')

/-- the class with the given name — caching.py:744-748 -/
def kindOf (v : V) : Option Kind' :=
  if v = .str "off".toList then some .off
  else if v = .str "temporary".toList then some .temporary
  else if v = .str "user".toList then some .user
  else none

/-- the constructor of a class — caching.py:574-575, 696-700, 735-738 -/
def construct (expand : List Char → List Char) (v : View) (o : Os) : Kind' → Except Fail (Policy × Os)
  | .off =>
    match readKeys v CACHE_KEYS with
    | .error e => .error (.config e)
    | .ok sn => .ok (⟨.off, sn, [], none⟩, o)
  | .user =>
    match readKeys v CACHE_KEYS with
    | .error e => .error (.config e)
    | .ok sn => userInit expand .user sn o
  | .temporary =>
    match readKeys v CACHE_KEYS with
    | .error e => .error (.config e)
    | .ok sn => tmpInit expand sn o

/-- `from_config` — caching.py:581-588. A directory made by a constructor that raises later stays, but nothing refers to it; here it
is forgotten. -/
def fromConfig (expand : List Char → List Char) (v : View) (o : Os) : Except Fail (Policy × Os) :=
  match v "cache-policy" with
  | .error e => .error (.config e)
  | .ok x =>
    match kindOf x with
    | none => .error .unknown
    | some k => construct expand v o k

/-- `self._config.get(k) != CONFIG.get(k)` -/
def differs (sn : Snap) (v : View) (k : String) : Except Err Bool :=
  match v k with
  | .error e => .error e
  | .ok x => .ok (!pyEq ((sn k).getD .none) x)

def anyDiffers (sn : Snap) (v : View) : List String → Except Err Bool
  | [] => .ok false
  | k :: ks =>
    match differs sn v k with
    | .error e => .error e
    | .ok true => .ok true
    | .ok false => anyDiffers sn v ks

/-- `outdated` — caching.py:590-591 -/
def Policy.outdated (p : Policy) (v : View) : Except Err Bool := anyDiffers p.snap v p.kind.outdatedKeys

/-- the loop of `update` — caching.py:593-600; an exception keeps what was updated so far -/
def updateL (kind : Kind') (v : View) : List String → Bool → Snap → Except Err Bool × Snap
  | [], changed, sn => (.ok changed, sn)
  | k :: ks, changed, sn =>
    match v k with
    | .error e => (.error e, sn)
    | .ok x => updateL kind v ks (changed || !pyEq ((sn k).getD .none) x)
        (if k ∈ kind.outdatedKeys then sn else fun k' => if k' = k then some x else sn k')

/-- `directory()` — caching.py:669-674, 705-706, 740-741. -/
def Policy.directory (expand : List Char → List Char) (p : Policy) (o : Os) : Except Fail (Dir × Policy × Os) :=
  match p.kind with
  | .user => .ok (.at p.path, p, o)
  | .temporary =>
    match p.dir with
    | some d => .ok (d, p, o)
    | none => .error .attribute
  | .off =>
    match p.dir with
    | some d => .ok (d, p, o)
    | none =>
      match expandPath expand (p.snap "temporary-directory-root") with
      | .error e => .error e
      | .ok root =>
        match o.temp root with
        | .error e => .error e
        | .ok (d, o') => .ok (d, { p with dir := some d }, o')

/-- `maximum_cache_size()` and `maximum_cache_disk_usage()` — caching.py:682-686, 714-718 -/
def Policy.maxSize (p : Policy) : V := if p.kind = .off then .none else (p.snap "maximum-cache-size").getD .none
def Policy.maxUsage (p : Policy) : V := if p.kind = .off then .none else (p.snap "maximum-cache-disk-usage").getD .none

/-- `Cache`: the active policy; the manager, with the copy of the policy it has been given. -/
structure CacheSt where
  policy : Option Policy
  manager : Option (Option Policy)
  os : Os

def CacheSt.init (o : Os) : CacheSt := ⟨none, none, o⟩

/-- `_call_manager_config_changed` — caching.py:811-813, 183-187: the manager takes the copy, then checks its size (`broken`: that
raises). -/
def tellManager (p : Policy) (broken : Bool) (s : CacheSt) : Except Fail Unit × CacheSt :=
  match s.manager with
  | none => (.error .attribute, s)
  | some _ => (if broken then .error .manager else .ok (), { s with manager := some (some p) })

/-- `_make_policy` — caching.py:776-785 -/
def makePolicy (expand : List Char → List Char) (v : View) (broken : Bool) (s : CacheSt) : Except Fail Unit × CacheSt :=
  match s.policy with
  | some _ => (.ok (), s)
  | none =>
    match fromConfig expand v s.os with
    | .error e => (.error e, s)
    | .ok (p, o) =>
      if p.kind.managed then tellManager p broken { s with policy := some p, os := o, manager := some (s.manager.getD none) }
      else (.ok (), { s with policy := some p, os := o })

/-- `policy` — caching.py:768-774: afterwards the policy is in the state. -/
def getPolicy (expand : List Char → List Char) (v : View) (broken : Bool) (s : CacheSt) : Except Fail Unit × CacheSt :=
  makePolicy expand v broken s

/-- `_config_changed` once there is a policy — caching.py:789-797 -/
def refresh (expand : List Char → List Char) (v : View) (broken : Bool) (p : Policy) (s : CacheSt) : Except Fail Unit × CacheSt :=
  match p.outdated v with
  | .error e => (.error (.config e), s)
  | .ok true => makePolicy expand v broken { s with policy := none }
  | .ok false =>
    match updateL p.kind v CACHE_KEYS false p.snap with
    | (.error e, sn) => (.error (.config e), { s with policy := some { p with snap := sn } })
    | (.ok changed, sn) =>
      if changed && p.kind.managed then tellManager { p with snap := sn } broken { s with policy := some { p with snap := sn } }
      else (.ok (), { s with policy := some { p with snap := sn } })

/-- `_config_changed` — caching.py:787-797; the message of the first line needs a text. -/
def configChanged (expand : List Char → List Char) (v : View) (broken : Bool) (s : CacheSt) : Except Fail Unit × CacheSt :=
  match v "cache-policy" with
  | .error e => (.error (.config e), s)
  | .ok (.str _) =>
    match getPolicy expand v broken s with
    | (.error e, s') => (.error e, s')
    | (.ok _, s') =>
      match s'.policy with
      | none => (.error .attribute, s')
      | some p => refresh expand v broken p s'
  | .ok _ => (.error .type, s)

/-- `directory` of the cache — caching.py:915-924 -/
def cacheDirectory (expand : List Char → List Char) (v : View) (broken : Bool) (s : CacheSt) : Except Fail Dir × CacheSt :=
  match getPolicy expand v broken s with
  | (.error e, s') => (.error e, s')
  | (.ok _, s') =>
    match s'.policy with
    | none => (.error .attribute, s')
    | some p =>
      match p.directory expand s'.os with
      | .error e => (.error e, s')
      | .ok (d, p', o') => (.ok d, { s' with policy := some p', os := o' })

/-- What happens to the cache: it is told that the configuration changed, somebody uses its policy, or asks for its directory; each
time with the configuration of the moment and the manager working or not. -/
inductive CacheEv where
  | changed (v : View) (broken : Bool)
  | used (v : View) (broken : Bool)
  | directory (v : View) (broken : Bool)

def CacheEv.view : CacheEv → View
  | .changed v _ => v
  | .used v _ => v
  | .directory v _ => v

def cacheStep (expand : List Char → List Char) (s : CacheSt) : CacheEv → CacheSt
  | .changed v b => (configChanged expand v b s).2
  | .used v b => (getPolicy expand v b s).2
  | .directory v b => (cacheDirectory expand v b s).2

def cacheRun (expand : List Char → List Char) (s : CacheSt) (h : List CacheEv) : CacheSt := h.foldl (cacheStep expand) s

end Verif.DiskCache.Policy

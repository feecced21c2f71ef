import Verif.Config.Model
import Verif.MemCache.Model
import Verif.DiskCache.Policy

/-!
# One process: the configuration with the observers the package registers

`import earthkit.regrid` registers `CACHE._config_changed` (utils/caching.py:1065), then `MEMORY_CACHE.update` (utils/memcache.py:217, 370);
the user may register others. In `Config` observers are something that may raise; here the two are the caches themselves
(`DiskCache.Policy`, `MemCache`), so that what the configuration says and what the caches do can be compared. One thread. The values of
`weights-memory-cache-strict-mode` are compared by truth value.
-/

namespace Verif.Process
open Verif.Config (Err V Conf Env Req Act File)

/-- What comes from outside: python, `expanduser`, whether the cache manager raises, observers of the user. -/
structure Ext where
  P : Config.Py
  expand : List Char → List Char
  broken : Config.St → Bool
  user : Config.Raises

structure St (K W S : Type) where
  cfg : Config.St
  /-- `CACHE` -/
  disk : DiskCache.Policy.CacheSt
  /-- `MEMORY_CACHE` -/
  mem : MemCache.Cache K W S
  /-- ghost: how often `MEMORY_CACHE.update` raised -/
  refusals : Nat

variable {Q K W S : Type} [LinearOrder K]

/-- `CONFIG.get(name)` -/
def now (P : Config.Py) (c : Config.St) : String → Except Err V := Config.getConf P c.env c.top.conf

/-- `max_mem` — memcache.py:291-297, 309; `as_bytes` gives an int or None -/
def limitOf : Except Err V → Option (Option Int)
  | .ok .none => some none
  | .ok (.int n) => some (some n)
  | _ => none

/-- `CACHE_POLICIES` — memcache.py:172 -/
def policyOf : Except Err V → Option MemCache.Policy
  | .ok (.str t) =>
    if t = "off".toList then some .off
    else if t = "unlimited".toList then some .unlimited
    else if t = "lru".toList then some .lru
    else if t = "largest".toList then some .largest
    else none
  | _ => none

def flagOf (P : Config.Py) : Except Err V → Bool
  | .ok v => Config.truthy P v
  | .error _ => false

/-- What `update` reads — memcache.py:291-313 -/
def memCfg (P : Config.Py) (c : Config.St) : MemCache.Cfg :=
  ⟨limitOf (now P c "maximum-weights-memory-cache-size"), flagOf P (now P c "weights-memory-cache-strict-mode"), policyOf (now P c "weights-memory-cache-policy")⟩

/-- An observer is called; `true`: it raises. -/
def call (X : Ext) (o : Nat) (s : St K W S) : Bool × St K W S :=
  if o = 0 then
    match DiskCache.Policy.configChanged X.expand (now X.P s.cfg) (X.broken s.cfg) s.disk with
    | (.ok _, d) => (false, { s with disk := d })
    | (.error _, d) => (true, { s with disk := d })
  else if o = 1 then
    match MemCache.update (memCfg X.P s.cfg) s.mem with
    | (none, m) => (false, { s with mem := m })
    | (some _, m) => (true, { s with mem := m, refusals := s.refusals + 1 })
  else (X.user o s.cfg, s)

def St.noted (s : St K W S) (o : Nat) : St K W S := { s with cfg := { s.cfg with log := s.cfg.log ++ [.called o s.cfg.top.conf] } }

/-- `_notify` — config.py:505-508 -/
def notifyL (X : Ext) : List Nat → St K W S → Option Err × St K W S
  | [], s => (none, s)
  | o :: os, s =>
    match call X o s with
    | (true, s') => (some .observer, s'.noted o)
    | (false, s') => notifyL X os (s'.noted o)

def notify (X : Ext) (s : St K W S) : Option Err × St K W S := notifyL X s.cfg.callbacks s

/-- `_changed` — config.py:500-503 -/
def changed (X : Ext) (s : St K W S) : Option Err × St K W S :=
  notify X { s with cfg := if s.cfg.autosave then Config.saveCfg X.P s.cfg.top s.cfg else s.cfg }

def changedN (X : Ext) : Nat → St K W S → Option Err × St K W S
  | 0, s => (none, s)
  | n + 1, s =>
    match changed X s with
    | (some e, s) => (some e, s)
    | (none, s) => changedN X n s

/-- `set` — config.py:336-358 -/
def set (X : Ext) (r : Req) (s : St K W S) : Option Err × St K W S :=
  match Config.applyReq X.P s.cfg.top.conf r with
  | (some e, c, _) => (some e, { s with cfg := s.cfg.setTop c })
  | (none, c, n) => changedN X n { s with cfg := s.cfg.setTop c }

/-- `reset` — config.py:429-457 -/
def reset (X : Ext) (name : Option String) (s : St K W S) : Option Err × St K W S :=
  match name with
  | none => changed X { s with cfg := s.cfg.setTop (Config.DEFAULTS X.P) }
  | some n =>
    match Config.DEFAULTS X.P n with
    | none => (some .key, s)
    | some v => changed X { s with cfg := s.cfg.setTop ((s.cfg.top.conf.erase n).set n v) }

/-- The other actions on the configuration call no observer. -/
def act (X : Ext) (a : Act) (s : St K W S) : Option Err × St K W S :=
  match a with
  | .set r => set X r s
  | .reset n => reset X n s
  | a => ((Config.act X.P X.user a s.cfg).1, { s with cfg := (Config.act X.P X.user a s.cfg).2 })

/-- Programs of the user; a lookup that raises is followed by `raise` if the program does not catch it. -/
inductive Prog (Q W S : Type) where
  | skip
  | act (a : Act)
  /-- a lookup of weights through the in-memory cache -/
  | lookup (src : MemCache.Source Q W S) (q : Q)
  | clear
  /-- the disk cache is used, or asked for its directory -/
  | use
  | directory
  | seq (p q : Prog Q W S)
  | raise
  | catch_ (p q : Prog Q W S)
  | temp (r : Option Req) (yaml : Option String) (body : Prog Q W S)

/-- Keys and sizes of the in-memory cache. -/
structure Keys (Q K W : Type) where
  key : Q → K
  size : W → Nat

/-- Execution; `temp` follows new_config — config.py:231-240. -/
def run (X : Ext) (M : Keys Q K W) : Prog Q W S → St K W S → Option Err × St K W S
  | .skip, s => (none, s)
  | .act a, s => act X a s
  | .lookup src q, s => (none, { s with mem := (MemCache.get M.key M.size src q s.mem).2 })
  | .clear, s => (none, { s with mem := MemCache.clear s.mem })
  | .use, s => (none, { s with disk := (DiskCache.Policy.getPolicy X.expand (now X.P s.cfg) (X.broken s.cfg) s.disk).2 })
  | .directory, s => (none, { s with disk := (DiskCache.Policy.cacheDirectory X.expand (now X.P s.cfg) (X.broken s.cfg) s.disk).2 })
  | .seq p q, s =>
    match run X M p s with
    | (some e, s) => (some e, s)
    | (none, s) => run X M q s
  | .raise, s => (some .user, s)
  | .catch_ p q, s =>
    match run X M p s with
    | (some _, s) => run X M q s
    | (none, s) => (none, s)
  | .temp r yaml body, s =>
    match Config.makeTemp X.P r yaml s.cfg with
    | (some e, _, c) => (some e, { s with cfg := c })
    | (none, t, c) =>
      match notify X { s with cfg := { c with stack := t :: c.stack } } with
      | (some e, s) => (some e, { s with cfg := { s.cfg with failedEntries := s.cfg.failedEntries + 1 } })
      | (none, s) =>
        match run X M body s with
        | (r, s) =>
          match notify X { s with cfg := { s.cfg with stack := s.cfg.stack.tail } } with
          | (some e, s) => (some e, s)
          | (none, s) => (r, s)

/-- The configuration when the two observers are registered. -/
def registered (P : Config.Py) (path old : String) (env : Env) (files : String → Option File) : Config.St :=
  { Config.start P path old env files with callbacks := [0, 1] }

/-- `import earthkit.regrid`: the configuration file is read, the two caches are made; the in-memory cache reads the configuration
at once (memcache.py:221) and what it raises ends the import. -/
def importPkg (X : Ext) (path old : String) (env : Env) (files : String → Option File) (os : DiskCache.Policy.Os) : Except MemCache.Err (St K W S) :=
  match MemCache.update (memCfg X.P (registered X.P path old env files)) MemCache.initial with
  | (some e, _) => .error e
  | (none, m) => .ok ⟨registered X.P path old env files, .init os, m, 0⟩

end Verif.Process

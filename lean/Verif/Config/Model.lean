import Verif.Humanize.Model

/-!
# Model of src/earthkit/regrid/utils/config.py

Values are `V`; lists, paths and other objects are opaque (`other`). The global object `CONFIG` is the pair `root`/`stack`
of `St`; a temporary configuration is an element of the stack. Observers are identified by numbers; they may raise, and they
are assumed not to change the configuration themselves (the two observers of the package only read it). The yaml file is
modelled by the entries written to it; yaml's own text syntax is not modelled beyond which values its SafeLoader reads back.
-/

namespace Verif.Config
open Verif.Humanize

inductive V where
  | none
  | bool (b : Bool)
  | int (i : Int)
  | str (s : List Char)
  | other (id : Nat)
  deriving DecidableEq

/-- What the file takes from python and the machine: character classes for the number syntax, `str(v)` and `bool(v)`, which
objects `yaml.SafeLoader` can read back after `yaml.dump`, the home directory, the text order used on versions. -/
structure Py where
  C : CharClass
  strOf : V → List Char
  truthyOther : Nat → Bool
  safeOther : Nat → Bool
  home : List Char
  version : List Char
  textLt : List Char → List Char → Bool
  strOf_str : ∀ s, strOf (.str s) = s
  strOf_false : strOf (.bool false) = "False".toList

/-- `bool(v)` -/
def truthy (P : Py) : V → Bool
  | .none => false
  | .bool b => b
  | .int i => i != 0
  | .str s => !s.isEmpty
  | .other n => P.truthyOther n

/-- `a == b` of python for these values (a bool equals the int of the same value). -/
def pyEq : V → V → Bool
  | .bool a, .int i => (if a then 1 else 0) == i
  | .int i, .bool a => (if a then 1 else 0) == i
  | a, b => decide (a = b)

/-- `yaml.dump` followed by `SafeLoader` gives the value back. -/
def safe (P : Py) : V → Bool
  | .other n => P.safeOther n
  | _ => true

inductive Err where
  /-- KeyError -/
  | key
  /-- AssertionError -/
  | assertion
  /-- ValueError -/
  | value
  /-- TypeError -/
  | type
  /-- raised by an observer -/
  | observer
  /-- raised by the user's own code -/
  | user
  deriving DecidableEq

inductive Kind where
  | bool | str | noneType
  deriving DecidableEq
inductive Getter where
  | asStr | asBytes | asPercent | asSeconds
  deriving DecidableEq

/-- `ConfigOption` — config.py:96-141 -/
structure OptDef where
  default : V
  kind : Kind
  getter : Option Getter
  noneOk : Bool
  validator : Option (List (List Char))

/-- CONFIG_AND_HELP — config.py:147-222 -/
def OPTIONS (P : Py) : List (String × OptDef) := [
  ("user-cache-directory", ⟨.str (P.home ++ "/.cache/earthkit-regrid".toList), .str, none, false, none⟩),
  ("temporary-cache-directory-root", ⟨.none, .noneType, some .asStr, true, none⟩),
  ("temporary-directory-root", ⟨.none, .noneType, some .asStr, true, none⟩),
  ("cache-policy", ⟨.str "user".toList, .str, none, false, some ["off".toList, "temporary".toList, "user".toList]⟩),
  ("maximum-cache-size", ⟨.str "5GB".toList, .str, some .asBytes, true, none⟩),
  ("maximum-cache-disk-usage", ⟨.none, .noneType, some .asPercent, true, none⟩),
  ("url-download-timeout", ⟨.str "30s".toList, .str, some .asSeconds, false, none⟩),
  ("check-out-of-date-urls", ⟨.bool false, .bool, none, false, none⟩),
  ("download-out-of-date-urls", ⟨.bool false, .bool, none, false, none⟩),
  ("maximum-weights-memory-cache-size", ⟨.str "500MB".toList, .str, some .asBytes, true, none⟩),
  ("weights-memory-cache-policy", ⟨.str "largest".toList, .str, none, false,
    some ["off".toList, "unlimited".toList, "largest".toList, "lru".toList]⟩),
  ("weights-memory-cache-strict-mode", ⟨.bool false, .bool, none, false, none⟩)]

/-- `CONFIG_AND_HELP.get(name)` -/
def option (P : Py) (name : String) : Option OptDef := (OPTIONS P).lookup name

abbrev Conf := String → Option V

def Conf.set (c : Conf) (k : String) (v : V) : Conf := fun k' => if k' = k then some v else c k'
def Conf.erase (c : Conf) (k : String) : Conf := fun k' => if k' = k then Option.none else c k'

/-- DEFAULTS — config.py:225-228 -/
def DEFAULTS (P : Py) : Conf := fun k => (option P k).map OptDef.default

/-- Applying a getter — config.py:535-547 -/
def convert (P : Py) (g : Option Getter) (noneOk : Bool) (v : V) : Except Err V :=
  match g with
  | Option.none => .ok v
  | some .asStr => if v = .none ∧ noneOk = true then .ok .none else .ok (.str (P.strOf v))
  | some .asBytes => num (asBytes P.C noneOk) v
  | some .asPercent => num (asPercent P.C noneOk) v
  | some .asSeconds => num (asSeconds P.C noneOk) v
where
  /-- `as_number(value, ...)`: `None` is passed through or, like anything else, turned into text. -/
  num (f : Option (List Char) → Except NumErr (Option Nat)) (v : V) : Except Err V :=
    match f (if v = .none ∧ noneOk = true then Option.none else some (P.strOf v)) with
    | .ok (some n) => .ok (.int n)
    | .ok Option.none => .ok .none
    | .error _ => .error .value

/-- `env_var_name` — config.py:282-283 -/
def envName (name : String) : List Char :=
  "EARTHKIT_REGRID_".toList ++ (name.toList.map Char.toUpper).map (fun c => if c = '-' then '_' else c)

abbrev Env := List Char → Option (List Char)

/-- `Config.get` on one `Config` object, without `default` — config.py:298-334 -/
def getConf (P : Py) (env : Env) (c : Conf) (name : String) : Except Err V :=
  match option P name with
  | Option.none => .error .key
  | some o =>
    match env (envName name) with
    | some t => convert P o.getter o.noneOk (.str t)
    | Option.none =>
      match c name with
      | some v => convert P o.getter o.noneOk v
      | Option.none => .error .key

/-- `klass(value)` and the raw value for options with a getter — config.py:382-419 -/
def convertIn (P : Py) (o : OptDef) (v : V) : Except Err V :=
  match o.getter with
  | some g =>
    -- the value is only checked against the getter
    match convert P (some g) o.noneOk v with
    | .ok _ => .ok v
    | .error e => .error e
  | Option.none =>
    match o.kind with
    | .bool => .ok (.bool (truthy P v))
    | .str => .ok (.str (P.strOf v))
    | .noneType => .error .type

/-- `validate` — config.py:139-141 -/
def validate (o : OptDef) (v : V) : Except Err Unit :=
  match o.validator with
  | Option.none => .ok ()
  | some vs => match v with
    | .str s => if s ∈ vs then .ok () else .error .value
    | _ => .error .value

/-- `_set(name, *args, **kwargs)` — config.py:360-427. Warnings are not errors. `kw`: keyword arguments were given. -/
def setOne (P : Py) (c : Conf) (name : String) (args : List V) (kw : Bool) : Except Err Conf :=
  match option P name with
  | Option.none => .error .key
  | some o =>
    match args, kw with
    | [v], false => do
      let v ← convertIn P o v
      validate o v
      return c.set name v
    | _, _ => .error .assertion

/-- The loop over a dict or over keyword arguments: what was set before an error stays set. -/
def setMany (P : Py) : Conf → List (String × V) → Option Err × Conf
  | c, [] => (Option.none, c)
  | c, (k, v) :: rest =>
    match setOne P c k [v] false with
    | .error e => (some e, c)
    | .ok c' => setMany P c' rest

/-- `k.replace("_", "-")` -/
def dashed (k : String) : String := String.ofList (k.toList.map (fun c => if c = '_' then '-' else c))

/-- The ways of calling `set`. -/
inductive Req where
  | kw (kvs : List (String × V))
  | dict (kvs : List (String × V))
  | pos (name : String) (args : List V) (kw : Bool)

/-- The assignments made by `set` — config.py:346-357: error, new items, number of calls of `_changed`. -/
def applyReq (P : Py) (c : Conf) : Req → Option Err × Conf × Nat
  | .kw [] => (some .assertion, c, 0)
  | .kw kvs =>
    match setMany P c (kvs.map (fun p => (dashed p.1, p.2))) with
    | (some e, c') => (some e, c', 0)
    | (Option.none, c') => (Option.none, c', 2)
  | .dict kvs =>
    match setMany P c kvs with
    | (some e, c') => (some e, c', 0)
    | (Option.none, c') => (Option.none, c', 1)
  | .pos name args kw =>
    match setOne P c name args kw with
    | .error e => (some e, c, 0)
    | .ok c' => (Option.none, c', 1)

/-- One `Config` object: its items and its yaml path. -/
structure Cfg where
  conf : Conf
  yaml : Option String

/-- Entries of a yaml file. -/
abbrev File := List (String × V)

/-- What happened, in order. -/
inductive Event where
  /-- observer called while `conf` was visible -/
  | called (o : Nat) (conf : Conf)
  /-- `get(name)` returned -/
  | got (name : String) (v : V)

structure St where
  root : Cfg
  /-- `CONFIG._stack`, top first -/
  stack : List Cfg
  callbacks : List Nat
  autosave : Bool
  env : Env
  files : String → Option File
  /-- whether writing a path succeeds -/
  writable : String → Bool
  log : List Event
  /-- ghost: how many entries of `with` blocks failed because an observer raised -/
  failedEntries : Nat

/-- Which observers raise, depending on everything that happened. -/
abbrev Raises := Nat → St → Bool

/-- The object on which forwarded methods act — config.py:243-250. -/
def St.top (s : St) : Cfg := s.stack.headD s.root

/-- Replace the items of that object. -/
def St.setTop (s : St) (c : Conf) : St :=
  match s.stack with
  | [] => { s with root := { s.root with conf := c } }
  | t :: ts => { s with stack := { t with conf := c } :: ts }

/-- sorted names of the options -/
def SORTED : List String := ["cache-policy", "check-out-of-date-urls", "download-out-of-date-urls", "maximum-cache-disk-usage",
  "maximum-cache-size", "maximum-weights-memory-cache-size", "temporary-cache-directory-root", "temporary-directory-root",
  "url-download-timeout", "user-cache-directory", "weights-memory-cache-policy", "weights-memory-cache-strict-mode"]

/-- The entry written for one option, if its value is not the default — config.py:118-128 -/
def dumpOne (P : Py) (c : Conf) (k : String) : Option (String × V) :=
  match option P k, c k with
  | some o, some v => if pyEq v o.default then Option.none else some (k, v)
  | _, _ => Option.none

/-- `save_config` — config.py:253-279: the entries of the file. -/
def dump (P : Py) (c : Conf) : File := SORTED.filterMap (dumpOne P c) ++ [("version", .str P.version)]

/-- `_save` — config.py:513-524: errors are logged. -/
def saveCfg (P : Py) (c : Cfg) (s : St) : St :=
  match c.yaml with
  | Option.none => s
  | some p => if s.writable p then { s with files := fun q => if q = p then some (dump P c.conf) else s.files q } else s

/-- `_notify` — config.py:505-508 -/
def notifyL (R : Raises) : List Nat → St → Option Err × St
  | [], s => (Option.none, s)
  | o :: os, s =>
    let s' := { s with log := s.log ++ [.called o s.top.conf] }
    if R o s then (some .observer, s') else notifyL R os s'

def notify (R : Raises) (s : St) : Option Err × St := notifyL R s.callbacks s

/-- `_changed` of the visible object — config.py:500-503 -/
def changed (P : Py) (R : Raises) (s : St) : Option Err × St :=
  notify R (if s.autosave then saveCfg P s.top s else s)

def changedN (P : Py) (R : Raises) : Nat → St → Option Err × St
  | 0, s => (Option.none, s)
  | n + 1, s =>
    match changed P R s with
    | (some e, s) => (some e, s)
    | (Option.none, s) => changedN P R n s

/-- `set` — config.py:336-358 -/
def set (P : Py) (R : Raises) (r : Req) (s : St) : Option Err × St :=
  match applyReq P s.top.conf r with
  | (some e, c, _) => (some e, s.setTop c)
  | (Option.none, c, n) => changedN P R n (s.setTop c)

/-- `reset` — config.py:429-457 -/
def reset (P : Py) (R : Raises) (name : Option String) (s : St) : Option Err × St :=
  match name with
  | Option.none => changed P R (s.setTop (DEFAULTS P))
  | some n =>
    match DEFAULTS P n with
    | Option.none => (some .key, s)
    | some v => changed P R (s.setTop ((s.top.conf.erase n).set n v))

/-- The object built by `temporary` — config.py:565-574 (its `set` runs without observers). `none`: no arguments. -/
def makeTemp (P : Py) (r : Option Req) (yaml : Option String) (s : St) : Option Err × Cfg × St :=
  match r with
  | Option.none => (Option.none, ⟨s.top.conf, yaml⟩, s)
  | some r =>
    match applyReq P s.top.conf r with
    | (some e, c, _) => (some e, ⟨c, yaml⟩, s)
    | (Option.none, c, _) => (Option.none, ⟨c, yaml⟩, if s.autosave then saveCfg P ⟨c, yaml⟩ s else s)

inductive Act where
  | set (r : Req)
  | reset (name : Option String)
  | get (name : String)
  | autosave (b : Bool)
  | onChange (o : Nat)
  | setEnv (name : List Char) (v : Option (List Char))

def act (P : Py) (R : Raises) : Act → St → Option Err × St
  | .set r, s => set P R r s
  | .reset n, s => reset P R n s
  | .get n, s =>
    match getConf P s.env s.top.conf n with
    | .ok v => (Option.none, { s with log := s.log ++ [.got n v] })
    | .error e => (some e, s)
  | .autosave b, s => (Option.none, { s with autosave := b })
  | .onChange o, s => (Option.none, { s with callbacks := s.callbacks ++ [o] })
  | .setEnv n v, s => (Option.none, { s with env := fun m => if m = n then v else s.env m })

/-- User programs: `temp` is `with config.temporary(...): body`. -/
inductive Prog where
  | skip
  | act (a : Act)
  | seq (p q : Prog)
  | raise
  | catch_ (p q : Prog)
  | temp (r : Option Req) (yaml : Option String) (body : Prog)

/-- Big-step execution; `temp` follows new_config — config.py:231-240. -/
def run (P : Py) (R : Raises) : Prog → St → Option Err × St
  | .skip, s => (Option.none, s)
  | .act a, s => act P R a s
  | .seq p q, s =>
    match run P R p s with
    | (some e, s) => (some e, s)
    | (Option.none, s) => run P R q s
  | .raise, s => (some .user, s)
  | .catch_ p q, s =>
    match run P R p s with
    | (some _, s) => run P R q s
    | (Option.none, s) => (Option.none, s)
  | .temp r yaml body, s =>
    match makeTemp P r yaml s with
    | (some e, _, s) => (some e, s)
    | (Option.none, t, s) =>
      match notify R { s with stack := t :: s.stack } with
      -- the notification is outside of the `try`: nothing is popped
      | (some e, s) => (some e, { s with failedEntries := s.failedEntries + 1 })
      | (Option.none, s) =>
        match run P R body s with
        | (r, s) =>
          match notify R { s with stack := s.stack.tail } with
          | (some e, s) => (some e, s)
          | (Option.none, s) => (r, s)

/-- `_init_config` — config.py:665-689: the items after reading a file, and whether the file is to be rewritten. A file with a
value that SafeLoader refuses raises before anything is taken from it; a missing version raises (None < text) after. -/
def load (P : Py) (f : Option File) : Conf × Bool :=
  match f with
  | Option.none => (DEFAULTS P, false)
  | some es =>
    if es.all (fun e => safe P e.2) then
      let c : Conf := es.foldl (fun c e => Conf.set c e.1 e.2) (DEFAULTS P)
      (c, match c "version" with
        | some (.str v) => P.textLt v P.version
        | _ => false)
    else (DEFAULTS P, false)

/-- `_init_config_file` — config.py:626-662 with `_migrate_old_config` (605-623): the files after start-up. -/
def initFiles (P : Py) (path old : String) (files : String → Option File) : String → Option File :=
  match files path with
  | some _ => files
  | Option.none =>
    let c : Conf := match files old with
      | some es => if es.all (fun e => safe P e.2) then es.foldl (fun c e => Conf.set c e.1 e.2) (DEFAULTS P) else DEFAULTS P
      | Option.none => DEFAULTS P
    fun q => if q = path then some (dump P c) else files q

/-- Start-up — config.py:692-698 -/
def start (P : Py) (path old : String) (env : Env) (files : String → Option File) : St :=
  let files := initFiles P path old files
  let r := load P (files path)
  let s : St := ⟨⟨r.1, some path⟩, [], [], true, env, files, fun _ => true, [], 0⟩
  if r.2 then saveCfg P s.root s else s

end Verif.Config

import Verif.Config.MigrateProps

/-!
# Starting up, whatever is on the disk — src/earthkit/regrid/utils/config.py:604-698

`Model.start` starts from files that are lists of entries with text keys, in a directory that exists. Here the file may be anything:
missing, not yaml, not a mapping, a mapping with keys that are not text; its directory may be missing and refuse to be made; and
`os.umask` is part of the state.

Simplified: writing a file succeeds as a whole or leaves it as it was (half-written files are C78); the parents that `os.makedirs`
makes on the way are not recorded, nothing looks at them.
-/

namespace Verif.Config.Boot
open Verif.Config

/-- A key of a yaml mapping. -/
inductive Key where
  | text (s : String)
  /-- number, bool, None, date ... -/
  | other (n : Nat)
  deriving DecidableEq

/-- What `open` and `yaml.load(f, Loader=yaml.SafeLoader)` make of a file. -/
inductive Content where
  /-- they raise -/
  | broken
  /-- not a dict: an empty file, a list, a text -/
  | plain
  | mapping (es : List (Key × V))

structure World where
  env : Env
  content : List Char → Option Content
  /-- paths that exist without being files with a content -/
  dirs : List Char → Bool
  /-- whether `os.makedirs` of the path would succeed -/
  mayMake : List Char → Bool
  /-- whether the file can be written, given that its directory is there -/
  mayWrite : List Char → Bool
  umask : Nat

/-- `os.path.exists` (false for the empty text) -/
def World.there (w : World) (p : List Char) : Bool := !p.isEmpty && (w.dirs p || (w.content p).isSome)

/-- `posixpath.dirname` -/
def dirname (p : List Char) : List Char :=
  let head := (p.reverse.dropWhile (· != '/')).reverse
  if head.all (· == '/') then head else (head.reverse.dropWhile (· == '/')).reverse

/-- CONFIG_FILE_ENV_NAME, ENV_PREFIX — config.py:33-34, 629 -/
def fileVariable : List Char := "EARTHKIT_REGRID_CONFIG_FILE".toList

/-- The path of the configuration file — config.py:627-638, 31-32 -/
def configFile (P : Py) (env : Env) : List Char :=
  match env fileVariable with
  | some (c :: t) => c :: t
  | _ => P.home ++ "/.config/earthkit/regrid/config.yaml".toList

/-- OLD_CONFIG_FILE — config.py:30 -/
def oldFile (P : Py) : List Char := P.home ++ "/.earthkit_regrid/settings.yaml".toList

/-- Making the directory — config.py:640-650: the mask is put back only if `os.makedirs` did not raise. `os.makedirs("")` raises. -/
def ensureDir (w : World) (d : List Char) : World :=
  if w.there d then w
  else if d ≠ [] ∧ w.mayMake d = true then { w with dirs := fun p => p = d || w.dirs p }
  else { w with umask := 0o077 }

/-- A file as it is read again after `save_config`. -/
def encode (P : Py) (f : File) : Content :=
  if f.all (fun e => safe P e.2) then .mapping (f.map (fun e => (.text e.1, e.2))) else .broken

/-- `save_config(path, config)` — config.py:253-279, for text keys: does it return, and the disk. -/
def saveConfig (P : Py) (path : List Char) (c : Conf) (w : World) : Bool × World :=
  if w.mayWrite path = true then
    (true, { w with content := fun p => if p = path then some (encode P (dump P c)) else w.content p })
  else (false, w)

/-- One entry of `config.update(s)`, for text keys. -/
def put (c : Conf) (e : Key × V) : Conf :=
  match e.1 with
  | .text k => Conf.set c k e.2
  | .other _ => c

/-- `config.update(s)` over the defaults; the entries with text keys. -/
def overlay (P : Py) (es : List (Key × V)) : Conf := es.foldl put (DEFAULTS P)

/-- Every key is text. -/
def textKeys (es : List (Key × V)) : Bool := es.all (fun e => match e.1 with | .text _ => true | .other _ => false)

/-- `_migrate_old_config` — config.py:604-623. With a key that is not text `sorted` raises in `save_config` (the keys of the defaults
are text): logged, and False. The file then started is overwritten by the caller. -/
def migrate (P : Py) (path : List Char) (w : World) : Bool × World :=
  match w.content (oldFile P) with
  | some (.mapping es) => if textKeys es then saveConfig P path (overlay P es) w else (false, w)
  | _ => (false, w)

/-- `_init_config_file` — config.py:626-662 -/
def initConfigFile (P : Py) (w : World) : List Char × World :=
  let path := configFile P w.env
  let w := ensureDir w (dirname path)
  if w.there (dirname path) then
    if w.there path then (path, w)
    else match migrate P path w with
      | (true, w) => (path, w)
      | (false, w) => (path, (saveConfig P path (DEFAULTS P) w).2)
  else (path, w)

/-- `_init_config` — config.py:665-689: the items with text keys, whether all keys are text, whether to save. -/
def initConfig (P : Py) (c : Option Content) : Conf × Bool × Bool :=
  match c with
  | some (.mapping es) =>
    let c := overlay P es
    (c, textKeys es, match c "version" with
      | some (.str v) => P.textLt v P.version
      | _ => false)
  -- not a dict: `config` has no version, comparing it raises, logged
  | _ => (DEFAULTS P, true, false)

/-- The `Config` object that is made. -/
structure Started where
  conf : Conf
  path : List Char

/-- Importing the module — config.py:692-698. `dict(**defaults)` (config.py:292) raises TypeError when a key is not text. -/
def boot (P : Py) (w : World) : Except Err Started × World :=
  let (path, w) := initConfigFile P w
  let (conf, isText, save) := initConfig P (w.content path)
  if isText then
    (.ok ⟨conf, path⟩, if save then (saveConfig P path conf w).2 else w)
  else (.error .type, w)

end Verif.Config.Boot

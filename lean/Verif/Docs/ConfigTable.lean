import Verif.Config.Model

/-!
# Configuration tables of the documentation — src/earthkit/regrid/sphinxext/generate_config_rst.py, generate_config_env_rst.py

A table is the list of its rows; the reStructuredText around the cells and `repr` of the shown default are left out, and so is the
description. The arguments of the directive (regular expressions matched at the start of the name) are taken literally, as in
docs/guide/misc/caching.rst:260 and memory_cache.rst:155: they have letters and hyphens only.
-/

namespace Verif.Docs.ConfigTable
open Verif.Config

/-- `s.replace(old, new)` for `old` not empty; `skip`: characters of an occurrence still to be left out. -/
def replaceFrom (old new : List Char) : Nat → List Char → List Char
  | _, [] => []
  | k + 1, _ :: r => replaceFrom old new k r
  | 0, c :: r => if old <+: c :: r then new ++ replaceFrom old new (old.length - 1) r else c :: replaceFrom old new 0 r

def replace (old new s : List Char) : List Char := replaceFrom old new 0 s

/-- `"-" + USER` — generate_config_rst.py:37 -/
def dashed (user : List Char) : List Char := '-' :: user

/-- `"-${USER}"` — generate_config_rst.py:38 -/
def VARIABLE : List Char := "-${USER}".toList

/-- `tidy` of a text — generate_config_rst.py:32-40; `fuel`: calls python allows, `none`: RecursionError. `home` is HOME (18), with a
slash at the end, `user` is USER (19). -/
def tidyText (home user : List Char) : Nat → List Char → Option (List Char)
  | 0, _ => none
  | fuel + 1, x =>
    if home <+: x then tidyText home user fuel ('~' :: '/' :: x.drop home.length)
    else if dashed user <:+: x then tidyText home user fuel (replace (dashed user) VARIABLE x)
    else some x

/-- `tidy` of a default — generate_config_rst.py:22-40; no default is a list or a dict. -/
def tidy (home user : List Char) (fuel : Nat) : V → Option V
  | .str s => (tidyText home user fuel s).map .str
  | v => some v

/-- `sorted(CONFIG_AND_HELP.items())`, by name: no two options have the same. -/
def sortedOptions (P : Py) : List (String × OptDef) :=
  (OPTIONS P).mergeSort (fun a b => decide (a.1 ≤ b.1))

/-- `if len(args) and not any(re.match(arg, k) for arg in args): continue` — generate_config_rst.py:53-54 -/
def selected (args : List (List Char)) (name : String) : Bool :=
  args.isEmpty || args.any (fun a => a.isPrefixOf name.toList)

/-- `k.replace("-", "‑")` — generate_config_rst.py:56 -/
def cellName (name : String) : List Char := name.toList.map (fun c => if c = '-' then '‑' else c)

/-- A row of the table of options. -/
structure Row where
  name : List Char
  default : V
  deriving DecidableEq

/-- `execute` — generate_config_rst.py:43-60 (`docs_default` is the default: no option has another one) -/
def table (P : Py) (home user : List Char) (fuel : Nat) (args : List (List Char)) : Option (List Row) :=
  ((sortedOptions P).filter (fun o => selected args o.1)).mapM
    (fun o => (tidy home user fuel o.2.default).map (fun v => ⟨cellName o.1, v⟩))

/-- `execute` — generate_config_env_rst.py:18-33 -/
def envTable (P : Py) (args : List (List Char)) : List (List Char × List Char) :=
  ((sortedOptions P).filter (fun o => selected args o.1)).map (fun o => (cellName o.1, envName o.1))

end Verif.Docs.ConfigTable

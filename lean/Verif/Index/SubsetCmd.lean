import Verif.Index.SubsetDisk

/-!
# The command line of the subset tool — tools/subset/subset_remote_db.py:60-121

`argparse` of python for this parser: options with values and flags, no positional arguments, abbreviations allowed. The separator `--`
is not modelled (an argument list with it counts as refused). What looks like a negative number differs between versions of python and
is a parameter. Everything that prints a usage or help text and ends the program is one outcome, `none`.
-/

namespace Verif.Index.SubsetCmd
open Verif.GridSpec Verif.Index.SubsetDisk

abbrev Text := List Char

inductive Opt where
  | help
  | conf
  | outDir
  | allowMissing
  | strict
  | dryRun
  | logLevel
  deriving DecidableEq

def ALL : List Opt := [.help, .conf, .outDir, .allowMissing, .strict, .dryRun, .logLevel]

/-- The option strings — subset_remote_db.py:61-88 (`-h` besides `--help`) -/
def name : Opt → Text
  | .help => "--help".toList
  | .conf => "--conf".toList
  | .outDir => "--out-dir".toList
  | .allowMissing => "--allow-missing".toList
  | .strict => "--strict".toList
  | .dryRun => "--dry-run".toList
  | .logLevel => "--log-level".toList

/-- `choices` — subset_remote_db.py:85 -/
def LEVELS : List Text := ["debug".toList, "info".toList, "warn".toList, "error".toList, "critical".toList]

/-- The result of `parse_args`. -/
structure Opts where
  conf : Text
  outDir : Text
  allowMissing : Bool
  strict : Bool
  dryRun : Bool
  logLevel : Text
  deriving DecidableEq

/-- the defaults — subset_remote_db.py:62-63, 65-80 (`store_true`), 86 -/
def Opts.default : Opts := ⟨[], [], false, false, false, "info".toList⟩

/-- What an argument is taken for (`_parse_optional` of argparse). -/
inductive Word where
  | value
  | opt (k : Opt) (explicit : Option Text)
  | bad
  deriving DecidableEq

/-- `arg_string.split("=", 1)` -/
def cutEq (t : Text) : Text × Option Text :=
  (t.takeWhile (· != '='), if '=' ∈ t then some ((t.dropWhile (· != '=')).drop 1) else none)

/-- `_get_option_tuples` for two dashes: the options that begin with the text. No option begins with another one, so that an exact match
is the only one. -/
def found (pre : Text) : List Opt := ALL.filter (fun k => pre.isPrefixOf (name k))

/-- what is no option may still be a value: a negative number, or a text with a space -/
def leftOver (neg : Text → Bool) (t : Text) : Word := if neg t ∨ ' ' ∈ t then .value else .bad

/-- `_parse_optional` -/
def classify (neg : Text → Bool) (t : Text) : Word :=
  if t.head? ≠ some '-' ∨ t = ['-'] then .value
  else if ['-', '-'].isPrefixOf t then
    match found (cutEq t).1 with
    | [k] => .opt k (cutEq t).2
    | [] => leftOver neg t
    | _ => .bad
  else if ['-', 'h'].isPrefixOf t then .opt .help none
  else leftOver neg t

/-- An option with its value; `none`: refused. -/
def store (o : Opts) (k : Opt) (v : Text) : Option Opts :=
  match k with
  | .conf => some { o with conf := v }
  | .outDir => some { o with outDir := v }
  | .logLevel => if v ∈ LEVELS then some { o with logLevel := v } else none
  | _ => none

/-- A flag; `none`: not a flag, or the help. -/
def raise (o : Opts) : Opt → Option Opts
  | .allowMissing => some { o with allowMissing := true }
  | .strict => some { o with strict := true }
  | .dryRun => some { o with dryRun := true }
  | _ => none

def isFlag : Opt → Bool
  | .allowMissing => true
  | .strict => true
  | .dryRun => true
  | _ => false

/-- `parse_args` -/
def parse (neg : Text → Bool) (o : Opts) : List Text → Option Opts
  | [] => some o
  | w :: ws =>
    match classify neg w with
    | .opt k (some v) =>
      match store o k v with
      | some o => parse neg o ws
      | none => none
    | .opt k none =>
      if isFlag k then
        match raise o k with
        | some o => parse neg o ws
        | none => none
      else
        match ws with
        | v :: ws =>
          if classify neg v = .value then
            match store o k v with
            | some o => parse neg o ws
            | none => none
          else none
        | [] => none
    | _ => none

variable {W : Type}

inductive Outcome where
  /-- argparse ended the program -/
  | usage
  /-- `sys.exit(1)` -/
  | exit1
  /-- an exception -/
  | raised
  | done
  deriving DecidableEq

/-- What is at the path of the configuration file. -/
inductive ConfFile where
  | missing
  /-- it is there, but reading it raises (a directory, not yaml) -/
  | unreadable
  | filters (fs : List Filter)

/-- `main` — subset_remote_db.py:60-121. `conf`: what is found at a path; `occupied`: the directory has files. -/
def main (P : Py) (order : List String) (neg : Text → Bool) (src : Source W) (conf : Text → ConfFile) (occupied : Text → Bool)
    (args : List Text) (d : Disk W) : Outcome × Disk W :=
  match parse neg Opts.default args with
  | none => (.usage, d)
  | some o =>
    match conf o.conf with
    | .missing => (.exit1, d)
    | .unreadable => if o.outDir = [] then (.exit1, d) else (.raised, d)
    | .filters fs =>
      if o.outDir = [] then (.exit1, d)
      else
        match subsetDb P order src fs o.outDir o.strict (!o.allowMissing) o.dryRun (occupied o.outDir) d with
        | (.ok _, d) => (.done, d)
        | (.error _, d) => (.raised, d)

end Verif.Index.SubsetCmd

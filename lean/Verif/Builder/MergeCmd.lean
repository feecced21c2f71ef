import Verif.Builder.MergeTool
import Verif.Index.SubsetCmd

/-!
# The command line of the merging tool — tools/manage/merge_index.py:71-116

`argparse` as in `Index/SubsetCmd` (no separator `--`, negative numbers a parameter, all usage and help texts one outcome `none`), for the
options of this tool.
-/

namespace Verif.Builder.MergeCmd
open Verif.Builder.MergeTool
open Verif.Index.SubsetCmd (Text cutEq)

inductive Opt where
  | help
  | mode
  | inputDir
  | outputDir
  | dryRun
  deriving DecidableEq

def ALL : List Opt := [.help, .mode, .inputDir, .outputDir, .dryRun]

/-- The option strings — merge_index.py:72-88 (`-h` besides `--help`) -/
def name : Opt → Text
  | .help => "--help".toList
  | .mode => "--mode".toList
  | .inputDir => "--input-dir".toList
  | .outputDir => "--output-dir".toList
  | .dryRun => "--dry-run".toList

/-- `choices` — merge_index.py:76 -/
def modeOf (t : Text) : Option Mode :=
  if t = "local".toList then some .local_ else if t = "system".toList then some .system else none

/-- The result of `parse_args`. -/
structure Opts where
  mode : Mode
  inputDir : Text
  outputDir : Text
  dryRun : Bool
  deriving DecidableEq

/-- the defaults — merge_index.py:77, 81-82, 86 (`store_true`) -/
def Opts.default : Opts := ⟨.local_, [], [], false⟩

/-- What an argument is taken for (`_parse_optional` of argparse). -/
inductive Word where
  | value
  | opt (k : Opt) (explicit : Option Text)
  | bad
  deriving DecidableEq

/-- `_get_option_tuples` for two dashes: the options that begin with the text. -/
def found (pre : Text) : List Opt := ALL.filter (fun k => pre.isPrefixOf (name k))

/-- what is no option may still be a value: a negative number, or a text with a space -/
def leftOver (neg : Text → Bool) (t : Text) : Word := if neg t ∨ ' ' ∈ t then .value else .bad

/-- `_parse_optional` -/
def classify (neg : Text → Bool) (t : Text) : Word :=
  if t.head? ≠ some '-' ∨ t = ['-'] then .value
  else if ['-', '-'].isPrefixOf t then
    match found (cutEq t).1 with
    | [k] => .opt k (cutEq t).2
    | [] => leftOver neg t
    | _ => .bad
  else if ['-', 'h'].isPrefixOf t then .opt .help none
  else leftOver neg t

/-- An option with its value; `none`: refused. -/
def store (o : Opts) (k : Opt) (v : Text) : Option Opts :=
  match k with
  | .mode =>
    match modeOf v with
    | some m => some { o with mode := m }
    | none => none
  | .inputDir => some { o with inputDir := v }
  | .outputDir => some { o with outputDir := v }
  | _ => none

/-- A flag; `none`: not a flag, or the help. -/
def raise (o : Opts) : Opt → Option Opts
  | .dryRun => some { o with dryRun := true }
  | _ => none

def isFlag : Opt → Bool
  | .dryRun => true
  | _ => false

/-- `parse_args` -/
def parse (neg : Text → Bool) (o : Opts) : List Text → Option Opts
  | [] => some o
  | w :: ws =>
    match classify neg w with
    | .opt k (some v) =>
      match store o k v with
      | some o => parse neg o ws
      | none => none
    | .opt k none =>
      if isFlag k then
        match raise o k with
        | some o => parse neg o ws
        | none => none
      else
        match ws with
        | v :: ws =>
          if classify neg v = .value then
            match store o k v with
            | some o => parse neg o ws
            | none => none
          else none
        | [] => none
    | _ => none

inductive Outcome where
  /-- argparse ended the program -/
  | usage
  /-- an exception -/
  | raised
  | done
  deriving DecidableEq

/-- `main` with its command line — merge_index.py:71-116. The test of the mode (97-98) never fails after `choices`. -/
def run (neg : Text → Bool) (reply : Option Content) (args : List Text) (d : Disk) : Outcome × Disk :=
  match parse neg Opts.default args with
  | none => (.usage, d)
  | some o =>
    match MergeTool.main o.mode o.inputDir o.outputDir o.dryRun reply d with
    | (.ok _, d) => (.done, d)
    | (.error _, d) => (.raised, d)

end Verif.Builder.MergeCmd

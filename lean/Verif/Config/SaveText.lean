import Verif.Config.Boot

/-!
# The text of the configuration file — src/earthkit/regrid/utils/config.py:118-128, 253-275

`Model.dump` is the list of entries of the file. Here the file is the text that `save_config` prints, comments included, and `read` is
what `yaml.load` makes of a text, for a part of yaml: lines that are empty or comments, and lines `key: value` with a value that is
empty, a plain text or a text in single quotes. For any other text `read` is `none`: not described.

Taken as parameters: the texts that yaml reads as something else than a text (`resolve`), the text of `yaml.dump` for values that are
not plain (only its line breaks matter here: such a value occurs in comments), and the descriptions of the options.
-/

namespace Verif.Config.SaveText
open Verif.Config Verif.Config.Boot

abbrev Text := List Char

/-- The line breaks of yaml. -/
def isBreak (c : Char) : Bool := c == '\n' || c == '\r' || c == '\u0085' || c == '\u2028' || c == '\u2029'

/-- The pieces between the characters of a kind: `text.split("\n")` for one character, yaml's lines for its line breaks. -/
def splitBy (p : Char → Bool) : Text → List Text
  | [] => [[]]
  | c :: t => if p c then [] :: splitBy p t else match splitBy p t with
    | [] => [[c]]
    | l :: ls => (c :: l) :: ls

/-- Characters that may begin a plain text (a part of those yaml allows). -/
def plainFirst (c : Char) : Bool := c.isAlpha || c.isDigit || c == '/'
/-- Characters that may be in a plain text (a part of those yaml allows). -/
def plainChar (c : Char) : Bool := plainFirst c || c == '-' || c == '.' || c == '_' || c == '+' || c == '%'

/-- Not empty, and nothing in it that yaml could take for syntax. -/
def plainText : Text → Bool
  | [] => false
  | c :: t => plainFirst c && t.all plainChar

/-- The digits of a number. -/
def dec (n : Nat) : Text := if n < 10 then [Char.ofNat (48 + n)] else dec (n / 10) ++ [Char.ofNat (48 + n % 10)]
termination_by n

/-- Values whose text is one plain or quoted word. -/
def plainV : V → Bool
  | .none => true
  | .bool _ => true
  | .int i => decide (0 ≤ i)
  | .str s => s.isEmpty || plainText s
  | .other _ => false

/-- The text of a plain value: a text that would be read as something else is quoted. -/
def scalar (resolve : Text → Option V) : V → Text
  | .none => "null".toList
  | .bool true => "true".toList
  | .bool false => "false".toList
  | .int i => dec i.toNat
  | .str s => if s = [] ∨ resolve s ≠ none then '\'' :: s ++ ['\''] else s
  | .other _ => []

/-- The keys of a saved file. -/
def names : List String := "version" :: SORTED

/-- The yaml library. -/
structure Yaml where
  /-- plain texts that are read as something else than a text -/
  resolve : Text → Option V
  /-- `yaml.dump({key: value}, default_flow_style=False)` -/
  dump : String → V → Text
  null_ : resolve "null".toList = some .none
  true_ : resolve "true".toList = some (.bool true)
  false_ : resolve "false".toList = some (.bool false)
  dec_ : ∀ n, resolve (dec n) = some (.int n)
  names_ : ∀ k ∈ names, resolve k.toList = none
  dump_plain : ∀ k ∈ names, ∀ v, plainV v = true → dump k v = k.toList ++ ':' :: ' ' :: scalar resolve v ++ ['\n']
  dump_break : ∀ k v c, c ∈ dump k v → isBreak c = true → c = '\n'

/-! ## Writing -/

/-- `print(text, file=f)` -/
def say (l : Text) : Text := l ++ ['\n']

/-- `print("#", "-" * 76, file=f)` — config.py:267, 271 -/
def ruler : Text := '#' :: ' ' :: List.replicate 76 '-'

/-- `text.strip()` -/
def strip (P : Py) (t : Text) : Text := ((t.dropWhile P.C.isSpace).reverse.dropWhile P.C.isSpace).reverse

/-- `ConfigOption.save` — config.py:118-128; `desc` is `docs_description` (130-137). -/
def saveOption (Y : Yaml) (P : Py) (desc : Text) (name : String) (dflt v : V) : Text :=
  (splitBy (· == '\n') desc).flatMap (fun n => say ('#' :: ' ' :: strip P n)) ++ say [] ++
  ((splitBy (· == '\n') (Y.dump name dflt)).filter (fun n => !n.isEmpty)).flatMap (fun n => say ('#' :: ' ' :: n)) ++
  (if pyEq v dflt then [] else say [] ++ Y.dump name v)

/-- One turn of the loop — config.py:263-268 -/
def saveEach (Y : Yaml) (D : String → Text) (P : Py) (c : Conf) (k : String) : Text :=
  match option P k, c k with
  | some o, some v => say [] ++ say ruler ++ saveOption Y P (D k) k o.default v
  | _, _ => []

/-- `save_config` — config.py:259-275: the text of the file, `D` the descriptions. -/
def saveText (Y : Yaml) (D : String → Text) (P : Py) (c : Conf) : Text :=
  say "# This file is automatically generated".toList ++ say [] ++ SORTED.flatMap (saveEach Y D P c) ++ say [] ++ say ruler ++
    say "# Version of earthkit-regrid".toList ++ say [] ++ Y.dump "version" (.str P.version) ++ say []

/-! ## Reading -/

/-- What yaml makes of a line. -/
inductive Line where
  | skip
  | entry (k : String) (v : V)
  /-- a word without a colon -/
  | word
  /-- a quote that is not closed -/
  | bad
  /-- not described -/
  | unknown

/-- The value in a line. -/
def Yaml.value (Y : Yaml) (k : String) : Text → Line
  | [] => .entry k .none
  | '\'' :: q =>
    if q.contains '\'' = false then .bad
    else if q.getLast? = some '\'' ∧ q.dropLast.contains '\'' = false then .entry k (.str q.dropLast)
    else .unknown
  | x => if plainText x then .entry k ((Y.resolve x).getD (.str x)) else .unknown

/-- One line at the outermost level. -/
def Yaml.line (Y : Yaml) (l : Text) : Line :=
  if l = [] ∨ l.head? = some '#' then .skip
  else
    let k := l.takeWhile (· != ':')
    if plainText k then
      match l.dropWhile (· != ':') with
      | [] => .word
      | _ :: rest =>
        if Y.resolve k = none then
          match rest with
          | [] => .entry (String.ofList k) .none
          | ' ' :: x => Y.value (String.ofList k) x
          | _ => .unknown
        else .unknown
    else .unknown

/-- The whole text: without an entry it is not a mapping; a word after entries, and a quote that is not closed, are errors. -/
def readLines : List Line → List (Key × V) → Option Content
  | [], acc => some (if acc = [] then .plain else .mapping acc)
  | .skip :: ls, acc => readLines ls acc
  | .entry k v :: ls, acc => readLines ls (acc ++ [(.text k, v)])
  | [.word], acc => some (if acc = [] then .plain else .broken)
  | [.bad], _ => some .broken
  | _, _ => none

/-- `yaml.load(f, Loader=yaml.SafeLoader)` of a text; `none`: not described. -/
def Yaml.read (Y : Yaml) (t : Text) : Option Content := readLines ((splitBy isBreak t).map Y.line) []

end Verif.Config.SaveText

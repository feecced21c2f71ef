import Verif.Json.Model

/-!
# Writing and reading JSON files

`json.dump(x, f, indent=4)` writes the index of an inventory (src/earthkit/regrid/utils/builder.py:149,
tools/manage/merge_index.py:20-22, tools/subset/subset_remote_db.py:53-55); `json.dumps` writes the arguments and owner data of cache
entries (src/earthkit/regrid/utils/caching.py:247, 451); `json.load` reads them again (backends/db.py:305, builder.py:79, 117,
caching.py:219-221, 341, 548, 1008). This file models the encoder with an indentation and the decoder of python's standard library
(json/decoder.py `py_scanstring`, `JSONObject`, `JSONArray`; json/scanner.py `py_make_scanner`), character by character.

Simplifications: `fl` is `repr(float(text))`; a `\u` escape that is half of a pair gives the replacement character (python keeps the
half); the items of an object stay a list (python makes a dict: of keys that occur twice the last counts, which a text written by the
encoder does not have). Recursion is limited by a number; a text is accepted if it is accepted with some number.
-/

namespace Verif.Json

abbrev Text := List Char

/-! ### writing -/

/-- `newline_indent` — json/encoder.py; nothing without an indentation. -/
def gap (ind : Option Nat) (lvl : Nat) : Text :=
  match ind with
  | none => []
  | some k => '\n' :: List.replicate (k * lvl) ' '

/-- What follows a comma: a space, or a new line — json/encoder.py (`item_separator` with and without an indentation). -/
def gap' (ind : Option Nat) (lvl : Nat) : Text :=
  match ind with
  | none => [' ']
  | some k => '\n' :: List.replicate (k * lvl) ' '

mutual
/-- `json.dump(value, f, indent=ind)` at a level — json/encoder.py `_iterencode`. -/
def textI (ind : Option Nat) (lvl : Nat) : T → Text
  | .null => "null".toList
  | .bool true => "true".toList
  | .bool false => "false".toList
  | .int i => intText i
  | .float r => r
  | .str s => quote s
  | .seq [] => ['[', ']']
  | .seq (x :: xs) => '[' :: (gap ind (lvl + 1) ++ (textI ind (lvl + 1) x ++ textIL ind lvl xs))
  | .obj [] => ['{', '}']
  | .obj ((k, v) :: fs) => '{' :: (gap ind (lvl + 1) ++ (quote k ++ ':' :: ' ' :: (textI ind (lvl + 1) v ++ textIF ind lvl fs)))
/-- The remaining elements and the closing bracket. -/
def textIL (ind : Option Nat) (lvl : Nat) : List T → Text
  | [] => gap ind lvl ++ [']']
  | x :: xs => ',' :: (gap' ind (lvl + 1) ++ (textI ind (lvl + 1) x ++ textIL ind lvl xs))
/-- The remaining items and the closing brace. -/
def textIF (ind : Option Nat) (lvl : Nat) : List (Text × T) → Text
  | [] => gap ind lvl ++ ['}']
  | (k, v) :: fs => ',' :: (gap' ind (lvl + 1) ++ (quote k ++ ':' :: ' ' :: (textI ind (lvl + 1) v ++ textIF ind lvl fs)))
end

/-! ### reading: strings -/

/-- A hexadecimal digit, of either case. -/
def unhex (c : Char) : Option Nat :=
  if '0' ≤ c ∧ c ≤ '9' then some (c.toNat - 48)
  else if 'a' ≤ c ∧ c ≤ 'f' then some (c.toNat - 87)
  else if 'A' ≤ c ∧ c ≤ 'F' then some (c.toNat - 55)
  else none

/-- `_decode_uXXXX` — json/decoder.py: four digits and what follows. -/
def hexVal : Text → Option (Nat × Text)
  | a :: b :: c :: d :: r =>
    match unhex a, unhex b, unhex c, unhex d with
    | some a, some b, some c, some d => some (((a * 16 + b) * 16 + c) * 16 + d, r)
    | _, _, _, _ => none
  | _ => none

/-- `chr(u)`; a half of a pair becomes the replacement character. -/
def chr (u : Nat) : Char := if 55296 ≤ u ∧ u ≤ 57343 then '�' else Char.ofNat u

/-- After `\u` — json/decoder.py `py_scanstring`: a pair of escapes is one character. -/
def unicode (t : Text) : Option (Char × Text) :=
  match hexVal t with
  | none => none
  | some (u, r) =>
    if 55296 ≤ u ∧ u ≤ 56319 then
      match r with
      | '\\' :: 'u' :: r' =>
        match hexVal r' with
        | none => none
        | some (l, r'') =>
          if 56320 ≤ l ∧ l ≤ 57343 then some (chr (65536 + ((u - 55296) * 1024 + (l - 56320))), r'')
          else some (chr u, r)
      | _ => some (chr u, r)
    else some (chr u, r)

/-- `BACKSLASH` — json/decoder.py -/
def short (e : Char) : Option Char :=
  if e = '"' then some '"'
  else if e = '\\' then some '\\'
  else if e = '/' then some '/'
  else if e = 'b' then some (Char.ofNat 8)
  else if e = 'f' then some (Char.ofNat 12)
  else if e = 'n' then some '\n'
  else if e = 'r' then some '\r'
  else if e = 't' then some '\t'
  else none

/-- One character of a string; control characters are refused (`strict`). -/
def oneChar (t : Text) : Option (Char × Text) :=
  match t with
  | [] => none
  | c :: r =>
    if c = '\\' then
      match r with
      | [] => none
      | e :: r => if e = 'u' then unicode r else (short e).map (fun x => (x, r))
    else if c.toNat < 32 then none
    else some (c, r)

/-- `py_scanstring` — json/decoder.py, after the opening quote. -/
def scanStr (t : Text) : Option (Text × Text) :=
  match t with
  | [] => none
  | c :: r =>
    if c = '"' then some ([], r)
    else match oneChar (c :: r) with
      | none => none
      | some (d, r') =>
        if _h : r'.length < (c :: r).length then
          match scanStr r' with
          | none => none
          | some (s, r'') => some (d :: s, r'')
        else none
termination_by t.length

/-! ### reading: numbers and words -/

def isDig (c : Char) : Bool := decide ('0' ≤ c ∧ c ≤ '9')

/-- `(-?(?:0|[1-9]\d*))` without the sign — json/scanner.py NUMBER_RE -/
def natPart (t : Text) : Option (Text × Text) :=
  match t with
  | [] => none
  | c :: r =>
    if c = '0' then some (['0'], r)
    else if isDig c then some ((c :: r).takeWhile isDig, (c :: r).dropWhile isDig)
    else none

/-- `(\.\d+)?` -/
def fracPart (t : Text) : Text × Text :=
  match t with
  | [] => ([], t)
  | c :: r => if c = '.' ∧ r.takeWhile isDig ≠ [] then ('.' :: r.takeWhile isDig, r.dropWhile isDig) else ([], t)

/-- `[-+]?` -/
def signPart (t : Text) : Text × Text :=
  match t with
  | [] => ([], t)
  | c :: r => if c = '-' ∨ c = '+' then ([c], r) else ([], t)

/-- `([eE][-+]?\d+)?` -/
def expPart (t : Text) : Text × Text :=
  match t with
  | [] => ([], t)
  | c :: r =>
    if (c = 'e' ∨ c = 'E') ∧ (signPart r).2.takeWhile isDig ≠ [] then
      (c :: ((signPart r).1 ++ (signPart r).2.takeWhile isDig), (signPart r).2.dropWhile isDig)
    else ([], t)

/-- `int(text)` of digits -/
def digitsVal (t : Text) : Nat := t.foldl (fun a c => 10 * a + (c.toNat - 48)) 0

/-- `-?` -/
def minusPart (t : Text) : Bool × Text :=
  match t with
  | [] => (false, t)
  | c :: r => if c = '-' then (true, r) else (false, t)

/-- A number — json/scanner.py: with a fraction or an exponent a float, else an int. -/
def number (fl : Text → Text) (t : Text) : Option (T × Text) :=
  match natPart (minusPart t).2 with
  | none => none
  | some (ip, r) =>
    let f := fracPart r
    let e := expPart f.2
    if f.1 = [] ∧ e.1 = [] then
      some (.int (if (minusPart t).1 then -(digitsVal ip : Int) else digitsVal ip), e.2)
    else some (.float (fl ((if (minusPart t).1 then ['-'] else []) ++ ip ++ f.1 ++ e.1)), e.2)

/-- What follows a word at the beginning of a text. -/
def after (w t : Text) : Option Text := if w.isPrefixOf t then some (t.drop w.length) else none

/-- Words and numbers — json/scanner.py `_scan_once`. -/
def atom (fl : Text → Text) (t : Text) : Option (T × Text) :=
  match after "null".toList t with
  | some r => some (.null, r)
  | none => match after "true".toList t with
    | some r => some (.bool true, r)
    | none => match after "false".toList t with
      | some r => some (.bool false, r)
      | none => match number fl t with
        | some x => some x
        | none => match after "NaN".toList t with
          | some r => some (.float "NaN".toList, r)
          | none => match after "Infinity".toList t with
            | some r => some (.float "Infinity".toList, r)
            | none => match after "-Infinity".toList t with
              | some r => some (.float "-Infinity".toList, r)
              | none => none

/-! ### reading: values -/

/-- `WHITESPACE` — json/decoder.py -/
def isWs (c : Char) : Bool := c == ' ' || c == '\t' || c == '\n' || c == '\r'

def skipWs (t : Text) : Text := t.dropWhile isWs

mutual
/-- `_scan_once` — json/scanner.py -/
def value (fl : Text → Text) : Nat → Text → Option (T × Text)
  | 0, _ => none
  | n + 1, t =>
    match t with
    | [] => none
    | c :: r =>
      if c = '"' then
        match scanStr r with
        | none => none
        | some (s, r) => some (.str s, r)
      else if c = '{' then
        match skipWs r with
        | [] => none
        | d :: r =>
          if d = '}' then some (.obj [], r)
          else if d = '"' then
            match fields fl n r with
            | none => none
            | some (fs, r) => some (.obj fs, r)
          else none
      else if c = '[' then
        match skipWs r with
        | [] => none
        | d :: r =>
          if d = ']' then some (.seq [], r)
          else
            match elems fl n (d :: r) with
            | none => none
            | some (xs, r) => some (.seq xs, r)
      else atom fl (c :: r)
/-- `JSONObject` — json/decoder.py, after the opening quote of a key. -/
def fields (fl : Text → Text) : Nat → Text → Option (List (Text × T) × Text)
  | 0, _ => none
  | n + 1, t =>
    match scanStr t with
    | none => none
    | some (k, r) =>
      match skipWs r with
      | [] => none
      | c :: r =>
        if c = ':' then
          match value fl n (skipWs r) with
          | none => none
          | some (v, r) =>
            match skipWs r with
            | [] => none
            | c :: r =>
              if c = '}' then some ([(k, v)], r)
              else if c = ',' then
                match skipWs r with
                | [] => none
                | c :: r =>
                  if c = '"' then
                    match fields fl n r with
                    | none => none
                    | some (fs, r) => some ((k, v) :: fs, r)
                  else none
              else none
        else none
/-- `JSONArray` — json/decoder.py, from the first element. -/
def elems (fl : Text → Text) : Nat → Text → Option (List T × Text)
  | 0, _ => none
  | n + 1, t =>
    match value fl n t with
    | none => none
    | some (v, r) =>
      match skipWs r with
      | [] => none
      | c :: r =>
        if c = ']' then some ([v], r)
        else if c = ',' then
          match elems fl n (skipWs r) with
          | none => none
          | some (xs, r) => some (v :: xs, r)
        else none
end

/-- `JSONDecoder.decode` — json/decoder.py: nothing but white space before and after the value. -/
def loadsN (fl : Text → Text) (n : Nat) (t : Text) : Option T :=
  match value fl n (skipWs t) with
  | none => none
  | some (v, r) => if skipWs r = [] then some v else none

/-- `json.loads(t)` gives `v`. -/
def Loads (fl : Text → Text) (t : Text) (v : T) : Prop := ∃ n, loadsN fl n t = some v

end Verif.Json

import Mathlib.Data.List.Sort

/-!
# Canonical JSON text used as key material

`make_sha` (src/earthkit/regrid/utils/hash.py:14-20) hashes `json.dumps(data, sort_keys=True)`;
`cache_file` (src/earthkit/regrid/utils/caching.py:981-1002) hashes several such texts one after the other.
This file models `json.dumps(..., sort_keys=True)` of the python standard library (default separators, `ensure_ascii`)
on the values that occur: `None`, booleans, ints, floats, text, lists, tuples and dicts with text keys.

Simplifications: dict keys are text (the library also converts int, float, bool and None keys); text holds unicode scalar
values only (no lone surrogates); a float is represented by its `float.__repr__` text (shortest round-trip text,
different for different floats), which is what `json.dumps` writes.
-/

namespace Verif.Json

/-- A python value handed to `json.dumps`. -/
inductive J where
  | null
  | bool (b : Bool)
  | int (i : Int)
  | float (repr : List Char)
  | str (s : List Char)
  | list (xs : List J)
  | tuple (xs : List J)
  | obj (fields : List (List Char × J))

/-- The value as the encoder walks it: list and tuple alike, dict items in key order. -/
inductive T where
  | null
  | bool (b : Bool)
  | int (i : Int)
  | float (repr : List Char)
  | str (s : List Char)
  | seq (xs : List T)
  | obj (fields : List (List Char × T))

/-- Python text comparison `a <= b` (code point by code point). -/
def keyLe : List Char → List Char → Bool
  | [], _ => true
  | _ :: _, [] => false
  | a :: as, b :: bs => a.toNat < b.toNat || (a.toNat == b.toNat && keyLe as bs)

/-- Insertion into a list sorted by key. -/
def insertField (f : List Char × T) : List (List Char × T) → List (List Char × T)
  | [] => [f]
  | g :: gs => if keyLe f.1 g.1 then f :: g :: gs else g :: insertField f gs

/-- `sorted(dct.items())` (json/encoder.py, `_iterencode_dict` with `sort_keys`); keys of a dict are distinct, so the
comparison of the pairs is decided by the keys. -/
def sortFields : List (List Char × T) → List (List Char × T)
  | [] => []
  | f :: fs => insertField f (sortFields fs)

mutual
/-- Order in which the encoder visits a value. -/
def canon : J → T
  | .null => .null
  | .bool b => .bool b
  | .int i => .int i
  | .float r => .float r
  | .str s => .str s
  | .list xs => .seq (canonL xs)
  | .tuple xs => .seq (canonL xs)
  | .obj fs => .obj (sortFields (canonF fs))
def canonL : List J → List T
  | [] => []
  | x :: xs => canon x :: canonL xs
def canonF : List (List Char × J) → List (List Char × T)
  | [] => []
  | (k, v) :: fs => (k, canon v) :: canonF fs
end

/-- One lower-case hexadecimal digit. -/
def hexDigit (n : Nat) : Char :=
  if n < 10 then Char.ofNat (48 + n) else Char.ofNat (87 + n)

/-- `"{0:04x}".format(n)` for n < 65536. -/
def hex4 (n : Nat) : List Char :=
  [hexDigit (n / 4096 % 16), hexDigit (n / 256 % 16), hexDigit (n / 16 % 16), hexDigit (n % 16)]

/-- `py_encode_basestring_ascii` (json/encoder.py): one character. -/
def escChar (c : Char) : List Char :=
  if c = '"' then ['\\', '"']
  else if c = '\\' then ['\\', '\\']
  else if c = '\n' then ['\\', 'n']
  else if c = '\r' then ['\\', 'r']
  else if c = '\t' then ['\\', 't']
  else if c.toNat = 12 then ['\\', 'f']
  else if c.toNat = 8 then ['\\', 'b']
  else if 32 ≤ c.toNat ∧ c.toNat ≤ 126 then [c]
  else if c.toNat < 65536 then '\\' :: 'u' :: hex4 c.toNat
  else '\\' :: 'u' :: (hex4 (55296 + (c.toNat - 65536) / 1024) ++
    '\\' :: 'u' :: hex4 (56320 + (c.toNat - 65536) % 1024))

def escText : List Char → List Char
  | [] => []
  | c :: cs => escChar c ++ escText cs

/-- A text between double quotes. -/
def quote (s : List Char) : List Char := '"' :: (escText s ++ ['"'])

/-- Decimal digits of a natural number, least significant first. -/
def digitsRev (n : Nat) : List Char :=
  if n < 10 then [Char.ofNat (48 + n)] else Char.ofNat (48 + n % 10) :: digitsRev (n / 10)

/-- `int.__repr__`. -/
def intText (i : Int) : List Char :=
  if i < 0 then '-' :: (digitsRev i.natAbs).reverse else (digitsRev i.natAbs).reverse

mutual
/-- `json.dumps` of the visited value: separators `", "` and `": "`. -/
def text : T → List Char
  | .null => "null".toList
  | .bool true => "true".toList
  | .bool false => "false".toList
  | .int i => intText i
  | .float r => r
  | .str s => quote s
  | .seq [] => ['[', ']']
  | .seq (x :: xs) => '[' :: (text x ++ textL xs)
  | .obj [] => ['{', '}']
  | .obj ((k, v) :: fs) => '{' :: (quote k ++ ':' :: ' ' :: (text v ++ textF fs))
/-- The remaining elements and the closing bracket. -/
def textL : List T → List Char
  | [] => [']']
  | x :: xs => ',' :: ' ' :: (text x ++ textL xs)
/-- The remaining items and the closing brace. -/
def textF : List (List Char × T) → List Char
  | [] => ['}']
  | (k, v) :: fs => ',' :: ' ' :: (quote k ++ ':' :: ' ' :: (text v ++ textF fs))
end

/-- `json.dumps(data, sort_keys=True)`. -/
def dumps (j : J) : List Char := text (canon j)

/-- `make_sha` — hash.py:14-20, with the digest function as a parameter. -/
def makeSha (sha : List Char → List Char) (data : J) : List Char :=
  match data with
  | .str s => sha s
  | d => sha (dumps d)

/-- Key of a weights lookup: `make_sha(args)` with `args = (gridspec_in, gridspec_out, method)` —
memcache.py:231, db.py:468-472. -/
def lookupKey (sha : List Char → List Char) (gin gout : J) (method : List Char) : List Char :=
  makeSha sha (.tuple [gin, gout, .str method])

/-- A cache_file request as far as its name depends on it — caching.py:934-942. -/
structure FileReq where
  owner : List Char
  args : J
  hashExtra : J
  extension : List Char

/-- `"{}-{}{}".format(owner.lower(), m.hexdigest(), extension)` — caching.py:981-1002.
`lower` is `str.lower`, `sha` the hexadecimal digest. -/
def fileName (lower : List Char → List Char) (sha : List Char → List Char) (r : FileReq) : List Char :=
  lower r.owner ++ '-' :: (sha (r.owner ++ dumps r.args ++ dumps r.hashExtra ++ dumps (.str r.extension)) ++ r.extension)

end Verif.Json

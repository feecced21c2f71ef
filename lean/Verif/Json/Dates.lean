import Verif.Json.Model

/-!
# Dates in the arguments of a disk-cache request

`default_serialiser` (src/earthkit/regrid/utils/caching.py:79-88) and its use for the name of a cache file
(caching.py:985). `json.dumps` calls it for every value it does not know itself.

Simplifications: the number of a day is not checked against its month; the nanoseconds of a `pd.Timestamp` (a subclass
of `datetime.datetime`, so caught by the first test, which makes the second one unreachable) are not modelled; the
other simplifications are those of `Verif/Json/Model.lean`.
-/

namespace Verif.Json.Dates

/-- `datetime.date` -/
structure Day where
  year : Nat
  month : Nat
  day : Nat
  hy : 1 ≤ year ∧ year ≤ 9999
  hm : 1 ≤ month ∧ month ≤ 12
  hd : 1 ≤ day ∧ day ≤ 31
  deriving DecidableEq

/-- `datetime.datetime` (or `pd.Timestamp`); `zone` is its `utcoffset()` in microseconds, less than a day either way. -/
structure Time where
  date : Day
  hour : Fin 24
  minute : Fin 60
  second : Fin 60
  micro : Fin 1000000
  zone : Option {o : Int // o.natAbs < 86400000000}
  deriving DecidableEq

/-- What `default_serialiser` knows. -/
inductive Moment where
  | date (d : Day)
  | time (t : Time)
  deriving DecidableEq

/-- A python value handed to `json.dumps(..., default=default_serialiser)`. -/
inductive P where
  | null
  | bool (b : Bool)
  | int (i : Int)
  | float (repr : List Char)
  | str (s : List Char)
  | list (xs : List P)
  | tuple (xs : List P)
  | obj (fields : List (List Char × P))
  | moment (m : Moment)
  /-- `pd.DatetimeIndex` -/
  | index (ts : List Time)
  /-- an object of any other type -/
  | other

/-- One decimal digit. -/
def digit (n : Nat) : Char := Char.ofNat (48 + n % 10)

/-- `"%02d"` below 100 -/
def pad2 (n : Nat) : List Char := [digit (n / 10), digit n]

/-- `"%04d"` below 10000 -/
def pad4 (n : Nat) : List Char := [digit (n / 1000), digit (n / 100), digit (n / 10), digit n]

/-- `"%06d"` below 1000000 -/
def pad6 (n : Nat) : List Char :=
  [digit (n / 100000), digit (n / 10000), digit (n / 1000), digit (n / 100), digit (n / 10), digit n]

/-- `date.isoformat()` of the standard library (datetime.py). -/
def Day.iso (d : Day) : List Char := pad4 d.year ++ '-' :: (pad2 d.month ++ '-' :: pad2 d.day)

/-- Microseconds are written only if there are any. -/
def frac (us : Nat) : List Char := if us = 0 then [] else '.' :: pad6 us

/-- `_format_offset` of the standard library (datetime.py): seconds only if there are seconds or microseconds. -/
def offset (o : Int) : List Char :=
  let n := o.natAbs
  (if o < 0 then '-' else '+') :: (pad2 (n / 3600000000) ++ ':' :: (pad2 (n / 60000000 % 60) ++
    (if n % 60000000 = 0 then [] else ':' :: (pad2 (n / 1000000 % 60) ++ frac (n % 1000000)))))

/-- The offset of a time, if it has one. -/
def zoneText : Option {o : Int // o.natAbs < 86400000000} → List Char
  | none => []
  | some o => offset o.1

/-- `datetime.isoformat()` of the standard library (datetime.py). -/
def Time.iso (t : Time) : List Char :=
  t.date.iso ++ 'T' :: (pad2 t.hour ++ ':' :: (pad2 t.minute ++ ':' :: (pad2 t.second ++ (frac t.micro ++
    zoneText t.zone))))

/-- `o.isoformat()` — caching.py:82-85 -/
def Moment.iso : Moment → List Char
  | .date d => d.iso
  | .time t => t.iso

/-- What the function raises. -/
inductive Err where
  /-- `import pandas as pd` fails — caching.py:80 -/
  | noPandas
  /-- `json.JSONEncoder.default(o)`, called without its `self`: a TypeError, as the proper call would be — caching.py:88 -/
  | typeError
  deriving DecidableEq

/-- `default_serialiser` — caching.py:79-88; `pandas` says whether pandas is installed. It is called for the values json
does not know: the last three of `P`. -/
def defaultSerialiser (pandas : Bool) (o : P) : Except Err J :=
  if pandas then
    match o with
    | .moment m => .ok (.str m.iso)
    | .index ts => .ok (.list (ts.map fun t => .str t.iso))
    | _ => .error .typeError
  else .error .noPandas

mutual
/-- What `json.dumps(args, sort_keys=True, default=default_serialiser)` writes — caching.py:985. Whatever the order of
the visit, all errors of one call are alike (`C147_errors`), so the order does not matter. -/
def serialise (pandas : Bool) : P → Except Err J
  | .null => .ok .null
  | .bool b => .ok (.bool b)
  | .int i => .ok (.int i)
  | .float r => .ok (.float r)
  | .str s => .ok (.str s)
  | .list xs => (serialiseL pandas xs).map .list
  | .tuple xs => (serialiseL pandas xs).map .tuple
  | .obj fs => (serialiseF pandas fs).map .obj
  | .moment m => defaultSerialiser pandas (.moment m)
  | .index ts => defaultSerialiser pandas (.index ts)
  | .other => defaultSerialiser pandas .other
def serialiseL (pandas : Bool) : List P → Except Err (List J)
  | [] => .ok []
  | x :: xs =>
    match serialise pandas x, serialiseL pandas xs with
    | .ok y, .ok ys => .ok (y :: ys)
    | .error e, _ => .error e
    | _, .error e => .error e
def serialiseF (pandas : Bool) : List (List Char × P) → Except Err (List (List Char × J))
  | [] => .ok []
  | (k, x) :: fs =>
    match serialise pandas x, serialiseF pandas fs with
    | .ok y, .ok gs => .ok ((k, y) :: gs)
    | .error e, _ => .error e
    | _, .error e => .error e
end

/-- A request with such arguments. -/
structure DateReq where
  owner : List Char
  args : P
  hashExtra : J
  extension : List Char

/-- The name of the file of a request, or the exception — caching.py:981-1002. -/
def nameOf (pandas : Bool) (lower : List Char → List Char) (sha : List Char → List Char) (r : DateReq) :
    Except Err (List Char) :=
  (serialise pandas r.args).map fun a => fileName lower sha ⟨r.owner, a, r.hashExtra, r.extension⟩

end Verif.Json.Dates

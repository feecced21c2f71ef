import Verif.Mir.Stream

/-!
# Objects in a stream — src/earthkit/regrid/utils/stream.py:95-111, 219-237

`next_object` takes bytes with `recv`, everything else with `read`: what the wrapped python object offers is part of the model.
-/

namespace Verif.Mir

def TAG_START_OBJ : Nat := 1

/-- The methods of the python object in `Stream.stream`: a file has `read` and `write`, a socket `recv`. -/
structure Offers where
  recv : Bool
  read : Bool
  deriving DecidableEq, Repr

/-- `unpack("b", …)`: a signed byte. -/
def signed (b : UInt8) : Int := if b.toNat < 128 then b.toNat else (b.toNat : Int) - 256

/-- The exception for a tag other than the start of an object — stream.py:105-111; a negative tag below -20 is outside of
`TAG_NAME`. -/
def startError (tag : Int) : Err :=
  if tag < -20 then .index else .runtime

/-- `next_object` — stream.py:95-111: at the end of the stream `recv` gives `b""`, which is not `""`, and `unpack` raises. -/
def nextObject (c : Offers) (s : Bytes) : Except Err (Bool × Bytes) :=
  if c.recv then
    match s with
    | [] => .error .struct
    | b :: s => if signed b = TAG_START_OBJ then .ok (true, s) else .error (startError (signed b))
  else .error .attribute

/-- `read_string` on such a stream — stream.py:209-212 -/
def readString (c : Offers) (s : Bytes) : Except Err (Bytes × Bytes) :=
  if c.read then readBlob TAG_STRING 4 s else .error .attribute

/-- `read_object` — stream.py:225-229 -/
def readObject (c : Offers) (s : Bytes) : Except Err (Option Bytes × Bytes) := do
  let (more, s) ← nextObject c s
  if more then
    let (klass, s) ← readString c s
    return (some klass, s)
  else return (none, s)

/-- `write_object` — stream.py:231-237 -/
def writeObject (name ref : Bytes) : Written :=
  (((writeTag TAG_START_OBJ).andThen (Item.string name).write).andThen (Item.string ref).write).andThen writeEnd

/-- Objects one after the other. -/
def writeObjects : List (Bytes × Bytes) → Written
  | [] => ⟨[], none⟩
  | (name, ref) :: l => (writeObject name ref).andThen (writeObjects l)

/-- A program that reads objects, the class and the reference of each, until there are no more. -/
def readObjects (c : Offers) : Nat → Bytes → Except Err (List (Bytes × Bytes) × Bytes)
  | 0, s => .ok ([], s)
  | n + 1, s => do
    let (k, s) ← readObject c s
    match k with
    | none => return ([], s)
    | some k =>
      let (ref, s) ← readString c s
      let (l, s) ← readObjects c n s
      return ((k, ref) :: l, s)

end Verif.Mir

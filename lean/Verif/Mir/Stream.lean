/-!
# The tagged binary stream — src/earthkit/regrid/utils/stream.py

A file is the list of its bytes. `struct.pack`/`unpack` are modelled on bytes; a double is its 64-bit pattern. Python integers
are `Int`. `next_object`/`read_object`: see `Objects.lean`.
-/

namespace Verif.Mir

abbrev Bytes := List UInt8

inductive Err where
  /-- TypeError -/
  | type
  /-- RuntimeError -/
  | runtime
  /-- IndexError -/
  | index
  /-- struct.error -/
  | struct
  /-- AssertionError -/
  | assertion
  /-- AttributeError -/
  | attribute
  /-- ValueError -/
  | value
  /-- KeyError -/
  | key
  /-- FileNotFoundError -/
  | notFound
  deriving DecidableEq, Repr

/-! stream.py:13-35 -/
def TAG_END_OBJ : Nat := 2
def TAG_CHAR : Nat := 3
def TAG_UNSIGNED_CHAR : Nat := 4
def TAG_INT : Nat := 5
def TAG_UNSIGNED_INT : Nat := 6
def TAG_LONG : Nat := 9
def TAG_UNSIGNED_LONG : Nat := 10
def TAG_LONG_LONG : Nat := 11
def TAG_UNSIGNED_LONG_LONG : Nat := 12
def TAG_DOUBLE : Nat := 14
def TAG_STRING : Nat := 15
def TAG_LARGE_BLOB : Nat := 21

/-- `len(TAG_NAME)` — stream.py:37-58 -/
def tagNames : Nat := 20

/-- Big-endian digits, `struct.pack("!…")` of a number in range. -/
def beBytes : Nat → Nat → Bytes
  | 0, _ => []
  | k + 1, n => UInt8.ofNat (n / 256 ^ k) :: beBytes k n

/-- The number of big-endian digits. -/
def beNat (b : Bytes) : Nat := b.foldl (fun a x => a * 256 + x.toNat) 0

/-- `pack("!L", n)` -/
def packL (n : Int) : Except Err Bytes :=
  if 0 ≤ n ∧ n < 4294967296 then .ok (beBytes 4 n.toNat) else .error .struct

/-- `unpack("!L", b)` (size 4) and `unpack("!Q", b)` (size 8) -/
def unpack (size : Nat) (b : Bytes) : Except Err Nat :=
  if b.length = size then .ok (beNat b) else .error .struct

/-! ### Writers: the bytes that reach the file, and the exception if one is raised on the way. -/

structure Written where
  bytes : Bytes
  err : Option Err

/-- One statement after the other: nothing is written after an exception. -/
def Written.andThen (a b : Written) : Written :=
  match a.err with
  | some e => ⟨a.bytes, some e⟩
  | none => ⟨a.bytes ++ b.bytes, b.err⟩

/-- `_write(n, nbytes)` — stream.py:69-71 -/
def writeRaw (b : Bytes) (nbytes : Nat) : Written :=
  if nbytes = 0 ∨ nbytes = b.length then ⟨b, none⟩ else ⟨[], some .assertion⟩

/-- `write_tag` — stream.py:92-93 -/
def writeTag (tag : Nat) : Written := writeRaw [UInt8.ofNat tag] 1

/-- `self._write(pack("!L", n), 4)` -/
def writeL (n : Int) : Written :=
  match packL n with
  | .ok b => writeRaw b 4
  | .error e => ⟨[], some e⟩

/-- `write_double` — stream.py:133-137: the low word first; `bits`: the pattern `pack("!d", n)` gives. -/
def writeDouble (bits : UInt64) : Written :=
  (writeTag TAG_DOUBLE).andThen
    ⟨beBytes 4 (bits.toNat % 4294967296) ++ beBytes 4 (bits.toNat / 4294967296), none⟩

/-- A call of one of the writers — stream.py:113-163. -/
inductive Item where
  | char (c : Bytes)
  | uchar (c : Bytes)
  | int (n : Int)
  | uint (n : Int)
  | long (n : Int)
  | ulong (n : Int)
  | longlong (n : Int)
  | ulonglong (n : Int)
  | double (bits : UInt64)
  | string (s : Bytes)
  deriving DecidableEq, Repr

def Item.write : Item → Written
  | .char c => (writeTag TAG_CHAR).andThen (writeRaw c 1)
  | .uchar c => (writeTag TAG_UNSIGNED_CHAR).andThen (writeRaw c 1)
  | .int n => (writeTag TAG_INT).andThen (writeL n)
  | .uint n => (writeTag TAG_UNSIGNED_INT).andThen (writeL n)
  | .long n => (writeTag TAG_LONG).andThen (writeL n)
  | .ulong n => (writeTag TAG_UNSIGNED_LONG).andThen (writeL n)
  | .longlong n => (writeTag TAG_LONG_LONG).andThen (writeL n)
  | .ulonglong n => ((writeTag TAG_UNSIGNED_LONG_LONG).andThen (writeL 0)).andThen (writeL n)
  | .double bits => writeDouble bits
  | .string s => ((writeTag TAG_STRING).andThen (writeL s.length)).andThen (writeRaw s s.length)

/-- `end_object` — stream.py:222-223 -/
def writeEnd : Written := writeTag TAG_END_OBJ

/-! ### Readers: the value and what is left of the file. -/

/-- The exception for a wrong tag — stream.py:84-88; the message looks the wanted tag up in `TAG_NAME`, which is too short
for `TAG_LARGE_BLOB`. -/
def tagError (tag expected : Nat) : Err :=
  if tag < tagNames then (if expected < tagNames then .runtime else .index) else .runtime

/-- `read_tag` — stream.py:73-90: end-of-object marks are skipped; at the end of the file `ord(b"")` or `b"" < 20` raises
TypeError. -/
def readTag (expected : Nat) : Bytes → Except Err Bytes
  | [] => .error .type
  | b :: s =>
    if b.toNat = TAG_END_OBJ then readTag expected s
    else if b.toNat = expected then .ok s
    else .error (tagError b.toNat expected)

/-- `unpack(…, self._read(size))[0]`: `read` gives what is left when that is less. -/
def readNum (size : Nat) (s : Bytes) : Except Err (Nat × Bytes) := do
  let n ← unpack size (s.take size)
  return (n, s.drop size)

/-- `read_int`, `read_unsigned_int`, `read_long`, `read_unsigned_long` (size 4), `read_unsigned_long_long` (size 8)
— stream.py:173-207 -/
def readTagged (tag size : Nat) (s : Bytes) : Except Err (Nat × Bytes) := do
  let s ← readTag tag s
  readNum size s

/-- `read_char`, `read_unsigned_char` — stream.py:165-171 -/
def readByte (tag : Nat) (s : Bytes) : Except Err (Bytes × Bytes) := do
  let s ← readTag tag s
  return (s.take 1, s.drop 1)

/-- `read_string` (size 4) and `read_large_blob` (size 8) — stream.py:209-217 -/
def readBlob (tag size : Nat) (s : Bytes) : Except Err (Bytes × Bytes) := do
  let (n, s) ← readTagged tag size s
  return (s.take n, s.drop n)

/-- `read_double`, `read_long_long` — stream.py:185-195: raise RuntimeError once the tag is read. -/
def readNever (tag : Nat) (s : Bytes) : Except Err (Item × Bytes) := do
  let _ ← readTag tag s
  throw .runtime

/-- The reader with the name of the writer of `i`. -/
def Item.read : Item → Bytes → Except Err (Item × Bytes)
  | .char _, s => do let (c, s) ← readByte TAG_CHAR s; return (.char c, s)
  | .uchar _, s => do let (c, s) ← readByte TAG_UNSIGNED_CHAR s; return (.uchar c, s)
  | .int _, s => do let (n, s) ← readTagged TAG_INT 4 s; return (.int n, s)
  | .uint _, s => do let (n, s) ← readTagged TAG_UNSIGNED_INT 4 s; return (.uint n, s)
  | .long _, s => do let (n, s) ← readTagged TAG_LONG 4 s; return (.long n, s)
  | .ulong _, s => do let (n, s) ← readTagged TAG_UNSIGNED_LONG 4 s; return (.ulong n, s)
  | .longlong _, s => readNever TAG_LONG_LONG s
  | .ulonglong _, s => do let (n, s) ← readTagged TAG_UNSIGNED_LONG_LONG 8 s; return (.ulonglong n, s)
  | .double _, s => readNever TAG_DOUBLE s
  | .string _, s => do let (t, s) ← readBlob TAG_STRING 4 s; return (.string t, s)

/-- A program that writes end-of-object marks and items. -/
def writeAll : List (Nat × Item) → Written
  | [] => ⟨[], none⟩
  | (marks, i) :: rest =>
    ((List.replicate marks writeEnd).foldr Written.andThen i.write).andThen (writeAll rest)

/-- A program that calls readers one after the other. -/
def readAll : List Item → Bytes → Except Err (List Item × Bytes)
  | [], s => .ok ([], s)
  | i :: rest, s => do
    let (v, s) ← i.read s
    let (vs, s) ← readAll rest s
    return (v :: vs, s)

end Verif.Mir

import Mathlib.Logic.Function.Basic

/-!
# Test data

`get_test_data` and `simple_download` (src/earthkit/regrid/utils/testing.py:33-61): files of test data are downloaded
into the directory of the tests unless they are there. Several calls may run at the same time (processes of a parallel
test run) and may be killed.

Simplifications: one directory, already made (`os.makedirs(exist_ok=True)` changes nothing); nobody else touches the
files; the server always answers a name with the same content, or not at all; a call that cannot open or write is a
killed one.
-/

namespace Verif.Testing.Fetch

/-- Where a call is. `todo`: names still to be looked at, `got`: names dealt with. -/
inductive Stage (N : Type) where
  /-- before `os.path.exists(f_path)` of the first name — testing.py:50-54 -/
  | look (todo got : List N)
  /-- before `requests.get` — testing.py:36 -/
  | fetch (n : N) (todo got : List N)
  /-- the content is in memory, before `open(target, "wb")` — testing.py:37-38 -/
  | opening (n : N) (c : List UInt8) (todo got : List N)
  /-- within `write`, `off` bytes are out — testing.py:38 -/
  | writing (n : N) (c : List UInt8) (off : Nat) (todo got : List N)
  /-- `return` — testing.py:58-61 -/
  | returned (got : List N)
  /-- `requests.get` or `raise_for_status` raised — testing.py:36-37 -/
  | raised
  /-- killed, while writing this file if there is one -/
  | killed (n : Option N)

variable {N : Type} [DecidableEq N]

/-- The directory and the calls. -/
structure Sys (N : Type) where
  disk : N → Option (List UInt8)
  call : Nat → Stage N

/-- A write of `chunk` at offset `off` into a file: a hole left by somebody else's truncation is filled with zeros. -/
def writeAt (f : List UInt8) (off : Nat) (chunk : List UInt8) : List UInt8 :=
  (f ++ List.replicate (off - f.length) 0).take off ++ (chunk ++ f.drop (off + chunk.length))

def Sys.setCall (s : Sys N) (p : Nat) (t : Stage N) : Sys N := { s with call := Function.update s.call p t }

def Sys.setFile (s : Sys N) (n : N) (f : List UInt8) : Sys N := { s with disk := Function.update s.disk n (some f) }

/-- What is lost when a call is killed: the file it writes. -/
def Stage.victim : Stage N → Option N
  | .writing n _ _ _ _ => some n
  | .killed v => v
  | _ => none

/-- One step of one call — testing.py:33-61. -/
inductive Step (server : N → Option (List UInt8)) : Sys N → Sys N → Prop
  /-- `os.path.exists(f_path)`: `res.append(f_path)` — testing.py:54-56 -/
  | there {s : Sys N} (p : Nat) {n : N} {todo got : List N} {f : List UInt8} :
      s.call p = .look (n :: todo) got → s.disk n = some f → Step server s (s.setCall p (.look todo (got ++ [n])))
  /-- `not os.path.exists(f_path)` — testing.py:54 -/
  | absent {s : Sys N} (p : Nat) {n : N} {todo got : List N} :
      s.call p = .look (n :: todo) got → s.disk n = none → Step server s (s.setCall p (.fetch n todo got))
  /-- the server answers — testing.py:36-37 -/
  | answer {s : Sys N} (p : Nat) {n : N} {todo got : List N} {c : List UInt8} :
      s.call p = .fetch n todo got → server n = some c → Step server s (s.setCall p (.opening n c todo got))
  /-- it does not, or the network fails — testing.py:36-37 -/
  | refuse {s : Sys N} (p : Nat) {n : N} {todo got : List N} :
      s.call p = .fetch n todo got → Step server s (s.setCall p .raised)
  /-- `open(target, "wb")`: the file is there and empty — testing.py:38 -/
  | openFile {s : Sys N} (p : Nat) {n : N} {todo got : List N} {c : List UInt8} :
      s.call p = .opening n c todo got → Step server s ((s.setFile n []).setCall p (.writing n c 0 todo got))
  /-- some bytes reach the disk — testing.py:38 -/
  | write {s : Sys N} (p k : Nat) {n : N} {todo got : List N} {c f : List UInt8} {off : Nat} :
      s.call p = .writing n c off todo got → s.disk n = some f → off + k ≤ c.length →
      Step server s ((s.setFile n (writeAt f off ((c.drop off).take k))).setCall p (.writing n c (off + k) todo got))
  /-- all is written; `res.append(f_path)` — testing.py:38, 56 -/
  | close {s : Sys N} (p : Nat) {n : N} {todo got : List N} {c : List UInt8} :
      s.call p = .writing n c c.length todo got → Step server s (s.setCall p (.look todo (got ++ [n])))
  /-- no names left — testing.py:58-61 -/
  | done {s : Sys N} (p : Nat) {got : List N} :
      s.call p = .look [] got → Step server s (s.setCall p (.returned got))
  /-- the process is killed -/
  | kill {s : Sys N} (p : Nat) : Step server s (s.setCall p (.killed (s.call p).victim))

/-- Calls that ask for these names, on a directory with these files. A call that asks for nothing does nothing. -/
def init (disk : N → Option (List UInt8)) (asked : Nat → List N) : Sys N := ⟨disk, fun p => .look (asked p) []⟩

/-- The argument `filename`. -/
inductive Arg (N : Type) where
  | one (n : N)
  | many (l : List N)

/-- `if not isinstance(filename, list): filename = [filename]` — testing.py:46-47 -/
def Arg.names : Arg N → List N
  | .one n => [n]
  | .many l => l

/-- `res[0]` if there is one, else `res` — testing.py:58-61 -/
def answerOf (res : List N) : Arg N :=
  match res with
  | [n] => .one n
  | l => .many l

end Verif.Testing.Fetch

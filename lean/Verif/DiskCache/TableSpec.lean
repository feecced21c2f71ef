import Verif.DiskCache.Table

/-!
# What the disk cache promises about its table
-/

namespace Verif.DiskCache

/-- `q` is the path `p`, or that of a file attached to it, directly or through other attached files. -/
inductive Under (rows : List Row) (p : Path) : Path → Prop where
  | self : Under rows p p
  | child {q : Path} {r : Row} (h : Under rows p q) (hr : r ∈ rows) (hp : r.parent = some q) : Under rows p r.path

def Finished (r : Row) : Prop := r.size.isSome = true

/-- Not to be trimmed: registered at or after an unfinished entry or, without unfinished entries, at or after all entries. -/
def Protected (rows : List Row) (r : Row) : Prop :=
  (∃ u ∈ rows, ¬Finished u ∧ u.created ≤ r.created) ∨ ((∀ u ∈ rows, Finished u) ∧ ∀ u ∈ rows, u.created ≤ r.created)

/-- One record per path. -/
def Unique (s : St) : Prop := (s.rows.map (·.path)).Nodup

/-- Every record is of a file in the directory. -/
def Inside (e : Env) (s : St) : Prop := ∀ r ∈ s.rows, inCache e r.path = true

/-- A file is attached to a file with a shorter name. -/
def Rooted (s : St) : Prop := ∀ r ∈ s.rows, ∀ p, r.parent = some p → p.length < r.path.length

/-- The operating system deletes what it is asked to delete. -/
def Deletable (e : Env) : Prop := ∀ p, e.stuck p = false

/-- A path really inside a directory: below it, and nowhere upwards. -/
def Within (dir p : Path) : Prop :=
  ∃ rest, p = dir ++ '/' :: rest ∧ ∀ a b, '/' :: rest ++ ['/'] ≠ a ++ "/../".toList ++ b

/-- Requests to the manager, and changes of the files by anyone. -/
inductive Op where
  | register (t : Nat) (p : Path) (owner : List Char)
  | update (p : Path) (data : Option Nat)
  | check (t : Nat) (limit usage : Option Nat) (disk : Disk)
  | purge (t t' : Nat)
  | purgeMatch (matcher : Row → Bool)
  | decacheFile (p : Path)
  | world (files : List (Path × File))

def step (e : Env) (s : St) : Op → St
  | .register t p owner => (register e t p owner none s).2
  | .update p d => (updateEntry e p d s).2
  | .check t l u d => (checkSize e t l u d s).2
  | .purge t t' => (purge e t t' s).2
  | .purgeMatch m => (purgeMatch e m s).2
  | .decacheFile p => (decacheFile e p s).2
  | .world files => { s with files := files }

def run (e : Env) (h : List Op) : St := h.foldl (step e) ⟨[], []⟩

/-- The time at which an operation can register files. -/
def Op.time : Op → Option Nat
  | .register t _ _ => some t
  | .check t _ _ _ => some t
  | .purge t _ => some t
  | _ => none

/-- Is this a request for `p`? -/
def Op.requests (p : Path) : Op → Bool
  | .register _ q _ => q = p
  | _ => false

end Verif.DiskCache

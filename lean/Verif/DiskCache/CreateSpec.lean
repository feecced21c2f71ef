import Verif.DiskCache.Create

/-!
# What processes sharing a cache directory rely on
-/

namespace Verif.DiskCache.Create

/-- What is in the file, if it is there. -/
def Sys.content (s : Sys) : Option Body := s.file.map s.data

/-- A complete file: what one of the requests would write, from beginning to end. -/
def Unbroken (h : List Act) (c : Body) : Prop := ∃ p force, Act.start p force c ∈ h

/-- From the opening of the lock file to the removal of its name. -/
def Pc.busy : Pc → Bool
  | .tryLock _ | .check _ | .create _ | .writing .. | .rename _ | .update _ | .release _ | .unlink => true
  | _ => false

/-- Between the decision to create the file and its renaming. -/
def Pc.creating : Pc → Bool
  | .create _ | .writing .. | .rename _ => true
  | _ => false

/-- Does this step delete one of the files behind the back of the lock? -/
def Sys.removes (s : Sys) : Act → Bool
  | .go p => s.pc p = .dropFile
  | .evict | .evictTmp | .evictLock => true
  | _ => false

/-- Files are removed (by trimming, purging, regeneration) only while no process is between opening and unlinking the lock file. -/
def Calm : Sys → List Act → Prop
  | _, [] => True
  | s, a :: h => (s.removes a = true → ∀ p, (s.pc p).busy = false) ∧ Calm (s.act a) h

/-- Nothing is ever removed. -/
def Lasting : Sys → List Act → Prop
  | _, [] => True
  | s, a :: h => s.removes a = false ∧ Lasting (s.act a) h

end Verif.DiskCache.Create

import Verif.Index.Model
import Verif.GridSpec.Spec

/-! Specification vocabulary for the inventory index. Gridspec matching (`eq`) is the subject of C31–C38. -/

namespace Verif.Index
open Verif.GridSpec

/-- The method of an entry: given as text, or as the "type" of a dict of options. -/
inductive MethodIs : Raw → List Char → Prop
  | text (r : Raw) (m : List Char) : r.method = some (.name m) → MethodIs r m
  | dict (r : Raw) (m : List Char) (o : Nat) : r.method = some (.dict (some m) o) → MethodIs r m

/-- The entry answers the request. -/
def Hit (P : Py) (order : List String) (gi go : GS) (m : List Char) (e : Entry) : Prop :=
  MethodIs e.raw m ∧ eq P order e.input gi = .ok true ∧ eq P order e.output go = .ok true

/-- The entry is seen not to answer the request: the first comparison that fails does so without an exception. -/
def Miss (P : Py) (order : List String) (gi go : GS) (m : List Char) (e : Entry) : Prop :=
  ∃ n, MethodIs e.raw n ∧
    (n ≠ m ∨ eq P order e.input gi = .ok false ∨ eq P order e.input gi = .ok true ∧ eq P order e.output go = .ok false)

/-- Entries whose comparison with the request raises nothing. -/
def Sound (P : Py) (order : List String) (gi go : GS) (m : List Char) (e : Entry) : Prop :=
  Hit P order gi go m e ∨ Miss P order gi go m e

/-- Grids this version supports. -/
def SupportedGrid (P : Py) (d : Option Dict) : Prop := ∃ x g, d = some x ∧ fromDict P x = .ok g

/-- The version this library reads: 1, as json may write it and python take it. -/
def OneVersion (v : Option V) : Prop := v = some (.int 1) ∨ v = some (.flt 1) ∨ v = some (.bool true)

/-- What the loaded form of a file entry has to be. -/
def Loaded (P : Py) (name : String) (r : Raw) (e : Entry) : Prop :=
  e.name = name ∧ e.raw = r ∧ (∃ d, r.input = some d ∧ fromDict P d = .ok e.input) ∧
    (∃ d, r.output = some d ∧ fromDict P d = .ok e.output)

end Verif.Index

import Verif.MemCache.Model

/-!
# Bytes of weights, and the cache while weights are loaded

utils/matrix.py and the inside of `MemoryCache.get` (memcache.py:223-282).
-/

namespace Verif.MemCache

/-- Formats `load_npz` can return. -/
inductive Format where
  | csr | csc | bsr | coo | dia
  deriving DecidableEq

/-- A sparse matrix by the bytes of its arrays: `data`, and two arrays of positions (`indptr`, `indices`; `row`, `col`; `offsets`, none). -/
structure Weights where
  format : Format
  data : Nat
  first : Nat
  second : Nat
  deriving DecidableEq

/-- `matrix_memory_size` — utils/matrix.py:11-20: formats without the attribute `indptr` raise AttributeError, which gives 0. -/
def matrixMemorySize (w : Weights) : Nat :=
  match w.format with
  | .csr | .csc | .bsr => w.data + w.first + w.second
  | .coo | .dia => 0

variable {Q K W S : Type} [LinearOrder K]

/-- The cache at the time `get` loads weights, if it does — utils/memcache.py:223-282; `create` loads them inside (backends/db.py:479-486). -/
def whileLoading (key : Q → K) (src : Source Q W S) (q : Q) (s : Cache K W S) : Option (Cache K W S) :=
  if s.policy.hasCache then
    match s.items.find? (fun it => decide (it.key = key q)) with
    | some _ => none
    | none =>
      let r := if s.policy.hasLimit then createWithPreCheck src q s else (⟨src.create q, src.createCalls q⟩, s)
      if r.1.calls.length = 2 then some r.2 else none
  else if (src.createCalls q).length = 2 then some s else none

end Verif.MemCache

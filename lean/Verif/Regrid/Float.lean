import Verif.Regrid.Sparse
import Mathlib.Algebra.Order.Ring.Rat
import Mathlib.Algebra.Order.Group.Abs

/-!
# Numbers of the machine — for backends/precomputed.py:36-40 (`z @ values`)

The sparse product of `Verif.Regrid.Sparse` with NaN, infinities, rounding and overflow. The rounding is a parameter: IEEE 754 doubles are
one. Sums are made from left to right with a rounding after every operation (no fused multiply-add), as scipy's `csr_matvecs` is written.
-/

namespace Verif.Regrid

/-- How exact results become numbers of the machine. -/
structure Rounding where
  fl : ℚ → ℚ
  /-- the largest number -/
  max : ℚ

/-- A number of the machine. -/
inductive Fp (r : Rounding) where
  | nan
  /-- infinity; `true`: negative -/
  | inf (neg : Bool)
  | fin (q : ℚ)
  deriving DecidableEq

namespace Fp
variable {r : Rounding}

/-- The number for an exact result. -/
def round (r : Rounding) (q : ℚ) : Fp r := if |r.fl q| ≤ r.max then .fin (r.fl q) else .inf (decide (r.fl q < 0))

def add : Fp r → Fp r → Fp r
  | .nan, _ => .nan
  | _, .nan => .nan
  | .inf a, .inf b => if a = b then .inf a else .nan
  | .inf a, .fin _ => .inf a
  | .fin _, .inf b => .inf b
  | .fin a, .fin b => round r (a + b)

def mul : Fp r → Fp r → Fp r
  | .nan, _ => .nan
  | _, .nan => .nan
  | .inf a, .inf b => .inf (a != b)
  | .inf a, .fin q => if q = 0 then .nan else .inf (a != decide (q < 0))
  | .fin q, .inf b => if q = 0 then .nan else .inf (decide (q < 0) != b)
  | .fin a, .fin b => round r (a * b)

instance : Zero (Fp r) := ⟨.fin 0⟩
instance : Add (Fp r) := ⟨add⟩
instance : Mul (Fp r) := ⟨mul⟩

end Fp
end Verif.Regrid

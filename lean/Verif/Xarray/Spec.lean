import Verif.Xarray.Model

/-! Specification vocabulary for xarray data. -/

namespace Verif.Xarray

/-- The 2-D array with value `f i j` in row `i`, column `j`. -/
def ofFn (r c : Nat) (f : Nat → Nat → ℚ) : Mesh := ⟨r, c, (List.range r).map (fun i => (List.range c).map (f i))⟩

/-- The same values as MIR gives them: one row after the other. -/
def flat (r c : Nat) (f : Nat → Nat → ℚ) : List ℚ := (List.range r).flatMap (fun i => (List.range c).map (f i))

/-- Dimensions have different names, and values depend on the positions along them only. -/
def Proper {α : Type} (d : DA α) : Prop := d.names.Nodup ∧ ∀ p q : String → Nat, (∀ n ∈ d.names, p n = q n) → d.val p = d.val q

/-- A position of the array, as far as dimensions other than `ins` go. -/
def Inside {α : Type} (d : DA α) (ins : List String) (p : String → Nat) : Prop := ∀ x ∈ d.dims, x.1 ∉ ins → p x.1 < x.2

/-- The values of `d` at position `p`, along the dimensions `ins`, as an array with these axes. -/
def sliceAt {α : Type} (d : DA α) (ins : List String) (p : String → Nat) : Arr α :=
  ⟨ins.map d.size, (ndindex (ins.map d.size)).map
    (fun is => d.val (fun m => if m ∈ ins then (is[ins.idxOf m]?).getD 0 else p m))⟩

/-- Geographic dimensions that are recognised in data with dimensions `names`: the last one or two. -/
def LastDims (names ins : List String) : Prop := (ins = ["values"] ∨ ins = ["latitude", "longitude"]) ∧ ins <:+ names

/-- Dimensions of data on a grid: one for a list of points, else two. -/
def GridDims (g : Grid) (outs : List String) : Prop :=
  g.shape.length = 1 ∧ outs = ["values"] ∨ 2 ≤ g.shape.length ∧ outs = ["latitude", "longitude"]

/-- The size of a dimension. -/
def HasDim (dims : List (String × Nat)) (n : String) (k : Nat) : Prop := dims.lookup n = some k

end Verif.Xarray

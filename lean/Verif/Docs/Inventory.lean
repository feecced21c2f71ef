import Verif.Index.Model

/-!
# Model of src/earthkit/regrid/sphinxext/generate_inventory_rst.py: the inventory pages of the documentation

A page is the list of its blocks. The reStructuredText around them is left out; the text of a gridspec in a block is the dict
that `to_str` returns.
The key under which an entry is filed, `sha256(json.dumps(dict(gs_in)))`, is a parameter `key` of the model: it depends on the
order of the items, which the model's dicts do not have.
-/

namespace Verif.Docs
open Verif.GridSpec
open Verif.Index (Entry Index Raw Method)

variable {K : Type} [DecidableEq K]

/-- `BLOCK_COL_NUM` — generate_inventory_rst.py:21 -/
def COLUMNS : Nat := 3

/-- `sort_key_gridspec` — generate_inventory_rst.py:24-31: numbers, or a number and a text. -/
def sortKey (s : GS) : M (ℚ × (ℚ ⊕ List Char)) := do
  let grid ← s.d.item "grid"
  match grid with
  | .str g => return (1000, .inr g)
  | .list (x :: xs) => do
    let a ← numM x
    let y ← (V.list (x :: xs)).item 1
    let b ← numM y
    return (a, .inl b)
  | _ => return (0, .inl 0)

/-- The order of the two components in a sort key; python refuses to order a number and a text, which would need a grid with
the increment 1000: there the model puts numbers first. -/
def sndLe : ℚ ⊕ List Char → ℚ ⊕ List Char → Bool
  | .inl a, .inl b => decide (a ≤ b)
  | .inl _, .inr _ => true
  | .inr _, .inl _ => false
  | .inr a, .inr b => decide (a.map Char.toNat ≤ b.map Char.toNat)

/-- `<=` of tuples. -/
def keyLe (a b : ℚ × (ℚ ⊕ List Char)) : Bool :=
  decide (a.1 < b.1) || (decide (a.1 = b.1) && sndLe a.2 b.2)

/-- `sorted(target, key=sort_key_gridspec)` — generate_inventory_rst.py:157: stable. -/
def sortTargets (ts : List GS) : M (List GS) := do
  let ks ← ts.mapM (fun t => do
    let k ← sortKey t
    return (k, t))
  return (ks.mergeSort (fun a b => keyLe a.1 b.1)).map Prod.snd

/-- `to_str` of a gridspec — generate_inventory_rst.py:34-47 -/
def toStr (s : GS) : M Dict := do
  let grid ← s.d.item "grid"
  let plain : Dict := fun k => if k = "grid" then some grid else none
  match grid with
  | .str ('H' :: _) =>
    match s.d "ordering" with
    | some o => return plain.set "ordering" o
    | none => match s.d "order" with
      | some o => return plain.set "ordering" o
      | none => .error .value
  | _ => return plain

/-- What is filed under a key: `Specs(source, target)` — generate_inventory_rst.py:18 -/
structure Filed where
  source : GS
  target : List GS

/-- A `defaultdict` in insertion order — generate_inventory_rst.py:151-154 -/
def file : List (K × Filed) → K → GS → GS → List (K × Filed)
  | [], k, s, t => [(k, ⟨s, [t]⟩)]
  | (k', f) :: r, k, s, t => if k' = k then (k', ⟨f.source, f.target ++ [t]⟩) :: r else (k', f) :: file r k s t

/-- `entry["interpolation"]["method"] == "linear"` — generate_inventory_rst.py:144 -/
def isLinear (r : Raw) : M Bool :=
  match r.method with
  | none => .error .key
  | some (.name m) => .ok (m == "linear".toList)
  | some _ => .ok false

/-- The first loop of `load_matrix_index_file` — generate_inventory_rst.py:138-154 -/
def collect (P : Py) (key : Entry → K) : Index → List (K × Filed) → M (List (K × Filed))
  | [], acc => .ok acc
  | (_, e) :: rest, acc => do
    let gi ← fromDict P e.input.d
    let go ← fromDict P e.output.d
    let b ← isLinear e.raw
    if b then collect P key rest (file acc (key e) gi go) else collect P key rest acc

/-- The second loop — generate_inventory_rst.py:156-158 -/
def sortAll : List (K × Filed) → M (List (K × Filed))
  | [] => .ok []
  | (k, f) :: r => do
    let ts ← sortTargets f.target
    let r' ← sortAll r
    return (k, ⟨f.source, ts⟩) :: r'

/-- `load_matrix_index_file` — generate_inventory_rst.py:135-160 -/
def loadSpecs (P : Py) (key : Entry → K) (ix : Index) : M (List (K × Filed)) := do
  let c ← collect P key ix []
  sortAll c

/-- A block of a page; `none` in a column: the empty text. -/
structure Block where
  title : V
  source : Dict
  columns : List (List (Option Dict))

/-- `while len(target) % BLOCK_COL_NUM != 0: target.append("")` — generate_inventory_rst.py:51-52; the first argument bounds
the number of rounds (`COLUMNS` suffices). -/
def pad {α : Type} : Nat → List (Option α) → List (Option α)
  | 0, l => l
  | n + 1, l => if l.length % COLUMNS ≠ 0 then pad n (l ++ [none]) else l

/-- The columns — generate_inventory_rst.py:54, 88-91 -/
def columns {α : Type} (l : List (Option α)) : List (List (Option α)) :=
  (List.range COLUMNS).map (fun k => (l.drop (k * (l.length / COLUMNS))).take (l.length / COLUMNS))

/-- `make_gs_block` — generate_inventory_rst.py:50-93 -/
def makeBlock (f : Filed) : M Block := do
  let title ← f.source.d.item "grid"
  let src ← toStr f.source
  let ts ← f.target.mapM toStr
  return ⟨title, src, columns (pad COLUMNS (ts.map some))⟩

/-- The filter of a page besides the type. -/
inductive Want where
  | octahedral (b : Bool)
  | ordering (o : List Char)

/-- `execute`'s reading of its first argument — generate_inventory_rst.py:166-182: the type and the filter. -/
def request (t : List Char) : List Char × Option Want :=
  if t = "reduced_gg_o".toList then ("reduced_gg".toList, some (.octahedral true))
  else if t = "reduced_gg".toList then ("reduced_gg".toList, some (.octahedral false))
  else if t = "healpix_ring".toList then ("healpix".toList, some (.ordering "ring".toList))
  else if t = "healpix_nested".toList then ("healpix".toList, some (.ordering "nested".toList))
  else (t, none)

/-- `match` — generate_inventory_rst.py:96-105: `hasattr` and `getattr`. Only ReducedGGGridSpec has an attribute `octahedral`
(gridspec.py:353-357); no class has an attribute `ordering` (HealpixGridSpec calls it `order`, gridspec.py:428-431). -/
def matchWant (P : Py) (s : GS) : Option Want → M Bool
  | none => .ok true
  | some (.octahedral b) => match s.kind with
    | .rgg => do
      let (o, _) ← rggInspect P s
      return o == b
    | _ => .ok false
  | some (.ordering _) => .ok false

/-- The loop of `build_gs_page` — generate_inventory_rst.py:108-132 -/
def buildPage (P : Py) (type : List Char) (w : Option Want) : List (K × Filed) → M (List Block)
  | [] => .ok []
  | (_, f) :: r => do
    let t ← f.source.d.item "type"
    if !pyEq t (.str type) then buildPage P type w r
    else do
      let b ← matchWant P f.source w
      if b then do
        let blk ← makeBlock f
        let bs ← buildPage P type w r
        return blk :: bs
      else buildPage P type w r

/-- `execute` — generate_inventory_rst.py:163-192 -/
def page (P : Py) (key : Entry → K) (ix : Index) (t : List Char) : M (List Block) := do
  let specs ← loadSpecs P key ix
  buildPage P (request t).1 (request t).2 specs

end Verif.Docs

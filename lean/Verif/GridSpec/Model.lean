import Verif.Humanize.Model
import Mathlib.Algebra.Order.Field.Rat
import Mathlib.Tactic.Linarith

/-!
# Model of src/earthkit/regrid/gridspec.py

A python value is a `V`; floats are exact rationals (NaN and rounding are outside the model). A dict is a function from
keys to optional values: the order of its items plays no role in this file. Exceptions are the left values of `Except`.
The memo fields `_global_ew`, `_N`, `_octahedral`, `_order` hold results of functions of the dict; the dict is not modified
after construction, so the model evaluates those functions instead of remembering their results (the constructor's
assignments to `_global_ew` are kept). One difference: `is_global_ew` notes False before it asks for the increment, so that after a
ValueError for a Gaussian number out of range (`N0`) python answers False the next time, and the model raises again.
-/

namespace Verif.GridSpec
open Verif.Humanize

/-- Python values that occur in gridspecs. -/
inductive V where
  | none
  | bool (b : Bool)
  | int (i : Int)
  | flt (q : ℚ)
  | str (s : List Char)
  | list (xs : List V)
  | tuple (xs : List V)

inductive Err where
  | key | type | value | index
  deriving DecidableEq, Repr

abbrev M := Except Err

/-- What the file takes from python: character classes of `\d`, `str.lower`, `str.upper`, `int(text)`, `str(value)`. -/
structure Py where
  C : CharClass
  lower : List Char → List Char
  upper : List Char → List Char
  pyInt : List Char → Option Int
  pyStr : V → List Char
  underscore_not_digit : C.isDigit '_' = false
  /-- texts that differ only in the case of ascii letters have the same lower case ... -/
  lower_case : ∀ a b, a.map Char.toLower = b.map Char.toLower → lower a = lower b
  /-- ... and the same upper case -/
  upper_case : ∀ a b, a.map Char.toLower = b.map Char.toLower → upper a = upper b
  upper_head : ∀ c r, c ∈ ['O', 'o', 'N', 'n'] → upper (c :: r) = c.toUpper :: upper r
  pyInt_case : ∀ a b, a.map Char.toLower = b.map Char.toLower → pyInt a = pyInt b

/-- Numeric value of int, float, bool. -/
def V.num : V → Option ℚ
  | .bool b => some (if b then 1 else 0)
  | .int i => some i
  | .flt q => some q
  | _ => Option.none

mutual
/-- `==` -/
def pyEq : V → V → Bool
  | .none, .none => true
  | .str a, .str b => a == b
  | .list a, .list b => pyEqL a b
  | .tuple a, .tuple b => pyEqL a b
  | a, b => match a.num, b.num with
    | some x, some y => x == y
    | _, _ => false
def pyEqL : List V → List V → Bool
  | [], [] => true
  | a :: as, b :: bs => pyEq a b && pyEqL as bs
  | _, _ => false
end

/-- Truth value. -/
def V.truthy : V → Bool
  | .none => false
  | .bool b => b
  | .int i => i != 0
  | .flt q => q != 0
  | .str s => !s.isEmpty
  | .list xs => !xs.isEmpty
  | .tuple xs => !xs.isEmpty

/-- `isinstance(v, int)` -/
def V.isInt : V → Bool
  | .int _ => true
  | .bool _ => true
  | _ => false

/-- Elements of a sequence (for `len`, `zip`, indexing). -/
def V.seq : V → M (List V)
  | .list xs => .ok xs
  | .tuple xs => .ok xs
  | .str s => .ok (s.map (fun c => .str [c]))
  | _ => .error .type

/-- `v[i]` -/
def V.item (v : V) (i : Nat) : M V :=
  match v.seq with
  | .error e => .error e
  | .ok xs => match xs[i]? with
    | some x => .ok x
    | Option.none => .error .index

def numM (v : V) : M ℚ :=
  match v.num with
  | some q => .ok q
  | Option.none => .error .type

abbrev Dict := String → Option V

def Dict.set (d : Dict) (k : String) (v : V) : Dict := fun k' => if k' = k then some v else d k'
def Dict.erase (d : Dict) (k : String) : Dict := fun k' => if k' = k then Option.none else d k'
/-- `d[k]` -/
def Dict.item (d : Dict) (k : String) : M V :=
  match d k with
  | some v => .ok v
  | Option.none => .error .key
/-- `d.setdefault(k, v)` -/
def Dict.setDefault (d : Dict) (k : String) (v : V) : Dict := if (d k).isSome then d else d.set k v

/-- gridspec.py:35-39 -/
def DEFAULTS : Dict := fun k =>
  if k = "i_scans_negatively" ∨ k = "j_points_consecutive" ∨ k = "j_scans_positively" then some (.int 0) else Option.none

/-- gridspec.py:40 -/
def DEFAULT_AREA : V := .list [.int 90, .int 0, .int (-90), .int 360]

/-- gridspec.py:42-48 (a set: iteration order unspecified). -/
def COMPARE_KEYS : List String := ["type", "grid", "i_scans_negatively", "j_points_consecutive", "j_scans_positively"]

/-- gridspec.py:16-18 -/
def FULL_GLOBE : ℚ := 360
def FULL_GLOBE_EPS : ℚ := 1 / 100000000
def DEGREE_EPS : ℚ := 1 / 100000000

/-- `same_coord` — gridspec.py:29-30 -/
def sameCoord (eps : ℚ) (x y : V) : M Bool := do
  let a ← numM x
  let b ← numM y
  return decide (|a - b| < eps)

/-- `GridSpec._normalise` — gridspec.py:55-59: tuples at top level become lists. -/
def tupleToList : V → V
  | .tuple xs => .list xs
  | v => v
def normalise (d : Dict) : Dict := fun k => (d k).map tupleToList

/-- The supported classes, gridspec.py:455-461. -/
inductive Kind where
  | ll | rgg | healpix | orca
  deriving DecidableEq, Repr

def Kind.name : Kind → List Char
  | .ll => "regular_ll".toList
  | .rgg => "reduced_gg".toList
  | .healpix => "healpix".toList
  | .orca => "orca".toList

/-- Order of the items of GRIDSPEC_TYPES. -/
def TYPES : List Kind := [.ll, .rgg, .healpix, .orca]

/-- `GRIDSPEC_TYPES.get(name)` -/
def kindOf (name : List Char) : Option Kind := TYPES.find? (fun k => k.name == name)

/-- `RGG_PATTERN.match` with `[OoNn]\d+` — gridspec.py:22 (anchored at the start only). -/
def rggMatch (P : Py) : List Char → Bool
  | c :: d :: _ => (c == 'O' || c == 'o' || c == 'N' || c == 'n') && P.C.isDigit d
  | _ => false

/-- `HEALPIX_PATTERN.match` with `[Hh]\d+` — gridspec.py:21 -/
def healpixMatch (P : Py) : List Char → Bool
  | c :: d :: _ => (c == 'H' || c == 'h') && P.C.isDigit d
  | _ => false

/-- The part `ORCA\d+_[FTUV]$` — gridspec.py:23 -/
def orcaRest (P : Py) : List Char → Bool
  | 'O' :: 'R' :: 'C' :: 'A' :: r =>
    (plus P.C.isDigit (fun _ s => match s with
      | '_' :: c :: t => if (c == 'F' || c == 'T' || c == 'U' || c == 'V') && atEnd t then some () else Option.none
      | _ => Option.none) r).isSome
  | _ => false

/-- `ORCA_PATTERN.match` with `^e?ORCA\d+_[FTUV]$` -/
def orcaMatch (P : Py) (s : List Char) : Bool :=
  (match s with
    | 'e' :: r => orcaRest P r
    | _ => false) || orcaRest P s

/-- `type_match` of the four classes — gridspec.py:251-255, 359-364, 433-437, 448-452 -/
def typeMatch (P : Py) : Kind → V → Bool
  | .ll, .list [_, _] => true
  | .rgg, .str s => rggMatch P s
  | .healpix, .str s => healpixMatch P s
  | .orca, .str s => orcaMatch P s
  | _, _ => false

/-- `_infer_spec_type` — gridspec.py:74-83, with the test `t is None` of from_dict (68-69). `types` is the order of the table. -/
def infer (P : Py) (types : List Kind) (gs : Dict) : M Kind :=
  match (gs "type").getD .none with
  | .none => do
    let grid ← gs.item "grid"
    match types.find? (fun k => typeMatch P k grid) with
    | some k => .ok k
    | Option.none => .error .value
  | .str s => match kindOf s with
    | some k => .ok k
    | Option.none => .error .value
  | .list _ => .error .type
  | .tuple _ => .error .type
  | _ => .error .value

/-- A constructed gridspec: its class, its items and `_global_ew` (and `_global_ns`, always assigned together). -/
structure GS where
  kind : Kind
  d : Dict
  gew : Option Bool

/-- The loop of `all(same_coord(..) for .. in zip(..))`. -/
def sameAreaL (eps : ℚ) : List V → List V → M Bool
  | x :: xs, y :: ys => do
    let b ← sameCoord eps x y
    if b then sameAreaL eps xs ys else return false
  | _, _ => .ok true

/-- `same_area` — gridspec.py:117-121 -/
def sameArea (eps : ℚ) (a b : V) : M Bool := do
  let xs ← a.seq
  let ys ← b.seq
  if xs.length = ys.length then sameAreaL eps xs ys else return false

/-- GLOBAL_AREAS — gridspec.py:154-180: resolution, north, east (west is 0, south is -north). -/
def GLOBAL_AREAS : List (ℚ × ℚ × ℚ) := [
  (5/100, 90, 35995/100),
  (1/10, 90, 3599/10),
  (125/1000, 90, 359875/1000),
  (15/100, 90, 35985/100),
  (2/10, 90, 3598/10),
  (25/100, 90, 35975/100),
  (3/10, 90, 3597/10),
  (4/10, 90, 3596/10),
  (5/10, 90, 3595/10),
  (6/10, 90, 3594/10),
  (7/10, 896/10, 3598/10),
  (75/100, 90, 35925/100),
  (8/10, 896/10, 3592/10),
  (9/10, 90, 3591/10),
  (1, 90, 359),
  (12/10, 90, 3588/10),
  (125/100, 90, 35875/100),
  (14/10, 896/10, 3598/10),
  (15/10, 90, 3585/10),
  (16/10, 896/10, 3584/10),
  (18/10, 90, 3582/10),
  (2, 90, 358),
  (25/10, 90, 3575/10),
  (5, 90, 355),
  (10, 90, 350)]

/-- `LLGridSpec.GLOBAL_AREAS.get((x, y), self.DEFAULT_AREA)`; keys compare by numeric value; a list is not hashable. -/
def globalArea (x y : V) : M V :=
  match x, y with
  | .list _, _ => .error .type
  | _, .list _ => .error .type
  | x, y => match x.num, y.num with
    | some a, some b =>
      match GLOBAL_AREAS.find? (fun e => e.1 == a && e.1 == b) with
      | some (_, n, e) => .ok (.list [.flt n, .int 0, .flt (-n), .flt e])
      | Option.none => .ok DEFAULT_AREA
    | _, _ => .ok DEFAULT_AREA

/-- `if self.get("global", 0) or self.has_default_area(): self._global_ew = True` — gridspec.py:191-193, 266-268 -/
def flagGlobal (d : Dict) : M (Option Bool) :=
  if ((d "global").getD (.int 0)).truthy then .ok (some true)
  else do
    let a ← d.item "area"
    let b ← sameArea DEGREE_EPS a DEFAULT_AREA
    return if b then some true else Option.none

/-- gridspec.py:185-187: the area of a global grid given by its resolution only. -/
def llArea (gs : Dict) : M Dict :=
  if (gs "global").isNone && (gs "area").isNone then do
    let grid ← gs.item "grid"
    let x ← grid.item 0
    let y ← grid.item 1
    let a ← globalArea x y
    return ((gs.set "global" (.int 1)).set "area" a)
  else return gs

/-- Constructors — gridspec.py:182-193 (LL), 262-272 (RGG), 368-379 (Healpix), 50-53 (Orca). -/
def construct (k : Kind) (gs : Dict) : M GS :=
  match k with
  | .ll => do
    let d ← llArea gs
    let d := d.setDefault "area" DEFAULT_AREA
    let f ← flagGlobal d
    return ⟨.ll, d, f⟩
  | .rgg => do
    let d := gs.setDefault "area" DEFAULT_AREA
    let f ← flagGlobal d
    return ⟨.rgg, d, f⟩
  | .healpix =>
    let d := match gs "ordering" with
      | some v => (gs.erase "ordering").set "order" v
      | Option.none => gs
    .ok ⟨.healpix, d.setDefault "area" DEFAULT_AREA, some true⟩
  | .orca => .ok ⟨.orca, gs, Option.none⟩

/-- `dict(DEFAULTS); gs.update(d)` -/
def withDefaults (d : Dict) : Dict := fun k => match d k with
  | some v => some v
  | Option.none => DEFAULTS k

/-- `GridSpec.from_dict` — gridspec.py:61-72 -/
def fromDict (P : Py) (d : Dict) : M GS := do
  let gs := normalise (withDefaults d)
  let k ← infer P TYPES gs
  construct k (gs.set "type" (.str k.name))

/-- `np.isclose`: |a - b| ≤ atol + rtol * |b| -/
def close (atol a b : ℚ) : Bool := decide (|a - b| ≤ atol + 1 / 100000 * |b|)

def nums : List V → M (List ℚ)
  | [] => .ok []
  | x :: xs => do
    let q ← numM x
    let qs ← nums xs
    return q :: qs

/-- `np.allclose(np.array(a), np.array(b), atol=1e-6)` with broadcasting of one-element arrays. -/
def allclose (a b : List V) : M Bool := do
  let xs ← nums a
  let ys ← nums b
  if xs.length = ys.length then return (xs.zip ys).all (fun p => close (1 / 1000000) p.1 p.2)
  else match xs, ys with
    | [x], ys => return ys.all (fun y => close (1 / 1000000) x y)
    | xs, [y] => return xs.all (fun x => close (1 / 1000000) x y)
    | _, _ => .error .value

/-- `compare_key` — gridspec.py:99-115 -/
def compareKey (P : Py) (key : String) (v1 v2 : V) : M Bool :=
  match v1, v2 with
  | .str a, .str b => .ok (if key = "grid" then P.lower a == P.lower b else a == b)
  | .list a, .list b => if key = "grid" then allclose a b else .ok (pyEqL a b)
  | .flt a, .flt b => .ok (close (1 / 100000000) a b)
  | v1, v2 =>
    if v1.isInt && v2.isInt then .ok (pyEq v1 v2) else .ok (P.pyStr v1 == P.pyStr v2)

/-- The loop over COMPARE_KEYS. -/
def compareKeys (P : Py) (s t : Dict) : List String → M Bool
  | [] => .ok true
  | k :: ks => do
    let a ← s.item k
    let b ← t.item k
    let r ← compareKey P k a b
    if r then compareKeys P s t ks else return false

/-- `"shape" in self and "shape" in o` and they differ. -/
def shapesDiffer (s t : Dict) : Bool :=
  match s "shape", t "shape" with
  | some a, some b => !pyEq a b
  | _, _ => false

/-- `GridSpec.__eq__` — gridspec.py:85-97. `order`: the iteration order of the set COMPARE_KEYS. -/
def eqBase (P : Py) (order : List String) (s t : Dict) : M Bool :=
  if !pyEq ((s "type").getD (.str [])) ((t "type").getD (.str [])) then .ok false
  else do
    let r ← compareKeys P s t order
    if r then return !shapesDiffer s t else return false

/-- first loop of `normalise_lon` — gridspec.py:128-129 -/
def lonUp (m lon : ℚ) : ℚ :=
  if lon < m then lonUp m (lon + FULL_GLOBE) else lon
termination_by (⌈(m - lon) / FULL_GLOBE⌉).toNat
decreasing_by
  rename_i h
  have h1 : (0 : ℚ) < (m - lon) / FULL_GLOBE := div_pos (by linarith) (by norm_num [FULL_GLOBE])
  have h2 : (m - (lon + FULL_GLOBE)) / FULL_GLOBE = (m - lon) / FULL_GLOBE - 1 := by
    have : FULL_GLOBE ≠ 0 := by norm_num [FULL_GLOBE]
    field_simp
    ring
  rw [h2, Int.ceil_sub_one]
  have := Int.ceil_pos.2 h1
  omega

/-- second loop — gridspec.py:130-131 -/
def lonDown (m lon : ℚ) : ℚ :=
  if m + FULL_GLOBE ≤ lon then lonDown m (lon - FULL_GLOBE) else lon
termination_by (⌈(lon - m) / FULL_GLOBE⌉).toNat
decreasing_by
  rename_i h
  have h1 : (0 : ℚ) < (lon - m) / FULL_GLOBE := div_pos (by norm_num [FULL_GLOBE] at h ⊢; linarith) (by norm_num [FULL_GLOBE])
  have h2 : (lon - FULL_GLOBE - m) / FULL_GLOBE = (lon - m) / FULL_GLOBE - 1 := by
    have : FULL_GLOBE ≠ 0 := by norm_num [FULL_GLOBE]
    field_simp
    ring
  rw [h2, Int.ceil_sub_one]
  have := Int.ceil_pos.2 h1
  omega

/-- `normalise_lon` — gridspec.py:126-132 -/
def normaliseLon (lon m : ℚ) : ℚ := lonDown m (lonUp m lon)

/-- `_inspect_grid` of ReducedGGGridSpec — gridspec.py:326-345: (octahedral, N). -/
def rggInspect (P : Py) (s : GS) : M (Bool × Int) := do
  let grid ← s.d.item "grid"
  match grid with
  | .str g =>
    if !rggMatch P g then .error .value
    else match P.upper g with
      | c :: r =>
        match P.pyInt r with
        | Option.none => .error .value
        | some n => if n < 1 || n > 1000000 then .error .value else .ok (c == 'O', n)
      | [] => .error .value
  | _ => .error .value

/-- `dx` — gridspec.py:232-233 (LL), 300-305 (RGG). -/
def dx (P : Py) (s : GS) : M ℚ :=
  match s.kind with
  | .ll => do
    let g ← s.d.item "grid"
    let x ← g.item 0
    let q ← numM x
    return |q|
  | _ => do
    let (o, n) ← rggInspect P s
    return if o then FULL_GLOBE / (4 * n + 16) else FULL_GLOBE / (4 * n)

/-- An element of the area as a number. -/
def coord (s : GS) (i : Nat) : M ℚ := do
  let a ← s.d.item "area"
  let x ← a.item i
  numM x

/-- The computation in `is_global_ew` — gridspec.py:236-249, 307-320. -/
def computeGlobalEw (P : Py) (s : GS) : M Bool := do
  let w ← coord s 1
  let west := normaliseLon w 0
  let e ← coord s 3
  let east0 := normaliseLon e 0
  let east := if east0 < west then east0 + FULL_GLOBE else east0
  if |east - west| < FULL_GLOBE_EPS then return true
  else if |east - west - FULL_GLOBE| < FULL_GLOBE_EPS then return true
  else do
    let x ← dx P s
    return decide (|FULL_GLOBE - (east - west) - x| < FULL_GLOBE_EPS)

/-- `is_global_ew` -/
def isGlobalEw (P : Py) (s : GS) : M Bool :=
  match s.gew with
  | some b => .ok b
  | Option.none => computeGlobalEw P s

/-- `LLGridSpec.__eq__` — gridspec.py:195-214 -/
def eqLL (P : Py) (order : List String) (s t : GS) : M Bool := do
  let b ← eqBase P order s.d t.d
  if !b then return false
  let sa ← s.d.item "area"
  let ta ← t.d.item "area"
  let same ← sameArea DEGREE_EPS sa ta
  if same then return true
  let sn ← coord s 0
  let tn ← coord t 0
  if ¬ (|sn - tn| < DEGREE_EPS) then return false
  let ss ← coord s 2
  let ts ← coord t 2
  if ¬ (|ss - ts| < DEGREE_EPS) then return false
  let g ← isGlobalEw P s
  if !g then return false
  let g' ← isGlobalEw P t
  if !g' then return false
  let w ← coord s 1
  let w' ← coord t 1
  return decide (|normaliseLon w 0 - normaliseLon w' 0| < DEGREE_EPS)

/-- `self._eps` — gridspec.py:272 -/
def RGG_EPS : ℚ := 12 / 100

/-- `ReducedGGGridSpec.__eq__` — gridspec.py:274-289; `is_global_ns` is always true for this class (322-325). -/
def eqRGG (P : Py) (order : List String) (s t : GS) : M Bool := do
  let b ← eqBase P order s.d t.d
  if !b then return false
  let sa ← s.d.item "area"
  let ta ← t.d.item "area"
  let same ← sameArea RGG_EPS sa ta
  if same then return true
  let g ← isGlobalEw P s
  if !g then return false
  let g' ← isGlobalEw P t
  if !g' then return false
  let w ← coord s 1
  let w' ← coord t 1
  return decide (|normaliseLon w 0 - normaliseLon w' 0| < RGG_EPS)

/-- `order` of HealpixGridSpec, with `_inspect_grid` — gridspec.py:399-431. -/
def healpixOrder (P : Py) (s : GS) : M (List Char) := do
  let grid ← s.d.item "grid"
  match grid with
  | .str g =>
    if !healpixMatch P g then .error .value
    else match P.pyInt (g.drop 1) with
      | Option.none => .error .value
      | some n =>
        match (s.d "order").getD (.str "ring".toList) with
        | .str o =>
          if !(o == "ring".toList || o == "nested".toList) then .error .value
          else if n < 1 || n > 1000000 then .error .value
          else .ok o
        | _ => .error .value
  | _ => .error .value

/-- `HealpixGridSpec.__eq__` — gridspec.py:393-397 -/
def eqHealpix (P : Py) (order : List String) (s t : GS) : M Bool := do
  let b ← eqBase P order s.d t.d
  if !b then return false
  let o ← healpixOrder P s
  let o' ← healpixOrder P t
  return o == o'

/-- `s == t` for two gridspecs. -/
def eq (P : Py) (order : List String) (s t : GS) : M Bool :=
  match s.kind with
  | .ll => eqLL P order s t
  | .rgg => eqRGG P order s t
  | .healpix => eqHealpix P order s t
  | .orca => eqBase P order s.d t.d

/-! ### the same with dict objects in a heap, to speak about who sees the modifications -/

/-- Dict objects. -/
structure Heap where
  next : Nat
  at_ : Nat → Dict

/-- A new dict object. -/
def Heap.alloc (h : Heap) (d : Dict) : Nat × Heap :=
  (h.next, ⟨h.next + 1, fun r => if r = h.next then d else h.at_ r⟩)

/-- Modify the dict object `r`. -/
def Heap.modify (h : Heap) (r : Nat) (f : Dict → Dict) : Heap :=
  ⟨h.next, fun r' => if r' = r then f (h.at_ r) else h.at_ r'⟩

/-- The constructors' modifications of the new object `self` (a copy of `gs`), as in `construct`. -/
def constructH (k : Kind) (self : Nat) (h : Heap) : Except Err (Option Bool) × Heap :=
  match k with
  | .ll =>
    let gs := h.at_ self
    if (gs "global").isNone && (gs "area").isNone then
      let h := h.modify self (fun d => d.set "global" (.int 1))
      match (do
        let grid ← (h.at_ self).item "grid"
        let x ← grid.item 0
        let y ← grid.item 1
        globalArea x y) with
      | .error e => (.error e, h)
      | .ok a =>
        let h := h.modify self (fun d => d.set "area" a)
        let h := h.modify self (fun d => d.setDefault "area" DEFAULT_AREA)
        (flagGlobal (h.at_ self), h)
    else
      let h := h.modify self (fun d => d.setDefault "area" DEFAULT_AREA)
      (flagGlobal (h.at_ self), h)
  | .rgg =>
    let h := h.modify self (fun d => d.setDefault "area" DEFAULT_AREA)
    (flagGlobal (h.at_ self), h)
  | .healpix =>
    let h := match (h.at_ self) "ordering" with
      | some v => (h.modify self (fun d => d.erase "ordering")).modify self (fun d => d.set "order" v)
      | Option.none => h
    (.ok (some true), h.modify self (fun d => d.setDefault "area" DEFAULT_AREA))
  | .orca => (.ok Option.none, h)

/-- `from_dict(d)` on the dict object `r`: result (class, object, flag) and the heap. -/
def fromDictH (P : Py) (r : Nat) (h : Heap) : Except Err (Kind × Nat × Option Bool) × Heap :=
  let (gs, h) := h.alloc DEFAULTS
  let h := h.modify gs (fun d k => match h.at_ r k with
    | some v => some v
    | Option.none => d k)
  let h := h.modify gs normalise
  match infer P TYPES (h.at_ gs) with
  | .error e => (.error e, h)
  | .ok k =>
    let h := h.modify gs (fun d => d.set "type" (.str k.name))
    let (self, h) := h.alloc (h.at_ gs)
    match constructH k self h with
    | (.error e, h) => (.error e, h)
    | (.ok f, h) => (.ok (k, self, f), h)

end Verif.GridSpec

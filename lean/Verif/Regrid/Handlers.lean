import Verif.Regrid.Sparse
import Verif.GridSpec.Model

/-!
# Model of the data handlers and backends — regrid.py, array/regrid.py, interpolate.py, data_interpolate.py, data/fieldlist.py,
data/grib.py, data/handler.py, data/numpy.py, data/__init__.py, backends/__init__.py, backends/precomputed.py, backends/mir.py

The classes of earthkit-data, xarray, numpy and MIR are outside: objects are what `isinstance` says of them, fields are their
values, gridspec and GRIB message. Exceptions are values; backends have a state (caches) that survives them.
-/

namespace Verif.Regrid
open Verif.GridSpec (V Dict Py GS fromDict Kind Heap)

/-! ### Routing -/

/-- Classes the handlers ask about. -/
inductive Cls where
  | fieldList | field | bytes | bytesIO | dataArray | dataset | ndarray
  deriving DecidableEq

/-- An argument: the classes it is an instance of. -/
structure Obj where
  isa : Cls → Bool

/-- `sys.modules`, and whether the `import` statement in the handlers' `try` succeeds. -/
structure Modules where
  earthkitData : Bool
  earthkitDataImports : Bool
  xarray : Bool
  xarrayImports : Bool

inductive Handler where
  | fieldList | field | grib | xarray | numpy
  deriving DecidableEq

/-- `FieldListDataHandler.match` — fieldlist.py:17-30 -/
def matchFieldList (m : Modules) (v : Obj) : Bool :=
  if !m.earthkitData then false else if m.earthkitDataImports then v.isa .fieldList else false

/-- `FieldDataHandler.match` — fieldlist.py:114-127 -/
def matchField (m : Modules) (v : Obj) : Bool :=
  if !m.earthkitData then false else if m.earthkitDataImports then v.isa .field else false

/-- `GribMessageDataHandler.match` — grib.py:18-29 -/
def matchGrib (v : Obj) : Bool := if v.isa .bytes then true else if v.isa .bytesIO then true else false

/-- `XarrayDataHandler.match` — xarray.py:197-209 -/
def matchXarray (m : Modules) (v : Obj) : Bool :=
  if !m.xarray then false else if m.xarrayImports then v.isa .dataArray || v.isa .dataset else false

def Handler.matches (m : Modules) (v : Obj) : Handler → Bool
  | .fieldList => matchFieldList m v
  | .field => matchField m v
  | .grib => matchGrib v
  | .xarray => matchXarray m v
  | .numpy => v.isa .ndarray

/-- `DATA_HANDLERS` — data/__init__.py:13-27 -/
def DATA_HANDLERS : List Handler := [.fieldList, .field, .grib, .xarray]

/-- `get_data_handler` — data/__init__.py:30-34 -/
def getDataHandler (m : Modules) (v : Obj) : Option Handler := DATA_HANDLERS.find? (Handler.matches m v)

/-- The beginning of `regrid` — regrid.py:18-29 -/
def route (m : Modules) (v : Obj) : Except Err Handler :=
  match getDataHandler m v with
  | some h => .ok h
  | none => .error .value

/-- `interpolate` (deprecated) — interpolate.py:15-23, data_interpolate.py:126-132 -/
def routeInterpolate (m : Modules) (v : Obj) : Except Err Handler :=
  match [Handler.numpy, Handler.fieldList].find? (Handler.matches m v) with
  | some h => .ok h
  | none => .error .value

/-! ### Backend objects -/

/-- Python values given to `get_backend`. -/
inductive Atom where
  | none
  | str (s : List Char)
  | unhashable
  deriving DecidableEq

inductive PV where
  | atom (a : Atom)
  | tuple (xs : List Atom)
  deriving DecidableEq

def PV.hashable : PV → Bool
  | .atom a => a != .unhashable
  | .tuple xs => xs.all (· != .unhashable)

/-- Arguments of `get_backend(name, *args, **kwargs)`. -/
structure GetCall where
  name : List Char
  args : List PV
  kwargs : List (List Char × Atom)

/-- `_make_key` — backends/__init__.py:59-64; a plain name is the key without arguments. -/
structure Key where
  name : List Char
  rest : List PV
  deriving DecidableEq

def makeKey (c : GetCall) : Key := ⟨c.name, c.args ++ c.kwargs.map (fun p => .tuple [.str p.1, p.2])⟩

/-- Where a precomputed backend looks for weights. -/
inductive Db where
  | system
  | url (s : List Char)
  | path (s : List Char)
  deriving DecidableEq

inductive BackendObj where
  | mir
  | precomputed (db : Db)
  deriving DecidableEq

def startsWith (p s : List Char) : Bool := p.isPrefixOf s

/-- `get_db` — precomputed.py:50-64 -/
def getDb : PV → Except Err Db
  | .atom .none => .ok .system
  | .atom (.str s) =>
    if s = "ecmwf".toList then .ok .system
    else if startsWith "http://".toList s || startsWith "https://".toList s then .ok (.url s)
    else if s ≠ [] then .ok (.path s)
    else .error .value
  | .atom .unhashable => .error .attribute
  | .tuple _ => .error .attribute

/-- `BACKENDS` and `klass(*args, **kwargs)` — backends/__init__.py:73-79, 84-107, precomputed.py:18-20 -/
def construct (c : GetCall) : Except Err BackendObj :=
  if c.name = "mir".toList then .ok .mir
  else if c.name = "precomputed".toList then
    match c.args, c.kwargs with
    | [], [] => (getDb (.atom .none)).map .precomputed
    | [a], [] => (getDb a).map .precomputed
    | [], [(k, v)] => if k = "inventory".toList then (getDb (.atom v)).map .precomputed else .error .type
    | _, _ => .error .type
  else .error .value

/-- `BACKEND_OBJECTS`: objects with their identity. -/
structure Maker where
  next : Nat
  objects : List (Key × Nat × BackendObj)

/-- `BackendMaker.__call__` — backends/__init__.py:66-82 -/
def getBackend (c : GetCall) (m : Maker) : Except Err (Nat × BackendObj) × Maker :=
  if !(makeKey c).rest.all PV.hashable then (.error .type, m)
  else
    match m.objects.find? (fun o => o.1 = makeKey c) with
    | some o => (.ok o.2, m)
    | none =>
      match construct c with
      | .error e => (.error e, m)
      | .ok b => (.ok (m.next, b), ⟨m.next + 1, m.objects ++ [(makeKey c, m.next, b)]⟩)

def Maker.initial : Maker := ⟨0, []⟩

def getBackends (cs : List GetCall) (m : Maker) : Maker := cs.foldl (fun m c => (getBackend c m).2) m

/-! ### Options for MIR -/

/-- What `job.set` is given. -/
inductive Setting where
  | grid (d : Dict)
  | val (v : V)

/-- `"/".join(...)` -/
def joinSlash : List (List Char) → List Char
  | [] => []
  | [a] => a
  | a :: b :: r => a ++ '/' :: joinSlash (b :: r)

/-- `normalise_area` — mir.py:18-26 -/
def normaliseArea (P : Py) : V → Except Err V
  | .str s => .ok (.str s)
  | .list xs => if xs.length = 4 then .ok (.str (joinSlash (xs.map P.pyStr))) else .error .value
  | .tuple xs => if xs.length = 4 then .ok (.str (joinSlash (xs.map P.pyStr))) else .error .value
  | _ => .error .value

/-- `d[k] = v` in insertion order. -/
def assign {α : Type} : List (String × α) → String → α → List (String × α)
  | [], k, v => [(k, v)]
  | (k', v') :: r, k, v => if k' = k then (k, v) :: r else (k', v') :: assign r k v

/-- `adjust_options` — mir.py:28-41 on dict objects: the grid to use, the options, and the heap. -/
def adjustOptions (P : Py) (grid : Nat) (kw : List (String × V)) (h : Heap) : Except Err (Nat × List (String × V)) × Heap :=
  match h.at_ grid "area" with
  | none => (.ok (grid, kw), h)
  | some area =>
    let (copy, h) := h.alloc (h.at_ grid)
    let h := h.modify copy (fun d => d.erase "area")
    match normaliseArea P area with
    | .error e => (.error e, h)
    | .ok a => (.ok (copy, assign kw "area" a), h)

/-- The options of `regrid` and `regrid_grib` with their defaults — mir.py:43-53, 83-92 -/
def MIR_DEFAULTS : List (String × V) :=
  [("interpolation", .str "linear".toList), ("nearest_method", .str "automatic".toList), ("distance", .int 1),
    ("distance_tolerance", .int 1), ("nclosest", .int 4)]

/-- Calling with keyword arguments: unknown ones are a TypeError, the others replace the defaults. -/
def bindOptions : List (String × V) → List (String × V) → Except Err (List (String × V))
  | [], opts => .ok opts
  | (k, v) :: r, opts => if (opts.map Prod.fst).contains k then bindOptions r (assign opts k v) else .error .type

/-- The `job.set` calls of `regrid` — mir.py:54-77: the collected options are replaced by what `adjust_options(out_grid, {})`
returns. -/
def jobArray (P : Py) (outGrid : Nat) (given : List (String × V)) (h : Heap) : Except Err (List (String × Setting)) × Heap :=
  match bindOptions given MIR_DEFAULTS with
  | .error e => (.error e, h)
  | .ok opts =>
    match adjustOptions P outGrid [] h with
    | (.error e, h) => (.error e, h)
    | (.ok (g, kw), h) =>
      (.ok (("grid", .grid (h.at_ g)) :: ("interpolation", .val ((opts.lookup "interpolation").getD .none)) ::
        kw.map (fun p => (p.1, Setting.val p.2))), h)

/-- The `job.set` calls of `regrid_grib` — mir.py:93-111 -/
def jobGrib (P : Py) (grid : Nat) (given : List (String × V)) (h : Heap) : Except Err (List (String × Setting)) × Heap :=
  match bindOptions given MIR_DEFAULTS with
  | .error e => (.error e, h)
  | .ok opts =>
    match adjustOptions P grid opts h with
    | (.error e, h) => (.error e, h)
    | (.ok (g, kw), h) => (.ok (("grid", .grid (h.at_ g)) :: kw.map (fun p => (p.1, Setting.val p.2))), h)

/-! ### Field lists -/

/-- Remaining keyword arguments given to the backend. -/
structure Kw where
  interpolation : List Char
  extra : List (String × V)

/-- A backend: values `A`, messages `B`, state `S`. -/
structure Backend (A B S : Type) where
  regrid : A → Dict → Dict → Kw → S → Except Err (A × Dict) × S
  regridGrib : Option (B → Dict → Kw → S → Except Err B × S)

/-- How a field gives its GRIB message — fieldlist.py:94-103 -/
inductive Message (B : Type) where
  /-- `GribField.message()` -/
  | grib (b : B)
  /-- encoded from its handle; encoding may raise -/
  | encoded (b : Except Err B)
  | unsupported

/-- A field: flattened values, `metadata().gridspec` (may raise, may be None), message, other metadata. -/
structure Fld (A B : Type) where
  values : A
  gridspec : Except Err (Option Dict)
  message : Message B
  md : Nat

/-- A regridded field: values with metadata and gridspec, or a message. -/
inductive OutFld (A B : Type) where
  | array (values : A) (md : Nat) (gridspec : Dict)
  | message (b : B)

variable {A B S : Type}

/-- `input_gridspec` — fieldlist.py:32-42 -/
def inputGridspec (f : Fld A B) : Except Err Dict :=
  match f.gridspec with
  | .error e => .error e
  | .ok none => .error .value
  | .ok (some d) => .ok d

/-- The loop of `_regrid_array` — fieldlist.py:72-86: `out_grid` is rebound to what the backend returns. -/
def arrayLoop (b : Backend A B S) (kw : Kw) : List (Fld A B) → Dict → S → Except Err (List (OutFld A B)) × S
  | [], _, s => (.ok [], s)
  | f :: fs, outGrid, s =>
    match inputGridspec f with
    | .error e => (.error e, s)
    | .ok g =>
      match b.regrid f.values g outGrid kw s with
      | (.error e, s) => (.error e, s)
      | (.ok (v, outGrid), s) =>
        match arrayLoop b kw fs outGrid s with
        | (.error e, s) => (.error e, s)
        | (.ok r, s) => (.ok (.array v f.md outGrid :: r), s)

/-- The loop of `_regrid_grib` — fieldlist.py:92-109 -/
def gribLoop (rg : B → Dict → Kw → S → Except Err B × S) (grid : Dict) (kw : Kw) : List (Fld A B) → S → Except Err (List (OutFld A B)) × S
  | [], s => (.ok [], s)
  | f :: fs, s =>
    match (match f.message with
      | .grib m => Except.ok m
      | .encoded m => m
      | .unsupported => .error .value) with
    | .error e => (.error e, s)
    | .ok m =>
      match rg m grid kw s with
      | (.error e, s) => (.error e, s)
      | (.ok r, s) =>
        match gribLoop rg grid kw fs s with
        | (.error e, s) => (.error e, s)
        | (.ok rs, s) => (.ok (.message r :: rs), s)

/-- An exception of the gridspec module. -/
def ofSpec : Verif.GridSpec.Err → Err
  | .key => .key
  | .type => .type
  | .value => .value
  | .index => .index

/-- `FieldListDataHandler.regrid` after the backend is known — fieldlist.py:44-70 -/
def regridList (P : Py) (b : Backend A B S) (grid : Option Dict) (kw : Kw) (fs : List (Fld A B)) (s : S) :
    Except Err (List (OutFld A B)) × S :=
  match grid with
  | none => (.error .value, s)
  | some g =>
    match b.regridGrib with
    | some rg => gribLoop rg g kw fs s
    | none =>
      match fromDict P g with
      | .error e => (.error (ofSpec e), s)
      | .ok gs => if gs.kind = .ll then arrayLoop b kw fs gs.d s else (.error .value, s)

/-- `FieldDataHandler.regrid` — fieldlist.py:129-133 -/
def regridField (P : Py) (b : Backend A B S) (grid : Option Dict) (kw : Kw) (f : Fld A B) (s : S) : Except Err (OutFld A B) × S :=
  match regridList P b grid kw [f] s with
  | (.error e, s) => (.error e, s)
  | (.ok r, s) =>
    match r with
    | x :: _ => (.ok x, s)
    | [] => (.error .index, s)

/-- `MatrixBackend` — precomputed.py:22-40: `find` is `db.find`; other keyword arguments are a TypeError. -/
def matrixBackend {α : Type} [Zero α] [Add α] [Mul α]
    (find : Dict → Dict → List Char → S → Except Err (Option (Csr α × List Nat)) × S) : Backend (Arr α) B S where
  regrid := fun v gi go kw s =>
    if kw.extra ≠ [] then (.error .type, s)
    else
      match find gi go kw.interpolation s with
      | (.error e, s) => (.error e, s)
      | (.ok w, s) => (applyWeights w v go, s)
  regridGrib := none

end Verif.Regrid

import Verif.Regrid.Handlers

/-!
# Model: the keyword arguments of `regrid` on their way to the engine

regrid.py:17-33, array/regrid.py:13-25, interpolate.py:13-23, data_interpolate.py:21-120, data/handler.py:17-44, data/numpy.py:17-29,
data/grib.py:30-41, data/fieldlist.py:44-109, 129-133, data/xarray.py:217-237, 265-345, and the signatures of backends/mir.py and
backends/precomputed.py.

A call is its keyword arguments (`values` aside, positional arguments by their names); its outcome is the jobs given to MIR or to the
inventory. What happens to values and grids in a job is modelled elsewhere (`Handlers`, `Pipeline`, `Xarray`).
-/

namespace Verif.Regrid.Args

/-- A python object given as an argument. -/
inductive Arg where
  | none
  | str (s : List Char)
  | dict (i : Nat)
  | list (i : Nat)
  /-- any other, hashable -/
  | thing (i : Nat)
  deriving DecidableEq, Repr

def Arg.hashable : Arg → Bool
  | .dict _ => false
  | .list _ => false
  | _ => true

abbrev Kw := List (String × Arg)

def text (s : String) : Arg := .str s.toList

/-- `kwargs` without a key, after `kwargs.pop(k)`. -/
def without (k : String) (kw : Kw) : Kw := kw.filter (fun p => p.1 != k)

/-- Python's binding of keywords to a signature with defaults and `**kwargs`, and passing all on. -/
def signature (defaults : Kw) (kw : Kw) : Kw :=
  defaults.map (fun d => (d.1, (kw.lookup d.1).getD d.2)) ++ kw.filter (fun p => !(defaults.map Prod.fst).contains p.1)

/-- What lies outside: `area` is `adjust_options` on a grid (mir.py:28-41: the grid without area, the area as text), `spec` is
`GridSpec.from_dict` with the test for lat-lon (fieldlist.py:60-70), `canon` the grid as MIR writes it (xarray.py:36-38). -/
structure Extern where
  area : Arg → Except Err (Arg × Option Arg)
  spec : Arg → Except Err Arg
  canon : Arg → Except Err Arg

/-- What is asked of MIR or of an inventory. -/
inductive Job where
  | mirArray (inGrid : Arg) (set : Kw)
  | mirGrib (set : Kw)
  | weights (db : Db) (inGrid outGrid interpolation : Arg)
  deriving DecidableEq

inductive Chosen where
  | mir
  | precomputed (db : Db)
  deriving DecidableEq

def Arg.toPV : Arg → PV
  | .none => .atom .none
  | .str s => .atom (.str s)
  | _ => .tuple []

/-- `get_backend` — backends/__init__.py:59-82, precomputed.py:18-20, 50-64; `Backend.__init__` of MIR takes anything. -/
def choose (name : Arg) (inventory : Option Arg) : Except Err Chosen :=
  if !name.hashable || !(inventory.getD .none).hashable then .error .type
  else if name = text "mir" then .ok .mir
  else if name = text "precomputed" then (getDb (inventory.getD .none).toPV).map .precomputed
  else .error .value

/-- `DataHandler.backend_from_kwargs` — data/handler.py:25-44 -/
def backendFromKwargs (kw : Kw) : Except Err (Chosen × Kw) :=
  match kw.lookup "backend" with
  | none => .error .value
  | some .none => .error .value
  | some b => (choose b (kw.lookup "inventory")).map (fun c => (c, without "inventory" (without "backend" kw)))

def MIR_OPTIONS : List String := ["interpolation", "nearest_method", "distance", "distance_tolerance", "nclosest"]

/-- Values of the options when not given — mir.py:48-52 -/
def mirDefault : String → Arg
  | "interpolation" => text "linear"
  | "nearest_method" => text "automatic"
  | "nclosest" => .thing 4
  | _ => .thing 1

def option (kw : Kw) (k : String) : Arg := (kw.lookup k).getD (mirDefault k)

def areaSetting : Option Arg → Kw
  | none => []
  | some a => [("area", a)]

/-- `MirBackend.regrid(values, in_grid, out_grid, **kw)` — mir.py:43-81 -/
def mirRegrid (E : Extern) (inGrid outGrid : Arg) (kw : Kw) : Except Err Job :=
  if kw.all (fun p => MIR_OPTIONS.contains p.1) then
    match E.area outGrid with
    | .error e => .error e
    | .ok (g, a) => .ok (.mirArray inGrid (("grid", g) :: ("interpolation", option kw "interpolation") :: areaSetting a))
  else .error .type

/-- `MirBackend.regrid_grib(message, grid, **kw)` — mir.py:83-115 -/
def mirRegridGrib (E : Extern) (grid : Arg) (kw : Kw) : Except Err Job :=
  if kw.all (fun p => MIR_OPTIONS.contains p.1) then
    match E.area grid with
    | .error e => .error e
    | .ok (g, a) => .ok (.mirGrib (("grid", g) :: MIR_OPTIONS.map (fun k => (k, option kw k)) ++ areaSetting a))
  else .error .type

/-- `MatrixBackend.regrid(values, in_grid, out_grid, **kw)` — precomputed.py:22: `interpolation` is required, nothing else is known. -/
def weightsRegrid (db : Db) (inGrid outGrid : Arg) (kw : Kw) : Except Err Job :=
  if kw.all (fun p => p.1 == "interpolation") then
    match kw.lookup "interpolation" with
    | some m => .ok (.weights db inGrid outGrid m)
    | none => .error .type
  else .error .type

def backendRegrid (E : Extern) (c : Chosen) (inGrid outGrid : Arg) (kw : Kw) : Except Err Job :=
  match c with
  | .mir => mirRegrid E inGrid outGrid kw
  | .precomputed db => weightsRegrid db inGrid outGrid kw

/-- `NumpyDataHandler.regrid` — data/numpy.py:24-28 -/
def numpyRegrid (E : Extern) (kw : Kw) : Except Err Job :=
  match kw.lookup "in_grid", kw.lookup "out_grid" with
  | some gi, some go =>
    match backendFromKwargs (without "out_grid" (without "in_grid" kw)) with
    | .error e => .error e
    | .ok (c, kw) => backendRegrid E c gi go kw
  | _, _ => .error .key

/-- `GribMessageDataHandler.regrid` — data/grib.py:30-41 -/
def messageRegrid (E : Extern) (kw : Kw) : Except Err Job :=
  match backendFromKwargs kw with
  | .error e => .error e
  | .ok (.precomputed _, _) => .error .value
  | .ok (.mir, kw) =>
    match kw.lookup "grid" with
    | none => .error .type
    | some g => mirRegridGrib E g (without "grid" kw)

/-- All or the first exception. -/
def all (f : Arg → Except Err Job) : List Arg → Except Err (List Job)
  | [] => .ok []
  | g :: gs =>
    match f g with
    | .error e => .error e
    | .ok j =>
      match all f gs with
      | .error e => .error e
      | .ok js => .ok (j :: js)

/-- `FieldListDataHandler.regrid` — data/fieldlist.py:44-109; `grids`: the gridspecs of the fields. -/
def listRegrid (E : Extern) (grids : List Arg) (kw : Kw) : Except Err (List Job) :=
  match backendFromKwargs kw with
  | .error e => .error e
  | .ok (c, kw) =>
    match kw.lookup "grid" with
    | none => .error .value
    | some .none => .error .value
    | some g =>
      match c with
      | .mir => all (fun _ => mirRegridGrib E g (without "grid" kw)) grids
      | .precomputed db =>
        match E.spec g with
        | .error e => .error e
        | .ok go => all (fun gi => weightsRegrid db gi go (without "grid" kw)) grids

/-- What is done: the jobs and, for xarray data, the dimensions taken. -/
structure Outcome where
  jobs : List Job
  inDims : Arg
  outDims : Arg
  deriving DecidableEq

/-- A dimension argument: None means those found. -/
def dimsOr (found : Except Err Arg) : Option Arg → Except Err Arg
  | none => found
  | some .none => found
  | some d => .ok d

/-- What is known of xarray data: its attribute, its accessor, the dimensions found in it and in the target, how often the method is
called. -/
structure Data where
  attr : Option Arg
  accessor : Option Arg
  inDims : Except Err Arg
  outDims : Except Err Arg
  calls : Nat

/-- `get_in_grid` — data/xarray.py:217-237 -/
def inGrid (E : Extern) (d : Data) (kw : Kw) : Except Err (Arg × Kw) :=
  match d.attr with
  | some a => (E.canon a).map (fun g => (g, kw))
  | none =>
    match kw.lookup "grid_spec" with
    | some .none | none =>
      match d.accessor with
      | none => .error .value
      | some a => (E.canon a).map (fun g => (g, without "grid_spec" kw))
    | some a => (E.canon a).map (fun g => (g, without "grid_spec" kw))

/-- `XarrayDataHandler.regrid` — data/xarray.py:265-345 -/
def xarrayRegrid (E : Extern) (d : Data) (kw : Kw) : Except Err Outcome :=
  match kw.lookup "grid" with
  | none => .error .value
  | some g =>
    match inGrid E d (without "grid" kw) with
    | .error e => .error e
    | .ok (gi, kw) =>
      if g = .none then .error .value
      else
        match dimsOr d.inDims (kw.lookup "in_dims") with
        | .error e => .error e
        | .ok i =>
          match dimsOr d.outDims (kw.lookup "out_dims") with
          | .error e => .error e
          | .ok o =>
            if (kw.map Prod.fst).contains "in_grid" || (kw.map Prod.fst).contains "out_grid" then .error .type
            else
              match all (fun _ => numpyRegrid E (("in_grid", gi) :: ("out_grid", g) :: without "out_dims" (without "in_dims" kw)))
                (List.replicate d.calls .none) with
              | .error e => .error e
              | .ok js => .ok ⟨js, i, o⟩

/-- `backend_from_kwargs` of the deprecated interface — data_interpolate.py:26-41 -/
def oldBackend (kw : Kw) : Except Err (Chosen × Kw) :=
  if (kw.map Prod.fst).contains "backend" then .error .value
  else
    (match kw.lookup "matrix_source" with
      | none | some .none => choose (text "precomputed") none
      | some a => choose (text "precomputed") (some a)).map (fun c => (c, without "matrix_source" kw))

/-- `MatrixBackend.interpolate(values, in_grid, out_grid, **kw)` — precomputed.py:37-48, db.py:452-477: other keywords end up in
`MEMORY_CACHE.get`, which has none. -/
def weightsInterpolate (c : Chosen) (inGrid outGrid : Arg) (kw : Kw) : Except Err Job :=
  match c with
  | .mir => .error .attribute
  | .precomputed db =>
    if kw.all (fun p => p.1 == "method") then
      match kw.lookup "method" with
      | some m => .ok (.weights db inGrid outGrid m)
      | none => .error .type
    else .error .type

/-- `NumpyDataHandler.interpolate` — data_interpolate.py:51-56 -/
def oldArray (kw : Kw) : Except Err Job :=
  match kw.lookup "in_grid", kw.lookup "out_grid" with
  | some gi, some go =>
    match oldBackend (without "out_grid" (without "in_grid" kw)) with
    | .error e => .error e
    | .ok (c, kw) => weightsInterpolate c gi go kw
  | _, _ => .error .key

/-- `FieldListDataHandler.interpolate` — data_interpolate.py:87-120; the input grid given by the user goes before that of the field. -/
def oldList (E : Extern) (grids : List Arg) (kw : Kw) : Except Err (List Job) :=
  match oldBackend kw with
  | .error e => .error e
  | .ok (c, kw) =>
    match kw.lookup "in_grid", kw.lookup "out_grid" with
    | some user, some g =>
      match E.spec g with
      | .error e => .error e
      | .ok go => all (fun gi => weightsInterpolate c (if user = .none then gi else user) go (without "out_grid" (without "in_grid" kw))) grids
    | _, _ => .error .key

/-- The functions users call, with the data they are given. -/
inductive Entry where
  /-- `regrid` of a field list; of a field: one field -/
  | fields (grids : List Arg)
  /-- `regrid` of a GRIB message -/
  | message
  /-- `regrid` of xarray data -/
  | xarray (d : Data)
  /-- `array.regrid` -/
  | array
  /-- `interpolate` of an array -/
  | oldArray
  /-- `interpolate` of a field list -/
  | oldFields (grids : List Arg)

/-- regrid.py:17 -/
def REGRID : Kw := [("grid", .none), ("interpolation", text "linear"), ("backend", text "mir")]

/-- array/regrid.py:13 -/
def ARRAY : Kw := [("in_grid", .none), ("out_grid", .none), ("interpolation", text "linear"), ("backend", text "mir")]

/-- interpolate.py:14 -/
def INTERPOLATE : Kw := [("in_grid", .none), ("out_grid", .none), ("method", text "linear")]

def jobsOf (r : Except Err (List Job)) : Except Err Outcome := r.map (fun js => ⟨js, .none, .none⟩)

def jobOf (r : Except Err Job) : Except Err Outcome := r.map (fun j => ⟨[j], .none, .none⟩)

/-- A call of `regrid`, `array.regrid` or `interpolate` with keywords. -/
def call (E : Extern) (f : Entry) (kw : Kw) : Except Err Outcome :=
  match f with
  | .fields grids => jobsOf (listRegrid E grids (signature REGRID kw))
  | .message => jobOf (messageRegrid E (signature REGRID kw))
  | .xarray d => xarrayRegrid E d (signature REGRID kw)
  | .array => jobOf (numpyRegrid E (signature ARRAY kw))
  | .oldArray => jobOf (oldArray (signature INTERPOLATE kw))
  | .oldFields grids => jobsOf (oldList E grids (signature INTERPOLATE kw))

end Verif.Regrid.Args

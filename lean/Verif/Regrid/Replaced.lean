import Verif.Regrid.ArgsProps3

/-!
# Model: `regrid` and `interpolate` as the user calls them

regrid.py:17-33 and interpolate.py:14-23: the kind of the data, then the keywords (`Handlers`, `Args`).
-/

namespace Verif.Regrid.Args

/-- `regrid(values, **kw)` — regrid.py:17-33; `f`: what each handler finds in the data. -/
def regridTop (E : Extern) (m : Modules) (v : Obj) (f : Handler → Entry) (kw : Kw) : Except Err Outcome :=
  match route m v with
  | .error e => .error e
  | .ok h => call E (f h) kw

/-- `interpolate(values, **kw)` — interpolate.py:14-23 -/
def interpolateTop (E : Extern) (m : Modules) (v : Obj) (f : Handler → Entry) (kw : Kw) : Except Err Outcome :=
  match routeInterpolate m v with
  | .error e => .error e
  | .ok h => call E (f h) kw

end Verif.Regrid.Args

import Mathlib.Logic.Function.Basic

/-!
# Model of src/earthkit/regrid/sphinxext/module_output.py: the directive that puts the output of a module into a page

Texts are lists of characters. A module is what it prints, to which objects it sets `sys.stdout`, and how it ends.
`docutils`' `string2lines` and the text of a traceback are parameters; inserting lines into the page does not fail.
-/

namespace Verif.Docs.Output

abbrev Text := List Char

/-- How a program ends when it does not come to its end. -/
inductive Exc where
  /-- `assert_has_content`: the directive has no content -/
  | directive
  /-- an error of class Exception -/
  | error (what : Text)
  /-- `UnboundLocalError`, also an Exception, raised in the handler -/
  | unbound
  /-- `SystemExit`, `KeyboardInterrupt`: not of class Exception -/
  | exit
  deriving DecidableEq

/-- The objects that can be `sys.stdout`, by number. -/
structure World where
  /-- `sys.stdout` -/
  out : Nat
  /-- what was written to an object -/
  buf : Nat → Text
  /-- whether an object has `getvalue` (is a StringIO) -/
  io : Nat → Bool
  /-- the next object that was never used -/
  next : Nat
  /-- the blocks of lines put into the page so far -/
  page : List (List Text)

/-- Something a module does. -/
inductive Act where
  | print (t : Text)
  /-- `sys.stdout = <object k>` -/
  | setOut (k : Nat)
  | stop (e : Exc)

/-- `print` -/
def World.print (w : World) (t : Text) : World := { w with buf := Function.update w.buf w.out (w.buf w.out ++ t) }

/-- Runs a program. -/
def runProg : List Act → World → World × Option Exc
  | [], w => (w, none)
  | .print t :: p, w => runProg p (w.print t)
  | .setOut k :: p, w => runProg p { w with out := k }
  | .stop e :: _, w => (w, some e)

/-- A module: what it does when it is imported, and what `execute` does with its arguments. -/
structure Module where
  onImport : List Act
  execute : List Text → List Act

/-- What the directive is run with. -/
structure Env where
  /-- modules of the package `earthkit.regrid.sphinxext` by name; `none`: `import_module` raises -/
  modules : Text → Option Module
  /-- the name of the file of the page can be found (module_output.py:29-32) -/
  source : Bool
  /-- `statemachine.string2lines` -/
  lines : Text → List Text
  /-- `traceback.format_exc()` -/
  trace : Exc → Text

/-- `text.split(" ")` -/
def split : Text → List Text
  | [] => [[]]
  | c :: r =>
    if c = ' ' then [] :: split r
    else match split r with
      | [] => [[c]]
      | a :: b => (c :: a) :: b

/-- `name.replace("-", "_")` -/
def underscores (name : Text) : Text := name.map fun c => if c = '-' then '_' else c

/-- `sys.stdout = StringIO()` — module_output.py:41 -/
def World.fresh (w : World) : World :=
  { w with out := w.next, next := w.next + 1, buf := Function.update w.buf w.next [], io := Function.update w.io w.next true }

/-- `self.state_machine.insert_input` -/
def World.insert (w : World) (l : List Text) : World := { w with page := w.page ++ [l] }

/-- The body of the `try` from the import on — module_output.py:37-48. The second component is the exception. -/
def body (E : Env) (name : Text) (args : List Text) (w : World) : World × Option Exc :=
  match E.modules (underscores name) with
  | none => (w, some (.error "ModuleNotFoundError".toList))
  | some m =>
    match runProg m.onImport w with
    | (w1, some e) => (w1, some e)
    | (w1, none) =>
      match runProg (m.execute args) w1.fresh with
      | (w2, some e) => (w2, some e)
      | (w2, none) =>
        if w2.io w2.out then (w2.insert (E.lines (w2.buf w2.out)), none)
        else (w2, some (.error "AttributeError".toList))

/-- `except Exception` — module_output.py:50-53. `name` is `none` when the name was not bound. -/
def handler (E : Env) (name : Option Text) (r : World × Option Exc) : World × Option Exc :=
  match r with
  | (w, none) => (w, none)
  | (w, some .exit) => (w, some .exit)
  | (w, some e) =>
    match name with
    | none => (w, some .unbound)
    | some n => (w.insert (E.lines (n ++ '\n' :: E.trace e)), none)

/-- `ModuleOutput.run` — module_output.py:24-56 -/
def run (E : Env) (content : List Text) (w : World) : World × Option Exc :=
  if content = [] then (w, some .directive)
  else
    let r :=
      if E.source = false then handler E none (w, some (.error "IndexError".toList))
      else match content.filter (· ≠ []) with
        | [] => handler E none (w, some (.error "IndexError".toList))
        | line :: _ =>
          match split line with
          | [] => handler E none (w, some (.error "IndexError".toList))
          | name :: args => handler E (some name) (body E name args w)
    ({ r.1 with out := w.out }, r.2)

/-- The directives of the documentation, one after the other; the first one that raises ends the build. -/
def runAll (E : Env) : List (List Text) → World → World × Option Exc
  | [], w => (w, none)
  | c :: cs, w =>
    match run E c w with
    | (w', some e) => (w', some e)
    | (w', none) => runAll E cs w'

end Verif.Docs.Output

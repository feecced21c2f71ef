import Verif.Config.Model

/-!
# Threads and the configuration — src/earthkit/regrid/utils/config.py:231-250, 298-457, 565-574

`CONFIG` and its stack of temporary configurations are shared by all threads and there is no lock. A forwarded method first looks up the
object it acts on, then acts on it; a `with` block first makes the temporary object, then pushes it, and pops *something* at the end. A
history is any list of such steps by any threads: which statement a thread runs next is up to its program, in particular an exception is
a program that leaves its blocks. Simplified: the work on one object is one step; no observers, files or changes of the environment
(`Model.lean` has those, for one thread); an object made by `temporary` is entered at once.
-/

namespace Verif.Config.Threads

/-- The forwarded methods. -/
inductive Op where
  | get (name : String)
  | set (r : Req)
  | reset (name : Option String)
  | temporary (r : Option Req)

/-- What a thread is doing. -/
inductive Mid where
  | idle
  /-- a forwarded method has found its object: `self._stack[-1]` or `self` — config.py:243-250 -/
  | found (obj : Nat) (op : Op)
  /-- `temporary` has returned the object that is to be pushed -/
  | made (obj : Nat)

/-- `objs 0` is `CONFIG` itself; `stack` is `CONFIG._stack`, top first. -/
structure St where
  objs : Nat → Conf
  stack : List Nat
  next : Nat
  mid : Nat → Mid
  /-- ghost: the threads that are inside `with` blocks, once for each block -/
  inside : List Nat
  /-- what `get` returned, with the thread -/
  reads : List (Nat × String × Except Err V)

inductive Act where
  | look (t : Nat) (op : Op)
  | work (t : Nat)
  | push (t : Nat)
  | leave (t : Nat)

def St.top (s : St) : Nat := s.stack.headD 0

def St.goto (s : St) (t : Nat) (m : Mid) : St := { s with mid := fun u => if u = t then m else s.mid u }

def St.put (s : St) (o : Nat) (c : Conf) : St := { s with objs := fun p => if p = o then c else s.objs p }

/-- The method itself, on the object found before: get — config.py:298-334, set — 336-358, reset — 429-457, temporary — 565-574 -/
def St.perform (P : Py) (env : Env) (s : St) (t o : Nat) : Op → St
  | .get n => { s with reads := s.reads ++ [(t, n, getConf P env (s.objs o) n)] }.goto t .idle
  | .set r => (s.put o (applyReq P (s.objs o) r).2.1).goto t .idle
  | .reset none => (s.put o (DEFAULTS P)).goto t .idle
  | .reset (some n) =>
    match DEFAULTS P n with
    | none => s.goto t .idle
    | some v => (s.put o (((s.objs o).erase n).set n v)).goto t .idle
  | .temporary none => { s.put s.next (s.objs o) with next := s.next + 1 }.goto t (.made s.next)
  | .temporary (some r) =>
    match applyReq P (s.objs o) r with
    -- the arguments are refused: no object
    | (some _, _, _) => s.goto t .idle
    | (none, c, _) => { s.put s.next c with next := s.next + 1 }.goto t (.made s.next)

/-- One step; `none` if this is not a step the thread can take. -/
def St.step (P : Py) (env : Env) (s : St) : Act → Option St
  | .look t op => match s.mid t with
    | .idle => some (s.goto t (.found s.top op))
    | _ => none
  | .work t => match s.mid t with
    | .found o op => some (s.perform P env t o op)
    | _ => none
  /- `CONFIG._stack.append(s)` — config.py:234 -/
  | .push t => match s.mid t with
    | .made o => some ({ s with stack := o :: s.stack, inside := t :: s.inside }.goto t .idle)
    | _ => none
  /- `CONFIG._stack.pop()` — config.py:239 -/
  | .leave t => match s.mid t with
    | .idle => if t ∈ s.inside then some { s with stack := s.stack.tail, inside := s.inside.erase t } else none
    | _ => none

def St.run (P : Py) (env : Env) (s : St) : List Act → Option St
  | [] => some s
  | a :: h => (s.step P env a).bind (fun s' => s'.run P env h)

/-- Nobody has done anything. -/
def St.init (c : Conf) : St := ⟨fun _ => c, [], 1, fun _ => .idle, [], []⟩

end Verif.Config.Threads

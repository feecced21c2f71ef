import Verif.MemCache.Props

/-!
# Concurrent use of the in-memory cache (property C13)

Small-step model of any number of threads calling `get`, `update`, `clear` and `info` of memcache.py.
`get` reads `self.policy.has_cache()` once without the lock (memcache.py:224) and then works under
`self.lock` (227-251); `update` (306-314), `clear` (330) and `info` (346) work under the lock throughout.
`update` assigns `self.policy` before it reduces the content, so its body is split in two steps: an unlocked reader can
see the new policy while the old content is still there. The bodies of the other operations never change the
policy, the only attribute that is read without the lock, so one step each is enough.
Loading (`create`, `find_entry`, `create_from_entry`) is a function of the source given in the call.
`update` reads CONFIG inside the lock (293, 300); here the values it will read are fixed at the call, for any values.
-/

namespace Verif.MemCache.Concurrent

open Verif.MemCache

variable {Q K W S : Type} [LinearOrder K]

/-- What a thread may call. -/
inductive COp (Q W S : Type) where
  | op (o : Op Q W S)
  | info

inductive CRes (Q W S : Type) where
  | res (r : Res Q W S)
  | info (i : Info)

/-- The sequential specification of one call. -/
def seqStep (key : Q → K) (sizeFn : W → Nat) (s : Cache K W S) : COp Q W S → CRes Q W S × Cache K W S
  | .op o => let r := step key sizeFn s o; (.res r.1, r.2)
  | .info => (.info (MemCache.info s), s)

/-- Where a thread is. -/
inductive TState (Q W S : Type) where
  | idle
  /-- called, nothing read yet -/
  | called (o : COp Q W S)
  /-- wants the lock -/
  | waiting (o : COp Q W S)
  /-- has the lock, body not started -/
  | locked (o : COp Q W S)
  /-- has the lock, first part of the body done; for `update` with the outcome of its assignments -/
  | mid (o : COp Q W S) (r : Except Err Bool)
  /-- lock released (or never taken), about to return -/
  | returning (res : CRes Q W S)

/-- Events, in the order they happen. `lin` is a ghost event: the moment the operation takes effect. -/
inductive Event (Q W S : Type) where
  | call (t : Nat) (o : COp Q W S)
  | lin (t : Nat) (o : COp Q W S) (r : CRes Q W S)
  | ret (t : Nat) (r : CRes Q W S)

structure Conf (Q K W S : Type) where
  cache : Cache K W S
  lock : Option Nat
  th : Nat → TState Q W S
  log : List (Event Q W S)

def setTh (f : Nat → TState Q W S) (t : Nat) (x : TState Q W S) : Nat → TState Q W S :=
  fun u => if u = t then x else f u

/-- The ghost sequential state: the specification run over the `lin` events of a log. -/
def seqState (key : Q → K) (sizeFn : W → Nat) : List (Event Q W S) → Cache K W S
  | [] => initial
  | .lin _ o _ :: log => (seqStep key sizeFn (seqState key sizeFn log) o).2
  | .call _ _ :: log => seqState key sizeFn log
  | .ret _ _ :: log => seqState key sizeFn log

/-- First part of a body executed under the lock. -/
def firstPart (o : COp Q W S) (c : Cache K W S) : Except Err Bool × Cache K W S :=
  match o with
  | .op (.update cfg) => updateAssign cfg c
  | _ => (.ok false, c)

/-- Second part of a body executed under the lock. -/
def secondPart (key : Q → K) (sizeFn : W → Nat) (o : COp Q W S) (r : Except Err Bool) (c : Cache K W S) :
    CRes Q W S × Cache K W S :=
  match o with
  | .op (.get src q) => let x := get key sizeFn src q c; (.res (.got x.1), x.2)
  | .op (.update _) => let x := updateFinish r c; (.res (.unit x.1), x.2)
  | .op .clear => (.res (.unit none), clear c)
  | .info => (.info (MemCache.info c), c)

/-- One step of thread `t`. The log is kept newest first. -/
inductive Step (key : Q → K) (sizeFn : W → Nat) : Conf Q K W S → Conf Q K W S → Prop where
  /-- a thread calls an operation -/
  | call (c : Conf Q K W S) (t : Nat) (o : COp Q W S) (h : c.th t = .idle) :
      Step key sizeFn c { c with th := setTh c.th t (.called o), log := .call t o :: c.log }
  /-- memcache.py:224-225: the unlocked test finds caching off: `create` is called directly -/
  | unlockedOff (c : Conf Q K W S) (t : Nat) (src : Source Q W S) (q : Q) (h : c.th t = .called (.op (.get src q)))
      (hoff : c.cache.policy.hasCache = false) :
      Step key sizeFn c { c with
        th := setTh c.th t (.returning (.res (.got ⟨src.create q, src.createCalls q⟩)))
        log := .lin t (.op (.get src q)) (seqStep key sizeFn (seqState key sizeFn c.log) (.op (.get src q))).1 :: c.log }
  /-- memcache.py:224: the unlocked test finds caching on -/
  | unlockedOn (c : Conf Q K W S) (t : Nat) (src : Source Q W S) (q : Q) (h : c.th t = .called (.op (.get src q)))
      (hon : c.cache.policy.hasCache = true) :
      Step key sizeFn c { c with th := setTh c.th t (.waiting (.op (.get src q))) }
  /-- the other operations go straight to the lock -/
  | toLock (c : Conf Q K W S) (t : Nat) (o : COp Q W S) (h : c.th t = .called o)
      (hng : ∀ src q, o ≠ .op (.get src q)) :
      Step key sizeFn c { c with th := setTh c.th t (.waiting o) }
  /-- `with self.lock` -/
  | acquire (c : Conf Q K W S) (t : Nat) (o : COp Q W S) (h : c.th t = .waiting o) (hfree : c.lock = none) :
      Step key sizeFn c { c with th := setTh c.th t (.locked o), lock := some t }
  /-- first part of the body -/
  | first (c : Conf Q K W S) (t : Nat) (o : COp Q W S) (h : c.th t = .locked o) :
      Step key sizeFn c { c with
        th := setTh c.th t (.mid o (firstPart o c.cache).1)
        cache := (firstPart o c.cache).2
        log := .lin t o (seqStep key sizeFn (seqState key sizeFn c.log) o).1 :: c.log }
  /-- second part of the body and release of the lock -/
  | second (c : Conf Q K W S) (t : Nat) (o : COp Q W S) (r : Except Err Bool) (h : c.th t = .mid o r) :
      Step key sizeFn c { c with
        th := setTh c.th t (.returning (secondPart key sizeFn o r c.cache).1)
        cache := (secondPart key sizeFn o r c.cache).2
        lock := none }
  /-- the call returns -/
  | ret (c : Conf Q K W S) (t : Nat) (res : CRes Q W S) (h : c.th t = .returning res) :
      Step key sizeFn c { c with th := setTh c.th t .idle, log := .ret t res :: c.log }

def start : Conf Q K W S := ⟨initial, none, fun _ => .idle, []⟩

inductive Reach (key : Q → K) (sizeFn : W → Nat) : Conf Q K W S → Prop where
  | start : Reach key sizeFn start
  | step {c c'} : Reach key sizeFn c → Step key sizeFn c c' → Reach key sizeFn c'

/-! ### What linearizable means -/

/-- What a log says about one thread: idle, called and not yet effective, effective with a result. -/
inductive PState (Q W S : Type) where
  | idle
  | called (o : COp Q W S)
  | effective (o : COp Q W S) (r : CRes Q W S)

/-- Replay of the log (newest first) for thread `t`: calls, effects and returns must alternate, effects must be of the
called operation, and returns must return the result of the effect. `none` if the log violates this. -/
def replay (t : Nat) : List (Event Q W S) → Option (PState Q W S)
  | [] => some .idle
  | .call u o :: log =>
    if u = t then match replay t log with
      | some .idle => some (.called o)
      | _ => none
    else replay t log
  | .lin u _ r :: log =>
    if u = t then match replay t log with
      | some (.called o') => some (.effective o' r)
      | _ => none
    else replay t log
  | .ret u _ :: log =>
    if u = t then match replay t log with
      | some (.effective _ _) => some .idle
      | _ => none
    else replay t log

/-- Each `lin` is of the operation the thread called, and each return carries the result of the thread's last `lin`. -/
def Matching (log : List (Event Q W S)) : Prop :=
  (∀ t o r pre post, log = pre ++ .lin t o r :: post → replay t post = some (.called o)) ∧
  (∀ t r pre post, log = pre ++ .ret t r :: post → ∃ o, replay t post = some (.effective o r))

/-- The effects form a sequential execution of the specification with exactly the recorded results. -/
def Legal (key : Q → K) (sizeFn : W → Nat) (log : List (Event Q W S)) : Prop :=
  ∀ t o r pre post, log = pre ++ .lin t o r :: post →
    r = (seqStep key sizeFn (seqState key sizeFn post : Cache K W S) o).1

/-! ### Proof -/

theorem setTh_same (f : Nat → TState Q W S) (t : Nat) (x) : setTh f t x t = x := by simp [setTh]
theorem setTh_other (f : Nat → TState Q W S) (t u : Nat) (x) (h : u ≠ t) : setTh f t x u = f u := by simp [setTh, h]

/-- Relation between the machine state of a thread and what the log says about it. -/
def ThreadOk (log : List (Event Q W S)) (t : Nat) : TState Q W S → Prop
  | .idle => replay t log = some .idle
  | .called o => replay t log = some (.called o)
  | .waiting o => replay t log = some (.called o)
  | .locked o => replay t log = some (.called o)
  | .mid o _ => ∃ r, replay t log = some (.effective o r)
  | .returning res => ∃ o, replay t log = some (.effective o res)

structure Inv (key : Q → K) (sizeFn : W → Nat) (c : Conf Q K W S) : Prop where
  legal : Legal (K := K) key sizeFn c.log
  matching : Matching c.log
  /-- exactly the lock holder is inside the body -/
  holder : ∀ t, c.lock = some t ↔ (∃ o, c.th t = .locked o) ∨ (∃ o r, c.th t = .mid o r)
  threads : ∀ t, ThreadOk c.log t (c.th t)
  /-- outside the second half of a body the cache is the sequential state -/
  sync : (∀ t o r, c.th t ≠ .mid o r) → c.cache = seqState key sizeFn c.log
  /-- in the second half of a body, finishing gives the sequential state and result -/
  half : ∀ t o r, c.th t = .mid o r → ∃ res, replay t c.log = some (.effective o res) ∧
    secondPart key sizeFn o r c.cache = (res, seqState key sizeFn c.log)
  /-- what unlocked readers see agrees with the sequential state -/
  seen : c.cache.policy.hasCache = (seqState key sizeFn c.log : Cache K W S).policy.hasCache
  acc : Acc (seqState key sizeFn c.log : Cache K W S)

theorem policyReduce_policy (tgt : Option Int) (s : Cache K W S) : (policyReduce tgt s).policy = s.policy := by
  unfold policyReduce
  split <;> simp_all [clear]

omit [LinearOrder K] in
theorem check_policy (p : Policy) (s : Cache K W S) : (check p s).2.policy = s.policy := by
  unfold check
  cases p <;> simp only <;> cases s.maxMem <;> simp only <;> split <;> rfl

theorem reduce_policy (tgt : Option Int) (s : Cache K W S) : (reduce tgt s).2.policy = s.policy := by
  have h := check_policy s.policy s
  unfold reduce
  generalize check s.policy s = r at h
  obtain ⟨e, s1⟩ := r
  simp only at h
  cases e with
  | some e => exact h
  | none =>
    simp only
    split
    · rw [policyReduce_policy]; exact h
    · exact h

theorem updateFinish_policy (r : Except Err Bool) (s : Cache K W S) : (updateFinish r s).2.policy = s.policy := by
  unfold updateFinish
  match r with
  | .error _ => rfl
  | .ok true => exact reduce_policy none s
  | .ok false => rfl

/-- The two parts together are the sequential operation. -/
theorem parts_eq (key : Q → K) (sizeFn : W → Nat) (o : COp Q W S) (s : Cache K W S) :
    secondPart key sizeFn o (firstPart o s).1 (firstPart o s).2 = seqStep key sizeFn s o := by
  cases o with
  | info => rfl
  | op o => cases o <;> rfl

/-- The first part already shows the final policy. -/
theorem first_policy (key : Q → K) (sizeFn : W → Nat) (o : COp Q W S) (s : Cache K W S) (hacc : Acc s) :
    (firstPart o s).2.policy = (seqStep key sizeFn s o).2.policy := by
  cases o with
  | info => rfl
  | op o =>
    cases o with
    | get src q => exact (get_policy key sizeFn src q s hacc).1.symm
    | update cfg => exact (updateFinish_policy _ _).symm
    | clear => rfl

theorem seqStep_acc (key : Q → K) (sizeFn : W → Nat) (o : COp Q W S) (s : Cache K W S) (hacc : Acc s) :
    Acc (seqStep key sizeFn s o).2 := by
  cases o with
  | info => exact hacc
  | op o => exact step_acc key sizeFn s o hacc

omit [LinearOrder K] in
theorem cons_split {α : Type} {a b : α} {l pre post : List α} (h : a :: l = pre ++ b :: post) :
    (pre = [] ∧ a = b ∧ l = post) ∨ ∃ pre', pre = a :: pre' ∧ l = pre' ++ b :: post := by
  cases pre with
  | nil => simp at h; exact Or.inl ⟨rfl, h.1, h.2⟩
  | cons x pre => simp at h; exact Or.inr ⟨pre, by rw [h.1], h.2⟩

theorem inv_start (key : Q → K) (sizeFn : W → Nat) : Inv key sizeFn (start : Conf Q K W S) where
  legal := by intro t o r pre post h; simp [start] at h
  matching := by
    constructor
    · intro t o r pre post h; simp [start] at h
    · intro t r pre post h; simp [start] at h
  holder := by intro t; simp [start]
  threads := by intro t; simp [start, ThreadOk, replay]
  sync := by intro _; rfl
  half := by intro t o r h; simp [start] at h
  seen := rfl
  acc := initial_acc

/-- Adding a call or a return keeps the log legal and does not change the sequential state. -/
theorem legal_call {key : Q → K} {sizeFn : W → Nat} {log : List (Event Q W S)} (h : Legal (K := K) key sizeFn log)
    (t : Nat) (o : COp Q W S) : Legal (K := K) key sizeFn (.call t o :: log) := by
  intro t' o' r' pre post e
  rcases cons_split e with ⟨_, h1, _⟩ | ⟨pre', _, h2⟩
  · cases h1
  · exact h t' o' r' pre' post h2

theorem legal_ret {key : Q → K} {sizeFn : W → Nat} {log : List (Event Q W S)} (h : Legal (K := K) key sizeFn log)
    (t : Nat) (r : CRes Q W S) : Legal (K := K) key sizeFn (.ret t r :: log) := by
  intro t' o' r' pre post e
  rcases cons_split e with ⟨_, h1, _⟩ | ⟨pre', _, h2⟩
  · cases h1
  · exact h t' o' r' pre' post h2

theorem legal_lin {key : Q → K} {sizeFn : W → Nat} {log : List (Event Q W S)} (h : Legal (K := K) key sizeFn log)
    (t : Nat) (o : COp Q W S) : Legal (K := K) key sizeFn
      (.lin t o (seqStep key sizeFn (seqState key sizeFn log : Cache K W S) o).1 :: log) := by
  intro t' o' r' pre post e
  rcases cons_split e with ⟨_, h1, rfl⟩ | ⟨pre', _, h2⟩
  · cases h1; rfl
  · exact h t' o' r' pre' post h2

omit [LinearOrder K] in
theorem matching_call {log : List (Event Q W S)} (h : Matching log) (t : Nat) (o : COp Q W S) :
    Matching (.call t o :: log) := by
  constructor
  · intro t' o' r' pre post e
    rcases cons_split e with ⟨_, h1, _⟩ | ⟨pre', _, h2⟩
    · cases h1
    · exact h.1 t' o' r' pre' post h2
  · intro t' r' pre post e
    rcases cons_split e with ⟨_, h1, _⟩ | ⟨pre', _, h2⟩
    · cases h1
    · exact h.2 t' r' pre' post h2

omit [LinearOrder K] in
theorem matching_lin {log : List (Event Q W S)} (h : Matching log) (t : Nat) (o : COp Q W S) (r : CRes Q W S)
    (hr : replay t log = some (.called o)) : Matching (.lin t o r :: log) := by
  constructor
  · intro t' o' r' pre post e
    rcases cons_split e with ⟨_, h1, rfl⟩ | ⟨pre', _, h2⟩
    · cases h1; exact hr
    · exact h.1 t' o' r' pre' post h2
  · intro t' r' pre post e
    rcases cons_split e with ⟨_, h1, _⟩ | ⟨pre', _, h2⟩
    · cases h1
    · exact h.2 t' r' pre' post h2

omit [LinearOrder K] in
theorem matching_ret {log : List (Event Q W S)} (h : Matching log) (t : Nat) (o : COp Q W S) (r : CRes Q W S)
    (hr : replay t log = some (.effective o r)) : Matching (.ret t r :: log) := by
  constructor
  · intro t' o' r' pre post e
    rcases cons_split e with ⟨_, h1, rfl⟩ | ⟨pre', _, h2⟩
    · cases h1
    · exact h.1 t' o' r' pre' post h2
  · intro t' r' pre post e
    rcases cons_split e with ⟨_, h1, rfl⟩ | ⟨pre', _, h2⟩
    · cases h1; exact ⟨o, hr⟩
    · exact h.2 t' r' pre' post h2

/-- the thread named by an event -/
def evTid : Event Q W S → Nat
  | .call t _ => t
  | .lin t _ _ => t
  | .ret t _ => t

omit [LinearOrder K] in
theorem replay_other (ev : Event Q W S) (log : List (Event Q W S)) (u : Nat) (h : u ≠ evTid ev) :
    replay u (ev :: log) = replay u log := by
  cases ev <;> simp only [evTid] at h <;> simp [replay, Ne.symm h]

omit [LinearOrder K] in
theorem threadOk_of_replay {log log' : List (Event Q W S)} {u : Nat} (x : TState Q W S)
    (h : replay u log' = replay u log) (hx : ThreadOk log u x) : ThreadOk log' u x := by
  cases x <;> simp only [ThreadOk] at * <;> rw [h] <;> exact hx

theorem inv_step (key : Q → K) (sizeFn : W → Nat) (c c' : Conf Q K W S) (hi : Inv key sizeFn c)
    (hs : Step key sizeFn c c') : Inv key sizeFn c' := by
  obtain ⟨hlegal, hmatch, hhold, hthr, hsync, hhalf, hseen, hacc⟩ := hi
  cases hs with
  | call t o h =>
    have ht := hthr t
    rw [h] at ht
    refine ⟨legal_call hlegal t o, matching_call hmatch t o, ?_, ?_, ?_, ?_, hseen, hacc⟩
    · intro u
      by_cases hu : u = t
      · subst hu
        simp only [setTh_same]
        rw [hhold u, h]; simp
      · simp only [setTh_other _ _ _ _ hu]; exact hhold u
    · intro u
      by_cases hu : u = t
      · subst hu
        simp only [setTh_same, ThreadOk, replay, if_true]
        simp only [ThreadOk] at ht
        rw [ht]
      · simp only [setTh_other _ _ _ _ hu]
        exact threadOk_of_replay _ (replay_other _ _ u hu) (hthr u)
    · intro hno
      apply hsync
      intro u o' r' e
      by_cases hu : u = t
      · subst hu; rw [h] at e; cases e
      · exact hno u o' r' (by simp only [setTh_other _ _ _ _ hu]; exact e)
    · intro u o' r' e
      by_cases hu : u = t
      · subst hu; simp only [setTh_same] at e; cases e
      · simp only [setTh_other _ _ _ _ hu] at e
        obtain ⟨res, h1, h2⟩ := hhalf u o' r' e
        exact ⟨res, (replay_other (.call t o) _ u hu).trans h1, h2⟩
  | unlockedOff t src q h hoff =>
    have ht := hthr t
    rw [h] at ht
    simp only [ThreadOk] at ht
    have hpol : (seqState key sizeFn c.log : Cache K W S).policy.hasCache = false := by rw [← hseen]; exact hoff
    have hstep : seqStep key sizeFn (seqState key sizeFn c.log : Cache K W S) (.op (.get src q)) =
        (.res (.got ⟨src.create q, src.createCalls q⟩), seqState key sizeFn c.log) := by
      simp [seqStep, step, get, hpol]
    have hstate : (seqState key sizeFn (.lin t (.op (.get src q))
        (seqStep key sizeFn (seqState key sizeFn c.log : Cache K W S) (.op (.get src q))).1 :: c.log) : Cache K W S)
        = seqState key sizeFn c.log := by
      simp only [seqState]; rw [hstep]
    refine ⟨legal_lin hlegal t _, matching_lin hmatch t _ _ ht, ?_, ?_, ?_, ?_, ?_, ?_⟩
    · intro u
      by_cases hu : u = t
      · subst hu
        simp only [setTh_same]
        rw [hhold u, h]; simp
      · simp only [setTh_other _ _ _ _ hu]; exact hhold u
    · intro u
      by_cases hu : u = t
      · subst hu
        simp only [setTh_same, ThreadOk, replay, if_true]
        rw [ht, hstep]
        exact ⟨_, rfl⟩
      · simp only [setTh_other _ _ _ _ hu]
        exact threadOk_of_replay _ (replay_other _ _ u hu) (hthr u)
    · intro hno
      simp only
      rw [hstate]
      apply hsync
      intro u o' r' e
      by_cases hu : u = t
      · subst hu; rw [h] at e; cases e
      · exact hno u o' r' (by simp only [setTh_other _ _ _ _ hu]; exact e)
    · intro u o' r' e
      by_cases hu : u = t
      · subst hu; simp only [setTh_same] at e; cases e
      · simp only [setTh_other _ _ _ _ hu] at e
        obtain ⟨res, h1, h2⟩ := hhalf u o' r' e
        simp only
        rw [hstate]
        exact ⟨res, (replay_other (.lin t _ _) _ u hu).trans h1, h2⟩
    · simp only; rw [hstate]; exact hseen
    · simp only; rw [hstate]; exact hacc
  | unlockedOn t src q h hon =>
    have ht := hthr t
    rw [h] at ht
    refine ⟨hlegal, hmatch, ?_, ?_, ?_, ?_, hseen, hacc⟩
    · intro u
      by_cases hu : u = t
      · subst hu
        simp only [setTh_same]
        rw [hhold u, h]; simp
      · simp only [setTh_other _ _ _ _ hu]; exact hhold u
    · intro u
      by_cases hu : u = t
      · subst hu
        simp only [setTh_same]
        exact ht
      · simp only [setTh_other _ _ _ _ hu]; exact hthr u
    · intro hno
      apply hsync
      intro u o' r' e
      by_cases hu : u = t
      · subst hu; rw [h] at e; cases e
      · exact hno u o' r' (by simp only [setTh_other _ _ _ _ hu]; exact e)
    · intro u o' r' e
      by_cases hu : u = t
      · subst hu; simp only [setTh_same] at e; cases e
      · simp only [setTh_other _ _ _ _ hu] at e
        exact hhalf u o' r' e
  | toLock t o h hng =>
    have ht := hthr t
    rw [h] at ht
    refine ⟨hlegal, hmatch, ?_, ?_, ?_, ?_, hseen, hacc⟩
    · intro u
      by_cases hu : u = t
      · subst hu
        simp only [setTh_same]
        rw [hhold u, h]; simp
      · simp only [setTh_other _ _ _ _ hu]; exact hhold u
    · intro u
      by_cases hu : u = t
      · subst hu
        simp only [setTh_same]
        exact ht
      · simp only [setTh_other _ _ _ _ hu]; exact hthr u
    · intro hno
      apply hsync
      intro u o' r' e
      by_cases hu : u = t
      · subst hu; rw [h] at e; cases e
      · exact hno u o' r' (by simp only [setTh_other _ _ _ _ hu]; exact e)
    · intro u o' r' e
      by_cases hu : u = t
      · subst hu; simp only [setTh_same] at e; cases e
      · simp only [setTh_other _ _ _ _ hu] at e
        exact hhalf u o' r' e
  | acquire t o h hfree =>
    have ht := hthr t
    rw [h] at ht
    have hnomid : ∀ u o' r', c.th u ≠ .mid o' r' := by
      intro u o' r' e
      have := (hhold u).2 (Or.inr ⟨o', r', e⟩)
      rw [hfree] at this; cases this
    refine ⟨hlegal, hmatch, ?_, ?_, ?_, ?_, hseen, hacc⟩
    · intro u
      by_cases hu : u = t
      · subst hu
        simp [setTh_same]
      · simp only [setTh_other _ _ _ _ hu]
        rw [← hhold u, hfree]
        simp [Ne.symm hu]
    · intro u
      by_cases hu : u = t
      · subst hu
        simp only [setTh_same]
        exact ht
      · simp only [setTh_other _ _ _ _ hu]; exact hthr u
    · intro _; exact hsync hnomid
    · intro u o' r' e
      by_cases hu : u = t
      · subst hu; simp only [setTh_same] at e; cases e
      · simp only [setTh_other _ _ _ _ hu] at e
        exact absurd e (hnomid u o' r')
  | first t o h =>
    have ht := hthr t
    rw [h] at ht
    simp only [ThreadOk] at ht
    have hlock : c.lock = some t := (hhold t).2 (Or.inl ⟨o, h⟩)
    have hnomid : ∀ u o' r', c.th u ≠ .mid o' r' := by
      intro u o' r' e
      have h1 := (hhold u).2 (Or.inr ⟨o', r', e⟩)
      rw [hlock] at h1
      cases h1
      rw [h] at e; cases e
    have hcs := hsync hnomid
    refine ⟨legal_lin hlegal t _, matching_lin hmatch t _ _ ht, ?_, ?_, ?_, ?_, ?_, ?_⟩
    · intro u
      by_cases hu : u = t
      · subst hu
        simp [setTh_same, hlock]
      · simp only [setTh_other _ _ _ _ hu]; exact hhold u
    · intro u
      by_cases hu : u = t
      · subst hu
        simp only [setTh_same, ThreadOk, replay, if_true]
        rw [ht]
        exact ⟨_, rfl⟩
      · simp only [setTh_other _ _ _ _ hu]
        exact threadOk_of_replay _ (replay_other _ _ u hu) (hthr u)
    · intro hno
      exact absurd (setTh_same _ _ _) (hno t o _)
    · intro u o' r' e
      by_cases hu : u = t
      · subst hu
        simp only [setTh_same] at e
        cases e
        refine ⟨(seqStep key sizeFn (seqState key sizeFn c.log : Cache K W S) o).1, ?_, ?_⟩
        · simp only [replay, if_true]; rw [ht]
        · simp only [seqState]
          rw [hcs, parts_eq]
      · simp only [setTh_other _ _ _ _ hu] at e
        exact absurd e (hnomid u o' r')
    · simp only [seqState]
      rw [hcs, first_policy key sizeFn o _ hacc]
    · simp only [seqState]
      exact seqStep_acc key sizeFn o _ hacc
  | second t o r h =>
    have hlock : c.lock = some t := (hhold t).2 (Or.inr ⟨o, r, h⟩)
    have honly : ∀ u, u ≠ t → (∀ o', c.th u ≠ .locked o') ∧ (∀ o' r', c.th u ≠ .mid o' r') := by
      intro u hu
      constructor
      · intro o' e
        have h1 := (hhold u).2 (Or.inl ⟨o', e⟩)
        rw [hlock] at h1; cases h1; exact hu rfl
      · intro o' r' e
        have h1 := (hhold u).2 (Or.inr ⟨o', r', e⟩)
        rw [hlock] at h1; cases h1; exact hu rfl
    obtain ⟨res, h1, h2⟩ := hhalf t o r h
    refine ⟨hlegal, hmatch, ?_, ?_, ?_, ?_, ?_, hacc⟩
    · intro u
      by_cases hu : u = t
      · subst hu
        simp [setTh_same]
      · simp only [setTh_other _ _ _ _ hu]
        simp [(honly u hu).1, (honly u hu).2]
    · intro u
      by_cases hu : u = t
      · subst hu
        simp only [setTh_same, ThreadOk]
        rw [h2]
        exact ⟨o, h1⟩
      · simp only [setTh_other _ _ _ _ hu]; exact hthr u
    · intro _; simp only; rw [h2]
    · intro u o' r' e
      by_cases hu : u = t
      · subst hu; simp only [setTh_same] at e; cases e
      · simp only [setTh_other _ _ _ _ hu] at e
        exact absurd e ((honly u hu).2 o' r')
    · simp only; rw [h2]
  | ret t res h =>
    have ht := hthr t
    rw [h] at ht
    simp only [ThreadOk] at ht
    obtain ⟨o, ho⟩ := ht
    refine ⟨legal_ret hlegal t res, matching_ret hmatch t o res ho, ?_, ?_, ?_, ?_, hseen, hacc⟩
    · intro u
      by_cases hu : u = t
      · subst hu
        simp only [setTh_same]
        rw [hhold u, h]; simp
      · simp only [setTh_other _ _ _ _ hu]; exact hhold u
    · intro u
      by_cases hu : u = t
      · subst hu
        simp only [setTh_same, ThreadOk, replay, if_true]
        rw [ho]
      · simp only [setTh_other _ _ _ _ hu]
        exact threadOk_of_replay _ (replay_other _ _ u hu) (hthr u)
    · intro hno
      apply hsync
      intro u o' r' e
      by_cases hu : u = t
      · subst hu; rw [h] at e; cases e
      · exact hno u o' r' (by simp only [setTh_other _ _ _ _ hu]; exact e)
    · intro u o' r' e
      by_cases hu : u = t
      · subst hu; simp only [setTh_same] at e; cases e
      · simp only [setTh_other _ _ _ _ hu] at e
        obtain ⟨res', h1, h2⟩ := hhalf u o' r' e
        exact ⟨res', (replay_other (.ret t res) _ u hu).trans h1, h2⟩

theorem inv_reach (key : Q → K) (sizeFn : W → Nat) (c : Conf Q K W S) (h : Reach key sizeFn c) :
    Inv key sizeFn c := by
  induction h with
  | start => exact inv_start key sizeFn
  | step _ hs ih => exact inv_step key sizeFn _ _ ih hs

/-- C13: in every interleaving of any number of threads, every call takes effect once between its call and its return
(`Matching`), the effects in their order are a sequential execution of the cache with exactly the returned results
(`Legal`), the log is well-formed for every thread, and whenever no thread is inside the lock the cache is in the state
of that sequential execution. -/
theorem C13_linearizable (key : Q → K) (sizeFn : W → Nat) (c : Conf Q K W S) (h : Reach key sizeFn c) :
    Matching c.log ∧ Legal (K := K) key sizeFn c.log ∧ (∀ t, (replay t c.log).isSome) ∧
      (c.lock = none → c.cache = seqState key sizeFn c.log) := by
  have hi := inv_reach key sizeFn c h
  refine ⟨hi.matching, hi.legal, ?_, ?_⟩
  · intro t
    have := hi.threads t
    cases hx : c.th t <;> rw [hx] at this <;> simp only [ThreadOk] at this
    · rw [this]; rfl
    · rw [this]; rfl
    · rw [this]; rfl
    · rw [this]; rfl
    · obtain ⟨r, h⟩ := this; rw [h]; rfl
    · obtain ⟨r, h⟩ := this; rw [h]; rfl
  · intro hl
    apply hi.sync
    intro t o r e
    have := (hi.holder t).2 (Or.inr ⟨o, r, e⟩)
    rw [hl] at this; cases this

/-- C13, no double load: consider the effect of a lookup in any interleaving. If at that moment (the sequential state
before it) the request is held and caching is on, the lookup called nothing on the inventory. -/
theorem C13_held_not_loaded_again (key : Q → K) (sizeFn : W → Nat) (c : Conf Q K W S) (h : Reach key sizeFn c)
    (t : Nat) (src : Source Q W S) (q : Q) (r : CRes Q W S) (pre post : List (Event Q W S))
    (hlog : c.log = pre ++ .lin t (.op (.get src q)) r :: post)
    (hon : (seqState key sizeFn post : Cache K W S).policy ≠ .off)
    (hheld : Holds (seqState key sizeFn post : Cache K W S) (key q)) :
    ∃ d, r = .res (.got ⟨.ok d, []⟩) := by
  have hi := inv_reach key sizeFn c h
  have hl := hi.legal t _ r pre post hlog
  rw [hl]
  have hacc : ∀ log : List (Event Q W S), Acc (seqState key sizeFn log : Cache K W S) := by
    intro log
    induction log with
    | nil => exact initial_acc
    | cons ev log ih =>
      cases ev with
      | call => exact ih
      | ret => exact ih
      | lin t o r => exact seqStep_acc key sizeFn o _ ih
  have hc := get_cases key sizeFn src q (seqState key sizeFn post : Cache K W S) (hacc post)
  simp only [seqStep, step]
  generalize (get key sizeFn src q (seqState key sizeFn post : Cache K W S)).1 = o at hc
  generalize (get key sizeFn src q (seqState key sizeFn post : Cache K W S)).2 = s' at hc
  cases hc with
  | off h => exact absurd h hon
  | hit _ l1 it l2 => exact ⟨it.data, rfl⟩
  | unlErr _ h => exact absurd hheld h
  | unlNone _ h => exact absurd hheld h
  | unlSome _ h => exact absurd hheld h
  | limErr _ h => exact absurd hheld h
  | limNone _ h => exact absurd hheld h
  | limSome _ h => exact absurd hheld h
  | limBad _ h => exact absurd hheld h

/-- Progress: a thread waiting for the lock can always be let in after at most two steps of the lock holder, so no
interleaving blocks forever. -/
theorem C13_lock_holder_can_finish (key : Q → K) (sizeFn : W → Nat) (c : Conf Q K W S) (h : Reach key sizeFn c)
    (t : Nat) (hl : c.lock = some t) :
    ∃ c', Relation.ReflTransGen (Step key sizeFn) c c' ∧ (∃ res, c'.th t = .returning res) ∧ c'.lock = none ∧ ∀ u, u ≠ t → c'.th u = c.th u := by
  have hi := inv_reach key sizeFn c h
  rcases (hi.holder t).1 hl with ⟨o, ho⟩ | ⟨o, r, ho⟩
  · have s1 := Step.first (key := key) (sizeFn := sizeFn) c t o ho
    have s2 := Step.second (key := key) (sizeFn := sizeFn) (t := t) (o := o) (r := (firstPart o c.cache).1) (h := setTh_same c.th t (.mid o (firstPart o c.cache).1))
      (c := { c with
        th := setTh c.th t (.mid o (firstPart o c.cache).1)
        cache := (firstPart o c.cache).2
        log := .lin t o (seqStep key sizeFn (seqState key sizeFn c.log) o).1 :: c.log })
    refine ⟨_, (Relation.ReflTransGen.single s1).tail s2, ⟨_, setTh_same _ _ _⟩, rfl, ?_⟩
    intro u hu
    simp only [setTh_other _ _ _ _ hu]
  · refine ⟨_, .single (Step.second c t o r ho), ⟨_, setTh_same _ _ _⟩, rfl, ?_⟩
    intro u hu
    simp only [setTh_other _ _ _ _ hu]

/-! ### A concrete interleaving: two threads ask for the same request at the same time -/

namespace Demo2

abbrev C := Conf Nat Nat Nat Unit
abbrev st := Step (S := Unit) (id : Nat → Nat) (id : Nat → Nat)
def q7 : COp Nat Nat Unit := .op (Demo.g 7)

def c1 : C := { (start : C) with th := setTh (start : C).th 0 (.called q7), log := [.call 0 q7] }
def c2 : C := { c1 with th := setTh c1.th 1 (.called q7), log := .call 1 q7 :: c1.log }
def c3 : C := { c2 with th := setTh c2.th 1 (.waiting q7) }
def c4 : C := { c3 with th := setTh c3.th 0 (.waiting q7) }
def c5 : C := { c4 with th := setTh c4.th 0 (.locked q7), lock := some 0 }
def c6 : C := { c5 with
  th := setTh c5.th 0 (.mid q7 (firstPart q7 c5.cache).1)
  cache := (firstPart q7 c5.cache).2
  log := .lin 0 q7 (seqStep id id (seqState id id c5.log : Cache Nat Nat Unit) q7).1 :: c5.log }
def c7 : C := { c6 with
  th := setTh c6.th 0 (.returning (secondPart id id q7 (firstPart q7 c5.cache).1 c6.cache).1)
  cache := (secondPart id id q7 (firstPart q7 c5.cache).1 c6.cache).2
  lock := none }
def c8 : C := { c7 with th := setTh c7.th 1 (.locked q7), lock := some 1 }
def c9 : C := { c8 with
  th := setTh c8.th 1 (.mid q7 (firstPart q7 c8.cache).1)
  cache := (firstPart q7 c8.cache).2
  log := .lin 1 q7 (seqStep id id (seqState id id c8.log : Cache Nat Nat Unit) q7).1 :: c8.log }

theorem reach9 : Reach (id : Nat → Nat) (id : Nat → Nat) c9 := by
  have r1 : Reach (id : Nat → Nat) (id : Nat → Nat) c1 := Reach.start.step (Step.call start 0 q7 rfl)
  have r2 : Reach (id : Nat → Nat) (id : Nat → Nat) c2 := r1.step (Step.call c1 1 q7 rfl)
  have r3 : Reach (id : Nat → Nat) (id : Nat → Nat) c3 := r2.step (Step.unlockedOn c2 1 Demo.src 7 rfl rfl)
  have r4 : Reach (id : Nat → Nat) (id : Nat → Nat) c4 := r3.step (Step.unlockedOn c3 0 Demo.src 7 rfl rfl)
  have r5 : Reach (id : Nat → Nat) (id : Nat → Nat) c5 := r4.step (Step.acquire c4 0 q7 rfl rfl)
  have r6 : Reach (id : Nat → Nat) (id : Nat → Nat) c6 := r5.step (Step.first c5 0 q7 rfl)
  have r7 : Reach (id : Nat → Nat) (id : Nat → Nat) c7 := r6.step (Step.second c6 0 q7 _ rfl)
  have r8 : Reach (id : Nat → Nat) (id : Nat → Nat) c8 := r7.step (Step.acquire c7 1 q7 rfl rfl)
  exact r8.step (Step.first c8 1 q7 rfl)

/-- The second thread's lookup finds the request held, so it does not load it again. -/
example : ∃ d r pre post, c9.log = pre ++ .lin 1 q7 r :: post ∧
    Holds (seqState id id post : Cache Nat Nat Unit) 7 ∧
    (seqState id id post : Cache Nat Nat Unit).policy ≠ .off ∧ r = .res (.got ⟨.ok d, []⟩) := by
  have hh : Holds (seqState id id c8.log : Cache Nat Nat Unit) 7 := by
    refine ⟨⟨7, (some 7, some ()), 7⟩, ?_, rfl⟩
    decide +kernel
  have hp : (seqState id id c8.log : Cache Nat Nat Unit).policy ≠ .off := by decide +kernel
  obtain ⟨d, hd⟩ := C13_held_not_loaded_again id id c9 reach9 1 Demo.src 7 _ [] c8.log rfl hp hh
  exact ⟨d, _, [], c8.log, rfl, hh, hp, hd⟩

example : c9.lock = some 1 := rfl

/-- `C13_linearizable`, `C13_lock_holder_can_finish` in this state: thread 1 has the lock. -/
example : Legal (K := Nat) id id c9.log ∧ ∃ c', Relation.ReflTransGen (Step id id) c9 c' ∧ c'.lock = none ∧ ∀ u, u ≠ 1 → c'.th u = c9.th u := by
  obtain ⟨c', h1, -, h2⟩ := C13_lock_holder_can_finish id id c9 reach9 1 rfl
  exact ⟨(C13_linearizable id id c9 reach9).2.1, c', h1, h2⟩

end Demo2

end Verif.MemCache.Concurrent

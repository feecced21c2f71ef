import Verif.Config.ThreadsProps

/-!
# C103: a thread running a program while others read gets what the program gets alone

`Model.lean` has programs with blocks and exceptions, for one thread; here the two models are put together.
-/

namespace Verif.Config.Threads

/-! ## Specification -/

/-- Observers that do not raise. -/
def calm : Raises := fun _ _ => false

/-- The program does not change the environment. -/
def NoEnv : Prog → Prop
  | .act (.setEnv _ _) => False
  | .act _ => True
  | .skip => True
  | .raise => True
  | .seq p q => NoEnv p ∧ NoEnv q
  | .catch_ p q => NoEnv p ∧ NoEnv q
  | .temp _ _ b => NoEnv b

/-- What a thread does for one call. -/
def stepsAct (t : Nat) : Config.Act → List Act
  | .set r => [.look t (.set r), .work t]
  | .reset n => [.look t (.reset n), .work t]
  | .get n => [.look t (.get n), .work t]
  | _ => []

/-- The steps thread `t` takes when it runs a program from the configuration `s`: each call is looking up the object and working on it, a
block is making the object, pushing it, the body, and popping at the end, whether the body raised or not. -/
def steps (P : Py) (t : Nat) : Prog → Config.St → List Act
  | .skip, _ => []
  | .raise, _ => []
  | .act a, _ => stepsAct t a
  | .seq p q, s => steps P t p s ++ if (run P calm p s).1.isSome then [] else steps P t q (run P calm p s).2
  | .catch_ p q, s => steps P t p s ++ if (run P calm p s).1.isSome then steps P t q (run P calm p s).2 else []
  | .temp r y b, s =>
    [.look t (.temporary r), .work t] ++
      if (makeTemp P r y s).1.isSome then []
      else .push t :: (steps P t b (notify calm { (makeTemp P r y s).2.2 with stack := (makeTemp P r y s).2.1 :: (makeTemp P r y s).2.2.stack }).2 ++ [.leave t])

/-- What the program's calls of `get` returned. -/
def gots (l : List Event) : List (String × V) := l.filterMap (fun | .got n v => some (n, v) | .called _ _ => none)

/-- The reads that returned something. -/
def oks (l : List (String × Except Err V)) : List (String × V) := l.filterMap (fun r => r.2.toOption.map (fun v => (r.1, v)))

/-! ## Simulation -/

/-- The threads' configuration is that of the program. -/
structure Sim (t : Nat) (cs : Config.St) (s : St) : Prop where
  root : s.objs 0 = cs.root.conf
  stack : List.Forall₂ (fun o (c : Cfg) => s.objs o = c.conf) s.stack cs.stack
  nodup : s.stack.Nodup
  low : ∀ o ∈ s.stack, 0 < o ∧ o < s.next
  pos : 0 < s.next
  idle : s.mid t = .idle

theorem run_app (P : Py) (env : Env) (h1 h2 : List Act) (s s1 : St) (h : s.run P env h1 = some s1) : s.run P env (h1 ++ h2) = s1.run P env h2 := by
  induction h1 generalizing s with
  | nil => cases h; rfl
  | cons a h1 ih =>
    show (s.step P env a).bind _ = _
    have h' : (s.step P env a).bind (fun s' => s'.run P env h1) = some s1 := h
    cases e : s.step P env a with
    | none => rw [e] at h'; cases h'
    | some s2 =>
      rw [e] at h'
      exact ih s2 h'

theorem Sim.top {t : Nat} {cs : Config.St} {s : St} (h : Sim t cs s) : s.objs s.top = cs.top.conf := by
  have hs := h.stack
  unfold St.top Config.St.top
  generalize s.stack = l, cs.stack = l' at hs
  cases hs with
  | nil => exact h.root
  | cons h1 _ => exact h1

/-- Frame of the program: what saving and observers leave alone. -/
structure Same (a b : Config.St) : Prop where
  root : b.root = a.root
  stack : b.stack = a.stack
  env : b.env = a.env
  gots : gots b.log = gots a.log

theorem Same.refl (a : Config.St) : Same a a := ⟨rfl, rfl, rfl, rfl⟩

theorem Same.trans {a b c : Config.St} (h : Same a b) (g : Same b c) : Same a c :=
  ⟨g.root.trans h.root, g.stack.trans h.stack, g.env.trans h.env, g.gots.trans h.gots⟩

theorem notifyL_same (l : List Nat) (s : Config.St) : (notifyL calm l s).1 = none ∧ Same s (notifyL calm l s).2 := by
  induction l generalizing s with
  | nil => exact ⟨rfl, .refl s⟩
  | cons o l ih =>
    have h := ih { s with log := s.log ++ [.called o s.top.conf] }
    have h0 : Same s { s with log := s.log ++ [.called o s.top.conf] } := ⟨rfl, rfl, rfl, by simp [gots]⟩
    exact ⟨h.1, h0.trans h.2⟩

theorem notify_same (s : Config.St) : (notify calm s).1 = none ∧ Same s (notify calm s).2 := notifyL_same _ s

theorem saveCfg_same (P : Py) (c : Cfg) (s : Config.St) : Same s (saveCfg P c s) := by
  unfold saveCfg
  split
  · exact .refl s
  · split
    · exact ⟨rfl, rfl, rfl, rfl⟩
    · exact .refl s

theorem changed_same (P : Py) (s : Config.St) : (changed P calm s).1 = none ∧ Same s (changed P calm s).2 := by
  unfold changed
  refine ⟨(notify_same _).1, Same.trans ?_ (notify_same _).2⟩
  split
  · exact saveCfg_same P _ s
  · exact .refl s

theorem changedN_same (P : Py) (n : Nat) (s : Config.St) : (changedN P calm n s).1 = none ∧ Same s (changedN P calm n s).2 := by
  induction n generalizing s with
  | zero => exact ⟨rfl, .refl s⟩
  | succ n ih =>
    have h := changed_same P s
    unfold changedN
    generalize changed P calm s = x at h
    obtain ⟨e, s'⟩ := x
    have he : e = none := h.1
    subst he
    exact ⟨(ih s').1, h.2.trans (ih s').2⟩

theorem Sim.same {t : Nat} {cs cs' : Config.St} {s : St} (h : Sim t cs s) (g : Same cs cs') : Sim t cs' s :=
  ⟨by rw [g.root]; exact h.root, by rw [g.stack]; exact h.stack, h.nodup, h.low, h.pos, h.idle⟩

theorem forall2_put {l : List Nat} {l' : List Cfg} {f : Nat → Conf} {o : Nat} {c : Conf} (ho : o ∉ l)
    (h : List.Forall₂ (fun o (c : Cfg) => f o = c.conf) l l') :
    List.Forall₂ (fun p (d : Cfg) => (if p = o then c else f p) = d.conf) l l' := by
  induction h with
  | nil => exact .nil
  | cons h1 h2 ih =>
    rw [List.mem_cons, not_or] at ho
    refine .cons ?_ (ih ho.2)
    rw [if_neg (fun e => ho.1 e.symm)]
    exact h1

/-- Working on the object on top. -/
theorem Sim.put {t : Nat} {cs : Config.St} {s : St} (h : Sim t cs s) (c : Conf) : Sim t (cs.setTop c) ((s.put s.top c).goto t .idle) := by
  obtain ⟨h1, h2, h3, h4, h5, h6⟩ := h
  cases hl : s.stack with
  | nil =>
    have hcl : cs.stack = [] := by
      rw [hl] at h2
      generalize cs.stack = l' at h2
      cases h2
      rfl
    have htop : s.top = 0 := by unfold St.top; rw [hl]; rfl
    have hset : cs.setTop c = { cs with root := { cs.root with conf := c } } := by unfold Config.St.setTop; rw [hcl]
    rw [hset, htop]
    refine ⟨?_, ?_, ?_, ?_, h5, if_pos rfl⟩
    · show (if (0 : Nat) = 0 then c else s.objs 0) = c; exact if_pos rfl
    · show List.Forall₂ _ s.stack cs.stack
      rw [hl, hcl]
      exact .nil
    · show s.stack.Nodup
      exact h3
    · exact h4
  | cons o l =>
    rw [hl] at h2 h3 h4
    have htop : s.top = o := by unfold St.top; rw [hl]; rfl
    cases hcl : cs.stack with
    | nil => rw [hcl] at h2; cases h2
    | cons d l' =>
      rw [hcl] at h2
      have hset : cs.setTop c = { cs with stack := { d with conf := c } :: l' } := by unfold Config.St.setTop; rw [hcl]
      rw [hset, htop]
      have h3' := List.nodup_cons.1 h3
      have hpos := h4 o (by simp)
      cases h2 with
      | cons h21 h22 =>
        refine ⟨?_, ?_, ?_, ?_, h5, if_pos rfl⟩
        · show (if 0 = o then c else s.objs 0) = cs.root.conf
          rw [if_neg (by omega)]
          exact h1
        · show List.Forall₂ (fun p (d : Cfg) => (if p = o then c else s.objs p) = d.conf) s.stack _
          rw [hl]
          refine .cons (if_pos rfl) (forall2_put h3'.1 h22)
        · show s.stack.Nodup
          rw [hl]
          exact h3
        · show ∀ p ∈ s.stack, _
          rw [hl]
          exact h4

/-- A call: look up, work. -/
theorem run_call (P : Py) (env : Env) (s : St) (t : Nat) (op : Op) (hi : s.mid t = .idle) :
    s.run P env [.look t op, .work t] = some ((s.goto t (.found s.top op)).perform P env t s.top op) := by
  have h1 : s.step P env (.look t op) = some (s.goto t (.found s.top op)) := by
    simp only [St.step]
    rw [hi]
  have h2 : (s.goto t (.found s.top op)).step P env (.work t) = some ((s.goto t (.found s.top op)).perform P env t s.top op) := by
    simp only [St.step]
    rw [mid_goto, if_pos rfl]
  show (s.step P env (.look t op)).bind _ = _
  rw [h1]
  show ((s.goto t (.found s.top op)).step P env (.work t)).bind _ = _
  rw [h2]
  rfl

theorem goto_goto (s : St) (t : Nat) (m m' : Mid) : (s.goto t m).goto t m' = s.goto t m' := by
  unfold St.goto
  congr 1
  funext u
  dsimp only
  split <;> rfl

theorem Sim.goto {t : Nat} {cs : Config.St} {s : St} (h : Sim t cs s) : Sim t cs (s.goto t .idle) :=
  ⟨h.root, h.stack, h.nodup, h.low, h.pos, if_pos rfl⟩

/-- What one stretch of the program does to the threads' configuration. -/
structure Done (env : Env) (t : Nat) (cs cs' : Config.St) (s s' : St) : Prop where
  sim : Sim t cs' s'
  stack : s'.stack = s.stack
  inside : s'.inside = s.inside
  env : cs'.env = env
  reads : ∃ l, gots cs'.log = gots cs.log ++ l ∧ oks (s'.readsOf t) = oks (s.readsOf t) ++ l

theorem Done.trans {env : Env} {t : Nat} {a b c : Config.St} {s s' s'' : St} (h : Done env t a b s s') (g : Done env t b c s' s'') :
    Done env t a c s s'' := by
  obtain ⟨l, h1, h2⟩ := h.reads
  obtain ⟨m, g1, g2⟩ := g.reads
  exact ⟨g.sim, g.stack.trans h.stack, g.inside.trans h.inside, g.env, l ++ m, by rw [g1, h1, List.append_assoc], by rw [g2, h2, List.append_assoc]⟩

theorem Done.same {env : Env} {t : Nat} {a b c : Config.St} {s s' : St} (h : Done env t a b s s') (g : Same b c) : Done env t a c s s' := by
  obtain ⟨l, h1, h2⟩ := h.reads
  exact ⟨h.sim.same g, h.stack, h.inside, g.env.trans h.env, l, by rw [g.gots]; exact h1, h2⟩

theorem Done.refl {env : Env} {t : Nat} {a : Config.St} {s : St} (h : Sim t a s) (he : a.env = env) : Done env t a a s s :=
  ⟨h, rfl, rfl, he, [], by simp, by simp⟩

theorem done_put {env : Env} {t : Nat} {a : Config.St} {s : St} (h : Sim t a s) (he : a.env = env) (c : Conf) :
    Done env t a (a.setTop c) s ((s.put s.top c).goto t .idle) := by
  refine ⟨h.put c, rfl, rfl, ?_, [], ?_, ?_⟩
  · unfold Config.St.setTop
    split <;> exact he
  · unfold Config.St.setTop
    split <;> simp
  · rw [List.append_nil]
    rfl

theorem done_act (P : Py) (env : Env) (t : Nat) (a : Config.Act) (cs : Config.St) (s : St) (hn : NoEnv (.act a)) (he : cs.env = env)
    (hs : Sim t cs s) : ∃ s', s.run P env (stepsAct t a) = some s' ∧ Done env t cs (act P calm a cs).2 s s' := by
  cases a with
  | set r =>
    refine ⟨_, run_call P env s t (.set r) hs.idle, ?_⟩
    have e : (s.goto t (.found s.top (.set r))).perform P env t s.top (.set r) = (s.put s.top (applyReq P (s.objs s.top) r).2.1).goto t .idle := by
      show (((s.goto t _).put s.top _).goto t .idle) = _
      exact goto_goto (s.put s.top _) t _ _
    rw [e, hs.top]
    have hd := done_put hs he (applyReq P cs.top.conf r).2.1
    show Done env t cs (Config.set P calm r cs).2 s _
    unfold Config.set
    generalize applyReq P cs.top.conf r = x at hd ⊢
    obtain ⟨e, c, n⟩ := x
    cases e with
    | some e => exact hd
    | none => exact hd.same (changedN_same P n _).2
  | reset n =>
    refine ⟨_, run_call P env s t (.reset n) hs.idle, ?_⟩
    cases n with
    | none =>
      have e : (s.goto t (.found s.top (.reset none))).perform P env t s.top (.reset none) = (s.put s.top (DEFAULTS P)).goto t .idle :=
        goto_goto (s.put s.top _) t _ _
      rw [e]
      exact (done_put hs he (DEFAULTS P)).same (changed_same P _).2
    | some n =>
      show Done env t cs (Config.reset P calm (some n) cs).2 s _
      unfold Config.reset
      show Done env t cs (match DEFAULTS P n with
        | none => (some Err.key, cs)
        | some v => changed P calm (cs.setTop ((cs.top.conf.erase n).set n v))).2 s
        (match DEFAULTS P n with
          | none => (s.goto t (.found s.top (.reset (some n)))).goto t .idle
          | some v => (((s.goto t (.found s.top (.reset (some n)))).put s.top (((s.objs s.top).erase n).set n v))).goto t .idle)
      cases DEFAULTS P n with
      | none =>
        dsimp only
        rw [goto_goto]
        exact ⟨hs.goto, rfl, rfl, he, [], by simp, by rw [List.append_nil]; rfl⟩
      | some v =>
        dsimp only
        have e : (((s.goto t (.found s.top (.reset (some n)))).put s.top (((s.objs s.top).erase n).set n v))).goto t .idle =
            (s.put s.top (((s.objs s.top).erase n).set n v)).goto t .idle := goto_goto (s.put s.top _) t _ _
        rw [e, hs.top]
        exact (done_put hs he _).same (changed_same P _).2
  | get n =>
    refine ⟨_, run_call P env s t (.get n) hs.idle, ?_⟩
    have e : (s.goto t (.found s.top (.get n))).perform P env t s.top (.get n) =
        { s with reads := s.reads ++ [(t, n, getConf P env (s.objs s.top) n)] }.goto t .idle :=
      goto_goto { s with reads := s.reads ++ [(t, n, getConf P env (s.objs s.top) n)] } t _ _
    rw [e, hs.top]
    have hr : ({ s with reads := s.reads ++ [(t, n, getConf P env cs.top.conf n)] }.goto t .idle).readsOf t =
        s.readsOf t ++ [(n, getConf P env cs.top.conf n)] := by
      have := readsOf_snoc s t t n (getConf P env cs.top.conf n)
      rw [if_pos rfl] at this
      exact this
    have hsim : Sim t cs ({ s with reads := s.reads ++ [(t, n, getConf P env cs.top.conf n)] }.goto t .idle) :=
      ⟨hs.root, hs.stack, hs.nodup, hs.low, hs.pos, if_pos rfl⟩
    show Done env t cs (match getConf P cs.env cs.top.conf n with
      | .ok v => ((none : Option Err), ({ cs with log := cs.log ++ [Event.got n v] } : Config.St))
      | .error e => (some e, cs)).2 s _
    rw [he]
    generalize hg : getConf P env cs.top.conf n = g at hr hsim
    cases g with
    | error e =>
      refine ⟨hsim, rfl, rfl, he, [], by simp, ?_⟩
      rw [hr]
      simp [oks, Except.toOption]
    | ok v =>
      refine ⟨⟨hsim.root, hsim.stack, hsim.nodup, hsim.low, hsim.pos, hsim.idle⟩, rfl, rfl, rfl, [(n, v)], ?_, ?_⟩
      · simp [gots]
      · rw [hr]
        simp [oks, Except.toOption]
  | autosave b => exact ⟨s, rfl, ⟨hs.root, hs.stack, hs.nodup, hs.low, hs.pos, hs.idle⟩, rfl, rfl, he, [], by simp; rfl, by simp⟩
  | onChange o => exact ⟨s, rfl, ⟨hs.root, hs.stack, hs.nodup, hs.low, hs.pos, hs.idle⟩, rfl, rfl, he, [], by simp; rfl, by simp⟩
  | setEnv n v => exact hn.elim

theorem run_fst_temp (P : Py) (r : Option Req) (y : Option String) (b : Prog) (cs : Config.St) (h : (makeTemp P r y cs).1 = none) :
    (run P calm (.temp r y b) cs).2 =
      (notify calm { (run P calm b (notify calm { (makeTemp P r y cs).2.2 with stack := (makeTemp P r y cs).2.1 :: (makeTemp P r y cs).2.2.stack }).2).2 with
        stack := (run P calm b (notify calm { (makeTemp P r y cs).2.2 with stack := (makeTemp P r y cs).2.1 :: (makeTemp P r y cs).2.2.stack }).2).2.stack.tail }).2 := by
  generalize hm : makeTemp P r y cs = m at h
  obtain ⟨e, c, cs1⟩ := m
  have he : e = none := h
  subst he
  dsimp only
  have h1 := notify_same { cs1 with stack := c :: cs1.stack }
  generalize hn : notify calm { cs1 with stack := c :: cs1.stack } = x at h1
  obtain ⟨e1, cs2⟩ := x
  have he1 : e1 = none := h1.1
  subst he1
  dsimp only
  generalize hb : run P calm b cs2 = yb
  obtain ⟨rb, cs3⟩ := yb
  dsimp only
  have h2 := notify_same { cs3 with stack := cs3.stack.tail }
  generalize hn2 : notify calm { cs3 with stack := cs3.stack.tail } = x2 at h2
  obtain ⟨e2, cs4⟩ := x2
  have he2 : e2 = none := h2.1
  subst he2
  unfold run
  rw [hm]
  dsimp only
  rw [hn]
  dsimp only
  rw [hb]
  dsimp only
  rw [hn2]

theorem makeTemp_spec (P : Py) (r : Option Req) (y : Option String) (cs : Config.St) (h : (makeTemp P r y cs).1 = none) :
    Same cs (makeTemp P r y cs).2.2 ∧ ∀ env (s : St) t, Sim t cs s →
      (s.goto t (.found s.top (.temporary r))).perform P env t s.top (.temporary r) =
        { s.put s.next (makeTemp P r y cs).2.1.conf with next := s.next + 1 }.goto t (.made s.next) := by
  cases r with
  | none =>
    refine ⟨.refl _, fun env s t hs => ?_⟩
    have : (makeTemp P none y cs).2.1.conf = s.objs s.top := hs.top.symm
    rw [this]
    exact goto_goto { s.put s.next (s.objs s.top) with next := s.next + 1 } t _ _
  | some r =>
    have hm : makeTemp P (some r) y cs = match applyReq P cs.top.conf r with
      | (some e, c, _) => (some e, ⟨c, y⟩, cs)
      | (none, c, _) => (none, ⟨c, y⟩, if cs.autosave then saveCfg P ⟨c, y⟩ cs else cs) := rfl
    rw [hm] at h ⊢
    generalize ha : applyReq P cs.top.conf r = x at h
    obtain ⟨e, c, n⟩ := x
    cases e with
    | some e => cases h
    | none =>
      refine ⟨?_, fun env s t hs => ?_⟩
      · dsimp only
        split
        · exact saveCfg_same P _ cs
        · exact .refl cs
      · have : (s.goto t (.found s.top (.temporary (some r)))).perform P env t s.top (.temporary (some r)) =
            match applyReq P (s.objs s.top) r with
            | (some _, _, _) => (s.goto t (.found s.top (.temporary (some r)))).goto t .idle
            | (none, c, _) => { (s.goto t (.found s.top (.temporary (some r)))).put s.next c with next := s.next + 1 }.goto t (.made s.next) := rfl
        rw [this, hs.top, ha]
        exact goto_goto { s.put s.next c with next := s.next + 1 } t _ _

theorem makeTemp_refused (P : Py) (env : Env) (r : Option Req) (y : Option String) (cs : Config.St) (h : (makeTemp P r y cs).1.isSome = true)
    (s : St) (t : Nat) (hs : Sim t cs s) : (run P calm (.temp r y b) cs).2 = cs ∧
      (s.goto t (.found s.top (.temporary r))).perform P env t s.top (.temporary r) = s.goto t .idle := by
  cases r with
  | none => cases h
  | some r =>
    have hm : makeTemp P (some r) y cs = match applyReq P cs.top.conf r with
      | (some e, c, _) => (some e, ⟨c, y⟩, cs)
      | (none, c, _) => (none, ⟨c, y⟩, if cs.autosave then saveCfg P ⟨c, y⟩ cs else cs) := rfl
    generalize ha : applyReq P cs.top.conf r = x at hm
    obtain ⟨e, c, n⟩ := x
    cases e with
    | none => rw [hm] at h; cases h
    | some e =>
      dsimp only at hm
      constructor
      · unfold run
        rw [hm]
      · have : (s.goto t (.found s.top (.temporary (some r)))).perform P env t s.top (.temporary (some r)) =
            match applyReq P (s.objs s.top) r with
            | (some _, _, _) => (s.goto t (.found s.top (.temporary (some r)))).goto t .idle
            | (none, c, _) => { (s.goto t (.found s.top (.temporary (some r)))).put s.next c with next := s.next + 1 }.goto t (.made s.next) := rfl
        rw [this, hs.top, ha]
        exact goto_goto s t _ _

/-- Entering a block. -/
theorem sim_push {t : Nat} {cs : Config.St} {s : St} (h : Sim t cs s) (c : Cfg) :
    Sim t { cs with stack := c :: cs.stack }
      ({ ({ s.put s.next c.conf with next := s.next + 1 }.goto t (.made s.next)) with stack := s.next :: s.stack, inside := t :: s.inside }.goto t .idle) := by
  obtain ⟨h1, h2, h3, h4, h5, h6⟩ := h
  have hn : s.next ∉ s.stack := fun hm => by have := h4 _ hm; omega
  refine ⟨?_, ?_, ?_, ?_, Nat.succ_pos _, if_pos rfl⟩
  · show (if 0 = s.next then c.conf else s.objs 0) = cs.root.conf
    rw [if_neg (by omega)]
    exact h1
  · exact .cons (if_pos rfl) (forall2_put hn h2)
  · exact List.nodup_cons.2 ⟨hn, h3⟩
  · intro o ho
    show 0 < o ∧ o < s.next + 1
    rcases List.mem_cons.1 ho with rfl | ho
    · exact ⟨h5, Nat.lt_succ_self _⟩
    · have := h4 o ho
      exact ⟨this.1, by omega⟩

theorem forall2_tail {f : Nat → Conf} {l : List Nat} {l' : List Cfg} (h : List.Forall₂ (fun o (c : Cfg) => f o = c.conf) l l') :
    List.Forall₂ (fun o (c : Cfg) => f o = c.conf) l.tail l'.tail := by
  cases h with
  | nil => exact .nil
  | cons _ h => exact h

/-- Leaving it. -/
theorem sim_pop {t : Nat} {cs : Config.St} {s : St} (h : Sim t cs s) (i : List Nat) :
    Sim t { cs with stack := cs.stack.tail } { s with stack := s.stack.tail, inside := i } :=
  ⟨h.root, forall2_tail h.stack, h.nodup.sublist (List.tail_sublist _), fun o ho => h.low o (List.mem_of_mem_tail ho), h.pos, h.idle⟩

theorem done_run (P : Py) (env : Env) (t : Nat) (p : Prog) : ∀ (cs : Config.St) (s : St), NoEnv p → cs.env = env → Sim t cs s →
    ∃ s', s.run P env (steps P t p cs) = some s' ∧ Done env t cs (run P calm p cs).2 s s' := by
  induction p with
  | skip => intro cs s _ he hs; exact ⟨s, rfl, .refl hs he⟩
  | raise => intro cs s _ he hs; exact ⟨s, rfl, .refl hs he⟩
  | act a => intro cs s hn he hs; exact done_act P env t a cs s hn he hs
  | seq p q ihp ihq =>
    intro cs s hn he hs
    obtain ⟨s1, h1, d1⟩ := ihp cs s hn.1 he hs
    have hst : steps P t (.seq p q) cs = steps P t p cs ++ if (run P calm p cs).1.isSome then [] else steps P t q (run P calm p cs).2 := rfl
    have hrun : run P calm (.seq p q) cs = match run P calm p cs with
      | (some e, s) => (some e, s)
      | (none, s) => run P calm q s := rfl
    rw [hst, hrun, run_app P env _ _ s s1 h1]
    generalize run P calm p cs = x at d1
    obtain ⟨e, cs1⟩ := x
    cases e with
    | some e => exact ⟨s1, rfl, d1⟩
    | none =>
      obtain ⟨s2, h2, d2⟩ := ihq cs1 s1 hn.2 d1.env d1.sim
      exact ⟨s2, h2, d1.trans d2⟩
  | catch_ p q ihp ihq =>
    intro cs s hn he hs
    obtain ⟨s1, h1, d1⟩ := ihp cs s hn.1 he hs
    have hst : steps P t (.catch_ p q) cs = steps P t p cs ++ if (run P calm p cs).1.isSome then steps P t q (run P calm p cs).2 else [] := rfl
    have hrun : run P calm (.catch_ p q) cs = match run P calm p cs with
      | (some _, s) => run P calm q s
      | (none, s) => (none, s) := rfl
    rw [hst, hrun, run_app P env _ _ s s1 h1]
    generalize run P calm p cs = x at d1
    obtain ⟨e, cs1⟩ := x
    cases e with
    | none => exact ⟨s1, rfl, d1⟩
    | some e =>
      obtain ⟨s2, h2, d2⟩ := ihq cs1 s1 hn.2 d1.env d1.sim
      exact ⟨s2, h2, d1.trans d2⟩
  | temp r y b ih =>
    intro cs s hn he hs
    have hst : steps P t (.temp r y b) cs = [.look t (.temporary r), .work t] ++
      if (makeTemp P r y cs).1.isSome then []
      else .push t :: (steps P t b (notify calm { (makeTemp P r y cs).2.2 with stack := (makeTemp P r y cs).2.1 :: (makeTemp P r y cs).2.2.stack }).2 ++ [.leave t]) := rfl
    rw [hst, run_app P env _ _ s _ (run_call P env s t (.temporary r) hs.idle)]
    cases hm : (makeTemp P r y cs).1 with
    | some e =>
      obtain ⟨h1, h2⟩ := makeTemp_refused (b := b) P env r y cs (by rw [hm]; rfl) s t hs
      rw [h1, h2]
      exact ⟨_, rfl, hs.goto, rfl, rfl, he, [], by simp, by rw [List.append_nil]; rfl⟩
    | none =>
      obtain ⟨hsame, hperf⟩ := makeTemp_spec P r y cs hm
      rw [hperf env s t hs, run_fst_temp P r y b cs hm]
      rw [if_neg (by simp)]
      generalize (makeTemp P r y cs).2.1 = c at *
      generalize (makeTemp P r y cs).2.2 = cs1 at *
      have hs1 : Sim t cs1 s := hs.same hsame
      have hs2 := sim_push hs1 c
      have hnot := (notify_same { cs1 with stack := c :: cs1.stack }).2
      generalize (notify calm { cs1 with stack := c :: cs1.stack }).2 = cs2 at hnot
      generalize hS : ({ ({ s.put s.next c.conf with next := s.next + 1 }.goto t (.made s.next)) with stack := s.next :: s.stack, inside := t :: s.inside }.goto t .idle) = S at hs2
      have hpush : ({ s.put s.next c.conf with next := s.next + 1 }.goto t (.made s.next)).step P env (.push t) = some S := by
        simp only [St.step]
        rw [mid_goto, if_pos rfl]
        exact congrArg some hS
      obtain ⟨s3, h3, d3⟩ := ih cs2 S hn (by rw [hnot.env]; exact hsame.env.trans he) (hs2.same hnot)
      have hSstack : S.stack = s.next :: s.stack := by rw [← hS]; rfl
      have hSin : S.inside = t :: s.inside := by rw [← hS]; rfl
      have hSreads : S.readsOf t = s.readsOf t := by rw [← hS]; rfl
      have hleave : s3.step P env (.leave t) = some { s3 with stack := s3.stack.tail, inside := s3.inside.erase t } := by
        simp only [St.step]
        rw [d3.sim.idle]
        dsimp only
        rw [if_pos (by rw [d3.inside, hSin]; simp)]
      refine ⟨{ s3 with stack := s3.stack.tail, inside := s3.inside.erase t }, ?_, ?_⟩
      · show (St.step P env _ (.push t)).bind _ = _
        rw [hpush]
        show S.run P env (_ ++ [.leave t]) = _
        rw [run_app P env _ _ S s3 h3]
        show (s3.step P env (.leave t)).bind _ = _
        rw [hleave]
        rfl
      · have hnot2 := (notify_same { (run P calm b cs2).2 with stack := (run P calm b cs2).2.stack.tail }).2
        generalize (notify calm { (run P calm b cs2).2 with stack := (run P calm b cs2).2.stack.tail }).2 = cs4 at hnot2
        obtain ⟨l, g1, g2⟩ := d3.reads
        refine ⟨(sim_pop d3.sim _).same hnot2, ?_, ?_, hnot2.env.trans d3.env, l, ?_, ?_⟩
        · show s3.stack.tail = s.stack
          rw [d3.stack, hSstack]
          rfl
        · show s3.inside.erase t = s.inside
          rw [d3.inside, hSin]
          simp
        · rw [hnot2.gots]
          show gots (run P calm b cs2).2.log = _
          rw [g1, hnot.gots]
          show gots cs1.log ++ l = _
          rw [hsame.gots]
        · show oks (s3.readsOf t) = _
          rw [g2, hSreads]

/-- C103 (`_partial`: see `C103_refuted`): a thread that runs a program – calls of get, set and reset, nested blocks, exceptions raised and
caught – while other threads do nothing but read, gets from its calls of `get` exactly what the program gets when it is alone in its
process. -/
theorem C103_program_partial (P : Py) (env : Env) (t : Nat) (p : Prog) (cs : Config.St) (s s1 : St) (h : List Act) (hn : NoEnv p) (he : cs.env = env)
    (hs : Sim t cs s) (hi : ∀ u, u ≠ t → s.mid u = .idle) (ho : OthersRead t h) (hr : s.run P env h = some s1)
    (hp : h.filter (fun a => decide (a.thread = t)) = steps P t p cs) :
    gots (run P calm p cs).2.log = gots cs.log ++ (oks (s1.readsOf t)).drop (oks (s.readsOf t)).length := by
  obtain ⟨s1', h1, h2⟩ := C103_readers_partial P env t s s1 h hi ho hr
  rw [hp] at h1
  obtain ⟨s2, h3, d⟩ := done_run P env t p cs s hn he hs
  rw [h1] at h3
  cases h3
  obtain ⟨l, g1, g2⟩ := d.reads
  rw [g1, h2, g2]
  simp

/-- A thread that starts: the configuration is that of `CONFIG`, nobody is in a block. -/
theorem sim_init (t : Nat) (cs : Config.St) (h : cs.stack = []) : Sim t cs (St.init cs.root.conf) :=
  ⟨rfl, by rw [h]; exact .nil, .nil, by simp [St.init], Nat.one_pos, rfl⟩

/-! ## Example -/

namespace Demo

/-- `with config.temporary(cache_policy="off"): try: config.reset("maximum-cache-size"); raise` … then reads. -/
def prog : Prog :=
  .seq (.catch_ (.temp (some (.kw [("cache_policy", .str "off".toList)])) none
    (.seq (.act (.reset (some "maximum-cache-size"))) (.seq (.act (.get pol)) .raise))) .skip) (.act (.get pol))

def start : Config.St := ⟨⟨DEFAULTS py, none⟩, [], [], true, fun _ => none, fun _ => none, fun _ => true, [], 0⟩

example : gots (run py calm prog start).2.log = [(pol, .str "off".toList), (pol, .str "user".toList)] := by rfl

/-- The steps of the program with a reader in between. -/
theorem prog_steps : ∃ h s1, (St.init (DEFAULTS py)).run py (fun _ => none) h = some s1 ∧ OthersRead 0 h ∧
    h.filter (fun a => decide (a.thread = 0)) = steps py 0 prog start ∧ (s1.readsOf 1).length = 1 ∧
    oks (s1.readsOf 0) = [(pol, .str "off".toList), (pol, .str "user".toList)] := by
  refine ⟨[.look 1 (.get pol)] ++ steps py 0 prog start ++ [.work 1], _, rfl, ?_, rfl, rfl, rfl⟩
  intro a ha
  have : a = .look 1 (.get pol) ∨ a ∈ steps py 0 prog start ∨ a = .work 1 := by
    simpa [or_assoc] using ha
  rcases this with rfl | ha | rfl
  · exact fun _ => .inl ⟨1, pol, rfl⟩
  · intro h
    have : steps py 0 prog start = [.look 0 (.temporary (some (.kw [("cache_policy", .str "off".toList)]))), .work 0, .push 0,
      .look 0 (.reset (some "maximum-cache-size")), .work 0, .look 0 (.get pol), .work 0, .leave 0, .look 0 (.get pol), .work 0] := rfl
    rw [this] at ha
    simp at ha
    rcases ha with rfl | rfl | rfl | rfl | rfl | rfl | rfl | rfl | rfl | rfl <;> exact absurd rfl h
  · exact fun _ => .inr ⟨1, rfl⟩

/-- `C103_program_partial` -/
example : ∃ s1 : St, gots (run py calm prog start).2.log = oks (s1.readsOf 0) := by
  obtain ⟨h, s1, h1, h2, h3, _, _⟩ := prog_steps
  exact ⟨s1, C103_program_partial py (fun _ => none) 0 prog start (St.init (DEFAULTS py)) s1 h (by simp [prog, NoEnv]) rfl (sim_init 0 start rfl)
    (fun _ _ => rfl) h2 h1 h3⟩

end Demo

end Verif.Config.Threads

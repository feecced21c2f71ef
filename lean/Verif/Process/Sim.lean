import Verif.Process.Model
import Verif.Config.Props3

/-! Every run of a process is a run of the configuration model with some observers that raise or not: the facts proved there for all
observers hold here. -/

namespace Verif.Process
open Verif.Config (Err V Conf Env Req Act File Raises)

variable {Q K W S : Type} [LinearOrder K]

/-- The observers whose `i`-th event raises if `g i`. -/
def table (g : Nat → Bool) : Raises := fun _ c => g c.log.length

/-- The configuration part of a program. -/
def Prog.erase : Prog Q W S → Config.Prog
  | .skip => .skip
  | .act a => .act a
  | .lookup _ _ => .skip
  | .clear => .skip
  | .use => .skip
  | .directory => .skip
  | .seq p q => .seq p.erase q.erase
  | .raise => .raise
  | .catch_ p q => .catch_ p.erase q.erase
  | .temp r y b => .temp r y b.erase

/-- `A` with the right observers does to the configuration `c` what led to `r`. -/
def Sim (A : Raises → Option Err × Config.St) (c : Config.St) (r : Option Err × St K W S) : Prop :=
  c.log.length ≤ r.2.cfg.log.length ∧
    ∃ f : Nat → Bool, ∀ g : Nat → Bool, (∀ i, c.log.length ≤ i → i < r.2.cfg.log.length → g i = f i) → A (table g) = (r.1, r.2.cfg)

omit [LinearOrder K] in
theorem Sim.of_eq {A : Raises → Option Err × Config.St} {c : Config.St} {r : Option Err × St K W S} (hl : c.log.length ≤ r.2.cfg.log.length)
    (h : ∀ R, A R = (r.1, r.2.cfg)) : Sim A c r := ⟨hl, fun _ => false, fun _ _ => h _⟩

omit [LinearOrder K] in
/-- One thing after another. -/
theorem Sim.seq {A : Raises → Option Err × Config.St} {B : Raises → Config.St → Option Err × Config.St} {C : Raises → Option Err × Config.St}
    {c : Config.St} {r r' : Option Err × St K W S} (h : Sim A c r) (h' : Sim (fun R => B R r.2.cfg) r.2.cfg r')
    (hC : ∀ R, A R = (r.1, r.2.cfg) → C R = B R r.2.cfg) : Sim C c r' := by
  obtain ⟨l1, f1, h1⟩ := h
  obtain ⟨l2, f2, h2⟩ := h'
  refine ⟨l1.trans l2, fun i => if i < r.2.cfg.log.length then f1 i else f2 i, fun g hg => ?_⟩
  have e1 := h1 g (fun i hi hi' => by rw [hg i hi (lt_of_lt_of_le hi' l2)]; exact if_pos hi')
  rw [hC _ e1]
  exact h2 g (fun i hi hi' => by rw [hg i (l1.trans hi) hi']; exact if_neg (not_lt.2 hi))

omit [LinearOrder K] in
/-- The result is changed without observers. -/
theorem Sim.map {A C : Raises → Option Err × Config.St} {c : Config.St} {r r' : Option Err × St K W S} (h : Sim A c r)
    (hl : r'.2.cfg.log = r.2.cfg.log) (hC : ∀ R, A R = (r.1, r.2.cfg) → C R = (r'.1, r'.2.cfg)) : Sim C c r' := by
  obtain ⟨l1, f1, h1⟩ := h
  refine ⟨by rw [hl]; exact l1, f1, fun g hg => hC _ (h1 g (by rw [hl] at hg; exact hg))⟩

theorem call_cfg (X : Ext) (o : Nat) (s : St K W S) : (call X o s).2.cfg = s.cfg := by
  unfold call
  split
  · split <;> rfl
  · split
    · split <;> rfl
    · rfl

theorem notifyL_cons (X : Ext) (o : Nat) (os : List Nat) (s : St K W S) :
    notifyL X (o :: os) s = if (call X o s).1 then (some .observer, (call X o s).2.noted o) else notifyL X os ((call X o s).2.noted o) := by
  show (match call X o s with | (true, s') => _ | (false, s') => _) = _
  generalize call X o s = x
  obtain ⟨b, s'⟩ := x
  cases b <;> rfl

theorem cfg_notifyL_cons (R : Raises) (o : Nat) (os : List Nat) (c : Config.St) :
    Config.notifyL R (o :: os) c = if R o c then (some .observer, { c with log := c.log ++ [.called o c.top.conf] })
      else Config.notifyL R os { c with log := c.log ++ [.called o c.top.conf] } := rfl

theorem notifyL_sim (X : Ext) (os : List Nat) : ∀ s : St K W S, Sim (fun R => Config.notifyL R os s.cfg) s.cfg (notifyL X os s) := by
  induction os with
  | nil => intro s; exact .of_eq le_rfl (fun _ => rfl)
  | cons o os ih =>
    intro s
    have hc := call_cfg X o s
    have hn : ((call X o s).2.noted o).cfg = { s.cfg with log := s.cfg.log ++ [.called o s.cfg.top.conf] } := by
      unfold St.noted; rw [hc]
    rw [notifyL_cons]
    cases hb : (call X o s).1 with
    | true =>
      rw [if_pos rfl]
      refine ⟨by rw [hn]; simp, fun _ => true, fun g hg => ?_⟩
      have : g s.cfg.log.length = true := hg _ le_rfl (by rw [hn]; simp)
      show Config.notifyL (table g) (o :: os) s.cfg = _
      rw [cfg_notifyL_cons, if_pos (show table g o s.cfg = true from this)]
      exact Prod.ext rfl hn.symm
    | false =>
      rw [if_neg (by simp)]
      obtain ⟨l, f, h⟩ := ih ((call X o s).2.noted o)
      have hl : ((call X o s).2.noted o).cfg.log.length = s.cfg.log.length + 1 := by rw [hn]; simp
      refine ⟨by omega, fun i => if i = s.cfg.log.length then false else f i, fun g hg => ?_⟩
      have h0 : g s.cfg.log.length = false := by rw [hg _ le_rfl (by omega)]; exact if_pos rfl
      show Config.notifyL (table g) (o :: os) s.cfg = _
      rw [cfg_notifyL_cons, if_neg (by show ¬ g s.cfg.log.length = true; rw [h0]; simp)]
      rw [← hn]
      exact h g (fun i hi hi' => by rw [hg i (by omega) hi']; exact if_neg (by omega))

theorem notify_sim (X : Ext) (s : St K W S) : Sim (fun R => Config.notify R s.cfg) s.cfg (notify X s) := notifyL_sim X _ s

theorem save_log (P : Config.Py) (c : Config.St) : (if c.autosave then Config.saveCfg P c.top c else c).log = c.log := by
  split
  · exact Config.saveCfg_log _ _ _
  · rfl

theorem changed_sim (X : Ext) (s : St K W S) : Sim (fun R => Config.changed X.P R s.cfg) s.cfg (changed X s) := by
  have h := notify_sim X { s with cfg := if s.cfg.autosave then Config.saveCfg X.P s.cfg.top s.cfg else s.cfg }
  obtain ⟨l, f, h⟩ := h
  simp only [save_log] at l h
  exact ⟨l, f, h⟩

theorem changedN_sim (X : Ext) (n : Nat) : ∀ s : St K W S, Sim (fun R => Config.changedN X.P R n s.cfg) s.cfg (changedN X n s) := by
  induction n with
  | zero => intro s; exact .of_eq le_rfl (fun _ => rfl)
  | succ n ih =>
    intro s
    have h := changed_sim X s
    have ih := ih (changed X s).2
    have e : changedN X (n + 1) s = if (changed X s).1 = none then changedN X n (changed X s).2 else changed X s := by
      show (match changed X s with | (some e, s) => (some e, s) | (none, s) => changedN X n s) = _
      generalize changed X s = x
      obtain ⟨b, s'⟩ := x
      cases b <;> simp
    have e' : ∀ R, Config.changedN X.P R (n + 1) s.cfg = if (Config.changed X.P R s.cfg).1 = none then Config.changedN X.P R n (Config.changed X.P R s.cfg).2
        else Config.changed X.P R s.cfg := by
      intro R
      show (match Config.changed X.P R s.cfg with | (some e, s) => (some e, s) | (none, s) => Config.changedN X.P R n s) = _
      generalize Config.changed X.P R s.cfg = x
      obtain ⟨b, s'⟩ := x
      cases b <;> simp
    rw [e]
    by_cases hn : (changed X s).1 = none
    · rw [if_pos hn]
      exact h.seq (B := fun R c => Config.changedN X.P R n c) ih (fun R hR => by rw [e', hR]; simp [hn])
    · rw [if_neg hn]
      exact h.map rfl (fun R hR => by rw [e', hR]; simp [hn])

theorem setTop_log (c : Config.St) (x : Conf) : (c.setTop x).log = c.log := by
  unfold Config.St.setTop; split <;> rfl

theorem set_sim (X : Ext) (r : Req) (s : St K W S) : Sim (fun R => Config.set X.P R r s.cfg) s.cfg (set X r s) := by
  unfold set Config.set
  generalize Config.applyReq X.P s.cfg.top.conf r = x
  obtain ⟨e, c, n⟩ := x
  cases e with
  | some e => exact .of_eq (by simp [setTop_log]) (fun _ => rfl)
  | none =>
    have h := changedN_sim X n { s with cfg := s.cfg.setTop c }
    obtain ⟨l, f, h⟩ := h
    simp only [setTop_log] at l h
    exact ⟨l, f, h⟩

theorem reset_sim (X : Ext) (n : Option String) (s : St K W S) : Sim (fun R => Config.reset X.P R n s.cfg) s.cfg (reset X n s) := by
  have key : ∀ c, Sim (fun R => Config.changed X.P R (s.cfg.setTop c)) s.cfg (changed X { s with cfg := s.cfg.setTop c }) := by
    intro c
    obtain ⟨l, f, h⟩ := changed_sim X { s with cfg := s.cfg.setTop c }
    simp only [setTop_log] at l h
    exact ⟨l, f, h⟩
  cases n with
  | none => exact key _
  | some n =>
    unfold reset Config.reset
    simp only
    cases Config.DEFAULTS X.P n with
    | none => exact .of_eq le_rfl (fun _ => rfl)
    | some v => exact key _

theorem act_sim (X : Ext) (a : Act) (s : St K W S) : Sim (fun R => Config.act X.P R a s.cfg) s.cfg (act X a s) := by
  cases a with
  | set r => exact set_sim X r s
  | reset n => exact reset_sim X n s
  | get n =>
    refine .of_eq ?_ (fun R => ?_)
    · show _ ≤ (Config.act X.P X.user (.get n) s.cfg).2.log.length
      show _ ≤ (match Config.getConf X.P s.cfg.env s.cfg.top.conf n with
        | .ok v => (none, { s.cfg with log := s.cfg.log ++ [.got n v] }) | .error e => (some e, s.cfg) : Option Err × Config.St).2.log.length
      split <;> simp
    · rfl
  | autosave b => exact .of_eq le_rfl (fun R => rfl)
  | onChange o => exact .of_eq le_rfl (fun R => rfl)
  | setEnv n v => exact .of_eq le_rfl (fun R => rfl)

theorem makeTemp_log (P : Config.Py) (r : Option Req) (y : Option String) (c : Config.St) : (Config.makeTemp P r y c).2.2.log = c.log := by
  unfold Config.makeTemp
  split
  · rfl
  · split
    · rfl
    · split
      · exact Config.saveCfg_log _ _ _
      · rfl

/-! Executions of composed programs, without `match`. -/

theorem run_seq (X : Ext) (M : Keys Q K W) (p q : Prog Q W S) (s : St K W S) :
    run X M (.seq p q) s = if (run X M p s).1 = none then run X M q (run X M p s).2 else run X M p s := by
  show (match run X M p s with | (some e, s) => (some e, s) | (none, s) => run X M q s) = _
  generalize run X M p s = x
  obtain ⟨b, s'⟩ := x
  cases b <;> simp

theorem run_catch (X : Ext) (M : Keys Q K W) (p q : Prog Q W S) (s : St K W S) :
    run X M (.catch_ p q) s = if (run X M p s).1 = none then run X M p s else run X M q (run X M p s).2 := by
  show (match run X M p s with | (some _, s) => run X M q s | (none, s) => (none, s)) = _
  generalize run X M p s = x
  obtain ⟨b, s'⟩ := x
  cases b <;> simp

/-- The process when the block has its own configuration. -/
def St.pushed (X : Ext) (r : Option Req) (y : Option String) (s : St K W S) : St K W S :=
  { s with cfg := { (Config.makeTemp X.P r y s.cfg).2.2 with stack := (Config.makeTemp X.P r y s.cfg).2.1 :: (Config.makeTemp X.P r y s.cfg).2.2.stack } }

def St.popped (s : St K W S) : St K W S := { s with cfg := { s.cfg with stack := s.cfg.stack.tail } }

def St.failed (s : St K W S) : St K W S := { s with cfg := { s.cfg with failedEntries := s.cfg.failedEntries + 1 } }

theorem run_temp (X : Ext) (M : Keys Q K W) (r : Option Req) (y : Option String) (b : Prog Q W S) (s : St K W S) :
    run X M (.temp r y b) s =
      if (Config.makeTemp X.P r y s.cfg).1 ≠ none then ((Config.makeTemp X.P r y s.cfg).1, { s with cfg := (Config.makeTemp X.P r y s.cfg).2.2 })
      else if (notify X (s.pushed X r y)).1 ≠ none then ((notify X (s.pushed X r y)).1, (notify X (s.pushed X r y)).2.failed)
      else if (notify X (run X M b (notify X (s.pushed X r y)).2).2.popped).1 ≠ none then notify X (run X M b (notify X (s.pushed X r y)).2).2.popped
      else ((run X M b (notify X (s.pushed X r y)).2).1, (notify X (run X M b (notify X (s.pushed X r y)).2).2.popped).2) := by
  rw [run]
  unfold St.pushed
  generalize Config.makeTemp X.P r y s.cfg = x
  obtain ⟨e, t, c⟩ := x
  cases e with
  | some e => simp
  | none =>
    simp only [ne_eq, not_true, if_false]
    generalize notify X { s with cfg := { c with stack := t :: c.stack } } = z
    obtain ⟨e, s1⟩ := z
    cases e with
    | some e => simp [St.failed]
    | none =>
      simp only [not_true, if_false]
      generalize run X M b s1 = u
      obtain ⟨e, s2⟩ := u
      show (match notify X s2.popped with | (some e, s) => (some e, s) | (none, s) => (e, s)) = _
      split
      · rename_i h; simp [h]
      · rename_i h; simp [h]

/-- The end of a block that gave `u`. -/
def exitOf (R : Raises) (u : Option Err × Config.St) : Option Err × Config.St :=
  if (Config.notify R { u.2 with stack := u.2.stack.tail }).1 ≠ none then Config.notify R { u.2 with stack := u.2.stack.tail }
  else (u.1, (Config.notify R { u.2 with stack := u.2.stack.tail }).2)

/-- The block after its start gave `x`. -/
def enterOf (P : Config.Py) (R : Raises) (b : Config.Prog) (x : Option Err × Config.St) : Option Err × Config.St :=
  if x.1 ≠ none then (x.1, { x.2 with failedEntries := x.2.failedEntries + 1 }) else exitOf R (Config.run P R b x.2)

theorem cfg_run_temp (P : Config.Py) (R : Raises) (r : Option Req) (y : Option String) (b : Config.Prog) (c : Config.St) :
    Config.run P R (.temp r y b) c =
      if (Config.makeTemp P r y c).1 ≠ none then ((Config.makeTemp P r y c).1, (Config.makeTemp P r y c).2.2)
      else enterOf P R b
        (Config.notify R { (Config.makeTemp P r y c).2.2 with stack := (Config.makeTemp P r y c).2.1 :: (Config.makeTemp P r y c).2.2.stack }) := by
  rw [Config.run]
  generalize Config.makeTemp P r y c = x
  obtain ⟨e, t, c⟩ := x
  cases e with
  | some e => simp
  | none =>
    simp only [ne_eq, not_true, if_false]
    generalize Config.notify R { c with stack := t :: c.stack } = z
    obtain ⟨e, s1⟩ := z
    cases e with
    | some e => simp [enterOf]
    | none =>
      simp only [enterOf, ne_eq, not_true, if_false]
      generalize Config.run P R b s1 = u
      obtain ⟨e, s2⟩ := u
      simp only [exitOf]
      split
      · rename_i h; simp [h]
      · rename_i h; simp [h]

/-- A run of the process is a run of the configuration. -/
theorem run_sim (X : Ext) (M : Keys Q K W) (p : Prog Q W S) : ∀ s : St K W S, Sim (fun R => Config.run X.P R p.erase s.cfg) s.cfg (run X M p s) := by
  induction p with
  | skip => intro s; exact .of_eq le_rfl (fun _ => rfl)
  | act a => intro s; exact act_sim X a s
  | lookup src q => intro s; exact .of_eq le_rfl (fun _ => rfl)
  | clear => intro s; exact .of_eq le_rfl (fun _ => rfl)
  | use => intro s; exact .of_eq le_rfl (fun _ => rfl)
  | directory => intro s; exact .of_eq le_rfl (fun _ => rfl)
  | raise => intro s; exact .of_eq le_rfl (fun _ => rfl)
  | seq p q ihp ihq =>
    intro s
    have h := ihp s
    have h' := ihq (run X M p s).2
    have e' : ∀ R, Config.run X.P R (.seq p.erase q.erase) s.cfg = if (Config.run X.P R p.erase s.cfg).1 = none then
        Config.run X.P R q.erase (Config.run X.P R p.erase s.cfg).2 else Config.run X.P R p.erase s.cfg := by
      intro R
      rw [Config.run]
      generalize Config.run X.P R p.erase s.cfg = x
      obtain ⟨b, s'⟩ := x
      cases b <;> simp
    rw [run_seq]
    by_cases hn : (run X M p s).1 = none
    · rw [if_pos hn]
      exact h.seq (B := fun R c => Config.run X.P R q.erase c) h' (fun R hR => by
        show Config.run X.P R (.seq p.erase q.erase) s.cfg = _
        rw [e', hR]; simp [hn])
    · rw [if_neg hn]
      exact h.map rfl (fun R hR => by
        show Config.run X.P R (.seq p.erase q.erase) s.cfg = _
        rw [e', hR]; simp [hn])
  | catch_ p q ihp ihq =>
    intro s
    have h := ihp s
    have h' := ihq (run X M p s).2
    have e' : ∀ R, Config.run X.P R (.catch_ p.erase q.erase) s.cfg = if (Config.run X.P R p.erase s.cfg).1 = none then
        Config.run X.P R p.erase s.cfg else Config.run X.P R q.erase (Config.run X.P R p.erase s.cfg).2 := by
      intro R
      rw [Config.run]
      generalize Config.run X.P R p.erase s.cfg = x
      obtain ⟨b, s'⟩ := x
      cases b <;> simp
    rw [run_catch]
    by_cases hn : (run X M p s).1 = none
    · rw [if_pos hn]
      exact h.map rfl (fun R hR => by
        show Config.run X.P R (.catch_ p.erase q.erase) s.cfg = _
        rw [e', hR]; simp [hn])
    · rw [if_neg hn]
      exact h.seq (B := fun R c => Config.run X.P R q.erase c) h' (fun R hR => by
        show Config.run X.P R (.catch_ p.erase q.erase) s.cfg = _
        rw [e', hR]; simp [hn])
  | temp r y b ih =>
    intro s
    show Sim (fun R => Config.run X.P R (.temp r y b.erase) s.cfg) s.cfg _
    rw [run_temp]
    have hlog := makeTemp_log X.P r y s.cfg
    by_cases h0 : (Config.makeTemp X.P r y s.cfg).1 = none
    · rw [if_neg (by simp [h0])]
      obtain ⟨l1, f1, h1⟩ := notify_sim X (s.pushed X r y)
      have hpl : (s.pushed X r y).cfg.log = s.cfg.log := hlog
      rw [hpl] at l1 h1
      have S1 : Sim (fun R => Config.notify R (s.pushed X r y).cfg) s.cfg (notify X (s.pushed X r y)) := ⟨l1, f1, h1⟩
      by_cases h2 : (notify X (s.pushed X r y)).1 = none
      · rw [if_neg (by simp [h2])]
        generalize notify X (s.pushed X r y) = x1 at *
        obtain ⟨l2, f2, h2'⟩ := ih x1.2
        generalize run X M b x1.2 = x2 at *
        obtain ⟨l3, f3, h3⟩ := notify_sim X x2.2.popped
        generalize notify X x2.2.popped = x3 at *
        have hx : (if x3.1 ≠ none then x3 else (x2.1, x3.2)).2 = x3.2 := by split <;> rfl
        have l3 : x2.2.cfg.log.length ≤ x3.2.cfg.log.length := l3
        refine ⟨by rw [hx]; exact l1.trans (l2.trans l3),
          fun i => if i < x1.2.cfg.log.length then f1 i else if i < x2.2.cfg.log.length then f2 i else f3 i, fun g hg => ?_⟩
        rw [hx] at hg
        have e1 : Config.notify (table g) (s.pushed X r y).cfg = (x1.1, x1.2.cfg) :=
          h1 g (fun i hi hi' => by rw [hg i hi (by omega)]; exact if_pos hi')
        have e2 : Config.run X.P (table g) b.erase x1.2.cfg = (x2.1, x2.2.cfg) :=
          h2' g (fun i hi hi' => by rw [hg i (by omega) (by omega)]; simp only; rw [if_neg (by omega), if_pos hi'])
        have e3 : Config.notify (table g) x2.2.popped.cfg = (x3.1, x3.2.cfg) :=
          h3 g (fun i (hi : x2.2.cfg.log.length ≤ i) hi' => by rw [hg i (by omega) hi']; simp only; rw [if_neg (by omega), if_neg (by omega)])
        show Config.run X.P (table g) (.temp r y b.erase) s.cfg = _
        rw [cfg_run_temp, if_neg (by simp [h0])]
        show enterOf X.P (table g) b.erase (Config.notify (table g) (s.pushed X r y).cfg) = _
        rw [e1, enterOf, if_neg (by simp [h2])]
        simp only
        rw [e2]
        show (if (Config.notify (table g) x2.2.popped.cfg).1 ≠ none then Config.notify (table g) x2.2.popped.cfg else
          (x2.1, (Config.notify (table g) x2.2.popped.cfg).2)) = _
        rw [e3]
        by_cases h4 : x3.1 = none <;> simp [h4]
      · rw [if_pos h2]
        refine S1.map rfl (fun R hR => ?_)
        show Config.run X.P R (.temp r y b.erase) s.cfg = _
        rw [cfg_run_temp, if_neg (by simp [h0])]
        show enterOf X.P R b.erase (Config.notify R (s.pushed X r y).cfg) = _
        rw [hR, enterOf, if_pos h2]
        rfl
    · rw [if_pos h0]
      refine .of_eq (by show _ ≤ (Config.makeTemp X.P r y s.cfg).2.2.log.length; rw [hlog]) (fun R => ?_)
      show Config.run X.P R (.temp r y b.erase) s.cfg = _
      rw [cfg_run_temp, if_pos h0]

end Verif.Process

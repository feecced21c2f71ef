import Verif.Config.Threads
import Verif.Config.Props
import Mathlib.Data.List.Induction

/-!
# Threads and the configuration: C102, C103
-/

namespace Verif.Config.Threads

/-! ## Specification, on histories only -/

/-- In how many blocks is the thread after the history? -/
def blocks (t : Nat) : List Act → Int
  | [] => 0
  | .push u :: h => (if u = t then 1 else 0) + blocks t h
  | .leave u :: h => (if u = t then -1 else 0) + blocks t h
  | _ :: h => blocks t h

/-- Does the method change the object? -/
def Op.changes : Op → Prop
  | .set _ => True
  | .reset _ => True
  | _ => False

/-- Threads change the configuration only inside blocks of their own. -/
def ChangesInside (h : List Act) : Prop := ∀ pre t op post, h = pre ++ .look t op :: post → op.changes → 0 < blocks t pre

/-- What `get` gives to a thread that calls it now. -/
def St.view (P : Py) (env : Env) (s : St) (name : String) : Except Err V := getConf P env (s.objs s.top) name

/-! ## Invariant -/

structure Inv (c : Conf) (s : St) : Prop where
  root : s.objs 0 = c
  pos : 0 < s.next
  stack : ∀ o ∈ s.stack, o ≠ 0
  len : s.stack.length = s.inside.length
  found : ∀ t o op, s.mid t = .found o op → op.changes → o ≠ 0
  made : ∀ t o, s.mid t = .made o → o ≠ 0

theorem inv_init (c : Conf) : Inv c (St.init c) := by
  refine ⟨rfl, Nat.one_pos, by simp [St.init], rfl, ?_, ?_⟩
  · intro t o op h; cases h
  · intro t o h; cases h

theorem mid_goto (s : St) (t u : Nat) (m : Mid) : (s.goto t m).mid u = if u = t then m else s.mid u := rfl

theorem Inv.goto {c : Conf} {s : St} (h : Inv c s) (t : Nat) (m : Mid) (hf : ∀ o op, m = .found o op → op.changes → o ≠ 0)
    (hm : ∀ o, m = .made o → o ≠ 0) : Inv c (s.goto t m) := by
  refine ⟨h.root, h.pos, h.stack, h.len, ?_, ?_⟩
  · intro u o op hu
    rw [mid_goto] at hu
    split at hu
    · exact hf o op hu
    · exact h.found u o op hu
  · intro u o hu
    rw [mid_goto] at hu
    split at hu
    · exact hm o hu
    · exact h.made u o hu

theorem Inv.idle {c : Conf} {s : St} (h : Inv c s) (t : Nat) : Inv c (s.goto t .idle) := h.goto t .idle (by intros; contradiction) (by intros; contradiction)

theorem Inv.put {c : Conf} {s : St} (h : Inv c s) {o : Nat} (ho : o ≠ 0) (d : Conf) : Inv c (s.put o d) := by
  refine ⟨?_, h.pos, h.stack, h.len, h.found, h.made⟩
  show (if 0 = o then d else s.objs 0) = c
  rw [if_neg ho.symm]; exact h.root

theorem Inv.new {c : Conf} {s : St} (h : Inv c s) (t : Nat) (d : Conf) : Inv c ({ s.put s.next d with next := s.next + 1 }.goto t (.made s.next)) := by
  have hp := h.put (Nat.pos_iff_ne_zero.1 h.pos) d
  have hn : Inv c { s.put s.next d with next := s.next + 1 } := ⟨hp.root, Nat.succ_pos _, hp.stack, hp.len, hp.found, hp.made⟩
  refine hn.goto t _ (by intros; contradiction) ?_
  intro o ho
  cases ho
  exact Nat.pos_iff_ne_zero.1 h.pos

theorem Inv.perform {c : Conf} {s : St} (P : Py) (env : Env) (h : Inv c s) (t o : Nat) (op : Op) (ho : op.changes → o ≠ 0) :
    Inv c (s.perform P env t o op) := by
  unfold St.perform
  split
  · rename_i n
    have : Inv c { s with reads := s.reads ++ [(t, n, getConf P env (s.objs o) n)] } := ⟨h.root, h.pos, h.stack, h.len, h.found, h.made⟩
    exact this.idle t
  · exact (h.put (ho trivial) _).idle t
  · exact (h.put (ho trivial) _).idle t
  · split
    · exact h.idle t
    · exact (h.put (ho trivial) _).idle t
  · exact h.new t _
  · split
    · exact h.idle t
    · exact h.new t _

theorem perform_inside (P : Py) (env : Env) (s : St) (t o : Nat) (op : Op) : (s.perform P env t o op).inside = s.inside := by
  unfold St.perform
  split <;> (try rfl) <;> split <;> rfl

theorem perform_stack (P : Py) (env : Env) (s : St) (t o : Nat) (op : Op) : (s.perform P env t o op).stack = s.stack := by
  unfold St.perform
  split <;> (try rfl) <;> split <;> rfl

theorem Inv.step {c : Conf} {s s' : St} (P : Py) (env : Env) (h : Inv c s) (a : Act) (hs : s.step P env a = some s')
    (ha : ∀ t op, a = .look t op → op.changes → t ∈ s.inside) : Inv c s' := by
  cases a with
  | look t op =>
    simp only [St.step] at hs
    split at hs
    · cases hs
      refine h.goto t _ ?_ (by intros; contradiction)
      intro o op' e hc
      cases e
      have hin := ha t op rfl hc
      have hl := h.len
      unfold St.top
      cases hst : s.stack with
      | nil => rw [hst] at hl; rw [List.length_eq_zero_iff.1 hl.symm] at hin; cases hin
      | cons a l => exact h.stack a (by rw [hst]; exact List.mem_cons_self)
    · cases hs
  | work t =>
    simp only [St.step] at hs
    split at hs
    · cases hs
      rename_i o op hm
      exact h.perform P env t o op (h.found t o op hm)
    · cases hs
  | push t =>
    simp only [St.step] at hs
    split at hs
    · cases hs
      rename_i o hm
      have : Inv c { s with stack := o :: s.stack, inside := t :: s.inside } := by
        refine ⟨h.root, h.pos, ?_, ?_, h.found, h.made⟩
        · intro p hp
          rcases List.mem_cons.1 hp with rfl | hp
          · exact h.made t p hm
          · exact h.stack p hp
        · show _ + 1 = _ + 1
          rw [h.len]
      exact this.idle t
    · cases hs
  | leave t =>
    simp only [St.step] at hs
    split at hs
    · split at hs
      · cases hs
        rename_i hin
        refine ⟨h.root, h.pos, fun o ho => h.stack o (List.mem_of_mem_tail ho), ?_, h.found, h.made⟩
        show s.stack.tail.length = (s.inside.erase t).length
        rw [List.length_tail, List.length_erase_of_mem hin, h.len]
      · cases hs
    · cases hs

theorem step_count {s s' : St} (P : Py) (env : Env) (a : Act) (hs : s.step P env a = some s') (t : Nat) :
    (s'.inside.count t : Int) = s.inside.count t + blocks t [a] := by
  cases a with
  | look u op =>
    simp only [St.step] at hs
    split at hs
    · cases hs; exact (Int.add_zero _).symm
    · cases hs
  | work u =>
    simp only [St.step] at hs
    split at hs
    · cases hs; rw [perform_inside]; exact (Int.add_zero _).symm
    · cases hs
  | push u =>
    simp only [St.step] at hs
    split at hs
    · cases hs
      show ((u :: s.inside).count t : Int) = _
      rw [List.count_cons]
      simp only [blocks, beq_iff_eq]
      split <;> simp
    · cases hs
  | leave u =>
    simp only [St.step] at hs
    split at hs
    · split at hs
      · cases hs
        rename_i hin
        show ((s.inside.erase u).count t : Int) = _
        simp only [blocks]
        by_cases hut : u = t
        · subst hut
          have := List.count_pos_iff.2 hin
          rw [List.count_erase_self, if_pos rfl]
          omega
        · rw [List.count_erase_of_ne (Ne.symm hut), if_neg hut]
          omega
      · cases hs
    · cases hs

theorem blocks_append (t : Nat) (h k : List Act) : blocks t (h ++ k) = blocks t h + blocks t k := by
  induction h with
  | nil => simp [blocks]
  | cons a h ih => cases a <;> simp only [List.cons_append, blocks, ih] <;> omega

theorem run_append (P : Py) (env : Env) (h k : List Act) : ∀ s : St, s.run P env (h ++ k) = (s.run P env h).bind (fun s' => s'.run P env k) := by
  induction h with
  | nil => intro s; rfl
  | cons a h ih =>
    intro s
    show (s.step P env a).bind (fun s' => s'.run P env (h ++ k)) = ((s.step P env a).bind (fun s' => s'.run P env h)).bind _
    cases s.step P env a with
    | none => rfl
    | some s1 => exact ih s1

/-- `h` leads from the initial state to `s`, with the invariant, and the ghost list counts the blocks. -/
theorem inv_run (P : Py) (env : Env) (c : Conf) (h : List Act) : ∀ s, (St.init c).run P env h = some s → ChangesInside h →
    Inv c s ∧ ∀ t, (s.inside.count t : Int) = blocks t h := by
  induction h using List.reverseRecOn with
  | nil =>
    intro s hs _
    cases hs
    exact ⟨inv_init c, fun t => rfl⟩
  | append_singleton h a ih =>
    intro s hs hc
    rw [run_append] at hs
    obtain ⟨s1, h1, hs⟩ := Option.bind_eq_some_iff.1 hs
    have hs : s1.step P env a = some s := by
      have : (s1.step P env a).bind some = some s := hs
      rwa [Option.bind_fun_some] at this
    obtain ⟨i, hb⟩ := ih s1 h1 (fun pre t op post e => hc pre t op (post ++ [a]) (by rw [e]; simp))
    refine ⟨i.step P env a hs ?_, fun t => ?_⟩
    · intro t op e hch
      have := hc h t op [] (by rw [e]) hch
      rw [← hb] at this
      exact List.count_pos_iff.1 (by omega)
    · rw [step_count P env a hs t, hb, blocks_append]

/-- C102: however many threads enter and leave temporary configurations, in whatever order: as long as they change the configuration only
inside blocks of their own, `CONFIG` itself is never touched, and when all blocks have ended everybody reads what was there before. -/
theorem C102_restored (P : Py) (env : Env) (c : Conf) (h : List Act) (s : St) (hs : (St.init c).run P env h = some s) (hc : ChangesInside h) :
    s.objs 0 = c ∧ ((∀ t, blocks t h = 0) → ∀ name, s.view P env name = getConf P env c name) := by
  obtain ⟨i, hb⟩ := inv_run P env c h s hs hc
  refine ⟨i.root, fun h0 name => ?_⟩
  have hin : s.inside = [] := by
    cases hl : s.inside with
    | nil => rfl
    | cons t l =>
      have h1 := hb t
      rw [h0 t, hl, List.count_cons_self] at h1
      omega
  have hst : s.stack = [] := by
    have := i.len
    rw [hin] at this
    exact List.length_eq_zero_iff.1 this
  unfold St.view St.top
  rw [hst]
  show getConf P env (s.objs 0) name = _
  rw [i.root]

/-! ## Threads that only read -/

/-- The thread of a step. -/
def Act.thread : Act → Nat
  | .look t _ => t
  | .work t => t
  | .push t => t
  | .leave t => t

/-- All that threads other than `t` do is reading. -/
def OthersRead (t : Nat) (h : List Act) : Prop := ∀ a ∈ h, a.thread ≠ t → (∃ u n, a = .look u (.get n)) ∨ ∃ u, a = .work u

/-- The results of the reads of a thread, in order. -/
def St.readsOf (s : St) (t : Nat) : List (String × Except Err V) := (s.reads.filter (fun r => decide (r.1 = t))).map Prod.snd

/-- The same as far as `t` can tell, and nobody else is about to change anything. -/
structure Like (t : Nat) (s s' : St) : Prop where
  objs : s.objs = s'.objs
  stack : s.stack = s'.stack
  next : s.next = s'.next
  mid : s.mid t = s'.mid t
  inside : s.inside = s'.inside
  reads : s.readsOf t = s'.readsOf t
  others : ∀ u, u ≠ t → s.mid u = .idle ∨ ∃ o n, s.mid u = .found o (.get n)

theorem Like.goto {t : Nat} {s s' : St} (h : Like t s s') (m : Mid) : Like t (s.goto t m) (s'.goto t m) := by
  refine ⟨h.objs, h.stack, h.next, ?_, h.inside, h.reads, fun u hu => ?_⟩
  · rw [mid_goto, mid_goto, if_pos rfl, if_pos rfl]
  · rw [mid_goto, if_neg hu]; exact h.others u hu

theorem Like.put {t : Nat} {s s' : St} (h : Like t s s') (o : Nat) (c : Conf) : Like t (s.put o c) (s'.put o c) := by
  refine ⟨?_, h.stack, h.next, h.mid, h.inside, h.reads, h.others⟩
  unfold St.put
  simp only [h.objs]

theorem Like.new {t : Nat} {s s' : St} (h : Like t s s') (c : Conf) :
    Like t ({ s.put s.next c with next := s.next + 1 }.goto t (.made s.next)) ({ s'.put s'.next c with next := s'.next + 1 }.goto t (.made s'.next)) := by
  rw [← h.next]
  have hp := h.put s.next c
  have : Like t { s.put s.next c with next := s.next + 1 } { s'.put s.next c with next := s.next + 1 } :=
    ⟨hp.objs, hp.stack, rfl, hp.mid, hp.inside, hp.reads, hp.others⟩
  exact this.goto _

theorem readsOf_snoc (s : St) (t u : Nat) (n : String) (v : Except Err V) :
    { s with reads := s.reads ++ [(u, n, v)] }.readsOf t = s.readsOf t ++ if u = t then [(n, v)] else [] := by
  show ((s.reads ++ [(u, n, v)]).filter _).map _ = _
  rw [List.filter_append, List.map_append]
  congr 1
  by_cases hu : u = t
  · simp [hu]
  · simp [hu]

theorem Like.perform {t : Nat} {s s' : St} (P : Py) (env : Env) (h : Like t s s') (o : Nat) (op : Op) :
    Like t (s.perform P env t o op) (s'.perform P env t o op) := by
  cases op with
  | get n =>
    show Like t ({ s with reads := s.reads ++ [(t, n, getConf P env (s.objs o) n)] }.goto t .idle)
      ({ s' with reads := s'.reads ++ [(t, n, getConf P env (s'.objs o) n)] }.goto t .idle)
    rw [← h.objs]
    have : Like t { s with reads := s.reads ++ [(t, n, getConf P env (s.objs o) n)] }
        { s' with objs := s.objs, reads := s'.reads ++ [(t, n, getConf P env (s.objs o) n)] } := by
      refine ⟨rfl, h.stack, h.next, h.mid, h.inside, ?_, h.others⟩
      rw [readsOf_snoc, h.reads]
      exact (readsOf_snoc s' t t n _).symm
    exact this.goto _
  | set r =>
    show Like t ((s.put o (applyReq P (s.objs o) r).2.1).goto t .idle) ((s'.put o (applyReq P (s'.objs o) r).2.1).goto t .idle)
    rw [← h.objs]
    exact (h.put o _).goto _
  | reset n =>
    cases n with
    | none => exact (h.put o _).goto _
    | some n =>
      simp only [St.perform]
      split
      · exact h.goto _
      · rw [← h.objs]; exact (h.put o _).goto _
  | temporary r =>
    cases r with
    | none =>
      show Like t ({ s.put s.next (s.objs o) with next := s.next + 1 }.goto t (.made s.next)) ({ s'.put s'.next (s'.objs o) with next := s'.next + 1 }.goto t (.made s'.next))
      rw [← h.objs]
      exact h.new _
    | some r =>
      simp only [St.perform]
      rw [← h.objs]
      split
      · exact h.goto _
      · exact h.new _

theorem Like.own {t : Nat} {s s' s1 : St} (P : Py) (env : Env) (h : Like t s s') (a : Act) (ha : a.thread = t) (hs : s.step P env a = some s1) :
    ∃ s1', s'.step P env a = some s1' ∧ Like t s1 s1' := by
  have htop : s.top = s'.top := by unfold St.top; rw [h.stack]
  cases a with
  | look u op =>
    have ha : u = t := ha
    subst ha
    simp only [St.step] at hs ⊢
    rw [h.mid] at hs
    split at hs
    · cases hs
      rename_i hm
      rw [← htop]
      exact ⟨_, rfl, h.goto _⟩
    · cases hs
  | work u =>
    have ha : u = t := ha
    subst ha
    simp only [St.step] at hs ⊢
    rw [h.mid] at hs
    split at hs
    · cases hs
      exact ⟨_, rfl, h.perform P env _ _⟩
    · cases hs
  | push u =>
    have ha : u = t := ha
    subst ha
    simp only [St.step] at hs ⊢
    rw [h.mid] at hs
    split at hs
    · cases hs
      refine ⟨_, rfl, ?_⟩
      rename_i o _
      have : Like u { s with stack := o :: s.stack, inside := u :: s.inside } { s' with stack := o :: s'.stack, inside := u :: s'.inside } :=
        ⟨h.objs, by rw [h.stack], h.next, h.mid, by rw [h.inside], h.reads, h.others⟩
      exact this.goto _
    · cases hs
  | leave u =>
    have ha : u = t := ha
    subst ha
    simp only [St.step] at hs ⊢
    rw [h.mid] at hs
    split at hs
    · split at hs
      · cases hs
        rename_i hin
        rw [h.inside] at hin
        refine ⟨_, if_pos hin, ?_⟩
        exact ⟨h.objs, by rw [h.stack], h.next, h.mid, by rw [h.inside], h.reads, h.others⟩
      · cases hs
    · cases hs

theorem Like.goto_other {t u : Nat} {s s' : St} (h : Like t s s') (hu : u ≠ t) (m : Mid) (hm : m = .idle ∨ ∃ o n, m = .found o (.get n)) :
    Like t (s.goto u m) s' := by
  refine ⟨h.objs, h.stack, h.next, ?_, h.inside, h.reads, fun v hv => ?_⟩
  · rw [mid_goto, if_neg hu.symm]; exact h.mid
  · rw [mid_goto]
    split
    · exact hm
    · exact h.others v hv

theorem Like.other {t : Nat} {s s' s1 : St} (P : Py) (env : Env) (h : Like t s s') (a : Act) (ha : a.thread ≠ t)
    (hr : (∃ u n, a = .look u (.get n)) ∨ ∃ u, a = .work u) (hs : s.step P env a = some s1) : Like t s1 s' := by
  rcases hr with ⟨u, n, rfl⟩ | ⟨u, rfl⟩
  · simp only [St.step] at hs
    split at hs
    · cases hs
      exact h.goto_other ha _ (Or.inr ⟨_, _, rfl⟩)
    · cases hs
  · simp only [St.step] at hs
    split at hs
    · cases hs
      rename_i o op hm
      rcases h.others u ha with h' | ⟨o', n, h'⟩
      · rw [h'] at hm; cases hm
      · rw [h'] at hm; cases hm
        have : Like t { s with reads := s.reads ++ [(u, n, getConf P env (s.objs o) n)] } s' := by
          refine ⟨h.objs, h.stack, h.next, h.mid, h.inside, ?_, h.others⟩
          rw [readsOf_snoc, if_neg (show u ≠ t from ha), List.append_nil]
          exact h.reads
        exact this.goto_other ha _ (Or.inl rfl)
    · cases hs

theorem like_run {t : Nat} (P : Py) (env : Env) (h : List Act) : ∀ s s' s1 : St, Like t s s' → OthersRead t h → s.run P env h = some s1 →
    ∃ s1', s'.run P env (h.filter (fun a => decide (a.thread = t))) = some s1' ∧ Like t s1 s1' := by
  induction h with
  | nil =>
    intro s s' s1 hl _ hs
    cases hs
    exact ⟨s', rfl, hl⟩
  | cons a h ih =>
    intro s s' s1 hl ho hs
    obtain ⟨s2, h2, hs⟩ := Option.bind_eq_some_iff.1 hs
    have ho' : OthersRead t h := fun b hb => ho b (List.mem_cons_of_mem _ hb)
    by_cases ha : a.thread = t
    · obtain ⟨s2', h2', hl2⟩ := hl.own P env a ha h2
      obtain ⟨s1', h1, h2⟩ := ih s2 s2' s1 hl2 ho' hs
      refine ⟨s1', ?_, h2⟩
      rw [List.filter_cons, if_pos (decide_eq_true ha)]
      show (s'.step P env a).bind _ = _
      rw [h2']
      exact h1
    · obtain ⟨s1', h1, h2⟩ := ih s2 s' s1 (hl.other P env a ha (ho a List.mem_cons_self ha) h2) ho' hs
      refine ⟨s1', ?_, h2⟩
      rw [List.filter_cons, if_neg (by simp [ha])]
      exact h1

/-- C103 (`_partial`: see `C103_refuted` for threads that do more): while the other threads do nothing but read, from any state on, a thread
reads exactly what it would read alone. -/
theorem C103_readers_partial (P : Py) (env : Env) (t : Nat) (s s1 : St) (h : List Act) (hi : ∀ u, u ≠ t → s.mid u = .idle) (ho : OthersRead t h)
    (hs : s.run P env h = some s1) :
    ∃ s1', s.run P env (h.filter (fun a => decide (a.thread = t))) = some s1' ∧ s1.readsOf t = s1'.readsOf t := by
  obtain ⟨s1', h1, h2⟩ := like_run P env h s s s1 ⟨rfl, rfl, rfl, rfl, rfl, rfl, fun u hu => Or.inl (hi u hu)⟩ ho hs
  exact ⟨s1', h1, h2.reads⟩

/-! ## What goes wrong -/

namespace Demo

/-- `config.temporary(name=value)`, up to and including the entry of the block -/
def enter (t : Nat) (name : String) (v : V) : List Act := [.look t (.temporary (some (.pos name [v] false))), .work t, .push t]

def read (t : Nat) (name : String) : List Act := [.look t (.get name), .work t]

def assign (t : Nat) (name : String) (v : V) : List Act := [.look t (.set (.pos name [v] false)), .work t]

def pol : String := "cache-policy"

/-- Thread 0 and thread 1 choose a policy each; thread 0 leaves first; thread 1 reads. -/
def crossed : List Act := enter 0 pol (.str "off".toList) ++ enter 1 pol (.str "temporary".toList) ++ [.leave 0] ++ read 1 pol

/-- Thread 1 sets the policy for good while thread 0 is in a block; thread 0 leaves; thread 1 reads. -/
def lost : List Act := enter 0 "maximum-cache-size" (.str "1G".toList) ++ assign 1 pol (.str "off".toList) ++ [.leave 0] ++ read 1 pol

end Demo

/-- C103 is false: two threads choose a cache policy each for a block; the one that entered first leaves first, and the other one, still in
its block, reads the policy chosen by the first. -/
theorem C103_refuted : ∃ h s, (St.init (DEFAULTS py)).run py (fun _ => none) h = some s ∧ ChangesInside h ∧ blocks 1 h = 1 ∧
    h = Demo.enter 0 Demo.pol (.str "off".toList) ++ Demo.enter 1 Demo.pol (.str "temporary".toList) ++ [.leave 0] ++ Demo.read 1 Demo.pol ∧
    s.readsOf 1 = [(Demo.pol, .ok (.str "off".toList))] := by
  refine ⟨Demo.crossed, _, rfl, ?_, rfl, rfl, rfl⟩
  intro pre t op post e hc
  have : Act.look t op ∈ Demo.crossed := by rw [e]; simp
  simp [Demo.crossed, Demo.enter, Demo.read] at this
  rcases this with ⟨_, rfl⟩ | ⟨_, rfl⟩ | ⟨_, rfl⟩ <;> exact hc.elim

/-- A thread sets an option outside of any block of its own while another thread is in a block: when that one leaves, the setting is gone. -/
theorem C103_lost_refuted : ∃ h s, (St.init (DEFAULTS py)).run py (fun _ => none) h = some s ∧ (∀ t, blocks t h = 0) ∧
    h = Demo.enter 0 "maximum-cache-size" (.str "1G".toList) ++ Demo.assign 1 Demo.pol (.str "off".toList) ++ [.leave 0] ++ Demo.read 1 Demo.pol ∧
    s.readsOf 1 = [(Demo.pol, .ok (.str "user".toList))] := by
  refine ⟨Demo.lost, _, rfl, ?_, rfl, rfl⟩
  intro t
  show (if 0 = t then (1 : Int) else 0) + ((if 0 = t then (-1 : Int) else 0) + 0) = 0
  split <;> rfl

/-- Threads whose blocks cross, changing options inside: at the end the configuration is back. -/
theorem demo_inside : ∃ h s, (St.init (DEFAULTS py)).run py (fun _ => none) h = some s ∧ ChangesInside h ∧ (∀ t, blocks t h = 0) ∧
    h = Demo.enter 0 Demo.pol (.str "off".toList) ++ Demo.enter 1 Demo.pol (.str "temporary".toList) ++ [.leave 0] ++
      Demo.assign 1 Demo.pol (.str "off".toList) ++ [.leave 1] ++ Demo.read 2 Demo.pol ∧
    s.readsOf 2 = [(Demo.pol, .ok (.str "user".toList))] := by
  refine ⟨_, _, rfl, ?_, ?_, rfl, rfl⟩
  · intro pre t op post e hc
    match pre, e with
    | [], e => cases e; exact hc.elim
    | [_], e => cases e
    | [_, _], e => cases e
    | [_, _, _], e => cases e; exact hc.elim
    | [_, _, _, _], e => cases e
    | [_, _, _, _, _], e => cases e
    | [_, _, _, _, _, _], e => cases e
    | [_, _, _, _, _, _, _], e => cases e; decide
    | [_, _, _, _, _, _, _, _], e => cases e
    | [_, _, _, _, _, _, _, _, _], e => cases e
    | [_, _, _, _, _, _, _, _, _, _], e => cases e; exact hc.elim
    | [_, _, _, _, _, _, _, _, _, _, _], e => cases e
    | [_, _, _, _, _, _, _, _, _, _, _, _], e => cases e
    | _ :: _ :: _ :: _ :: _ :: _ :: _ :: _ :: _ :: _ :: _ :: _ :: _ :: _, e => cases e
  · intro t
    show (if 0 = t then (1 : Int) else 0) + ((if 1 = t then (1 : Int) else 0) + ((if 0 = t then (-1 : Int) else 0) + ((if 1 = t then (-1 : Int) else 0) + 0))) = 0
    split <;> split <;> rfl

/-- Reading threads around a thread in a block. -/
theorem demo_readers : ∃ h s, (St.init (DEFAULTS py)).run py (fun _ => none) h = some s ∧ OthersRead 0 h ∧
    h = Demo.read 1 Demo.pol ++ Demo.enter 0 Demo.pol (.str "off".toList) ++ [.look 1 (.get Demo.pol)] ++ Demo.read 0 Demo.pol ++ [.leave 0, .work 1] ∧
    s.readsOf 0 = [(Demo.pol, .ok (.str "off".toList))] ∧ (s.readsOf 1).length = 2 := by
  refine ⟨_, _, rfl, ?_, rfl, rfl, rfl⟩
  intro a ha
  simp [Demo.read, Demo.enter] at ha
  rcases ha with rfl | rfl | rfl | rfl | rfl | rfl | rfl | rfl | rfl | rfl <;> simp [Act.thread]

/-- `C102_restored` -/
example : ∃ (h : List Act) (s : St), h.length = 12 ∧ (St.init (DEFAULTS py)).run py (fun _ => none) h = some s ∧
    s.view py (fun _ => none) Demo.pol = .ok (.str "user".toList) := by
  obtain ⟨h, s, h1, h2, h3, h4, _⟩ := demo_inside
  exact ⟨h, s, by rw [h4]; rfl, h1, ((C102_restored py (fun _ => none) (DEFAULTS py) h s h1 h2).2 h3 Demo.pol).trans (by decide +kernel)⟩

/-- `C103_readers_partial` -/
example : ∃ (h : List Act) (s1 s1' : St), (h.filter (fun a => decide (a.thread = 0))).length < h.length ∧
    (St.init (DEFAULTS py)).run py (fun _ => none) h = some s1 ∧
    (St.init (DEFAULTS py)).run py (fun _ => none) (h.filter (fun a => decide (a.thread = 0))) = some s1' ∧ s1.readsOf 0 = s1'.readsOf 0 := by
  obtain ⟨h, s, h1, h2, h3, _⟩ := demo_readers
  obtain ⟨s', h4, h5⟩ := C103_readers_partial py (fun _ => none) 0 (St.init (DEFAULTS py)) s h (fun _ _ => rfl) h2 h1
  exact ⟨h, s, s', by rw [h3]; decide, h1, h4, h5⟩

end Verif.Config.Threads

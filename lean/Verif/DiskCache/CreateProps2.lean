import Verif.DiskCache.CreateProps

/-!
# Recovery after crashes, one creation for many requests, and what goes wrong when files are removed meanwhile
-/

namespace Verif.DiskCache.Create

/-- `p` runs alone, some number of steps. -/
def Alone (p : Nat) (s s' : Sys) : Prop := ∃ n, s' = s.run (List.replicate n (.go p))

theorem Alone.refl (p : Nat) (s : Sys) : Alone p s s := ⟨0, rfl⟩

theorem Alone.step {p : Nat} {s s' : Sys} (h : Alone p (s.go p) s') : Alone p s s' := by
  obtain ⟨n, h⟩ := h
  exact ⟨n + 1, h⟩

theorem Alone.trans {p : Nat} {s s' s'' : Sys} (h : Alone p s s') (h' : Alone p s' s'') : Alone p s s'' := by
  obtain ⟨n, h⟩ := h
  obtain ⟨m, h'⟩ := h'
  refine ⟨n + m, ?_⟩
  rw [h', h, ← List.replicate_append_replicate]
  unfold Sys.run
  rw [List.foldl_append]

theorem pc_self (s : Sys) (p : Nat) (c : Pc) : (s.goto p c).pc p = c := by rw [pc_goto, if_pos rfl]

/-- The writing loop. -/
theorem alone_writing (p i f : Nat) (rest : Body) : ∀ (s : Sys) (off : Nat), s.pc p = .writing i f off rest → (s.data f).length = off →
    ∃ s', Alone p s s' ∧ s'.pc p = .rename i ∧ s'.data f = s.data f ++ rest ∧ s'.tmp = s.tmp ∧ s'.row = s.row := by
  induction rest with
  | nil =>
    intro s off hp _
    refine ⟨s.goto p (.rename i), Alone.step ?_, pc_self _ _ _, (List.append_nil _).symm, rfl, rfl⟩
    rw [show s.go p = s.goto p (.rename i) by unfold Sys.go; rw [hp]]
    exact Alone.refl _ _
  | cons c rest ih =>
    intro s off hp hl
    have hgo : s.go p = { s with data := Function.update s.data f (writeAt (s.data f) off c) }.goto p (.writing i f (off + 1) rest) := by
      unfold Sys.go; rw [hp]
    have hw : writeAt (s.data f) off c = s.data f ++ [c] := by
      unfold writeAt
      rw [← hl, List.take_length, Nat.sub_self, List.drop_eq_nil_of_le (Nat.le_succ _)]
      simp
    have hd : (s.go p).data f = s.data f ++ [c] := by
      rw [hgo]
      show Function.update s.data f _ f = _
      rw [Function.update_self, hw]
    obtain ⟨s', h1, h2, h3, h4, h5⟩ := ih (s.go p) (off + 1) (by rw [hgo]; exact pc_self _ _ _) (by rw [hd, List.length_append, hl]; rfl)
    refine ⟨s', h1.step, h2, ?_, ?_, ?_⟩
    · rw [h3, hd, List.append_assoc]; rfl
    · rw [h4, hgo]; rfl
    · rw [h5, hgo]; rfl

/-- From an open temporary file to the end. -/
theorem alone_finish (p i f : Nat) (b : Body) (s : Sys) (hp : s.pc p = .rename i) (ht : s.tmp = some f) (hd : s.data f = b) (r : Option Nat)
    (hr : s.row = some r) : ∃ s', Alone p s s' ∧ s'.pc p = .done ∧ s'.content = some b ∧ s'.row = some (some b.length) := by
  obtain ⟨s1, e1⟩ : ∃ s1, s1 = { s with file := some f, tmp := none }.goto p (.update i) := ⟨_, rfl⟩
  have g1 : s.go p = s1 := by
    rw [e1]
    unfold Sys.go
    rw [hp]
    show s.publish p i = _
    unfold Sys.publish
    rw [ht]
  have p1 : s1.pc p = .update i := by rw [e1]; exact pc_self _ _ _
  have f1 : s1.file = some f := by rw [e1]; rfl
  have d1 : s1.data f = b := by rw [e1]; exact hd
  have r1 : s1.row = some r := by rw [e1]; exact hr
  clear e1
  obtain ⟨s2, e2⟩ : ∃ s2, s2 = { s1 with row := s1.row.map (fun _ => some (s1.data f).length) }.goto p (.release i) := ⟨_, rfl⟩
  have g2 : s1.go p = s2 := by
    rw [e2]
    unfold Sys.go
    rw [p1]
    show s1.record p i = _
    unfold Sys.record
    split
    · rename_i h; rw [f1] at h; cases h
    · rename_i f' h
      rw [f1] at h; cases h; rfl
  have p2 : s2.pc p = .release i := by rw [e2]; exact pc_self _ _ _
  have f2 : s2.file = some f := by rw [e2]; exact f1
  have d2 : s2.data f = b := by rw [e2]; exact d1
  have r2 : s2.row = some (some b.length) := by
    rw [e2]
    show s1.row.map _ = _
    rw [r1, d1]; rfl
  clear e2
  have g3 : s2.go p = (s2.unlock i).goto p .unlink := by unfold Sys.go; rw [p2]
  obtain ⟨s3, e3⟩ : ∃ s3, s3 = (s2.unlock i).goto p .unlink := ⟨_, rfl⟩
  rw [← e3] at g3
  have p3 : s3.pc p = .unlink := by rw [e3]; exact pc_self _ _ _
  have g4 : s3.go p = { s3 with lock := none }.goto p .done := by unfold Sys.go; rw [p3]
  refine ⟨s3.go p, Alone.step ?_, ?_, ?_, ?_⟩
  · rw [g1]
    refine Alone.step ?_
    rw [g2]
    refine Alone.step ?_
    rw [g3]
    exact Alone.step (Alone.refl _ _)
  · rw [g4]; exact pc_self _ _ _
  · have hf : (s3.go p).file = some f := by rw [g4, e3]; exact f2
    have hdd : (s3.go p).data f = b := by rw [g4, e3]; exact d2
    unfold Sys.content
    rw [hf]
    exact congrArg some hdd
  · rw [g4, e3]; exact r2

theorem alone_create (p : Nat) (b : Body) (s : Sys) (hp : s.pc p = .look2) (hf : s.file = none) (hl : ∀ i, s.locked i = none)
    (hb : (s.procs p).body = b) (r : Option Nat) (hr : s.row = some r) :
    ∃ s', Alone p s s' ∧ s'.pc p = .done ∧ s'.content = some b ∧ s'.row = some (some b.length) := by
  obtain ⟨s1, e1⟩ : ∃ s1, s1 = s.goto p .openLock := ⟨_, rfl⟩
  have g1 : s.go p = s1 := by
    unfold Sys.go
    rw [hp, e1]
    simp only
    rw [if_neg (by rw [hf]; simp)]
  have p1 : s1.pc p = .openLock := by rw [e1]; exact pc_self _ _ _
  have f1 : s1.file = none := by rw [e1]; exact hf
  have l1 : ∀ i, s1.locked i = none := by rw [e1]; exact hl
  have b1 : (s1.procs p).body = b := by rw [e1, body_goto]; exact hb
  have r1 : s1.row = some r := by rw [e1]; exact hr
  clear e1
  obtain ⟨i, s2, g2, p2, f2, l2, b2, r2⟩ : ∃ i s2, s1.go p = s2 ∧ s2.pc p = .tryLock i ∧ s2.file = none ∧ (∀ i, s2.locked i = none) ∧ (s2.procs p).body = b ∧ s2.row = some r := by
    have g2 : s1.go p = s1.openLock p := by unfold Sys.go; rw [p1]
    unfold Sys.openLock at g2
    cases hlk : s1.lock with
    | some i =>
      rw [hlk] at g2
      exact ⟨i, _, g2, pc_self _ _ _, f1, l1, by rw [body_goto]; exact b1, r1⟩
    | none =>
      rw [hlk] at g2
      exact ⟨_, _, g2, pc_self _ _ _, f1, l1, by rw [body_goto]; exact b1, r1⟩
  obtain ⟨s3, e3⟩ : ∃ s3, s3 = { s2 with locked := Function.update s2.locked i (some p) }.goto p (.check i) := ⟨_, rfl⟩
  have g3 : s2.go p = s3 := by
    rw [e3]
    unfold Sys.go
    rw [p2]
    simp only
    rw [if_pos (by rw [l2 i]; rfl)]
  have p3 : s3.pc p = .check i := by rw [e3]; exact pc_self _ _ _
  have f3 : s3.file = none := by rw [e3]; exact f2
  have b3 : (s3.procs p).body = b := by rw [e3, body_goto]; exact b2
  have r3 : s3.row = some r := by rw [e3]; exact r2
  clear e3
  obtain ⟨s4, e4⟩ : ∃ s4, s4 = s3.goto p (.create i) := ⟨_, rfl⟩
  have g4 : s3.go p = s4 := by
    unfold Sys.go
    rw [p3, e4]
    simp only
    rw [if_neg (by rw [f3]; simp)]
  have p4 : s4.pc p = .create i := by rw [e4]; exact pc_self _ _ _
  have b4 : (s4.procs p).body = b := by rw [e4, body_goto]; exact b3
  have r4 : s4.row = some r := by rw [e4]; exact r3
  clear e4
  obtain ⟨f, s5, g5, p5, t5, d5, r5⟩ : ∃ f s5, s4.go p = s5 ∧ s5.pc p = .writing i f 0 b ∧ s5.tmp = some f ∧ s5.data f = [] ∧ s5.row = some r := by
    have g5 : s4.go p = s4.openTmp p i := by unfold Sys.go; rw [p4]
    unfold Sys.openTmp at g5
    rw [b4] at g5
    cases htk : s4.tmp with
    | some f =>
      rw [htk] at g5
      exact ⟨f, _, g5, pc_self _ _ _, rfl, Function.update_self _ _ _, r4⟩
    | none =>
      rw [htk] at g5
      exact ⟨_, _, g5, pc_self _ _ _, rfl, Function.update_self _ _ _, r4⟩
  obtain ⟨s6, a6, p6, d6, t6, r6⟩ := alone_writing p i f b s5 0 p5 (by rw [d5]; rfl)
  obtain ⟨s7, a7, h1, h2, h3⟩ := alone_finish p i f b s6 p6 (by rw [t6]; exact t5) (by rw [d6, d5]; rfl) r (by rw [r6]; exact r5)
  refine ⟨s7, Alone.step ?_, h1, h2, h3⟩
  rw [g1]
  refine Alone.step ?_
  rw [g2]
  refine Alone.step ?_
  rw [g3]
  refine Alone.step ?_
  rw [g4]
  refine Alone.step ?_
  rw [g5]
  exact a6.trans a7

/-- C58 (`_partial`: the size may be missing when the file was already there, see `C58_refuted`): after any execution with any number of
crashes and failures that left nobody at work, a request that runs through ends with the path of a complete, registered file; if the
file was missing, or is to be regenerated, it is made and registered with its size; otherwise file and recorded size stay as they were. -/
theorem C58_recovers_partial (h : List Act) (hc : Calm Sys.init h) (hq : ∀ q, ((Sys.init.run h).pc q).busy = false) (p : Nat)
    (hp : ((Sys.init.run h).pc p).ended = true) (force : Bool) (body : Body) :
    ∃ n s', s' = (Sys.init.run (h ++ [.start p force body])).run (List.replicate n (.go p)) ∧ s'.pc p = .done ∧
      (∃ c, s'.content = some c ∧ Unbroken (h ++ [.start p force body]) c) ∧ s'.row.isSome = true ∧
      ((Sys.init.run h).content = none ∨ force = true → s'.content = some body ∧ s'.row = some (some body.length)) ∧
      (force = false → ∀ c, (Sys.init.run h).content = some c → s'.content = some c ∧ ∀ r, (Sys.init.run h).row = some r → s'.row = some r) := by
  have g := good_run good_init h hc
  rw [List.nil_append] at g
  have hrun : Sys.init.run (h ++ [.start p force body]) = (Sys.init.run h).start p force body := by
    unfold Sys.run; rw [List.foldl_append]; rfl
  rw [hrun]
  generalize Sys.init.run h = s at *
  have hlk : ∀ i, s.locked i = none := by
    intro i
    cases hi : s.locked i with
    | none => rfl
    | some q =>
      have h1 := (g.held q i).2 hi
      have h2 := hq q
      revert h1 h2
      cases s.pc q <;> simp [Pc.held, Pc.busy]
  have hcomp : Unbroken (h ++ [.start p force body]) body := ⟨p, force, List.mem_append_right _ (List.mem_singleton.2 rfl)⟩
  obtain ⟨s0, e0⟩ : ∃ s0, s0 = s.start p force body := ⟨_, rfl⟩
  rw [← e0]
  have e0' : s0 = { s with procs := Function.update s.procs p ⟨.register, force, body⟩ } := by
    rw [e0]; unfold Sys.start; rw [if_pos hp]
  have pr0 : s0.procs p = ⟨.register, force, body⟩ := by
    rw [e0']; exact Function.update_self _ _ _
  have p0 : s0.pc p = .register := congrArg Proc.pc pr0
  have f0 : s0.file = s.file := by rw [e0']
  have d0 : s0.data = s.data := by rw [e0']
  have l0 : ∀ i, s0.locked i = none := by rw [e0']; exact hlk
  have r0 : s0.row = s.row := by rw [e0']
  clear e0 e0'
  obtain ⟨s1, e1⟩ : ∃ s1, s1 = s0.enter.goto p .look := ⟨_, rfl⟩
  have g1 : s0.go p = s1 := by unfold Sys.go; rw [p0, e1]
  have p1 : s1.pc p = .look := by rw [e1]; exact pc_self _ _ _
  have b1 : (s1.procs p).body = body := by rw [e1, body_goto]; exact congrArg Proc.body pr0
  have fo1 : (s1.procs p).force = force := by
    rw [e1]
    show (Function.update s0.procs p _ p).force = _
    rw [Function.update_self]
    exact congrArg Proc.force pr0
  have f1 : s1.file = s.file := by rw [e1]; exact f0
  have d1 : s1.data = s.data := by rw [e1]; exact d0
  have l1 : ∀ i, s1.locked i = none := by rw [e1]; exact l0
  obtain ⟨r, r1, rk⟩ : ∃ r, s1.row = some r ∧ ∀ r', s.row = some r' → r = r' := by
    rw [e1]
    refine ⟨_, rfl, fun r' hr' => ?_⟩
    rw [r0, hr']; rfl
  clear e1
  -- what remains when the file is not there
  have make : (s.content = none ∨ force = true) → ∀ s2, Alone p s0 s2 → s2.pc p = .look2 → s2.file = none → (∀ i, s2.locked i = none) → (s2.procs p).body = body → s2.row.isSome = true →
      ∃ n s', s' = s0.run (List.replicate n (.go p)) ∧ s'.pc p = .done ∧
      (∃ c, s'.content = some c ∧ Unbroken (h ++ [.start p force body]) c) ∧ s'.row.isSome = true ∧
      (s.content = none ∨ force = true → s'.content = some body ∧ s'.row = some (some body.length)) ∧
      (force = false → ∀ c, s.content = some c → s'.content = some c ∧ ∀ r, s.row = some r → s'.row = some r) := by
    intro hm s2 a2 p2 f2 l2 b2 r2
    obtain ⟨r, r2⟩ := Option.isSome_iff_exists.1 r2
    obtain ⟨s', a', h1, h2, h3⟩ := alone_create p body s2 p2 f2 l2 b2 r r2
    obtain ⟨n, hn⟩ := a2.trans a'
    refine ⟨n, s', hn, h1, ⟨body, h2, hcomp⟩, by rw [h3]; rfl, fun _ => ⟨h2, h3⟩, fun hfa c hsc => ?_⟩
    rcases hm with hm | hm
    · rw [hsc] at hm; cases hm
    · rw [hfa] at hm; cases hm
  cases hf : s.file with
  | none =>
    have g2 : s1.go p = s1.goto p .look2 := by
      unfold Sys.go
      rw [p1]
      simp only
      rw [if_neg (by rw [f1, hf]; simp)]
    refine make (Or.inl (by unfold Sys.content; rw [hf]; rfl)) (s1.goto p .look2) (Alone.step ?_) (pc_self _ _ _) (by show s1.file = none; rw [f1, hf]) l1 (by rw [body_goto]; exact b1)
      (by show s1.row.isSome = true; rw [r1]; rfl)
    rw [g1]
    refine Alone.step ?_
    rw [g2]
    exact Alone.refl _ _
  | some f =>
    cases hfo : force with
    | true =>
      rw [hfo] at make fo1
      have g2 : s1.go p = s1.goto p .dropFile := by
        unfold Sys.go
        rw [p1]
        simp only
        rw [if_pos (by rw [f1, hf, fo1]; rfl)]
      have g3 : (s1.goto p .dropFile).go p = { s1.goto p .dropFile with file := none }.goto p .dropRow := by
        unfold Sys.go; rw [pc_self]
      obtain ⟨s3, e3⟩ : ∃ s3, s3 = { s1.goto p .dropFile with file := none }.goto p .dropRow := ⟨_, rfl⟩
      rw [← e3] at g3
      have p3 : s3.pc p = .dropRow := by rw [e3]; exact pc_self _ _ _
      have f3 : s3.file = none := by rw [e3]; rfl
      have l3 : ∀ i, s3.locked i = none := by rw [e3]; exact l1
      have b3 : (s3.procs p).body = body := by
        rw [e3, body_goto]
        show ((s1.goto p .dropFile).procs p).body = body
        rw [body_goto]; exact b1
      clear e3
      have g4 : s3.go p = { s3 with row := none }.goto p .register2 := by unfold Sys.go; rw [p3]
      obtain ⟨s4, e4⟩ : ∃ s4, s4 = { s3 with row := none }.goto p .register2 := ⟨_, rfl⟩
      rw [← e4] at g4
      have p4 : s4.pc p = .register2 := by rw [e4]; exact pc_self _ _ _
      have f4 : s4.file = none := by rw [e4]; exact f3
      have l4 : ∀ i, s4.locked i = none := by rw [e4]; exact l3
      have b4 : (s4.procs p).body = body := by rw [e4, body_goto]; exact b3
      clear e4
      have g5 : s4.go p = s4.enter.goto p .look2 := by unfold Sys.go; rw [p4]
      refine make (Or.inr rfl) (s4.enter.goto p .look2) (Alone.step ?_) (pc_self _ _ _) f4 l4 (by rw [body_goto]; exact b4) rfl
      rw [g1]
      refine Alone.step ?_
      rw [g2]
      refine Alone.step ?_
      rw [g3]
      refine Alone.step ?_
      rw [g4]
      refine Alone.step ?_
      rw [g5]
      exact Alone.refl _ _
    | false =>
      rw [hfo] at fo1
      have g2 : s1.go p = s1.goto p .look2 := by
        unfold Sys.go
        rw [p1]
        simp only
        rw [if_neg (by rw [fo1]; simp)]
      obtain ⟨s2, e2⟩ : ∃ s2, s2 = s1.goto p .look2 := ⟨_, rfl⟩
      rw [← e2] at g2
      have p2 : s2.pc p = .look2 := by rw [e2]; exact pc_self _ _ _
      have f2 : s2.file = some f := by rw [e2]; show s1.file = _; rw [f1, hf]
      have d2 : s2.data = s.data := by rw [e2]; exact d1
      have r2 : s2.row = some r := by rw [e2]; exact r1
      clear e2
      have g3 : s2.go p = s2.goto p .done := by
        unfold Sys.go
        rw [p2]
        simp only
        rw [if_pos (by rw [f2]; rfl)]
      refine ⟨3, s2.goto p .done, ?_, pc_self _ _ _, ⟨s.data f, ?_, (g.whole f hf).snoc⟩, by show s2.row.isSome = true; rw [r2]; rfl, ?_, ?_⟩
      · show _ = ((s0.go p).go p).go p
        rw [g1, g2, g3]
      · unfold Sys.content
        show s2.file.map s2.data = _
        rw [f2, d2]; rfl
      · rintro (hn | hn)
        · unfold Sys.content at hn
          rw [hf] at hn; cases hn
        · cases hn
      · intro _ c hsc
        refine ⟨?_, fun r' hr' => ?_⟩
        · rw [← hsc]
          unfold Sys.content
          show s2.file.map s2.data = _
          rw [f2, d2, hf]
        · show s2.row = _
          rw [r2, rk r' hr']

theorem pc_go_other (s : Sys) {p q : Nat} (hq : q ≠ p) : (s.go p).pc q = s.pc q := by
  have hg : ∀ (s : Sys) c, (s.goto p c).pc q = s.pc q := fun s c => by rw [pc_goto, if_neg hq]
  unfold Sys.go Sys.openLock Sys.openTmp Sys.publish Sys.record
  split <;> (try rfl) <;> (try exact hg _ _) <;> (split <;> exact hg _ _)

/-- `p` does `n` steps. -/
def steps (p n : Nat) : List Act := List.replicate n (.go p)

/-- A crash between the renaming and the table: the next request returns the file and leaves it registered without a size. -/
theorem C58_refuted : ∃ h s', Calm Sys.init h ∧ (∀ q, ((Sys.init.run h).pc q).ended = true) ∧
    s' = ((Sys.init.run h).act (.start 0 false [7])).run (steps 0 3) ∧ s'.pc 0 = .done ∧ s'.content = some [7] ∧ s'.row = some none := by
  refine ⟨Act.start 0 false [7] :: steps 0 10 ++ [.crash 0], _, ?_, ?_, rfl, by decide +kernel, by decide +kernel, by decide +kernel⟩
  · have : Lasting Sys.init (Act.start 0 false [7] :: steps 0 10 ++ [.crash 0]) := by
      refine ⟨rfl, rfl, rfl, rfl, rfl, rfl, rfl, rfl, rfl, rfl, rfl, rfl, trivial⟩
    exact this.calm
  · intro q
    by_cases hq : q = 0
    · subst hq; decide +kernel
    · have key : ∀ h : List Act, (∀ a ∈ h, a = .go 0 ∨ a = .start 0 false [7] ∨ a = .crash 0) → ∀ s : Sys, (s.run h).pc q = s.pc q := by
        intro h
        induction h with
        | nil => intro _ s; rfl
        | cons a h ih =>
          intro hall s
          have := ih (fun b hb => hall b (List.mem_cons_of_mem _ hb)) (s.act a)
          show ((s.act a).run h).pc q = s.pc q
          rw [this]
          have hg : ∀ (s : Sys) c, (s.goto 0 c).pc q = s.pc q := fun s c => by rw [pc_goto, if_neg hq]
          rcases hall a (List.mem_cons_self) with e | e | e
          · subst e
            show (s.go 0).pc q = s.pc q
            exact pc_go_other s hq
          · subst e
            show (s.start 0 false [7]).pc q = s.pc q
            unfold Sys.start
            split
            · unfold Sys.pc
              show (Function.update s.procs 0 _ q).pc = _
              rw [Function.update_of_ne hq]
            · rfl
          · subst e
            exact hg _ _
      rw [key _ ?_]
      · rfl
      · intro a ha
        simp only [List.cons_append, List.mem_cons, List.mem_append, List.not_mem_nil, or_false] at ha
        rcases ha with e | e | e
        · exact .inr (.inl e)
        · exact .inl (List.eq_of_mem_replicate e)
        · exact .inr (.inr e)

/-- A process that waited for the lock file of process 0 gets it, process 0 then unlinks its name, and its next request locks a new one:
after a regeneration by process 2 both write the temporary file. -/
def mixture : List Act :=
  [.start 0 false [1, 1], .start 1 false [2, 2]] ++ steps 0 4 ++ steps 1 4 ++ steps 0 9 ++ [.start 2 true [3, 3]] ++ steps 2 3 ++ steps 1 4 ++ steps 0 1 ++
    [.start 0 false [1, 1]] ++ steps 0 8 ++ steps 1 3

/-- C57 refuted: three processes, nothing but calls of `cache_file`, one of them with `force`; no crash and no failure. The path ends up
with a mixture of two contents that nobody wrote. -/
theorem C57_refuted : ∃ h c, (∀ a ∈ h, (∃ p f b, a = .start p f b) ∨ ∃ p, a = .go p) ∧ (Sys.init.run h).content = some c ∧ ¬Unbroken h c := by
  refine ⟨mixture, [1, 2], ?_, by decide +kernel, ?_⟩
  · intro a ha
    have : ∀ a ∈ mixture, (match a with | .start .. => true | .go _ => true | _ => false) = true := by decide +kernel
    have := this a ha
    cases a with
    | start p f b => exact .inl ⟨p, f, b, rfl⟩
    | go p => exact .inr ⟨p, rfl⟩
    | _ => cases this
  · rintro ⟨p, f, hm⟩
    have : ∀ a ∈ mixture, (match a with | .start _ _ b => b != [1, 2] | _ => true) = true := by decide +kernel
    exact absurd (this _ hm) (by simp)

/-- An execution with a crash in the middle of writing, a regeneration and an eviction that meets the hypotheses of `C57_complete_partial`. -/
def eventful : List Act :=
  Act.start 0 false [1, 1] :: steps 0 8 ++ [.crash 0, .start 1 false [2, 2]] ++ steps 1 14 ++ [.start 0 true [3, 3]] ++ steps 0 17 ++ [.evict, .start 1 false [4, 4]] ++
    steps 1 11

/-- Does every removal happen while none of the processes below `n` is busy? -/
def calmly (n : Nat) : Sys → List Act → Bool
  | _, [] => true
  | s, a :: h => (!s.removes a || (List.range n).all (fun p => !(s.pc p).busy)) && calmly n (s.act a) h

def Act.below (n : Nat) : Act → Bool
  | .start p _ _ | .go p | .fail p | .crash p => p < n
  | _ => true

theorem pc_act_other (s : Sys) (n q : Nat) (hq : n ≤ q) (a : Act) (ha : a.below n = true) : (s.act a).pc q = s.pc q := by
  cases a with
  | go p => exact pc_go_other s (by have : p < n := of_decide_eq_true ha; omega)
  | start p f b =>
    have hne : q ≠ p := by have : p < n := of_decide_eq_true ha; omega
    show (s.start p f b).pc q = s.pc q
    unfold Sys.start
    split
    · unfold Sys.pc
      show (Function.update s.procs p _ q).pc = _
      rw [Function.update_of_ne hne]
    · rfl
  | fail p =>
    have hne : q ≠ p := by have : p < n := of_decide_eq_true ha; omega
    show (s.failing p).pc q = s.pc q
    unfold Sys.failing
    split <;> (try rfl) <;> rw [pc_goto, if_neg hne] <;> rfl
  | crash p =>
    have hne : q ≠ p := by have : p < n := of_decide_eq_true ha; omega
    show (Sys.goto _ p .idle).pc q = s.pc q
    rw [pc_goto, if_neg hne]; rfl
  | house =>
    show s.house.pc q = s.pc q
    unfold Sys.house
    split <;> rfl
  | clean =>
    show s.clean.pc q = s.pc q
    unfold Sys.clean Sys.house
    split <;> (try rfl)
    split <;> rfl
  | _ => rfl

theorem calm_of_calmly (n : Nat) (h : List Act) : ∀ s : Sys, (∀ q, n ≤ q → (s.pc q).busy = false) → h.all (Act.below n) = true → calmly n s h = true →
    Calm s h := by
  induction h with
  | nil => intros; trivial
  | cons a h ih =>
    intro s hs hb hc
    rw [List.all_cons, Bool.and_eq_true] at hb
    unfold calmly at hc
    rw [Bool.and_eq_true, Bool.or_eq_true] at hc
    refine ⟨fun hr p => ?_, ih (s.act a) (fun q hq => by rw [pc_act_other s n q hq a hb.1]; exact hs q hq) hb.2 hc.2⟩
    by_cases hp : n ≤ p
    · exact hs p hp
    · rcases hc.1 with h1 | h1
      · rw [hr] at h1; cases h1
      · have := List.all_eq_true.1 h1 p (List.mem_range.2 (by omega))
        simpa using this

example : Calm Sys.init eventful ∧ (Sys.init.run eventful).content = some [4, 4] :=
  ⟨calm_of_calmly 2 eventful Sys.init (fun _ _ => rfl) (by decide +kernel) (by decide +kernel), by decide +kernel⟩

/-- `C57_complete_partial` for this history; `C57_exclusive_partial` while the first process writes. -/
example : Unbroken eventful [4, 4] ∧ ((Sys.init.run (eventful.take 8)).pc 0).creating = true ∧
    ∀ q, ((Sys.init.run (eventful.take 8)).pc q).creating = true → 0 = q :=
  ⟨C57_complete_partial eventful (calm_of_calmly 2 eventful Sys.init (fun _ _ => rfl) (by decide +kernel) (by decide +kernel)) _ (by decide +kernel),
    by decide +kernel, fun q hq => C57_exclusive_partial (eventful.take 8)
      (calm_of_calmly 2 _ Sys.init (fun _ _ => rfl) (by decide +kernel) (by decide +kernel)) 0 q (by decide +kernel) hq⟩

/-- The situation of `C58_recovers_partial`: a crash in the middle of writing has left a partial temporary file and a lock file. -/
example : (let s := Sys.init.run (eventful.take 10); s.pc 0 = .idle ∧ s.pc 1 = .idle ∧ s.tmp.map s.data = some [1] ∧ s.lock.isSome = true ∧ s.row = some none) ∧
    Calm Sys.init (eventful.take 10) :=
  ⟨by decide +kernel, calm_of_calmly 2 _ Sys.init (fun _ _ => rfl) (by decide +kernel) (by decide +kernel)⟩

/-- C88: how often a process starts to write the file, and how often the file gets its name. -/
def begins : Sys → List Act → Nat
  | _, [] => 0
  | s, a :: h => (match a with | .go p => (match s.pc p with | .create _ => 1 | _ => 0) | _ => 0) + begins (s.act a) h

def renames : Sys → List Act → Nat
  | _, [] => 0
  | s, a :: h => (match a with | .go p => (match s.pc p with | .rename _ => 1 | _ => 0) | _ => 0) + renames (s.act a) h

theorem file_go {h : List Act} {s : Sys} (g : Good h s) (p : Nat) (hd : s.pc p ≠ .dropFile) :
    (s.go p).file.isSome = (s.file.isSome || (match s.pc p with | .rename _ => true | _ => false)) := by
  cases hp : s.pc p with
  | rename i =>
    have ho := g.own p
    unfold Own at ho
    rw [hp] at ho
    obtain ⟨f, h1, _⟩ := ho
    have : s.go p = s.publish p i := by unfold Sys.go; rw [hp]
    rw [this]
    unfold Sys.publish
    rw [h1]
    simp [Sys.goto]
  | dropFile => exact absurd hp hd
  | openLock =>
    have : s.go p = s.openLock p := by unfold Sys.go; rw [hp]
    rw [this]
    unfold Sys.openLock
    split <;> simp [Sys.goto]
  | create i =>
    have : s.go p = s.openTmp p i := by unfold Sys.go; rw [hp]
    rw [this]
    unfold Sys.openTmp
    split <;> simp [Sys.goto]
  | update i =>
    have : s.go p = s.record p i := by unfold Sys.go; rw [hp]
    rw [this]
    unfold Sys.record
    split <;> simp [Sys.goto, Sys.unlock]
  | tryLock i =>
    unfold Sys.go
    rw [hp]
    simp only
    split <;> simp [Sys.goto]
  | writing i f off rest =>
    unfold Sys.go
    rw [hp]
    cases rest <;> simp [Sys.goto]
  | _ =>
    unfold Sys.go
    rw [hp]
    simp [Sys.goto, Sys.enter, Sys.unlock]

theorem file_other {s : Sys} {a : Act} (hr : s.removes a = false) (hg : ∀ p, a ≠ .go p) : (s.act a).file = s.file := by
  cases a with
  | go p => exact absurd rfl (hg p)
  | evict => cases hr
  | evictTmp => cases hr
  | evictLock => cases hr
  | start p f b =>
    show (s.start p f b).file = s.file
    unfold Sys.start
    split <;> rfl
  | fail p =>
    show (s.failing p).file = s.file
    unfold Sys.failing
    split <;> rfl
  | crash p => rfl
  | forget => rfl
  | house =>
    show s.house.file = s.file
    unfold Sys.house
    split <;> rfl
  | clean =>
    show s.clean.file = s.file
    unfold Sys.clean Sys.house
    split <;> (try rfl)
    split <;> rfl

theorem renames_le {h₀ : List Act} {s : Sys} (g : Good h₀ s) (h : List Act) (hl : Lasting s h) : renames s h + s.file.isSome.toNat ≤ 1 := by
  induction h generalizing h₀ s with
  | nil =>
    show 0 + _ ≤ 1
    cases s.file <;> simp
  | cons a h ih =>
    have hq : s.removes a = true → ∀ p, (s.pc p).busy = false := fun hr => absurd hl.1 (by simp [hr])
    have := ih (g.act a hq) hl.2
    unfold renames
    by_cases hg : ∃ p, a = .go p
    · obtain ⟨p, e⟩ := hg
      subst e
      have hd : s.pc p ≠ .dropFile := by
        have := hl.1
        unfold Sys.removes at this
        simpa using this
      rw [show s.act (.go p) = s.go p from rfl, file_go g p hd] at this
      have hal := g.alone p
      rw [show s.act (.go p) = s.go p from rfl]
      show (match s.pc p with | .rename _ => 1 | _ => 0) + renames (s.go p) h + s.file.isSome.toNat ≤ 1
      cases hp : s.pc p with
      | rename i =>
        rw [hp] at this hal
        have hn := hal rfl
        rw [hn] at this ⊢
        simp at this ⊢
        omega
      | _ =>
        rw [hp] at this
        simp at this ⊢
        omega
    · have hg : ∀ p, a ≠ .go p := fun p e => hg ⟨p, e⟩
      rw [file_other hl.1 hg] at this
      cases a with
      | go p => exact absurd rfl (hg p)
      | _ => simpa using this

/-- C88: as long as nothing is removed, the file gets its name at most once, however many processes ask for it, fail or crash. -/
theorem C88_once (h : List Act) (hl : Lasting Sys.init h) : renames Sys.init h ≤ 1 := by
  have := renames_le good_init h hl
  omega

/-- Is the file there, or being written? -/
def UnderWay (s : Sys) : Prop := s.file.isSome = true ∨ ∃ p, (match s.pc p with | .writing .. => true | .rename _ => true | _ => false) = true

theorem UnderWay.act {h : List Act} {s : Sys} (g : Good h s) {a : Act} (hr : s.removes a = false) (hs : ∀ p, a ≠ .fail p ∧ a ≠ .crash p)
    (u : UnderWay s) : UnderWay (s.act a) := by
  by_cases hg : ∃ p, a = .go p
  · obtain ⟨p, e⟩ := hg
    subst e
    have hd : s.pc p ≠ .dropFile := by
      unfold Sys.removes at hr
      simpa using hr
    have hf := file_go g p hd
    show UnderWay (s.go p)
    rcases u with u | ⟨q, u⟩
    · exact .inl (by rw [hf, u]; rfl)
    · by_cases e : q = p
      · subst e
        cases hp : s.pc q with
        | rename i => exact .inl (by rw [hf, hp]; simp)
        | writing i f off rest =>
          refine .inr ⟨q, ?_⟩
          cases rest with
          | nil =>
            have : s.go q = s.goto q (.rename i) := by unfold Sys.go; rw [hp]
            rw [this, pc_self]
          | cons c rest =>
            have : s.go q = { s with data := Function.update s.data f (writeAt (s.data f) off c) }.goto q (.writing i f (off + 1) rest) := by
              unfold Sys.go; rw [hp]
            rw [this, pc_self]
        | _ => rw [hp] at u; cases u
      · exact .inr ⟨q, by rw [pc_go_other s e]; exact u⟩
  · have hg : ∀ p, a ≠ .go p := fun p e => hg ⟨p, e⟩
    rcases u with u | ⟨q, u⟩
    · exact .inl (by rw [file_other hr hg]; exact u)
    · refine .inr ⟨q, ?_⟩
      have : (s.act a).pc q = s.pc q := by
        cases a with
        | go p => exact absurd rfl (hg p)
        | fail p => exact absurd rfl (hs p).1
        | crash p => exact absurd rfl (hs p).2
        | start p f b =>
          show (s.start p f b).pc q = s.pc q
          unfold Sys.start
          split
          · rename_i he
            unfold Sys.pc
            show (Function.update s.procs p _ q).pc = _
            by_cases e : q = p
            · subst e
              exfalso
              revert u he
              cases s.pc q <;> simp [Pc.ended]
            · rw [Function.update_of_ne e]
          · rfl
        | house =>
          show s.house.pc q = s.pc q
          unfold Sys.house
          split <;> rfl
        | clean =>
          show s.clean.pc q = s.pc q
          unfold Sys.clean Sys.house
          split <;> (try rfl)
          split <;> rfl
        | _ => rfl
      rw [this]
      exact u

theorem begins_le {h₀ : List Act} {s : Sys} (g : Good h₀ s) (h : List Act) (hl : Lasting s h) (hs : ∀ a ∈ h, ∀ p, a ≠ .fail p ∧ a ≠ .crash p) :
    begins s h ≤ 1 ∧ (UnderWay s → begins s h = 0) := by
  induction h generalizing h₀ s with
  | nil => exact ⟨Nat.zero_le _, fun _ => rfl⟩
  | cons a h ih =>
    have hq : s.removes a = true → ∀ p, (s.pc p).busy = false := fun hr => absurd hl.1 (by simp [hr])
    obtain ⟨i1, i2⟩ := ih (g.act a hq) hl.2 (fun b hb => hs b (List.mem_cons_of_mem _ hb))
    have hu := fun u => UnderWay.act g hl.1 (hs a List.mem_cons_self) u
    by_cases hb : ∃ p i, a = .go p ∧ s.pc p = .create i
    · obtain ⟨p, i, e, hp⟩ := hb
      subst e
      have hcr : (s.pc p).creating = true := by rw [hp]; rfl
      have hnot : ¬UnderWay s := by
        rintro (u | ⟨q, u⟩)
        · rw [g.alone p hcr] at u; cases u
        · have : (s.pc q).creating = true := by
            revert u
            cases s.pc q <;> simp [Pc.creating]
          have e := g.exclusive this hcr
          rw [e, hp] at u; cases u
      have hnext : UnderWay (s.act (.go p)) := by
        refine .inr ⟨p, ?_⟩
        have : s.act (.go p) = s.openTmp p i := by
          show s.go p = _
          unfold Sys.go; rw [hp]
        obtain ⟨f, hf⟩ : ∃ f, (s.openTmp p i).pc p = .writing i f 0 (s.procs p).body := by
          unfold Sys.openTmp
          split <;> exact ⟨_, pc_self _ _ _⟩
        rw [this, hf]
      have hz := i2 hnext
      refine ⟨?_, fun u => absurd u hnot⟩
      show (match s.pc p with | .create _ => 1 | _ => 0) + begins (s.act (.go p)) h ≤ 1
      rw [hz, hp]
      exact Nat.le_refl 1
    · have h0 : begins s (a :: h) = begins (s.act a) h := by
        cases a with
        | go p =>
          show (match s.pc p with | .create _ => 1 | _ => 0) + begins (s.act (.go p)) h = _
          cases hp : s.pc p with
          | create i => exact absurd ⟨p, i, rfl, hp⟩ hb
          | _ => exact Nat.zero_add _
        | _ => exact Nat.zero_add _
      rw [h0]
      exact ⟨i1, fun u => i2 (hu u)⟩

/-- C88: and if no `create` fails and no process dies, only one of them ever starts to create it. -/
theorem C88_created_once (h : List Act) (hl : Lasting Sys.init h) (hs : ∀ a ∈ h, ∀ p, a ≠ .fail p ∧ a ≠ .crash p) : begins Sys.init h ≤ 1 :=
  (begins_le good_init h hl hs).1

/-- Two processes meet: one creates, the other waits and finds the file. -/
def meeting : List Act := [.start 0 false [1], .start 1 false [2]] ++ steps 0 5 ++ steps 1 5 ++ steps 0 8 ++ steps 1 5

example : begins Sys.init meeting = 1 ∧ renames Sys.init meeting = 1 ∧ (Sys.init.run meeting).pc 0 = .done ∧ (Sys.init.run meeting).pc 1 = .done ∧
    (Sys.init.run meeting).content = some [1] := by decide +kernel

instance Lasting.dec : (s : Sys) → (h : List Act) → Decidable (Lasting s h)
  | _, [] => .isTrue trivial
  | s, a :: h => @instDecidableAnd _ _ _ (Lasting.dec (s.act a) h)

/-- `C88_once`, `C88_created_once` -/
example : renames Sys.init meeting ≤ 1 ∧ begins Sys.init meeting ≤ 1 :=
  ⟨C88_once meeting (by decide +kernel), C88_created_once meeting (by decide +kernel)
    (by intro a ha p; simp only [meeting, steps, List.mem_append, List.mem_cons, List.mem_replicate, List.not_mem_nil, or_false] at ha; grind)⟩

end Verif.DiskCache.Create

import Verif.DiskCache.CreateSpec
import Mathlib.Data.Set.Card

/-!
# Many processes asking for one file: locks are given back, and nobody is stuck
-/

namespace Verif.DiskCache.Create

/-- Within the `with` statement that locks the lock file `i`. -/
def Pc.within (i : Nat) : Pc → Prop
  | .check j | .create j | .writing j _ _ _ | .rename j | .update j | .release j => j = i
  | _ => False

/-- Locks are held by those within the `with` statement, and by nobody else. -/
def Held (s : Sys) : Prop := ∀ i p, s.locked i = some p ↔ (s.pc p).within i

theorem pc_at (s : Sys) (p q : Nat) (c : Pc) : (s.goto p c).pc q = if q = p then c else s.pc q := by
  unfold Sys.goto Sys.pc
  by_cases h : q = p
  · subst h; simp
  · simp [h]

/-- A step within, or outside, the statement. -/
theorem Held.stay {s s' : Sys} (h : Held s) (p : Nat) (c : Pc) (hl : s'.locked = s.locked) (hp : s'.procs = s.procs)
    (hc : ∀ i, c.within i ↔ (s.pc p).within i) : Held (s'.goto p c) := by
  intro i q
  rw [pc_at]
  have h1 : (s'.goto p c).locked = s.locked := hl
  have h2 : s'.pc q = s.pc q := by unfold Sys.pc; rw [hp]
  rw [h1, h2, h i q]
  by_cases hq : q = p
  · rw [if_pos hq, hc, hq]
  · rw [if_neg hq]

/-- Leaving it. -/
theorem Held.leave {s : Sys} (h : Held s) (p i : Nat) (c : Pc) (hw : ∀ j, (s.pc p).within j ↔ i = j) (hc : ∀ j, ¬c.within j) : Held ((s.unlock i).goto p c) := by
  intro j q
  rw [pc_at]
  show Function.update s.locked i none j = some q ↔ (if q = p then c else s.pc q).within j
  have hi : s.locked i = some p := (h i p).2 ((hw i).2 rfl)
  by_cases hq : q = p
  · subst hq
    rw [if_pos rfl]
    by_cases hj : j = i
    · subst hj
      simp [hc]
    · rw [Function.update_of_ne hj, h j q, hw]
      exact ⟨fun hh => absurd hh.symm hj, fun hh => absurd hh (hc j)⟩
  · rw [if_neg hq]
    by_cases hj : j = i
    · subst hj
      rw [Function.update_self, ← h j q, hi]
      simp only [reduceCtorEq, Option.some.injEq, false_iff]
      exact fun hh => hq hh.symm
    · rw [Function.update_of_ne hj]
      exact h j q

theorem Held.go {s : Sys} (h : Held s) (p : Nat) : Held (s.go p) := by
  unfold Sys.go
  have out : ∀ {c d : Pc}, s.pc p = c → (∀ j, ¬c.within j) → (∀ j, ¬d.within j) → ∀ i, d.within i ↔ (s.pc p).within i := fun h1 h2 h3 i => by
    rw [h1]; exact ⟨fun x => absurd x (h3 i), fun x => absurd x (h2 i)⟩
  cases hpc : s.pc p with
  | idle => exact h
  | register => exact h.stay p _ rfl rfl (out hpc (fun _ => id) (fun _ => id))
  | look =>
    refine h.stay p _ rfl rfl (out hpc (fun _ => id) (fun j => ?_))
    split <;> exact id
  | dropFile => exact h.stay p _ rfl rfl (out hpc (fun _ => id) (fun _ => id))
  | dropRow => exact h.stay p _ rfl rfl (out hpc (fun _ => id) (fun _ => id))
  | register2 => exact h.stay p _ rfl rfl (out hpc (fun _ => id) (fun _ => id))
  | look2 =>
    refine h.stay p _ rfl rfl (out hpc (fun _ => id) (fun j => ?_))
    split <;> exact id
  | openLock =>
    simp only
    unfold Sys.openLock
    cases s.lock with
    | some i => exact h.stay p _ rfl rfl (out hpc (fun _ => id) (fun _ => id))
    | none => exact h.stay p _ rfl rfl (out hpc (fun _ => id) (fun _ => id))
  | tryLock i =>
    simp only
    by_cases hl : (s.locked i).isNone = true
    · rw [if_pos hl]
      have hn : s.locked i = none := by simpa using hl
      intro j q
      rw [pc_at]
      show Function.update s.locked i (some p) j = some q ↔ (if q = p then Pc.check i else s.pc q).within j
      by_cases hq : q = p
      · subst hq
        rw [if_pos rfl]
        show _ ↔ i = j
        by_cases hj : j = i
        · subst hj; simp
        · rw [Function.update_of_ne hj, h j q, hpc]
          exact ⟨fun hh => absurd hh id, fun hh => absurd hh.symm hj⟩
      · rw [if_neg hq]
        by_cases hj : j = i
        · subst hj
          rw [Function.update_self, ← h j q, hn]
          simp only [Option.some.injEq, reduceCtorEq, iff_false]
          exact fun hh => hq hh.symm
        · rw [Function.update_of_ne hj]
          exact h j q
    · rw [if_neg hl]
      exact h.stay p _ rfl rfl (out hpc (fun _ => id) (fun _ => id))
  | check i =>
    refine h.stay p _ rfl rfl (fun j => ?_)
    rw [hpc]
    split <;> exact Iff.rfl
  | create i =>
    simp only
    unfold Sys.openTmp
    cases s.tmp with
    | some f => exact h.stay p _ rfl rfl (fun j => by rw [hpc]; exact Iff.rfl)
    | none => exact h.stay p _ rfl rfl (fun j => by rw [hpc]; exact Iff.rfl)
  | writing i f off rest =>
    cases rest with
    | nil => exact h.stay p _ rfl rfl (fun j => by rw [hpc]; exact Iff.rfl)
    | cons c rest => exact h.stay p _ rfl rfl (fun j => by rw [hpc]; exact Iff.rfl)
  | rename i =>
    simp only
    unfold Sys.publish
    cases s.tmp with
    | none => exact h.leave p i _ (fun j => by rw [hpc]; exact Iff.rfl) (fun _ => id)
    | some f => exact h.stay p _ rfl rfl (fun j => by rw [hpc]; exact Iff.rfl)
  | update i =>
    simp only
    unfold Sys.record
    cases s.file with
    | none => exact h.leave p i _ (fun j => by rw [hpc]; exact Iff.rfl) (fun _ => id)
    | some f => exact h.stay p _ rfl rfl (fun j => by rw [hpc]; exact Iff.rfl)
  | release i => exact h.leave p i _ (fun j => by rw [hpc]; exact Iff.rfl) (fun _ => id)
  | unlink => exact h.stay p _ rfl rfl (out hpc (fun _ => id) (fun _ => id))
  | done => exact h
  | failed => exact h

theorem ended_not_within {c : Pc} (h : c.ended = true) (i : Nat) : ¬c.within i := by
  cases c <;> first | exact id | cases h

theorem Held.act {s : Sys} (h : Held s) (a : Act) : Held (s.act a) := by
  cases a with
  | start p force body =>
    show Held (s.start p force body)
    unfold Sys.start
    by_cases he : (s.pc p).ended = true
    · rw [if_pos he]
      intro i q
      show s.locked i = some q ↔ (Function.update s.procs p ⟨.register, force, body⟩ q).pc.within i
      by_cases hq : q = p
      · subst hq
        rw [Function.update_self, h i q]
        exact ⟨fun hh => absurd hh (ended_not_within he i), fun hh => absurd hh id⟩
      · rw [Function.update_of_ne hq]
        exact h i q
    · rw [if_neg he]; exact h
  | go p => exact h.go p
  | fail p =>
    show Held (s.failing p)
    unfold Sys.failing
    split
    · rename_i i hpc
      exact h.leave p i _ (fun j => by rw [hpc]; exact Iff.rfl) (fun _ => id)
    · rename_i i _ _ _ hpc
      exact h.leave p i _ (fun j => by rw [hpc]; exact Iff.rfl) (fun _ => id)
    · exact h
  | crash p =>
    intro i q
    show (if s.locked i = some p then none else s.locked i) = some q ↔ ((Sys.goto _ p .idle).pc q).within i
    rw [pc_at]
    by_cases hq : q = p
    · subst hq
      rw [if_pos rfl]
      refine ⟨fun hh => ?_, fun hh => absurd hh id⟩
      by_cases hl : s.locked i = some q
      · rw [if_pos hl] at hh; cases hh
      · rw [if_neg hl] at hh; exact absurd hh hl
    · rw [if_neg hq]
      show _ ↔ (s.pc q).within i
      rw [← h i q]
      by_cases hl : s.locked i = some p
      · rw [if_pos hl, hl]
        simp only [reduceCtorEq, Option.some.injEq, false_iff]
        exact fun hh => hq hh.symm
      · rw [if_neg hl]
  | evict => exact h
  | forget => exact h
  | evictTmp => exact h
  | evictLock => exact h
  | house =>
    show Held s.house
    unfold Sys.house
    split <;> exact h
  | clean =>
    show Held s.clean
    unfold Sys.clean Sys.house
    split
    · exact h
    · split <;> exact h

theorem run_append (s : Sys) (h h' : List Act) : s.run (h ++ h') = (s.run h).run h' := by
  unfold Sys.run
  rw [List.foldl_append]

theorem Held.run {s : Sys} (hs : Held s) (h : List Act) : Held (s.run h) := by
  induction h generalizing s with
  | nil => exact hs
  | cons a h ih => exact ih (hs.act a)

theorem held_init : Held Sys.init := fun i p => ⟨fun h => (by cases h), fun h => absurd h id⟩

/-! ### running one process to its end -/

/-- At most so many steps to the end, if no lock is in the way. -/
def rank (len : Nat) : Pc → Nat
  | .idle | .done | .failed => 0
  | .unlink => 1
  | .release _ => 2
  | .update _ => 3
  | .rename _ => 4
  | .writing _ _ _ rest => 5 + rest.length
  | .create _ => 6 + len
  | .check _ => 7 + len
  | .tryLock _ => 8 + len
  | .openLock => 9 + len
  | .look2 => 10 + len
  | .register2 => 11 + len
  | .dropRow => 12 + len
  | .dropFile => 13 + len
  | .look => 14 + len
  | .register => 15 + len

/-- Nobody but `p` holds a lock, or `p` is through with waiting. -/
def Free (s : Sys) (p : Nat) : Prop := (∃ i, (s.pc p).within i) ∨ s.pc p = .unlink ∨ ∀ i q, s.locked i = some q → q = p

theorem go_step (s : Sys) (hs : Held s) (p : Nat) (hf : Free s p) (he : (s.pc p).ended = false) :
    rank (s.procs p).body.length ((s.go p).pc p) < rank (s.procs p).body.length (s.pc p) ∧
      ((s.go p).procs p).body = (s.procs p).body ∧ (∀ q, q ≠ p → (s.go p).procs q = s.procs q) ∧
      (((s.go p).pc p).ended = true ∨ Free (s.go p) p) := by
  have body : ∀ (t : Sys) c, t.procs = s.procs → ((t.goto p c).procs p).body = (s.procs p).body := fun t c ht => by
    unfold Sys.goto
    simp [ht]
  have other : ∀ (t : Sys) c, t.procs = s.procs → ∀ q, q ≠ p → (t.goto p c).procs q = s.procs q := fun t c ht q hq => by
    unfold Sys.goto
    simp [ht, hq]
  have here : ∀ (t : Sys) c, (t.goto p c).pc p = c := fun t c => by rw [pc_at, if_pos rfl]
  /- outside the `with` statement -/
  have free : ∀ {c : Pc}, s.pc p = c → (∀ i, ¬c.within i) → c ≠ .unlink → ∀ i q, s.locked i = some q → q = p := fun h1 h2 h3 => by
    rcases hf with ⟨i, hi⟩ | hf | hf
    · rw [h1] at hi; exact absurd hi (h2 i)
    · exact absurd (h1.symm.trans hf) h3
    · exact hf
  have stay : ∀ (t : Sys) (c d : Pc), t.procs = s.procs → t.locked = s.locked → s.pc p = c → (∀ i, ¬c.within i) → c ≠ .unlink →
      rank (s.procs p).body.length d < rank (s.procs p).body.length c →
      rank (s.procs p).body.length ((t.goto p d).pc p) < rank (s.procs p).body.length c ∧
      ((t.goto p d).procs p).body = (s.procs p).body ∧ (∀ q, q ≠ p → (t.goto p d).procs q = s.procs q) ∧
      (((t.goto p d).pc p).ended = true ∨ Free (t.goto p d) p) := fun t c d h1 h2 h3 h4 h5 h6 => by
    rw [here]
    refine ⟨h6, body t d h1, other t d h1, .inr (.inr (.inr (fun i q hq => free h3 h4 h5 i q ?_)))⟩
    rw [← h2]
    exact hq
  have inside : ∀ (t : Sys) (c d : Pc) (i : Nat), t.procs = s.procs → s.pc p = c → d.within i →
      rank (s.procs p).body.length d < rank (s.procs p).body.length c →
      rank (s.procs p).body.length ((t.goto p d).pc p) < rank (s.procs p).body.length c ∧
      ((t.goto p d).procs p).body = (s.procs p).body ∧ (∀ q, q ≠ p → (t.goto p d).procs q = s.procs q) ∧
      (((t.goto p d).pc p).ended = true ∨ Free (t.goto p d) p) := fun t c d i h1 h2 h3 h4 => by
    rw [here]
    exact ⟨h4, body t d h1, other t d h1, .inr (.inl ⟨i, by rw [here]; exact h3⟩)⟩
  have final : ∀ (t : Sys) (c d : Pc), t.procs = s.procs → s.pc p = c → d.ended = true ∨ d = .unlink →
      rank (s.procs p).body.length d < rank (s.procs p).body.length c →
      rank (s.procs p).body.length ((t.goto p d).pc p) < rank (s.procs p).body.length c ∧
      ((t.goto p d).procs p).body = (s.procs p).body ∧ (∀ q, q ≠ p → (t.goto p d).procs q = s.procs q) ∧
      (((t.goto p d).pc p).ended = true ∨ Free (t.goto p d) p) := fun t c d h1 h2 h3 h4 => by
    rw [here]
    refine ⟨h4, body t d h1, other t d h1, ?_⟩
    rcases h3 with h3 | h3
    · exact .inl h3
    · exact .inr (.inr (.inl (by rw [here]; exact h3)))
  unfold Sys.go
  cases hpc : s.pc p with
  | idle => rw [hpc] at he; cases he
  | register => exact stay _ .register .look rfl rfl hpc (fun _ => id) (by simp) (by simp [rank])
  | look =>
    refine stay s .look _ rfl rfl hpc (fun _ => id) (by simp) ?_
    split <;> simp [rank]
  | dropFile => exact stay { s with file := none } .dropFile .dropRow rfl rfl hpc (fun _ => id) (by simp) (by simp [rank])
  | dropRow => exact stay { s with row := none } .dropRow .register2 rfl rfl hpc (fun _ => id) (by simp) (by simp [rank])
  | register2 => exact stay _ .register2 .look2 rfl rfl hpc (fun _ => id) (by simp) (by simp [rank])
  | look2 =>
    by_cases hl : s.file.isSome = true
    · simp only [hl, if_true]
      exact final s .look2 .done rfl hpc (.inl rfl) (by simp only [rank]; omega)
    · simp only [hl]
      exact stay s .look2 .openLock rfl rfl hpc (fun _ => id) (by simp) (by simp [rank])
  | openLock =>
    simp only
    unfold Sys.openLock
    cases s.lock with
    | some i => exact stay s .openLock (.tryLock i) rfl rfl hpc (fun _ => id) (by simp) (by simp [rank])
    | none => exact stay { s with lock := some s.nextLock, nextLock := s.nextLock + 1 } .openLock (.tryLock s.nextLock) rfl rfl hpc (fun _ => id) (by simp) (by simp [rank])
  | tryLock i =>
    simp only
    have hn : s.locked i = none := by
      cases hl : s.locked i with
      | none => rfl
      | some q =>
        have := free hpc (fun _ => id) (by simp) i q hl
        subst this
        have := (hs i q).1 hl
        rw [hpc] at this
        exact absurd this id
    rw [if_pos (by rw [hn]; rfl)]
    exact inside { s with locked := Function.update s.locked i (some p) } (.tryLock i) (.check i) i rfl hpc rfl (by simp [rank])
  | check i =>
    by_cases hl : s.file.isSome = true
    · simp only [hl, if_true]
      exact inside s (.check i) (.release i) i rfl hpc rfl (by simp only [rank]; omega)
    · simp only [hl]
      exact inside s (.check i) (.create i) i rfl hpc rfl (by simp [rank])
  | create i =>
    simp only
    unfold Sys.openTmp
    cases s.tmp with
    | some f => exact inside { s with data := Function.update s.data f [] } (.create i) _ i rfl hpc rfl (by simp [rank])
    | none =>
      exact inside { s with tmp := some s.nextFile, nextFile := s.nextFile + 1, data := Function.update s.data s.nextFile [] } (.create i) _ i rfl hpc rfl
        (by simp [rank])
  | writing i f off rest =>
    cases rest with
    | nil => exact inside s (.writing i f off []) (.rename i) i rfl hpc rfl (by simp [rank])
    | cons c rest =>
      exact inside { s with data := Function.update s.data f (writeAt (s.data f) off c) } (.writing i f off (c :: rest)) (.writing i f (off + 1) rest) i rfl hpc rfl
        (by simp [rank])
  | rename i =>
    simp only
    unfold Sys.publish
    cases s.tmp with
    | none => exact final (s.unlock i) (.rename i) .failed rfl hpc (.inl rfl) (by simp [rank])
    | some f => exact inside { s with file := some f, tmp := none } (.rename i) (.update i) i rfl hpc rfl (by simp [rank])
  | update i =>
    simp only
    unfold Sys.record
    cases s.file with
    | none => exact final (s.unlock i) (.update i) .failed rfl hpc (.inl rfl) (by simp [rank])
    | some f => exact inside { s with row := s.row.map (fun _ => some (s.data f).length) } (.update i) (.release i) i rfl hpc rfl (by simp [rank])
  | release i => exact final (s.unlock i) (.release i) .unlink rfl hpc (.inr rfl) (by simp [rank])
  | unlink => exact final { s with lock := none } .unlink .done rfl hpc (.inl rfl) (by simp [rank])
  | done => rw [hpc] at he; cases he
  | failed => rw [hpc] at he; cases he

theorem finishes (n : Nat) (s : Sys) (hs : Held s) (p : Nat) (hf : Free s p) (hn : rank (s.procs p).body.length (s.pc p) ≤ n) :
    ∃ h, (∀ a ∈ h, ∃ q, a = Act.go q) ∧ ((s.run h).pc p).ended = true ∧ ∀ q, q ≠ p → (s.run h).procs q = s.procs q := by
  induction n generalizing s with
  | zero =>
    refine ⟨[], fun a ha => (by cases ha), ?_, fun _ _ => rfl⟩
    show (s.pc p).ended = true
    generalize s.pc p = c at hn
    cases c <;> simp [rank, Pc.ended] at hn ⊢
  | succ n ih =>
    cases he : (s.pc p).ended with
    | true => exact ⟨[], fun a ha => (by cases ha), he, fun _ _ => rfl⟩
    | false =>
      obtain ⟨h1, h2, h3, h4⟩ := go_step s hs p hf he
      rcases h4 with h4 | h4
      · refine ⟨[.go p], fun a ha => ⟨p, List.mem_singleton.1 ha⟩, h4, h3⟩
      · obtain ⟨h, hg, hend, hoth⟩ := ih (s.go p) (hs.go p) h4 (by rw [h2]; omega)
        refine ⟨.go p :: h, fun a ha => ?_, hend, fun q hq => (hoth q hq).trans (h3 q hq)⟩
        rcases List.mem_cons.1 ha with rfl | ha
        · exact ⟨p, rfl⟩
        · exact hg a ha

/-- The processes that have something left to do. -/
def Sys.pending (s : Sys) : Set Nat := { p | (s.pc p).ended = false }

theorem drain (n : Nat) (s : Sys) (hs : Held s) (hfin : s.pending.Finite) (hn : s.pending.ncard = n) :
    ∃ h, (∀ a ∈ h, ∃ q, a = Act.go q) ∧ ∀ p, ((s.run h).pc p).ended = true := by
  induction n generalizing s with
  | zero =>
    have : s.pending = ∅ := (Set.ncard_eq_zero hfin).1 hn
    refine ⟨[], fun a ha => (by cases ha), fun p => ?_⟩
    by_contra hp
    have hm : p ∈ s.pending := by
      show (s.pc p).ended = false
      simpa using (show ¬(s.pc p).ended = true from hp)
    rw [this] at hm
    exact hm
  | succ n ih =>
    have hchoose : ∃ p ∈ s.pending, Free s p := by
      by_cases hl : ∃ i q, s.locked i = some q
      · obtain ⟨i, q, hq⟩ := hl
        have hw := (hs i q).1 hq
        refine ⟨q, ?_, .inl ⟨i, hw⟩⟩
        show (s.pc q).ended = false
        by_contra hc
        exact ended_not_within (by simpa using hc) i hw
      · obtain ⟨p, hp⟩ := Set.nonempty_of_ncard_ne_zero (s := s.pending) (by omega)
        exact ⟨p, hp, .inr (.inr (fun i q hq => absurd ⟨i, q, hq⟩ hl))⟩
    obtain ⟨p, hp, hfree⟩ := hchoose
    obtain ⟨h1, hg1, hend, hoth⟩ := finishes _ s hs p hfree (le_refl _)
    have hpend : (s.run h1).pending = s.pending \ {p} := by
      ext q
      show ((s.run h1).procs q).pc.ended = false ↔ (s.procs q).pc.ended = false ∧ q ≠ p
      by_cases hq : q = p
      · subst hq
        have : ((s.run h1).procs q).pc.ended = true := hend
        simp [this]
      · rw [hoth q hq]
        simp [hq]
    obtain ⟨h2, hg2, hall⟩ := ih (s.run h1) (hs.run h1) (by rw [hpend]; exact hfin.sdiff) (by
      rw [hpend, Set.ncard_sdiff_singleton_of_mem hp]
      omega)
    refine ⟨h1 ++ h2, fun a ha => ?_, fun q => by rw [run_append]; exact hall q⟩
    rcases List.mem_append.1 ha with ha | ha
    · exact hg1 a ha
    · exact hg2 a ha

theorem act_procs (s : Sys) (a : Act) (q : Nat) (h : ∀ f b, a ≠ .start q f b) (he : (s.pc q).ended = true) : ((s.act a).pc q).ended = true := by
  have goto : ∀ (t : Sys) p c, t.procs = s.procs → p ≠ q → ((t.goto p c).pc q).ended = true := fun t p c ht hp => by
    rw [pc_at, if_neg (fun x => hp x.symm)]
    show (t.procs q).pc.ended = true
    rw [ht]
    exact he
  cases a with
  | start p f b =>
    have hp : p ≠ q := fun hh => h f b (by rw [hh])
    show ((s.start p f b).pc q).ended = true
    unfold Sys.start
    split
    · show (Function.update s.procs p _ q).pc.ended = true
      rw [Function.update_of_ne (fun x => hp x.symm)]
      exact he
    · exact he
  | go p =>
    by_cases hp : p = q
    · subst hp
      show ((s.go p).pc p).ended = true
      have hgo : s.go p = s := by
        unfold Sys.go
        cases hpc : s.pc p <;> rw [hpc] at he <;> first | rfl | cases he
      rw [hgo]
      exact he
    · have main : ∀ (t : Sys), (t.procs q) = s.procs q → (t.pc q).ended = true := fun t ht => by
        show (t.procs q).pc.ended = true
        rw [ht]
        exact he
      apply main
      show (s.go p).procs q = s.procs q
      have gt : ∀ (t : Sys) c, t.procs = s.procs → (t.goto p c).procs q = s.procs q := fun t c ht => by
        unfold Sys.goto
        simp only
        rw [Function.update_of_ne (fun x => hp x.symm), ht]
      unfold Sys.go
      split <;> first
        | rfl
        | exact gt _ _ rfl
        | (unfold Sys.openLock; split <;> exact gt _ _ rfl)
        | (unfold Sys.openTmp; split <;> exact gt _ _ rfl)
        | (unfold Sys.publish; split <;> exact gt _ _ rfl)
        | (unfold Sys.record; split <;> exact gt _ _ rfl)
        | (split <;> exact gt _ _ rfl)
  | fail p =>
    show ((s.failing p).pc q).ended = true
    unfold Sys.failing
    by_cases hp : p = q
    · subst hp
      split <;> rename_i hpc
      · rw [hpc] at he; cases he
      · rw [hpc] at he; cases he
      · exact he
    · split
      · exact goto _ p _ rfl hp
      · exact goto _ p _ rfl hp
      · exact he
  | crash p =>
    by_cases hp : p = q
    · subst hp
      show ((Sys.goto _ p .idle).pc p).ended = true
      rw [pc_at, if_pos rfl]
      rfl
    · exact goto _ p _ rfl hp
  | evict => exact he
  | forget => exact he
  | evictTmp => exact he
  | evictLock => exact he
  | house =>
    show ((s.house).pc q).ended = true
    unfold Sys.house
    split <;> exact he
  | clean =>
    show ((s.clean).pc q).ended = true
    unfold Sys.clean Sys.house
    split
    · exact he
    · split <;> exact he

theorem pending_finite (h : List Act) : (Sys.init.run h).pending.Finite := by
  induction h using List.reverseRecOn with
  | nil =>
    have : (Sys.init.run []).pending = ∅ := by
      ext p
      show ((Sys.init.run []).pc p).ended = false ↔ False
      exact ⟨fun hh => (by cases hh), fun hh => hh.elim⟩
    rw [this]
    exact Set.finite_empty
  | append_singleton h a ih =>
    rw [run_append]
    show ((Sys.init.run h).act a).pending.Finite
    have sub : ∀ q, q ∈ ((Sys.init.run h).act a).pending → q ∈ (Sys.init.run h).pending ∨ ∃ f b, a = .start q f b := fun q hq => by
      by_contra hc
      rw [not_or] at hc
      have := act_procs (Sys.init.run h) a q (fun f b hh => hc.2 ⟨f, b, hh⟩) (by simpa [Sys.pending] using hc.1)
      have hq' : (((Sys.init.run h).act a).pc q).ended = false := hq
      rw [this] at hq'
      cases hq'
    cases a with
    | start p f b =>
      refine (ih.union (Set.finite_singleton p)).subset (fun q hq => ?_)
      rcases sub q hq with hq | ⟨f', b', hh⟩
      · exact .inl hq
      · cases hh
        exact .inr rfl
    | _ =>
      refine ih.subset (fun q hq => ?_)
      rcases sub q hq with hq | ⟨f', b', hh⟩
      · exact hq
      · cases hh

/-! ### C140 -/

/-- After every execution, with failures, crashes and removals of any of the files at any time, a lock file is locked by the process within the `with`
statement for it and by nobody else; so a call that has returned, failed or died holds no lock. -/
theorem C140_locks (h : List Act) (i p : Nat) : (Sys.init.run h).locked i = some p ↔ ((Sys.init.run h).pc p).within i :=
  held_init.run h i p

theorem C140_given_back (h : List Act) (p : Nat) (he : ((Sys.init.run h).pc p).ended = true) (i : Nat) : (Sys.init.run h).locked i ≠ some p :=
  fun hl => ended_not_within he i ((C140_locks h i p).1 hl)

/-- Nobody is stuck: every execution can go on, with steps of the processes alone, until every call has returned or raised. -/
theorem C140_not_stuck (h : List Act) : ∃ h', (∀ a ∈ h', ∃ p, a = Act.go p) ∧ ∀ p, ((Sys.init.run (h ++ h')).pc p).ended = true := by
  obtain ⟨h', hg, he⟩ := drain _ (Sys.init.run h) (held_init.run h) (pending_finite h) rfl
  exact ⟨h', hg, fun p => by rw [run_append]; exact he p⟩

/-- `C140_locks`: process 0 has the lock while process 1 tries; the `.tmp` file of process 0 is removed: it fails, and gives the lock back. -/
def robbed : List Act :=
  [.start 0 false [7], .start 1 false [8], .go 0, .go 0, .go 0, .go 0, .go 0, .go 0, .go 0, .go 0, .go 0,
   .go 1, .go 1, .go 1, .go 1, .go 1, .evictTmp]

example : (Sys.init.run robbed).locked 0 = some 0 ∧ (Sys.init.run robbed).pc 0 = .rename 0 ∧ (Sys.init.run robbed).pc 1 = .openLock := by
  decide +kernel

example : ((Sys.init.run robbed).pc 0).within 0 := (C140_locks robbed 0 0).1 (by decide +kernel)

example : ((Sys.init.run (robbed ++ [.go 0])).pc 0).ended = true ∧ (Sys.init.run (robbed ++ [.go 0])).pc 0 = .failed := by decide +kernel

example (i : Nat) : (Sys.init.run (robbed ++ [.go 0])).locked i ≠ some 0 := C140_given_back _ 0 (by decide +kernel) i

example : ∃ h', (∀ a ∈ h', ∃ p, a = Act.go p) ∧ ∀ p, ((Sys.init.run (robbed ++ h')).pc p).ended = true := C140_not_stuck robbed

end Verif.DiskCache.Create

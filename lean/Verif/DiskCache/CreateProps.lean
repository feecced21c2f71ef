import Verif.DiskCache.CreateSpec

/-!
# Cached files are never partial: invariant over all interleavings and crashes
-/

namespace Verif.DiskCache.Create

/-- The lock file a process has open. -/
def Pc.handle : Pc → Option Nat
  | .tryLock i | .check i | .create i | .writing i .. | .rename i | .update i | .release i => some i
  | _ => none

/-- The lock a process holds. -/
def Pc.held : Pc → Option Nat
  | .check i | .create i | .writing i .. | .rename i | .update i | .release i => some i
  | _ => none

/-- After the file was seen or made. -/
def Pc.after : Pc → Bool
  | .update _ | .release _ | .unlink => true
  | _ => false

/-- What a creating process has written so far. -/
def Own (s : Sys) (p : Nat) : Prop :=
  match s.pc p with
  | .writing _ f off rest => s.tmp = some f ∧ (s.data f).length = off ∧ s.data f ++ rest = (s.procs p).body
  | .rename _ => ∃ f, s.tmp = some f ∧ s.data f = (s.procs p).body
  | _ => True

structure Good (h : List Act) (s : Sys) : Prop where
  asked : ∀ p, (s.pc p).ended = false → Unbroken h (s.procs p).body
  held : ∀ p i, (s.pc p).held = some i ↔ s.locked i = some p
  link : s.file = none → ∀ p i, (s.pc p).handle = some i → s.lock = some i
  settled : s.file = none → ∀ p, (s.pc p).after = false
  alone : ∀ p, (s.pc p).creating = true → s.file = none
  own : ∀ p, Own s p
  fresh : (∀ f, s.tmp = some f → f < s.nextFile) ∧ (∀ f, s.file = some f → f < s.nextFile) ∧ ∀ f, s.file = some f → s.tmp ≠ some f
  whole : ∀ f, s.file = some f → Unbroken h (s.data f)

theorem pc_goto (s : Sys) (p : Nat) (c : Pc) (q : Nat) : (s.goto p c).pc q = if q = p then c else s.pc q := by
  unfold Sys.goto Sys.pc Function.update
  by_cases h : q = p
  · subst h; simp
  · simp [h]

theorem body_goto (s : Sys) (p : Nat) (c : Pc) (q : Nat) : ((s.goto p c).procs q).body = (s.procs q).body := by
  unfold Sys.goto Function.update
  by_cases h : q = p
  · subst h; simp
  · simp [h]

theorem creating_handle {c : Pc} (h : c.creating = true) : ∃ i, c.held = some i ∧ c.handle = some i := by
  cases c <;> simp_all [Pc.creating, Pc.held, Pc.handle]

/-- Two processes are never both creating the file. -/
theorem Good.exclusive {h : List Act} {s : Sys} (g : Good h s) {p q : Nat} (hp : (s.pc p).creating = true) (hq : (s.pc q).creating = true) : p = q := by
  obtain ⟨i, h1, h2⟩ := creating_handle hp
  obtain ⟨j, h3, h4⟩ := creating_handle hq
  have hn := g.alone p hp
  have := g.link hn p i h2
  rw [g.link hn q j h4] at this
  cases this
  have a := (g.held p i).1 h1
  have b := (g.held q i).1 h3
  rw [a] at b
  exact Option.some.inj b

theorem Unbroken.snoc {h : List Act} {a : Act} {c : Body} (hc : Unbroken h c) : Unbroken (h ++ [a]) c := by
  obtain ⟨p, f, hm⟩ := hc
  exact ⟨p, f, List.mem_append_left _ hm⟩

theorem Good.snoc {h : List Act} {s : Sys} (g : Good h s) (a : Act) : Good (h ++ [a]) s :=
  ⟨fun p hp => (g.asked p hp).snoc, g.held, g.link, g.settled, g.alone, g.own, g.fresh, fun f hf => (g.whole f hf).snoc⟩

/-- A step that only moves a process, to a place that needs no more than it has. -/
theorem Good.goto {h : List Act} {s : Sys} (g : Good h s) (p : Nat) (c : Pc) (hask : c.ended = false → (s.pc p).ended = false)
    (hheld : c.held = (s.pc p).held) (hlink : s.file = none → ∀ i, c.handle = some i → s.lock = some i) (hset : s.file = none → c.after = false)
    (hal : c.creating = true → s.file = none) (hown : Own (s.goto p c) p) : Good h (s.goto p c) := by
  refine ⟨?_, ?_, ?_, ?_, ?_, ?_, g.fresh, g.whole⟩
  · intro q hq
    rw [body_goto]
    rw [pc_goto] at hq
    by_cases e : q = p
    · rw [if_pos e] at hq
      rw [e]
      exact g.asked p (hask hq)
    · rw [if_neg e] at hq
      exact g.asked q hq
  · intro q i
    rw [pc_goto]
    by_cases e : q = p
    · rw [if_pos e, hheld, e]
      exact g.held p i
    · rw [if_neg e]
      exact g.held q i
  · intro hf q i hi
    rw [pc_goto] at hi
    by_cases e : q = p
    · rw [if_pos e] at hi
      exact hlink hf i hi
    · rw [if_neg e] at hi
      exact g.link hf q i hi
  · intro hf q
    rw [pc_goto]
    by_cases e : q = p
    · rw [if_pos e]
      exact hset hf
    · rw [if_neg e]
      exact g.settled hf q
  · intro q hq
    rw [pc_goto] at hq
    by_cases e : q = p
    · rw [if_pos e] at hq
      exact hal hq
    · rw [if_neg e] at hq
      exact g.alone q hq
  · intro q
    by_cases e : q = p
    · rw [e]
      exact hown
    · have := g.own q
      unfold Own at this ⊢
      rw [pc_goto, if_neg e, body_goto]
      exact this

/-- The row plays no role. -/
theorem Good.row {h : List Act} {s : Sys} (g : Good h s) (r : Option (Option Nat)) : Good h { s with row := r } :=
  ⟨g.asked, g.held, g.link, g.settled, g.alone, g.own, g.fresh, g.whole⟩

theorem Good.house {h : List Act} {s : Sys} (g : Good h s) : Good h s.house := by
  unfold Sys.house
  split
  · exact g.row _
  · exact g

/-- Letting go of a lock: the process goes to a place without lock. -/
theorem Good.letGo {h : List Act} {s : Sys} (g : Good h s) (p i : Nat) (c : Pc) (hi : (s.pc p).held = some i)
    (hc : c = .failed ∨ c = .unlink ∧ s.file ≠ none) : Good h ((s.unlock i).goto p c) := by
  have hend : (s.pc p).ended = false := by
    revert hi
    cases s.pc p <;> simp [Pc.held, Pc.ended]
  have hch : c.held = none ∧ c.handle = none ∧ c.creating = false := by
    rcases hc with h | ⟨h, _⟩ <;> subst h <;> exact ⟨rfl, rfl, rfl⟩
  have hown : ∀ s' : Sys, s'.pc p = c → Own s' p := by
    intro s' hs'
    unfold Own
    rw [hs']
    rcases hc with h | ⟨h, _⟩ <;> subst h <;> trivial
  have hlocked := (g.held p i).1 hi
  refine ⟨?_, ?_, ?_, ?_, ?_, ?_, g.fresh, g.whole⟩
  · intro q hq
    rw [body_goto]
    rw [pc_goto] at hq
    by_cases e : q = p
    · rw [e]
      exact g.asked p hend
    · rw [if_neg e] at hq
      exact g.asked q hq
  · intro q j
    rw [pc_goto]
    show _ ↔ (Function.update s.locked i none) j = some q
    by_cases ej : j = i
    · subst ej
      rw [Function.update_self]
      by_cases e : q = p
      · rw [if_pos e, hch.1]
        exact ⟨fun h => (by cases h), fun h => (by cases h)⟩
      · rw [if_neg e]
        constructor
        · intro h1
          have := (g.held q j).1 h1
          rw [hlocked] at this
          exact absurd (Option.some.inj this).symm e
        · intro h1; cases h1
    · rw [Function.update_of_ne ej]
      by_cases e : q = p
      · rw [if_pos e, hch.1]
        constructor
        · intro h1; cases h1
        · intro h1
          rw [e] at h1
          have := (g.held p j).2 h1
          rw [hi] at this
          exact absurd (Option.some.inj this).symm ej
      · rw [if_neg e]
        exact g.held q j
  · intro hf q j hj
    rw [pc_goto] at hj
    by_cases e : q = p
    · rw [if_pos e, hch.2.1] at hj; cases hj
    · rw [if_neg e] at hj
      exact g.link hf q j hj
  · intro hf q
    rw [pc_goto]
    by_cases e : q = p
    · rw [if_pos e]
      rcases hc with h | ⟨_, h⟩
      · subst h; rfl
      · exact absurd hf h
    · rw [if_neg e]
      exact g.settled hf q
  · intro q hq
    rw [pc_goto] at hq
    by_cases e : q = p
    · rw [if_pos e, hch.2.2] at hq; cases hq
    · rw [if_neg e] at hq
      exact g.alone q hq
  · intro q
    by_cases e : q = p
    · rw [e]
      exact hown _ (by rw [pc_goto, if_pos rfl])
    · have := g.own q
      unfold Own at this ⊢
      rw [pc_goto, if_neg e, body_goto]
      exact this

/-- Removing files while nobody is busy. -/
theorem Good.remove {h : List Act} {s : Sys} (g : Good h s) (hq : ∀ p, (s.pc p).busy = false) (file tmp lock : Option Nat)
    (hfile : file = s.file ∨ file = none) (htmp : tmp = s.tmp ∨ tmp = none) : Good h { s with file := file, tmp := tmp, lock := lock } := by
  have nb : ∀ p, (s.pc p).handle = none ∧ (s.pc p).after = false ∧ (s.pc p).creating = false := by
    intro p
    have := hq p
    revert this
    cases s.pc p <;> simp [Pc.busy, Pc.handle, Pc.after, Pc.creating]
  refine ⟨g.asked, g.held, ?_, fun _ p => (nb p).2.1, ?_, ?_, ?_, ?_⟩
  · intro _ p i hi
    have hi : (s.pc p).handle = some i := hi
    rw [(nb p).1] at hi; cases hi
  · intro p hp
    have hp : (s.pc p).creating = true := hp
    rw [(nb p).2.2] at hp; cases hp
  · intro p
    unfold Own
    have := (nb p).2.2
    show match s.pc p with | .writing _ f off rest => _ | .rename _ => _ | _ => True
    revert this
    cases s.pc p <;> simp [Pc.creating]
  · refine ⟨?_, ?_, ?_⟩
    · intro f hf
      rcases htmp with e | e
      · exact g.fresh.1 f (e ▸ hf)
      · rw [show tmp = some f from hf] at e; cases e
    · intro f hf
      rcases hfile with e | e
      · exact g.fresh.2.1 f (e ▸ hf)
      · rw [show file = some f from hf] at e; cases e
    · intro f hf ht
      rcases hfile with e | e
      · rcases htmp with e' | e'
        · exact g.fresh.2.2 f (e ▸ hf) (e' ▸ ht)
        · rw [show tmp = some f from ht] at e'; cases e'
      · rw [show file = some f from hf] at e; cases e
  · intro f hf
    rcases hfile with e | e
    · exact g.whole f (e ▸ hf)
    · rw [show file = some f from hf] at e; cases e

theorem Good.own_trivial {s : Sys} {p : Nat} {c : Pc} (hc : c.creating = false) : Own (s.goto p c) p := by
  unfold Own
  rw [pc_goto, if_pos rfl]
  revert hc
  cases c <;> simp [Pc.creating]

/-- `create` opens the temporary file. -/
theorem Good.openTmp {h : List Act} {s : Sys} (g : Good h s) (p i : Nat) (hp : s.pc p = .create i) : Good h (s.openTmp p i) := by
  have hcr : (s.pc p).creating = true := by rw [hp]; rfl
  have hn := g.alone p hcr
  have key : ∀ f n, f < n → s.nextFile ≤ n →
      Good h ({ s with tmp := some f, nextFile := n, data := Function.update s.data f [] }.goto p (.writing i f 0 (s.procs p).body)) := by
    intro f n hfn hnn
    refine ⟨?_, ?_, ?_, ?_, ?_, ?_, ?_, ?_⟩
    · intro q hq
      rw [body_goto]
      rw [pc_goto] at hq
      by_cases e : q = p
      · rw [e]
        exact g.asked p (by rw [hp]; rfl)
      · rw [if_neg e] at hq
        exact g.asked q hq
    · intro q j
      rw [pc_goto]
      by_cases e : q = p
      · rw [if_pos e, e]
        have := g.held p j
        rw [hp] at this
        exact this
      · rw [if_neg e]
        exact g.held q j
    · intro _ q j hj
      rw [pc_goto] at hj
      by_cases e : q = p
      · rw [if_pos e] at hj
        exact g.link hn p j (by rw [hp]; exact hj)
      · rw [if_neg e] at hj
        exact g.link hn q j hj
    · intro _ q
      rw [pc_goto]
      by_cases e : q = p
      · rw [if_pos e]; rfl
      · rw [if_neg e]
        exact g.settled hn q
    · intro _ _
      exact hn
    · intro q
      by_cases e : q = p
      · rw [e]
        unfold Own
        rw [pc_goto, if_pos rfl, body_goto]
        refine ⟨rfl, ?_, ?_⟩
        · show (Function.update s.data f [] f).length = 0
          rw [Function.update_self]; rfl
        · show Function.update s.data f [] f ++ _ = _
          rw [Function.update_self]; rfl
      · have hnc : (s.pc q).creating = false := by
          by_contra hc
          exact e (g.exclusive (by simpa using hc) hcr)
        unfold Own
        rw [pc_goto, if_neg e]
        show match s.pc q with | .writing _ f off rest => _ | .rename _ => _ | _ => True
        revert hnc
        cases s.pc q <;> simp [Pc.creating]
    · refine ⟨?_, ?_, ?_⟩
      · intro f' hf'
        cases hf'
        exact hfn
      · intro f' hf'
        rw [show s.file = some f' from hf'] at hn; cases hn
      · intro f' hf'
        rw [show s.file = some f' from hf'] at hn; cases hn
    · intro f' hf'
      rw [show s.file = some f' from hf'] at hn; cases hn
  unfold Sys.openTmp
  cases ht : s.tmp with
  | none => exact key s.nextFile (s.nextFile + 1) (Nat.lt_succ_self _) (Nat.le_succ _)
  | some f =>
    have := key f s.nextFile (g.fresh.1 f ht) (Nat.le_refl _)
    exact this

/-- One piece is written. -/
theorem Good.write {h : List Act} {s : Sys} (g : Good h s) (p i f off c : Nat) (rest : Body) (hp : s.pc p = .writing i f off (c :: rest)) :
    Good h ({ s with data := Function.update s.data f (writeAt (s.data f) off c) }.goto p (.writing i f (off + 1) rest)) := by
  have hcr : (s.pc p).creating = true := by rw [hp]; rfl
  have hn := g.alone p hcr
  have ho := g.own p
  unfold Own at ho
  rw [hp] at ho
  obtain ⟨h1, h2, h3⟩ := ho
  have hw : writeAt (s.data f) off c = s.data f ++ [c] := by
    unfold writeAt
    rw [← h2, List.take_length, Nat.sub_self, List.drop_eq_nil_of_le (Nat.le_succ _)]
    simp
  refine ⟨?_, ?_, ?_, ?_, fun _ _ => hn, ?_, ?_, ?_⟩
  · intro q hq
    rw [body_goto]
    rw [pc_goto] at hq
    by_cases e : q = p
    · rw [e]
      exact g.asked p (by rw [hp]; rfl)
    · rw [if_neg e] at hq
      exact g.asked q hq
  · intro q j
    rw [pc_goto]
    by_cases e : q = p
    · rw [if_pos e, e]
      have := g.held p j
      rw [hp] at this
      exact this
    · rw [if_neg e]
      exact g.held q j
  · intro _ q j hj
    rw [pc_goto] at hj
    by_cases e : q = p
    · rw [if_pos e] at hj
      exact g.link hn p j (by rw [hp]; exact hj)
    · rw [if_neg e] at hj
      exact g.link hn q j hj
  · intro _ q
    rw [pc_goto]
    by_cases e : q = p
    · rw [if_pos e]; rfl
    · rw [if_neg e]
      exact g.settled hn q
  · intro q
    by_cases e : q = p
    · rw [e]
      unfold Own
      rw [pc_goto, if_pos rfl, body_goto]
      refine ⟨h1, ?_, ?_⟩
      · show (Function.update s.data f _ f).length = _
        rw [Function.update_self, hw, List.length_append, h2]; rfl
      · show Function.update s.data f _ f ++ _ = _
        rw [Function.update_self, hw, ← h3, List.append_assoc]; rfl
    · have hnc : (s.pc q).creating = false := by
        by_contra hc
        exact e (g.exclusive (by simpa using hc) hcr)
      unfold Own
      rw [pc_goto, if_neg e]
      show match s.pc q with | .writing _ f off rest => _ | .rename _ => _ | _ => True
      revert hnc
      cases s.pc q <;> simp [Pc.creating]
  · exact g.fresh
  · intro f' hf'
    rw [show s.file = some f' from hf'] at hn; cases hn

/-- The finished file gets its name. -/
theorem Good.publish {h : List Act} {s : Sys} (g : Good h s) (p i : Nat) (hp : s.pc p = .rename i) : Good h (s.publish p i) := by
  have hcr : (s.pc p).creating = true := by rw [hp]; rfl
  have hn := g.alone p hcr
  have ho := g.own p
  unfold Own at ho
  rw [hp] at ho
  obtain ⟨f, h1, h2⟩ := ho
  unfold Sys.publish
  rw [h1]
  have others : ∀ q, q ≠ p → (s.pc q).creating = false := by
    intro q e
    by_contra hc
    exact e (g.exclusive (by simpa using hc) hcr)
  refine ⟨?_, ?_, ?_, ?_, ?_, ?_, ?_, ?_⟩
  · intro q hq
    rw [body_goto]
    rw [pc_goto] at hq
    by_cases e : q = p
    · rw [e]
      exact g.asked p (by rw [hp]; rfl)
    · rw [if_neg e] at hq
      exact g.asked q hq
  · intro q j
    rw [pc_goto]
    by_cases e : q = p
    · rw [if_pos e, e]
      have := g.held p j
      rw [hp] at this
      exact this
    · rw [if_neg e]
      exact g.held q j
  · intro hf; cases hf
  · intro hf; cases hf
  · intro q hq
    rw [pc_goto] at hq
    by_cases e : q = p
    · rw [if_pos e] at hq; cases hq
    · rw [if_neg e] at hq
      have hq : (s.pc q).creating = true := hq
      rw [others q e] at hq; cases hq
  · intro q
    by_cases e : q = p
    · rw [e]
      exact Good.own_trivial rfl
    · unfold Own
      rw [pc_goto, if_neg e]
      have hnc := others q e
      show match s.pc q with | .writing _ f off rest => _ | .rename _ => _ | _ => True
      revert hnc
      cases s.pc q <;> simp [Pc.creating]
  · refine ⟨?_, ?_, ?_⟩
    · intro f' hf'; cases hf'
    · intro f' hf'; cases hf'
      exact g.fresh.1 f h1
    · intro f' _ hf'; cases hf'
  · intro f' hf'; cases hf'
    show Unbroken h (s.data f)
    rw [h2]
    exact g.asked p (by rw [hp]; rfl)

theorem Good.openLock {h : List Act} {s : Sys} (g : Good h s) (p : Nat) (hp : s.pc p = .openLock) : Good h (s.openLock p) := by
  unfold Sys.openLock
  cases hl : s.lock with
  | some i => 
    exact g.goto p _ (fun _ => by rw [hp]; rfl) (by rw [hp]; rfl) (fun _ j hj => by rw [hl]; exact hj) (fun _ => rfl) (fun hc => by cases hc)
      (Good.own_trivial rfl)
  | none =>
    have g' : Good h { s with lock := some s.nextLock, nextLock := s.nextLock + 1 } := by
      refine ⟨g.asked, g.held, ?_, g.settled, g.alone, g.own, g.fresh, g.whole⟩
      intro hf q j hj
      have := g.link hf q j hj
      rw [hl] at this; cases this
    exact g'.goto p _ (fun _ => congrArg Pc.ended hp) (congrArg Pc.held hp).symm
      (fun _ j hj => hj) (fun _ => rfl) (fun hc => by cases hc) (Good.own_trivial rfl)

theorem Good.takeLock {h : List Act} {s : Sys} (g : Good h s) (p i : Nat) (hp : s.pc p = .tryLock i) (hl : s.locked i = none) :
    Good h ({ s with locked := Function.update s.locked i (some p) }.goto p (.check i)) := by
  refine ⟨?_, ?_, ?_, ?_, ?_, ?_, g.fresh, g.whole⟩
  · intro q hq
    rw [body_goto]
    rw [pc_goto] at hq
    by_cases e : q = p
    · rw [e]
      exact g.asked p (by rw [hp]; rfl)
    · rw [if_neg e] at hq
      exact g.asked q hq
  · intro q j
    rw [pc_goto]
    show _ ↔ Function.update s.locked i (some p) j = some q
    by_cases ej : j = i
    · subst ej
      rw [Function.update_self]
      by_cases e : q = p
      · subst e; simp [Pc.held]
      · rw [if_neg e]
        constructor
        · intro h1
          have := (g.held q j).1 h1
          rw [hl] at this; cases this
        · intro h1
          exact absurd (Option.some.inj h1).symm e
    · rw [Function.update_of_ne ej]
      by_cases e : q = p
      · rw [if_pos e, e]
        constructor
        · intro h1
          exact absurd (Option.some.inj h1).symm ej
        · intro h1
          have := (g.held p j).2 h1
          rw [hp] at this; cases this
      · rw [if_neg e]
        exact g.held q j
  · intro hf q j hj
    rw [pc_goto] at hj
    by_cases e : q = p
    · rw [if_pos e] at hj
      exact g.link hf p j (by rw [hp]; exact hj)
    · rw [if_neg e] at hj
      exact g.link hf q j hj
  · intro hf q
    rw [pc_goto]
    by_cases e : q = p
    · rw [if_pos e]; rfl
    · rw [if_neg e]
      exact g.settled hf q
  · intro q hq
    rw [pc_goto] at hq
    by_cases e : q = p
    · rw [if_pos e] at hq; cases hq
    · rw [if_neg e] at hq
      exact g.alone q hq
  · intro q
    by_cases e : q = p
    · rw [e]
      exact Good.own_trivial rfl
    · have := g.own q
      unfold Own at this ⊢
      rw [pc_goto, if_neg e, body_goto]
      exact this

theorem Good.crash {h : List Act} {s : Sys} (g : Good h s) (p : Nat) : Good h (s.act (.crash p)) := by
  show Good h ({ s with locked := fun i => if s.locked i = some p then none else s.locked i }.goto p .idle)
  refine ⟨?_, ?_, ?_, ?_, ?_, ?_, g.fresh, g.whole⟩
  · intro q hq
    rw [body_goto]
    rw [pc_goto] at hq
    by_cases e : q = p
    · rw [if_pos e] at hq; cases hq
    · rw [if_neg e] at hq
      exact g.asked q hq
  · intro q j
    rw [pc_goto]
    show _ ↔ (if s.locked j = some p then none else s.locked j) = some q
    by_cases e : q = p
    · rw [if_pos e, e]
      by_cases hj : s.locked j = some p
      · rw [if_pos hj]; simp [Pc.held]
      · rw [if_neg hj]; simp [Pc.held, hj]
    · rw [if_neg e]
      by_cases hj : s.locked j = some p
      · rw [if_pos hj]
        constructor
        · intro h1
          have := (g.held q j).1 h1
          rw [hj] at this
          exact absurd (Option.some.inj this).symm e
        · intro h1; cases h1
      · rw [if_neg hj]
        exact g.held q j
  · intro hf q j hj
    rw [pc_goto] at hj
    by_cases e : q = p
    · rw [if_pos e] at hj; cases hj
    · rw [if_neg e] at hj
      exact g.link hf q j hj
  · intro hf q
    rw [pc_goto]
    by_cases e : q = p
    · rw [if_pos e]; rfl
    · rw [if_neg e]
      exact g.settled hf q
  · intro q hq
    rw [pc_goto] at hq
    by_cases e : q = p
    · rw [if_pos e] at hq; cases hq
    · rw [if_neg e] at hq
      exact g.alone q hq
  · intro q
    by_cases e : q = p
    · rw [e]
      exact Good.own_trivial rfl
    · have := g.own q
      unfold Own at this ⊢
      rw [pc_goto, if_neg e, body_goto]
      exact this

theorem Good.start {h : List Act} {s : Sys} (g : Good h s) (p : Nat) (force : Bool) (body : Body) :
    Good (h ++ [.start p force body]) (s.start p force body) := by
  unfold Sys.start
  by_cases he : (s.pc p).ended = true
  · rw [if_pos he]
    have hpc : ∀ q, Sys.pc { s with procs := Function.update s.procs p ⟨.register, force, body⟩ } q = if q = p then .register else s.pc q := by
      intro q
      unfold Sys.pc Function.update
      by_cases e : q = p
      · subst e; simp
      · simp [e]
    have hpp : ∀ q, q ≠ p → Function.update s.procs p ⟨.register, force, body⟩ q = s.procs q := fun q e => Function.update_of_ne e _ _
    have hnh : (s.pc p).held = none := by
      revert he
      cases s.pc p <;> simp [Pc.ended, Pc.held]
    refine ⟨?_, ?_, ?_, ?_, ?_, ?_, g.fresh, fun f hf => (g.whole f hf).snoc⟩
    · intro q hq
      by_cases e : q = p
      · rw [e]
        refine ⟨p, force, ?_⟩
        show Act.start p force (Function.update s.procs p ⟨.register, force, body⟩ p).body ∈ _
        rw [Function.update_self]
        exact List.mem_append_right _ (List.mem_singleton.2 rfl)
      · rw [hpc, if_neg e] at hq
        show Unbroken _ (Function.update s.procs p _ q).body
        rw [hpp q e]
        exact (g.asked q hq).snoc
    · intro q j
      rw [hpc]
      by_cases e : q = p
      · rw [if_pos e, e, ← g.held p j, hnh]; rfl
      · rw [if_neg e]
        exact g.held q j
    · intro hf q j hj
      rw [hpc] at hj
      by_cases e : q = p
      · rw [if_pos e] at hj; cases hj
      · rw [if_neg e] at hj
        exact g.link hf q j hj
    · intro hf q
      rw [hpc]
      by_cases e : q = p
      · rw [if_pos e]; rfl
      · rw [if_neg e]
        exact g.settled hf q
    · intro q hq
      rw [hpc] at hq
      by_cases e : q = p
      · rw [if_pos e] at hq; cases hq
      · rw [if_neg e] at hq
        exact g.alone q hq
    · intro q
      unfold Own
      rw [hpc]
      by_cases e : q = p
      · rw [if_pos e]; trivial
      · rw [if_neg e]
        have := g.own q
        unfold Own at this
        show match s.pc q with
          | .writing _ f off rest => s.tmp = some f ∧ (s.data f).length = off ∧ s.data f ++ rest = (Function.update s.procs p _ q).body
          | .rename _ => ∃ f, s.tmp = some f ∧ s.data f = (Function.update s.procs p _ q).body
          | _ => True
        rw [hpp q e]
        exact this
  · rw [if_neg he]
    exact g.snoc _

theorem Good.go {h : List Act} {s : Sys} (g : Good h s) (p : Nat) (hq : s.pc p = .dropFile → ∀ q, (s.pc q).busy = false) : Good h (s.go p) := by
  unfold Sys.go
  cases hp : s.pc p with
  | idle => exact g
  | done => exact g
  | failed => exact g
  | register =>
    exact (g.row _).goto p _ (fun _ => congrArg Pc.ended hp) (congrArg Pc.held hp).symm
      (fun _ j hj => by cases hj) (fun _ => rfl) (fun hc => by cases hc) (Good.own_trivial rfl)
  | register2 =>
    exact (g.row _).goto p _ (fun _ => congrArg Pc.ended hp) (congrArg Pc.held hp).symm
      (fun _ j hj => by cases hj) (fun _ => rfl) (fun hc => by cases hc) (Good.own_trivial rfl)
  | dropRow =>
    exact (g.row _).goto p _ (fun _ => congrArg Pc.ended hp) (congrArg Pc.held hp).symm
      (fun _ j hj => by cases hj) (fun _ => rfl) (fun hc => by cases hc) (Good.own_trivial rfl)
  | look =>
    simp only
    split
    · exact g.goto p _ (fun _ => by rw [hp]; rfl) (by rw [hp]; rfl)
        (fun _ j hj => by cases hj) (fun _ => rfl) (fun hc => by cases hc) (Good.own_trivial rfl)
    · exact g.goto p _ (fun _ => by rw [hp]; rfl) (by rw [hp]; rfl)
        (fun _ j hj => by cases hj) (fun _ => rfl) (fun hc => by cases hc) (Good.own_trivial rfl)
  | dropFile =>
    have g' := g.remove (hq hp) none s.tmp s.lock (.inr rfl) (.inl rfl)
    exact g'.goto p _ (fun _ => congrArg Pc.ended hp) (congrArg Pc.held hp).symm
      (fun _ j hj => by cases hj) (fun _ => rfl) (fun hc => by cases hc) (Good.own_trivial rfl)
  | look2 =>
    simp only
    split
    · exact g.goto p _ (fun hc => by cases hc) (by rw [hp]; rfl)
        (fun _ j hj => by cases hj) (fun _ => rfl) (fun hc => by cases hc) (Good.own_trivial rfl)
    · exact g.goto p _ (fun _ => by rw [hp]; rfl) (by rw [hp]; rfl)
        (fun _ j hj => by cases hj) (fun _ => rfl) (fun hc => by cases hc) (Good.own_trivial rfl)
  | openLock => exact g.openLock p hp
  | tryLock i =>
    simp only
    split
    · rename_i hl
      exact g.takeLock p i hp (Option.isNone_iff_eq_none.1 hl)
    · exact g.goto p _ (fun _ => by rw [hp]; rfl) (by rw [hp]; rfl)
        (fun _ j hj => by cases hj) (fun _ => rfl) (fun hc => by cases hc) (Good.own_trivial rfl)
  | check i =>
    simp only
    split
    · rename_i hf
      exact g.goto p _ (fun _ => by rw [hp]; rfl) (by rw [hp]; rfl)
        (fun hn => by rw [hn] at hf; cases hf) (fun hn => by rw [hn] at hf; cases hf) (fun hc => by cases hc) (Good.own_trivial rfl)
    · rename_i hf
      have hn : s.file = none := by simpa using hf
      refine g.goto p _ (fun _ => by rw [hp]; rfl) (by rw [hp]; rfl)
        (fun hn j hj => g.link hn p j (by rw [hp]; exact hj)) (fun _ => rfl) (fun _ => hn) ?_
      unfold Own
      rw [pc_goto, if_pos rfl]
      trivial
  | create i => exact g.openTmp p i hp
  | writing i f off rest =>
    cases rest with
    | cons c rest => exact g.write p i f off c rest hp
    | nil =>
      have hn := g.alone p (by rw [hp]; rfl)
      refine g.goto p _ (fun _ => by rw [hp]; rfl) (by rw [hp]; rfl)
        (fun hn j hj => g.link hn p j (by rw [hp]; exact hj)) (fun _ => rfl) (fun _ => hn) ?_
      have ho := g.own p
      unfold Own at ho
      rw [hp] at ho
      unfold Own
      rw [pc_goto, if_pos rfl, body_goto]
      exact ⟨f, ho.1, by rw [← ho.2.2]; exact (List.append_nil _).symm⟩
  | rename i => exact g.publish p i hp
  | update i =>
    simp only
    unfold Sys.record
    split
    · rename_i hf
      have := g.settled hf p
      rw [hp] at this; cases this
    · rename_i f hf
      have hfn : s.file ≠ none := by rw [hf]; simp
      exact (g.row _).goto p _ (fun _ => congrArg Pc.ended hp) (congrArg Pc.held hp).symm
        (fun hn => absurd hn hfn) (fun hn => absurd hn hfn) (fun hc => by cases hc) (Good.own_trivial rfl)
  | release i =>
    refine g.letGo p i .unlink (by rw [hp]; rfl) (.inr ⟨rfl, fun hn => ?_⟩)
    have := g.settled hn p
    rw [hp] at this; cases this
  | unlink =>
    have hfn : s.file ≠ none := by
      intro hn
      have := g.settled hn p
      rw [hp] at this; cases this
    have g' : Good h { s with lock := none } :=
      ⟨g.asked, g.held, fun hn => absurd hn hfn, g.settled, g.alone, g.own, g.fresh, g.whole⟩
    exact g'.goto p _ (fun hc => by cases hc) (congrArg Pc.held hp).symm
      (fun _ j hj => by cases hj) (fun _ => rfl) (fun hc => by cases hc) (Good.own_trivial rfl)

theorem Good.act {h : List Act} {s : Sys} (g : Good h s) (a : Act) (hq : s.removes a = true → ∀ p, (s.pc p).busy = false) :
    Good (h ++ [a]) (s.act a) := by
  cases a with
  | start p force body => exact g.start p force body
  | go p => exact (g.go p (fun hp => hq (by unfold Sys.removes; simpa using hp))).snoc _
  | fail p =>
    refine Good.snoc ?_ _
    show Good h (s.failing p)
    unfold Sys.failing
    cases hp : s.pc p with
    | create i => exact g.letGo p i .failed (by rw [hp]; rfl) (.inl rfl)
    | writing i f off rest => exact g.letGo p i .failed (by rw [hp]; rfl) (.inl rfl)
    | _ => exact g
  | crash p => exact (g.crash p).snoc _
  | evict => exact (g.remove (hq rfl) none s.tmp s.lock (.inr rfl) (.inl rfl)).snoc _
  | forget => exact (g.row none).snoc _
  | evictTmp => exact (g.remove (hq rfl) s.file none s.lock (.inl rfl) (.inr rfl)).snoc _
  | evictLock => exact (g.remove (hq rfl) s.file s.tmp none (.inl rfl) (.inl rfl)).snoc _
  | house => exact g.house.snoc _
  | clean =>
    refine Good.snoc ?_ _
    show Good h s.clean
    unfold Sys.clean
    split
    · exact g.row _
    · exact g.house

theorem good_init : Good [] Sys.init := by
  refine ⟨fun p hp => (by cases hp), fun p i => ⟨fun hi => (by cases hi), fun hi => (by cases hi)⟩, fun _ p i hi => (by cases hi), fun _ p => rfl, fun p hp => (by cases hp),
    fun p => trivial, ⟨fun f hf => (by cases hf), fun f hf => (by cases hf), fun f hf => (by cases hf)⟩, fun f hf => (by cases hf)⟩

theorem good_run {h₀ : List Act} {s : Sys} (g : Good h₀ s) (h : List Act) (hc : Calm s h) : Good (h₀ ++ h) (s.run h) := by
  induction h generalizing h₀ s with
  | nil => simpa [Sys.run] using g
  | cons a h ih =>
    have := ih (g.act a hc.1) hc.2
    simpa [Sys.run, List.append_assoc] using this

theorem Lasting.calm {s : Sys} {h : List Act} (hl : Lasting s h) : Calm s h := by
  induction h generalizing s with
  | nil => trivial
  | cons a h ih => exact ⟨fun hr => absurd hl.1 (by simp [hr]), ih hl.2⟩

/-- C57 (`_partial`: files are not removed under the feet of a creating process): whatever the interleaving, the failures and the crashes,
a file with the name of the path is complete — in every state, so also when the path is returned. -/
theorem C57_complete_partial (h : List Act) (hc : Calm Sys.init h) (c : Body) (hf : (Sys.init.run h).content = some c) : Unbroken h c := by
  have g := good_run good_init h hc
  rw [List.nil_append] at g
  unfold Sys.content at hf
  cases hfile : (Sys.init.run h).file with
  | none => rw [hfile] at hf; cases hf
  | some f =>
    rw [hfile] at hf
    cases hf
    exact g.whole f hfile

/-- C57: in such executions there is never more than one process creating the file. -/
theorem C57_exclusive_partial (h : List Act) (hc : Calm Sys.init h) (p q : Nat) (hp : ((Sys.init.run h).pc p).creating = true)
    (hq : ((Sys.init.run h).pc q).creating = true) : p = q :=
  (good_run good_init h hc).exclusive hp hq

end Verif.DiskCache.Create

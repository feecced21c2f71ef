import Verif.DiskCache.SwitchProps

/-!
# C109: forced files, and names of files that no table knows
-/

namespace Verif.DiskCache.Switch

/-! ## Forced files -/

def Gone (p : Path) (s : Sys) : Prop := s.files p = false

/-- What is known of a forced call at a place. -/
def Call.renewed (c : Call) (h : List Act) : Pc → Prop
  | .ask2 p | .register2 p | .create p | .askUpdate p | .update p => c.since h (Gone p)
  | .done p => c.start.active.managed = true → c.since h (Gone p)
  | _ => True

theorem Call.renewed_snoc {c : Call} {h : List Act} {pc : Pc} (a : Act) (hs : c.renewed h pc) : c.renewed (h ++ [a]) pc := by
  cases pc <;> first
    | exact hs
    | exact Call.since_snoc a hs
    | exact fun e => Call.since_snoc a (hs e)

theorem Call.renewed_go (c : Call) (hc : c.Ok) (hst : c.Steady) (hf : c.force = .yes) (h : List Act) (ch : Bool) (hp : h ++ [.go c.t ch] <+: c.during)
    (ih : c.renewed h ((c.at h).pc c.t)) : c.renewed (h ++ [.go c.t ch]) ((c.at (h ++ [.go c.t ch])).pc c.t) := by
  have hph : h <+: c.during := List.IsPrefix.trans (List.prefix_append _ _) hp
  have hfine := c.fine_at hc hst h hph
  have hforce : ((c.at h).thr c.t).force = .yes := (congrArg (·.2) (c.req_at hc h hph)).trans hf
  have hA : (c.at h).active = c.start.active := congrArg (·.1) (c.steady_pols hst h hph)
  have old : ∀ {P : Sys → Prop}, P (c.at h) → c.since (h ++ [.go c.t ch]) P := fun e => Call.since_snoc _ (Call.since_now e)
  have new : ∀ p, ((c.at h).go c.t ch).files p = false → c.since (h ++ [.go c.t ch]) (Gone p) := fun p e =>
    Call.since_now (by rw [c.at_snoc]; exact e)
  rw [c.at_snoc]
  change c.renewed _ (((c.at h).go c.t ch).pc c.t)
  cases hpc : (c.at h).pc c.t with
  | idle => simp only [Sys.go, hpc]; trivial
  | managed =>
    simp only [Sys.go, hpc, Sys.goto_pc]
    split <;> trivial
  | dir => simp only [Sys.go, hpc, Sys.goto_pc]; trivial
  | dirU => simp only [Sys.go, hpc, Sys.goto_pc]; trivial
  | ask p =>
    simp only [Sys.go, hpc, Sys.goto_pc]
    split <;> trivial
  | register p =>
    simp only [Sys.go, hpc, Sys.register]
    split
    · rw [Sys.goto_pc]; trivial
    · split <;> (rw [Sys.goto_pc]; trivial)
  | look p r =>
    simp only [Sys.go, hpc, Sys.lookAt, hforce]
    split
    · rw [Sys.goto_pc]; trivial
    · rename_i hg
      rw [Sys.goto_pc]
      exact old (P := Gone p) (by simpa [Gone] using hg)
  | askDrop p =>
    rw [hpc] at hfine
    simp only [Sys.go, hpc, Sys.goto_pc]
    rw [if_pos (by rw [hA]; exact hfine.1.1)]
    trivial
  | drop p =>
    have hn := new p
    simp only [Sys.go, hpc, Sys.dropEntry] at hn ⊢
    split at hn
    · rename_i h1
      rw [if_pos h1, Sys.goto_pc]
      trivial
    · rename_i h1
      rw [if_neg h1]
      split at hn
      · rename_i h2
        rw [if_pos h2, Sys.goto_pc]
        trivial
      · rename_i h2
        rw [if_neg h2, Sys.goto_pc]
        exact hn (by simp [Sys.goto, Sys.remove])
  | ask2 p =>
    rw [hpc] at ih
    have ih' := Call.renewed_snoc (a := .go c.t ch) (pc := .ask2 p) ih
    simp only [Sys.go, hpc, Sys.goto_pc]
    split <;> exact ih'
  | register2 p =>
    rw [hpc] at ih
    have ih' := Call.renewed_snoc (a := .go c.t ch) (pc := .register2 p) ih
    simp only [Sys.go, hpc, Sys.register]
    split
    · rw [Sys.goto_pc]; trivial
    · split
      · rw [Sys.goto_pc]; trivial
      · rw [Sys.goto_pc]; exact ih'
  | create p =>
    rw [hpc] at ih
    have ih' := Call.renewed_snoc (a := .go c.t ch) (pc := .create p) ih
    simp only [Sys.go, hpc, Sys.createFile]
    split
    · rw [Sys.goto_pc]; exact fun _ => ih'
    · split
      · rw [Sys.goto_pc]; trivial
      · rw [Sys.goto_pc]; exact ih'
  | askUpdate p =>
    rw [hpc] at ih
    have ih' := Call.renewed_snoc (a := .go c.t ch) (pc := .askUpdate p) ih
    simp only [Sys.go, hpc, Sys.goto_pc]
    split
    · exact ih'
    · exact fun _ => ih'
  | update p =>
    rw [hpc] at ih
    have ih' := Call.renewed_snoc (a := .go c.t ch) (pc := .update p) ih
    simp only [Sys.go, hpc, Sys.updateEntry]
    split
    · rw [Sys.goto_pc]; trivial
    · split
      · rw [Sys.goto_pc]; trivial
      · split
        · rw [Sys.goto_pc]; trivial
        · rw [Sys.goto_pc]; exact fun _ => ih'
  | createU p =>
    rw [hpc] at hfine
    have hu : ∀ x : c.start.active.managed = true, c.since (h ++ [.go c.t ch]) (Gone p) := fun e => by rw [hfine.1] at e; cases e
    simp only [Sys.go, hpc, Sys.createFile]
    split
    · rw [Sys.goto_pc]; exact hu
    · split
      · rw [Sys.goto_pc]; trivial
      · rw [Sys.goto_pc]; exact hu
  | done p =>
    rw [hpc] at ih
    simp only [Sys.go, hpc]
    exact Call.renewed_snoc _ ih
  | failed e =>
    simp only [Sys.go, hpc]
    trivial

/-- C109 (part): a file that is asked for with `force` in a managed cache whose policy stays is a new one: at some moment of the call it was not
there. -/
theorem C109_forced_partial (c : Call) (hc : c.Ok) (hst : c.Steady) (hf : c.force = .yes) (p : Path) (hr : c.returned p)
    (hm : c.final.active.managed = true) : c.sometime (fun s => s.files p = false) := by
  have h : ∀ h, h <+: c.during → c.renewed h ((c.at h).pc c.t) := by
    refine c.induct _ ?_ ?_ ?_
    · show c.renewed [] (c.start.pc c.t)
      unfold Sys.pc
      rw [c.start_thr hc]
      trivial
    · intro h ch hp ih
      exact c.renewed_go hc hst hf h ch hp ih
    · intro h a hp ha ih
      have e : (c.at (h ++ [a])).pc c.t = (c.at h).pc c.t := by
        unfold Sys.pc
        rw [c.other_thr hc h a hp ha]
      rw [e]
      exact Call.renewed_snoc a ih
  have hd := h c.during List.prefix_rfl
  have e : (c.at c.during).pc c.t = .done p := hr
  have hA : c.final.active = c.start.active := congrArg (·.1) (c.steady_pols hst c.during List.prefix_rfl)
  rw [e] at hd
  exact hd (by rw [← hA]; exact hm)

/-! ## Names -/

/-- The file a thread is at. -/
def Pc.path? : Pc → Option Path
  | .ask p | .register p | .look p _ | .askDrop p | .drop p | .ask2 p | .register2 p | .create p | .askUpdate p | .update p | .createU p | .done p => some p
  | _ => none

/-- A step keeps the file, or the thread takes one. -/
theorem go_path (s : Sys) (t : Nat) (ch : Bool) (p : Path) (h : ((s.go t ch).pc t).path? = some p) :
    (s.pc t).path? = some p ∨ (∃ k, p.name = .keyed k) ∨ (p.name = .fresh s.next ∧ (s.go t ch).next = s.next + 1) := by
  revert h
  cases hpc : s.pc t <;> simp only [Sys.go, hpc, Sys.register, Sys.lookAt, Sys.dropEntry, Sys.createFile, Sys.updateEntry] <;>
    (repeat' split) <;> (try rw [Sys.goto_pc]) <;> (try rw [hpc]) <;> intro h <;> simp [Pc.path?] at h ⊢ <;> (try exact .inl h) <;> subst h <;> simp [Sys.goto]

theorem go_next (s : Sys) (t : Nat) (ch : Bool) : s.next ≤ (s.go t ch).next := by
  cases hpc : s.pc t <;> simp only [Sys.go, hpc, Sys.register, Sys.lookAt, Sys.dropEntry, Sys.createFile, Sys.updateEntry] <;>
    (repeat' split) <;> simp [Sys.goto, Sys.addRow, Sys.addFile, Sys.remove]

theorem act_next (s : Sys) (a : Act) : s.next ≤ (s.act a).next := by
  cases a with
  | start t k f => show s.next ≤ (s.start t k f).next; unfold Sys.start; split <;> exact Nat.le_refl _
  | go t ch => exact go_next s t ch
  | replace p => exact Nat.le_refl _
  | evict p => exact Nat.le_refl _
  | appear p => show s.next ≤ (if s.gone p.dir then s else s.addFile p).next; split <;> exact Nat.le_refl _

/-- Fresh names are given once. -/
structure Sys.Once (s : Sys) : Prop where
  below : ∀ t p n, (s.pc t).path? = some p → p.name = .fresh n → n < s.next
  apart : ∀ t u p q n, t ≠ u → (s.pc t).path? = some p → (s.pc u).path? = some q → p.name = .fresh n → q.name ≠ .fresh n

theorem once_init (p : Pol) : (Sys.init p).Once := ⟨(fun t p n h => by cases h), (fun t u p q n _ h => by cases h)⟩

theorem once_act (s : Sys) (a : Act) (h : s.Once) : (s.act a).Once := by
  have hnext := act_next s a
  by_cases hgo : ∃ t ch, a = .go t ch
  · obtain ⟨t, ch, rfl⟩ := hgo
    have hoth : ∀ u, u ≠ t → (s.act (.go t ch)).pc u = s.pc u := by
      intro u hu
      unfold Sys.pc
      rw [show (s.act (.go t ch)) = s.go t ch from rfl, go_other s u t ch hu.symm]
    have hpath := go_path s t ch
    change ∀ p, ((s.act (.go t ch)).pc t).path? = some p → _ ∨ _ ∨ (_ ∧ (s.act (.go t ch)).next = _) at hpath
    constructor
    · intro u p n hp hn
      by_cases hu : u = t
      · subst hu
        rcases hpath p hp with h1 | ⟨k, h1⟩ | ⟨h1, h2⟩
        · exact Nat.lt_of_lt_of_le (h.below u p n h1 hn) hnext
        · rw [hn] at h1; cases h1
        · rw [hn] at h1; cases h1; rw [h2]; exact Nat.lt_succ_self _
      · rw [hoth u hu] at hp
        exact Nat.lt_of_lt_of_le (h.below u p n hp hn) hnext
    · have key : ∀ u p q n, u ≠ t → ((s.act (.go t ch)).pc t).path? = some p → (s.pc u).path? = some q → p.name = .fresh n → q.name ≠ .fresh n := by
        intro u p q n hu hp hq hn hn'
        rcases hpath p hp with h1 | ⟨k, h1⟩ | ⟨h1, h2⟩
        · exact h.apart t u p q n hu.symm h1 hq hn hn'
        · rw [hn] at h1; cases h1
        · rw [hn] at h1; cases h1
          exact absurd (h.below u q _ hq hn') (Nat.lt_irrefl _)
      intro u v p q n huv hp hq hn hn'
      by_cases hu : u = t
      · subst hu
        rw [hoth v huv.symm] at hq
        exact key v p q n huv.symm hp hq hn hn'
      · rw [hoth u hu] at hp
        by_cases hv : v = t
        · subst hv
          exact key u q p n hu hq hp hn' hn
        · rw [hoth v hv] at hq
          exact h.apart u v p q n huv hp hq hn hn'
  · have hkeep : ∀ u p, ((s.act a).pc u).path? = some p → (s.pc u).path? = some p := by
      intro u p hp
      cases a with
      | start t k f =>
        change ((s.start t k f).pc u).path? = some p at hp
        unfold Sys.start at hp
        split at hp
        · by_cases hu : u = t
          · subst hu
            simp [Sys.pc, Pc.path?] at hp
          · simpa [Sys.pc, hu] using hp
        · exact hp
      | go t ch => exact absurd ⟨t, ch, rfl⟩ hgo
      | replace p => exact hp
      | evict p => exact hp
      | appear q =>
        change ((if s.gone q.dir then s else s.addFile q).pc u).path? = some p at hp
        split at hp <;> exact hp
    exact ⟨fun t p n hp hn => Nat.lt_of_lt_of_le (h.below t p n (hkeep t p hp) hn) hnext,
      fun t u p q n htu hp hq => h.apart t u p q n htu (hkeep t p hp) (hkeep u q hq)⟩

theorem once_run (s : Sys) (h : List Act) (hs : s.Once) : (s.run h).Once := by
  induction h using List.reverseRecOn with
  | nil => exact hs
  | append_singleton h a ih => rw [run_snoc]; exact once_act _ a ih

theorem Call.late (c : Call) (hc : c.Ok) : ∀ h, h <+: c.during → c.start.next ≤ (c.at h).next ∧
    ∀ p n, ((c.at h).pc c.t).path? = some p → p.name = .fresh n → c.start.next ≤ n := by
  refine c.induct _ ?_ ?_ ?_
  · refine ⟨Nat.le_refl _, fun p n hp => ?_⟩
    change (c.start.pc c.t).path? = some p at hp
    unfold Sys.pc at hp
    rw [c.start_thr hc] at hp
    cases hp
  · intro h ch _ ih
    rw [c.at_snoc]
    refine ⟨Nat.le_trans ih.1 (act_next _ _), fun p n hp hn => ?_⟩
    rcases go_path (c.at h) c.t ch p hp with h1 | ⟨k, h1⟩ | ⟨h1, -⟩
    · exact ih.2 p n h1 hn
    · rw [hn] at h1; cases h1
    · rw [hn] at h1; cases h1; exact ih.1
  · intro h a hp ha ih
    have e : (c.at (h ++ [a])).pc c.t = (c.at h).pc c.t := by
      unfold Sys.pc
      rw [c.other_thr hc h a hp ha]
    rw [e]
    exact ⟨by rw [c.at_snoc]; exact Nat.le_trans ih.1 (act_next _ _), ih.2⟩

/-- C109: a file with a name of its own is nobody else's: none that was returned to any thread before the call has its name, nor one that another
thread has been given meanwhile; whatever the settings are changed to. -/
theorem C109_own_names (c : Call) (hc : c.Ok) (p : Path) (hr : c.returned p) (n : Nat) (hn : p.name = .fresh n) :
    (∀ t q, ((Sys.init c.first).run c.before).pc t = .done q → q.name ≠ p.name) ∧ ∀ t q, t ≠ c.t → c.final.pc t = .done q → q.name ≠ p.name := by
  have e : (c.at c.during).pc c.t = .done p := hr
  constructor
  · intro t q hq hqn
    have h1 := ((c.late hc c.during List.prefix_rfl).2 p n (by rw [e]; rfl) hn)
    have h2 := (once_run _ c.before (once_init c.first)).below t q n (by rw [hq]; rfl) (by rw [hqn, hn])
    have h3 : c.start.next = ((Sys.init c.first).run c.before).next := by rw [c.start_eq hc]
    omega
  · intro t q ht hq hqn
    have hall : (c.at c.during).Once := once_run _ _ (once_run _ _ (once_init _))
    exact hall.apart c.t t p q n ht.symm (by rw [e]; rfl) (by rw [show (c.at c.during).pc t = .done q from hq]; rfl) hn (by rw [hqn, hn])

/-! ## The hypotheses can be met -/

/-- The file was there; another thread asks for it too. -/
def forced : Call :=
  ⟨user1, [.start 0 7 .no] ++ List.replicate 12 (.go 0 true), 0, 7, .yes, [.start 1 7 .no, .go 1 true] ++ List.replicate 12 (.go 0 true)⟩

example : forced.sometime (fun s => s.files ⟨1, .keyed 7⟩ = false) :=
  C109_forced_partial forced ⟨by decide +kernel, by intro k f; simp [forced]⟩ (by intro p; simp [forced]) rfl _ (by unfold Call.returned; decide +kernel)
    (by decide +kernel)

example : forced.start.files ⟨1, .keyed 7⟩ = true := by decide +kernel

/-- Three files without a table, two of them one after the other for the same thread. -/
def three : Call :=
  ⟨off5, [.start 0 7 .no] ++ List.replicate 3 (.go 0 true), 0, 7, .no, [.start 1 7 .no, .go 1 true, .go 0 true, .go 1 true, .go 0 true, .go 1 true, .go 0 true]⟩

example : ((Sys.init off5).run three.before).pc 0 = .done ⟨5, .fresh 0⟩ ∧ three.final.pc 1 = .done ⟨5, .fresh 1⟩ ∧ three.returned ⟨5, .fresh 2⟩ := by
  unfold Call.returned; decide +kernel

example := C109_own_names three ⟨by decide +kernel, by intro k f; simp [three]⟩ ⟨5, .fresh 2⟩ (by unfold Call.returned; decide +kernel) 2 rfl

end Verif.DiskCache.Switch

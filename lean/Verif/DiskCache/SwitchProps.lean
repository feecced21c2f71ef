import Verif.DiskCache.Switch

/-!
# C109: a file asked for while the cache settings change
-/

namespace Verif.DiskCache.Switch

theorem run_snoc (s : Sys) (h : List Act) (a : Act) : s.run (h ++ [a]) = (s.run h).act a := by simp [Sys.run]

theorem Sys.goto_pc (s : Sys) (t : Nat) (pc : Pc) : (s.goto t pc).pc t = pc := by simp [Sys.goto, Sys.pc]

/-! ## What a step leaves alone -/

theorem register_other (s : Sys) (t u : Nat) (p : Path) (c : Bool) (n : Pc) (h : u ≠ t) : (s.register u p c n).thr t = s.thr t := by
  unfold Sys.register
  split
  · simp [Sys.goto, h.symm]
  · split <;> simp [Sys.goto, Sys.addRow, h.symm]

theorem dropEntry_other (s : Sys) (t u : Nat) (p : Path) (c : Bool) (h : u ≠ t) : (s.dropEntry u p c).thr t = s.thr t := by
  unfold Sys.dropEntry
  split
  · simp [Sys.goto, h.symm]
  · split <;> simp [Sys.goto, Sys.remove, h.symm]

theorem updateEntry_other (s : Sys) (t u : Nat) (p : Path) (c : Bool) (h : u ≠ t) : (s.updateEntry u p c).thr t = s.thr t := by
  unfold Sys.updateEntry
  split
  · simp [Sys.goto, h.symm]
  · split
    · simp [Sys.goto, h.symm]
    · split <;> simp [Sys.goto, h.symm]

theorem createFile_other (s : Sys) (t u : Nat) (p : Path) (c : Bool) (n : Pc) (h : u ≠ t) : (s.createFile u p c n).thr t = s.thr t := by
  unfold Sys.createFile
  split
  · simp [Sys.goto, h.symm]
  · split <;> simp [Sys.goto, Sys.addFile, h.symm]

theorem lookAt_other (s : Sys) (t u : Nat) (p : Path) (r c : Bool) (h : u ≠ t) : (s.lookAt u p r c).thr t = s.thr t := by
  unfold Sys.lookAt
  split
  · split
    · simp [Sys.goto, h.symm]
    · simp [Sys.goto, h.symm]
    · split
      · simp [Sys.goto, h.symm]
      · split <;> simp [Sys.goto, h.symm]
  · simp [Sys.goto, h.symm]

theorem go_other (s : Sys) (t u : Nat) (c : Bool) (h : u ≠ t) : (s.go u c).thr t = s.thr t := by
  unfold Sys.go
  split <;> first
    | rfl
    | exact register_other _ _ _ _ _ _ h
    | exact dropEntry_other _ _ _ _ _ h
    | exact updateEntry_other _ _ _ _ _ h
    | exact createFile_other _ _ _ _ _ _ h
    | exact lookAt_other _ _ _ _ _ _ h
    | simp [Sys.goto, h.symm]

/-- Only its own steps move a thread that makes no new call. -/
theorem act_other (s : Sys) (t : Nat) (a : Act) (h1 : ∀ c, a ≠ .go t c) (h2 : ∀ k f, a ≠ .start t k f) : (s.act a).thr t = s.thr t := by
  cases a with
  | start u k f =>
    have hu : u ≠ t := fun e => h2 k f (by rw [e])
    show (s.start u k f).thr t = s.thr t
    unfold Sys.start
    split
    · simp [hu.symm]
    · rfl
  | go u c => exact go_other s t u c (fun e => h1 c (by rw [e]))
  | replace p => rfl
  | evict p => rfl
  | appear p =>
    show (if s.gone p.dir then s else s.addFile p).thr t = s.thr t
    split <;> rfl

/-- The policy and the manager's copy of it. -/
def Sys.pols (s : Sys) : Pol × Option Nat × (Nat → Bool) := (s.active, s.mgr, s.gone)

theorem goto_pols (s : Sys) (t : Nat) (pc : Pc) : (s.goto t pc).pols = s.pols := rfl

theorem go_pols (s : Sys) (t : Nat) (c : Bool) : (s.go t c).pols = s.pols := by
  unfold Sys.go
  split <;> try rfl
  · unfold Sys.register; split <;> [rfl; (split <;> rfl)]
  · unfold Sys.lookAt
    split
    · split <;> [rfl; rfl; (split <;> [rfl; (split <;> rfl)])]
    · rfl
  · unfold Sys.dropEntry; split <;> [rfl; (split <;> rfl)]
  · unfold Sys.register; split <;> [rfl; (split <;> rfl)]
  · unfold Sys.createFile; split <;> [rfl; (split <;> rfl)]
  · unfold Sys.updateEntry; split <;> [rfl; (split <;> [rfl; (split <;> rfl)])]
  · unfold Sys.createFile; split <;> [rfl; (split <;> rfl)]

theorem act_pols (s : Sys) (a : Act) (h : ∀ p, a ≠ .replace p) : (s.act a).pols = s.pols := by
  cases a with
  | start u k f =>
    show (s.start u k f).pols = s.pols
    unfold Sys.start
    split <;> rfl
  | go u c => exact go_pols s u c
  | replace p => exact absurd rfl (h p)
  | evict p => rfl
  | appear p =>
    show (if s.gone p.dir then s else s.addFile p).pols = s.pols
    split <;> rfl

/-- The manager works with the active policy if that is managed, and the active directory is there. -/
def Sys.Sound (s : Sys) : Prop := (s.active.managed = true → s.mgr = some s.active.dir) ∧ s.gone s.active.dir = false

theorem sound_of_pols {s s' : Sys} (h : s'.pols = s.pols) (hs : s.Sound) : s'.Sound := by
  have h1 : s'.active = s.active := congrArg (·.1) h
  have h2 : s'.mgr = s.mgr := congrArg (·.2.1) h
  have h3 : s'.gone = s.gone := congrArg (·.2.2) h
  unfold Sys.Sound
  rw [h1, h2, h3]
  exact hs

theorem sound_act (s : Sys) (a : Act) (h : s.Sound) : (s.act a).Sound := by
  by_cases hr : ∃ p, a = .replace p
  · obtain ⟨p, rfl⟩ := hr
    refine ⟨fun hm => ?_, ?_⟩
    · have hm' : p.managed = true := hm
      show (if p.managed then some p.dir else s.mgr) = some p.dir
      rw [if_pos hm']
    · show ((s.gone p.dir || (s.active.temp && p.dir == s.active.dir)) && p.dir != p.dir) = false
      simp
  · exact sound_of_pols (act_pols s a (fun p e => hr ⟨p, e⟩)) h

theorem sound_init (p : Pol) : (Sys.init p).Sound := by
  refine ⟨fun hm => ?_, rfl⟩
  have hm' : p.managed = true := hm
  show (if p.managed then some p.dir else none) = some p.dir
  rw [if_pos hm']

theorem sound_run (s : Sys) (h : List Act) (hs : s.Sound) : (s.run h).Sound := by
  induction h using List.reverseRecOn with
  | nil => exact hs
  | append_singleton h a ih => rw [run_snoc]; exact sound_act _ a ih

/-! ## A call -/

theorem Call.start_eq (c : Call) (hc : c.Ok) :
    c.start = { (Sys.init c.first).run c.before with thr := Function.update ((Sys.init c.first).run c.before).thr c.t ⟨.managed, c.key, c.force⟩ } := by
  unfold Call.start
  rw [run_snoc]
  show Sys.start _ c.t c.key c.force = _
  unfold Sys.start
  rw [if_pos hc.free]

theorem Call.start_thr (c : Call) (hc : c.Ok) : c.start.thr c.t = ⟨.managed, c.key, c.force⟩ := by rw [c.start_eq hc]; simp

theorem Call.sound (c : Call) (h : List Act) : (c.at h).Sound := by
  unfold Call.at Call.start
  exact sound_run _ _ (sound_run _ _ (sound_init _))

theorem Call.at_snoc (c : Call) (h : List Act) (a : Act) : c.at (h ++ [a]) = (c.at h).act a := run_snoc _ _ _

/-- Induction over what happens during the call: own steps, and the rest. -/
theorem Call.induct (c : Call) (P : List Act → Prop) (h0 : P [])
    (hgo : ∀ h ch, h ++ [.go c.t ch] <+: c.during → P h → P (h ++ [.go c.t ch]))
    (hother : ∀ h a, h ++ [a] <+: c.during → (∀ ch, a ≠ .go c.t ch) → P h → P (h ++ [a])) : ∀ h, h <+: c.during → P h := by
  intro h
  induction h using List.reverseRecOn with
  | nil => intro _; exact h0
  | append_singleton h a ih =>
    intro hp
    have hph : h <+: c.during := List.IsPrefix.trans (List.prefix_append h [a]) hp
    by_cases ha : ∃ ch, a = .go c.t ch
    · obtain ⟨ch, rfl⟩ := ha
      exact hgo h ch hp (ih hph)
    · exact hother h a hp (fun ch e => ha ⟨ch, e⟩) (ih hph)

theorem Call.mem_of_prefix {c : Call} {h : List Act} {a : Act} (hp : h ++ [a] <+: c.during) : a ∈ c.during :=
  hp.subset (by simp)

theorem Call.other_thr (c : Call) (hc : c.Ok) (h : List Act) (a : Act) (hp : h ++ [a] <+: c.during) (ha : ∀ ch, a ≠ .go c.t ch) :
    (c.at (h ++ [a])).thr c.t = (c.at h).thr c.t := by
  rw [c.at_snoc]
  refine act_other _ _ a ha (fun k f e => hc.one k f ?_)
  rw [← e]
  exact Call.mem_of_prefix hp

/-- The request of the call stays what it is. -/
def Sys.req (s : Sys) (t : Nat) : Nat × Force := ((s.thr t).key, (s.thr t).force)

theorem goto_req (s : Sys) (t : Nat) (pc : Pc) : (s.goto t pc).req t = s.req t := by simp [Sys.goto, Sys.req]

/-- What a step of the thread leads to: its next place. -/
def Sys.next' (s : Sys) (t : Nat) (ch : Bool) : Pc := (s.go t ch).pc t

theorem go_req (s : Sys) (t : Nat) (c : Bool) : (s.go t c).req t = s.req t := by
  have key : ∀ (s' : Sys) (pc : Pc), s'.thr = s.thr → (s'.goto t pc).req t = s.req t := by
    intro s' pc e
    rw [goto_req]
    unfold Sys.req
    rw [e]
  unfold Sys.go
  split <;> try first | rfl | exact key _ _ rfl
  · unfold Sys.register; split <;> [exact key _ _ rfl; (split <;> exact key _ _ rfl)]
  · unfold Sys.lookAt
    split
    · split <;> [exact key _ _ rfl; exact key _ _ rfl; (split <;> [exact key _ _ rfl; (split <;> exact key _ _ rfl)])]
    · exact key _ _ rfl
  · unfold Sys.dropEntry; split <;> [exact key _ _ rfl; (split <;> exact key _ _ rfl)]
  · unfold Sys.register; split <;> [exact key _ _ rfl; (split <;> exact key _ _ rfl)]
  · unfold Sys.createFile; split <;> [exact key _ _ rfl; (split <;> exact key _ _ rfl)]
  · unfold Sys.updateEntry; split <;> [exact key _ _ rfl; (split <;> [exact key _ _ rfl; (split <;> exact key _ _ rfl)])]
  · unfold Sys.createFile; split <;> [exact key _ _ rfl; (split <;> exact key _ _ rfl)]

theorem Call.req_at (c : Call) (hc : c.Ok) : ∀ h, h <+: c.during → (c.at h).req c.t = (c.key, c.force) := by
  refine c.induct _ ?_ ?_ ?_
  · show c.start.req c.t = _
    unfold Sys.req
    rw [c.start_thr hc]
  · intro h ch _ ih
    rw [c.at_snoc]
    exact (go_req _ _ ch).trans ih
  · intro h a hp ha ih
    unfold Sys.req at ih ⊢
    rw [c.other_thr hc h a hp ha]
    exact ih

/-! ## Where the file is -/

/-- `P` held at some moment of the call, up to `h`. -/
def Call.since (c : Call) (h : List Act) (P : Sys → Prop) : Prop := ∃ h', h' <+: h ∧ P (c.at h')

theorem Call.since_snoc {c : Call} {h : List Act} {P : Sys → Prop} (a : Act) (hs : c.since h P) : c.since (h ++ [a]) P := by
  obtain ⟨h', hp, hP⟩ := hs
  exact ⟨h', hp.trans (List.prefix_append _ _), hP⟩

theorem Call.since_now {c : Call} {h : List Act} {P : Sys → Prop} (hs : P (c.at h)) : c.since h P := ⟨h, List.prefix_rfl, hs⟩

def Managed (s : Sys) : Prop := s.active.managed = true
def Unmanaged (s : Sys) : Prop := s.active.managed = false
def In (d : Nat) (s : Sys) : Prop := s.active.dir = d
def There (p : Path) (s : Sys) : Prop := s.files p = true
def Listed (p : Path) (s : Sys) : Prop := s.rows p = true

def Call.place (c : Call) (h : List Act) (p : Path) : Prop :=
  c.since h (In p.dir) ∧ ((p.name = .keyed c.key ∧ c.since h Managed) ∨ ((∃ n, p.name = .fresh n) ∧ c.since h Unmanaged))

theorem Call.place_snoc {c : Call} {h : List Act} {p : Path} (a : Act) (hs : c.place h p) : c.place (h ++ [a]) p := by
  obtain ⟨h1, h2⟩ := hs
  refine ⟨Call.since_snoc a h1, ?_⟩
  rcases h2 with ⟨h3, h4⟩ | ⟨h3, h4⟩
  · exact .inl ⟨h3, Call.since_snoc a h4⟩
  · exact .inr ⟨h3, Call.since_snoc a h4⟩

/-- What is known of a call at a place. -/
def Call.known (c : Call) (h : List Act) : Pc → Prop
  | .idle => False
  | .managed => True
  | .dir => c.since h Managed
  | .dirU => c.since h Unmanaged
  | .ask p | .register p | .look p _ | .askDrop p | .drop p | .ask2 p | .register2 p | .create p | .createU p => c.place h p
  | .askUpdate p | .update p | .done p => c.place h p ∧ c.since h (There p)
  | .failed _ => True

theorem Call.known_snoc {c : Call} {h : List Act} {pc : Pc} (a : Act) (hs : c.known h pc) : c.known (h ++ [a]) pc := by
  cases pc <;> first
    | exact hs
    | exact Call.since_snoc a hs
    | exact Call.place_snoc a hs
    | exact ⟨Call.place_snoc a hs.1, Call.since_snoc a hs.2⟩

theorem Call.known_go (c : Call) (hc : c.Ok) (h : List Act) (ch : Bool) (hp : h ++ [.go c.t ch] <+: c.during)
    (ih : c.known h ((c.at h).pc c.t)) : c.known (h ++ [.go c.t ch]) ((c.at (h ++ [.go c.t ch])).pc c.t) := by
  have hph : h <+: c.during := List.IsPrefix.trans (List.prefix_append _ _) hp
  have hr := c.req_at hc h hph
  have hk : ((c.at h).thr c.t).key = c.key := congrArg (·.1) hr
  have there : ∀ p, (c.at (h ++ [.go c.t ch])).files p = true → c.since (h ++ [.go c.t ch]) (There p) := fun p e => Call.since_now e
  rw [c.at_snoc] at there
  rw [c.at_snoc]
  change c.known _ (((c.at h).go c.t ch).pc c.t)
  change ∀ p, ((c.at h).go c.t ch).files p = true → _ at there
  have old : ∀ {P : Sys → Prop}, P (c.at h) → c.since (h ++ [.go c.t ch]) P := fun e => Call.since_snoc _ (Call.since_now e)
  cases hpc : (c.at h).pc c.t with
  | idle => rw [hpc] at ih; exact ih.elim
  | managed =>
    simp only [Sys.go, hpc, Sys.goto_pc]
    cases hm : (c.at h).active.managed with
    | true => exact old hm
    | false => exact old hm
  | dir =>
    rw [hpc] at ih
    simp only [Sys.go, hpc, Sys.goto_pc]
    exact ⟨old rfl, .inl ⟨by rw [hk], Call.since_snoc _ ih⟩⟩
  | dirU =>
    rw [hpc] at ih
    simp only [Sys.go, hpc, Sys.goto_pc]
    exact ⟨old rfl, .inr ⟨⟨_, rfl⟩, Call.since_snoc _ ih⟩⟩
  | ask p =>
    rw [hpc] at ih
    have ih' : c.place (h ++ [.go c.t ch]) p := Call.place_snoc _ ih
    simp only [Sys.go, hpc, Sys.goto_pc]
    split <;> exact ih'
  | register p =>
    rw [hpc] at ih
    have ih' : c.place (h ++ [.go c.t ch]) p := Call.place_snoc _ ih
    simp only [Sys.go, hpc, Sys.register]
    split
    · rw [Sys.goto_pc]; trivial
    · split <;> rw [Sys.goto_pc]
      · trivial
      · exact ih'
  | look p r =>
    rw [hpc] at ih
    have ih' : c.place (h ++ [.go c.t ch]) p := Call.place_snoc _ ih
    simp only [Sys.go, hpc, Sys.lookAt]
    split
    · split
      · rw [Sys.goto_pc]; exact ih'
      · rw [Sys.goto_pc]; exact ih'
      · split
        · rw [Sys.goto_pc]; trivial
        · split <;> rw [Sys.goto_pc] <;> exact ih'
    · rw [Sys.goto_pc]; exact ih'
  | askDrop p =>
    rw [hpc] at ih
    have ih' : c.place (h ++ [.go c.t ch]) p := Call.place_snoc _ ih
    simp only [Sys.go, hpc, Sys.goto_pc]
    split <;> exact ih'
  | drop p =>
    rw [hpc] at ih
    have ih' : c.place (h ++ [.go c.t ch]) p := Call.place_snoc _ ih
    simp only [Sys.go, hpc, Sys.dropEntry]
    split
    · rw [Sys.goto_pc]; trivial
    · split <;> rw [Sys.goto_pc]
      · trivial
      · exact ih'
  | ask2 p =>
    rw [hpc] at ih
    have ih' : c.place (h ++ [.go c.t ch]) p := Call.place_snoc _ ih
    simp only [Sys.go, hpc, Sys.goto_pc]
    split <;> exact ih'
  | register2 p =>
    rw [hpc] at ih
    have ih' : c.place (h ++ [.go c.t ch]) p := Call.place_snoc _ ih
    simp only [Sys.go, hpc, Sys.register]
    split
    · rw [Sys.goto_pc]; trivial
    · split <;> rw [Sys.goto_pc]
      · trivial
      · exact ih'
  | create p =>
    rw [hpc] at ih
    have ih' : c.place (h ++ [.go c.t ch]) p := Call.place_snoc _ ih
    have hth := there p
    simp only [Sys.go, hpc, Sys.createFile] at hth ⊢
    split at hth
    · rename_i hf
      rw [if_pos hf, Sys.goto_pc]
      exact ⟨ih', old hf⟩
    · rename_i hf
      rw [if_neg hf]
      split at hth
      · rename_i hg
        rw [if_pos hg, Sys.goto_pc]
        trivial
      · rename_i hg
        rw [if_neg hg, Sys.goto_pc]
        exact ⟨ih', hth (by simp [Sys.goto, Sys.addFile])⟩
  | askUpdate p =>
    rw [hpc] at ih
    have ih' := Call.known_snoc (a := .go c.t ch) (pc := .askUpdate p) ih
    simp only [Sys.go, hpc, Sys.goto_pc]
    split <;> exact ih'
  | update p =>
    rw [hpc] at ih
    have ih' := Call.known_snoc (a := .go c.t ch) (pc := .update p) ih
    simp only [Sys.go, hpc, Sys.updateEntry]
    split
    · rw [Sys.goto_pc]; trivial
    · split
      · rw [Sys.goto_pc]; trivial
      · split <;> rw [Sys.goto_pc]
        · trivial
        · exact ih'
  | createU p =>
    rw [hpc] at ih
    have ih' : c.place (h ++ [.go c.t ch]) p := Call.place_snoc _ ih
    have hth := there p
    simp only [Sys.go, hpc, Sys.createFile] at hth ⊢
    split at hth
    · rename_i hf
      rw [if_pos hf, Sys.goto_pc]
      exact ⟨ih', old hf⟩
    · rename_i hf
      rw [if_neg hf]
      split at hth
      · rename_i hg
        rw [if_pos hg, Sys.goto_pc]
        trivial
      · rename_i hg
        rw [if_neg hg, Sys.goto_pc]
        exact ⟨ih', hth (by simp [Sys.goto, Sys.addFile])⟩
  | done p =>
    rw [hpc] at ih
    simp only [Sys.go, hpc]
    exact Call.known_snoc (a := .go c.t ch) (pc := .done p) ih
  | failed e =>
    simp only [Sys.go, hpc]
    trivial

theorem Call.known_at (c : Call) (hc : c.Ok) : ∀ h, h <+: c.during → c.known h ((c.at h).pc c.t) := by
  refine c.induct _ ?_ ?_ ?_
  · show c.known [] (c.start.pc c.t)
    unfold Sys.pc
    rw [c.start_thr hc]
    trivial
  · intro h ch hp ih
    exact c.known_go hc h ch hp ih
  · intro h a hp ha ih
    have e : (c.at (h ++ [a])).pc c.t = (c.at h).pc c.t := by
      unfold Sys.pc
      rw [c.other_thr hc h a hp ha]
    rw [e]
    exact Call.known_snoc a ih

/-- Whatever other threads do – change the configuration, trim the cache, ask for the same file – a file that is returned was there at some
moment of the call, in a directory that was the cache directory at some moment of the call, and under the name of the request (then the
cache was managed) or a new name (then it was not). -/
theorem C109_place (c : Call) (hc : c.Ok) (p : Path) (hr : c.returned p) :
    c.sometime (fun s => s.active.dir = p.dir) ∧ c.sometime (fun s => s.files p = true) ∧
      ((p.name = .keyed c.key ∧ c.sometime (fun s => s.active.managed = true)) ∨
        ((∃ n, p.name = .fresh n) ∧ c.sometime (fun s => s.active.managed = false))) := by
  have hk := c.known_at hc c.during List.prefix_rfl
  have e : (c.at c.during).pc c.t = .done p := hr
  rw [e] at hk
  exact ⟨hk.1.1, hk.2, hk.1.2⟩

/-! ## The policy stays -/

theorem Call.steady_pols (c : Call) (hs : c.Steady) : ∀ h, h <+: c.during → (c.at h).pols = c.start.pols := by
  intro h
  induction h using List.reverseRecOn with
  | nil => intro _; rfl
  | append_singleton h a ih =>
    intro hp
    rw [c.at_snoc, act_pols _ a (fun p e => hs p (by rw [← e]; exact Call.mem_of_prefix hp))]
    exact ih (List.IsPrefix.trans (List.prefix_append _ _) hp)

/-- The file of the request in the cache directory, registered. -/
def Call.mine (c : Call) (p : Path) : Prop := c.start.active.managed = true ∧ p = ⟨c.start.active.dir, .keyed c.key⟩

def Call.fresh (c : Call) (p : Path) : Prop := c.start.active.managed = false ∧ p.dir = c.start.active.dir ∧ ∃ n, p.name = .fresh n

def Call.fine (c : Call) (h : List Act) : Pc → Prop
  | .idle => False
  | .managed => True
  | .dir => c.start.active.managed = true
  | .dirU => c.start.active.managed = false
  | .ask p | .register p => c.mine p
  | .look p r => c.mine p ∧ r = true ∧ c.since h (Listed p)
  | .askDrop p | .drop p | .ask2 p | .register2 p | .create p | .askUpdate p | .update p => c.mine p ∧ c.since h (Listed p)
  | .createU p => c.fresh p
  | .done p => (c.mine p ∧ c.since h (Listed p)) ∨ c.fresh p
  | .failed e => e = .other

theorem Call.fine_snoc {c : Call} {h : List Act} {pc : Pc} (a : Act) (hs : c.fine h pc) : c.fine (h ++ [a]) pc := by
  cases pc <;> first
    | exact hs
    | exact ⟨hs.1, Call.since_snoc a hs.2⟩
    | exact ⟨hs.1, hs.2.1, Call.since_snoc a hs.2.2⟩
    | exact hs.imp (fun x => ⟨x.1, Call.since_snoc a x.2⟩) id

theorem Call.fine_go (c : Call) (hc : c.Ok) (hst : c.Steady) (h : List Act) (ch : Bool) (hp : h ++ [.go c.t ch] <+: c.during)
    (ih : c.fine h ((c.at h).pc c.t)) : c.fine (h ++ [.go c.t ch]) ((c.at (h ++ [.go c.t ch])).pc c.t) := by
  have hph : h <+: c.during := List.IsPrefix.trans (List.prefix_append _ _) hp
  have hr := c.req_at hc h hph
  have hk : ((c.at h).thr c.t).key = c.key := congrArg (·.1) hr
  have hpol := c.steady_pols hst h hph
  have hA : (c.at h).active = c.start.active := congrArg (·.1) hpol
  have hsound := c.sound h
  have hmgr : c.start.active.managed = true → (c.at h).mgr = some c.start.active.dir := fun e => by
    have := hsound.1
    rw [hA] at this
    exact this e
  have listed : ∀ p, (c.at (h ++ [.go c.t ch])).rows p = true → c.since (h ++ [.go c.t ch]) (Listed p) := fun p e => Call.since_now e
  rw [c.at_snoc] at listed
  rw [c.at_snoc]
  change c.fine _ (((c.at h).go c.t ch).pc c.t)
  change ∀ p, ((c.at h).go c.t ch).rows p = true → _ at listed
  cases hpc : (c.at h).pc c.t with
  | idle => rw [hpc] at ih; exact ih.elim
  | managed =>
    simp only [Sys.go, hpc, Sys.goto_pc]
    rw [hA]
    cases hm : c.start.active.managed with
    | true => exact hm
    | false => exact hm
  | dir =>
    rw [hpc] at ih
    simp only [Sys.go, hpc, Sys.goto_pc]
    exact ⟨ih, by rw [hA, hk]⟩
  | dirU =>
    rw [hpc] at ih
    simp only [Sys.go, hpc, Sys.goto_pc]
    exact ⟨ih, by rw [hA], _, rfl⟩
  | ask p =>
    rw [hpc] at ih
    simp only [Sys.go, hpc, Sys.goto_pc]
    rw [if_pos (by rw [hA]; exact ih.1)]
    exact ih
  | register p =>
    rw [hpc] at ih
    have hl := listed p
    have hmp : ¬((c.at h).mgr ≠ some p.dir) := by
      rw [hmgr ih.1, ih.2]
      simp
    simp only [Sys.go, hpc, Sys.register] at hl ⊢
    rw [if_neg hmp] at hl ⊢
    split at hl
    · rename_i hg
      rw [if_pos hg, Sys.goto_pc]
      rfl
    · rename_i hg
      rw [if_neg hg, Sys.goto_pc]
      exact ⟨ih, rfl, hl (by simp [Sys.goto, Sys.addRow])⟩
  | look p r =>
    rw [hpc] at ih
    have ih' := Call.fine_snoc (a := .go c.t ch) (pc := .look p r) ih
    have hr' : r = true := ih.2.1
    subst hr'
    simp only [Sys.go, hpc, Sys.lookAt]
    split
    · split
      · rw [Sys.goto_pc]; exact ⟨ih'.1, ih'.2.2⟩
      · rw [Sys.goto_pc]; exact ⟨ih'.1, ih'.2.2⟩
      · rw [if_neg (by simp)]
        split <;> rw [Sys.goto_pc] <;> exact ⟨ih'.1, ih'.2.2⟩
    · rw [Sys.goto_pc]; exact ⟨ih'.1, ih'.2.2⟩
  | askDrop p =>
    rw [hpc] at ih
    have ih' := Call.fine_snoc (a := .go c.t ch) (pc := .askDrop p) ih
    simp only [Sys.go, hpc, Sys.goto_pc]
    split <;> exact ih'
  | drop p =>
    rw [hpc] at ih
    have ih' := Call.fine_snoc (a := .go c.t ch) (pc := .drop p) ih
    have hmp : (c.at h).mgr = some p.dir := by rw [hmgr ih.1.1, ih.1.2]
    simp only [Sys.go, hpc, Sys.dropEntry]
    rw [if_neg (by simp [hmp])]
    split <;> rw [Sys.goto_pc]
    · rfl
    · exact ih'
  | ask2 p =>
    rw [hpc] at ih
    have ih' := Call.fine_snoc (a := .go c.t ch) (pc := .ask2 p) ih
    simp only [Sys.go, hpc, Sys.goto_pc]
    split <;> exact ih'
  | register2 p =>
    rw [hpc] at ih
    have ih' := Call.fine_snoc (a := .go c.t ch) (pc := .register2 p) ih
    have hmp : (c.at h).mgr = some p.dir := by rw [hmgr ih.1.1, ih.1.2]
    simp only [Sys.go, hpc, Sys.register]
    rw [if_neg (by simp [hmp])]
    split <;> rw [Sys.goto_pc]
    · rfl
    · exact ih'
  | create p =>
    rw [hpc] at ih
    have ih' := Call.fine_snoc (a := .go c.t ch) (pc := .create p) ih
    simp only [Sys.go, hpc, Sys.createFile]
    split
    · rw [Sys.goto_pc]; exact .inl ih'
    · split <;> rw [Sys.goto_pc]
      · rfl
      · exact ih'
  | askUpdate p =>
    rw [hpc] at ih
    have ih' := Call.fine_snoc (a := .go c.t ch) (pc := .askUpdate p) ih
    simp only [Sys.go, hpc, Sys.goto_pc]
    split
    · exact ih'
    · exact .inl ih'
  | update p =>
    rw [hpc] at ih
    have ih' := Call.fine_snoc (a := .go c.t ch) (pc := .update p) ih
    have hmp : (c.at h).mgr = some p.dir := by rw [hmgr ih.1.1, ih.1.2]
    simp only [Sys.go, hpc, Sys.updateEntry]
    rw [if_neg (by simp [hmp])]
    split
    · rw [Sys.goto_pc]; rfl
    · split <;> rw [Sys.goto_pc]
      · rfl
      · exact .inl ih'
  | createU p =>
    rw [hpc] at ih
    simp only [Sys.go, hpc, Sys.createFile]
    split
    · rw [Sys.goto_pc]; exact .inr ih
    · split <;> rw [Sys.goto_pc]
      · rfl
      · exact .inr ih
  | done p =>
    rw [hpc] at ih
    simp only [Sys.go, hpc]
    exact Call.fine_snoc (a := .go c.t ch) (pc := .done p) ih
  | failed e =>
    rw [hpc] at ih
    simp only [Sys.go, hpc]
    exact ih

theorem Call.fine_at (c : Call) (hc : c.Ok) (hst : c.Steady) : ∀ h, h <+: c.during → c.fine h ((c.at h).pc c.t) := by
  refine c.induct _ ?_ ?_ ?_
  · show c.fine [] (c.start.pc c.t)
    unfold Sys.pc
    rw [c.start_thr hc]
    trivial
  · intro h ch hp ih
    exact c.fine_go hc hst h ch hp ih
  · intro h a hp ha ih
    have e : (c.at (h ++ [a])).pc c.t = (c.at h).pc c.t := by
      unfold Sys.pc
      rw [c.other_thr hc h a hp ha]
    rw [e]
    exact Call.fine_snoc a ih

theorem Call.start_active (c : Call) (hc : c.Ok) : c.start.active = ((Sys.init c.first).run c.before).active := by rw [c.start_eq hc]

/-- If the policy is not replaced during the call, the call does not end with the AssertionError or TypeError of a path that is not in
the cache; and the file it returns is the one of its request in the cache directory, and has been entered into the table – with an unmanaged
cache it has a new name in the directory of the cache. -/
theorem C109_steady_partial (c : Call) (hc : c.Ok) (hst : c.Steady) :
    ¬c.raised .assertion ∧ ¬c.raised .type ∧
      ∀ p, c.returned p → p.dir = c.final.active.dir ∧
        (c.final.active.managed = true → p.name = .keyed c.key ∧ c.sometime (fun s => s.rows p = true)) ∧
        (c.final.active.managed = false → ∃ n, p.name = .fresh n) := by
  have hf := c.fine_at hc hst c.during List.prefix_rfl
  have hA : c.final.active = c.start.active := congrArg (·.1) (c.steady_pols hst c.during List.prefix_rfl)
  refine ⟨fun e => ?_, fun e => ?_, fun p e => ?_⟩
  · have e' : (c.at c.during).pc c.t = .failed .assertion := e
    rw [e'] at hf
    cases hf
  · have e' : (c.at c.during).pc c.t = .failed .type := e
    rw [e'] at hf
    cases hf
  · have e' : (c.at c.during).pc c.t = .done p := e
    rw [e'] at hf
    rw [hA]
    rcases hf with ⟨⟨h1, h2⟩, h3⟩ | ⟨h1, h2, h3⟩
    · refine ⟨by rw [h2], fun _ => ⟨by rw [h2], h3⟩, fun h => ?_⟩
      rw [h1] at h
      cases h
    · refine ⟨h2, fun h => ?_, fun _ => h3⟩
      rw [h1] at h
      cases h

/-! ## Nobody disturbs the call -/

/-- The thread is about to run its `create`. -/
def Pc.creates : Pc → Bool
  | .create _ | .createU _ => true
  | _ => false

structure Call.Undisturbed (c : Call) : Prop where
  /-- `create` does not raise -/
  creates : ∀ h ch, h ++ [.go c.t ch] <+: c.during → ((c.at h).pc c.t).creates = true → ch = true
  /-- others remove no file -/
  keeps : ∀ h a p, h ++ [a] <+: c.during → (∀ ch, a ≠ .go c.t ch) → (c.at h).files p = true → (c.at (h ++ [a])).files p = true

/-- Number of own steps. -/
def Call.steps (c : Call) (h : List Act) : Nat := (h.filter (fun a => match a with | .go t _ => t == c.t | _ => false)).length

def Pc.rank : Pc → Nat
  | .managed => 12
  | .dir => 11
  | .ask _ => 10
  | .register _ => 9
  | .look _ _ => 8
  | .askDrop _ => 7
  | .drop _ => 6
  | .ask2 _ => 5
  | .register2 _ => 4
  | .create _ => 3
  | .askUpdate _ => 2
  | .update _ => 1
  | .dirU => 2
  | .createU _ => 1
  | _ => 0

/-- No failure, and the file is there when it is to be recorded. -/
def Sys.smooth (s : Sys) : Pc → Prop
  | .failed _ => False
  | .askUpdate p | .update p => s.files p = true
  | _ => True

theorem go_rank (s : Sys) (t : Nat) (ch : Bool) : ((s.go t ch).pc t).rank ≤ (s.pc t).rank - 1 := by
  cases hpc : s.pc t <;> simp only [Sys.go, hpc, Sys.register, Sys.lookAt, Sys.dropEntry, Sys.createFile, Sys.updateEntry] <;>
    (repeat' split) <;> (try rw [Sys.goto_pc]) <;> (try rw [hpc]) <;> simp [Pc.rank]

theorem Call.smooth_go (c : Call) (hc : c.Ok) (hst : c.Steady) (hu : c.Undisturbed) (h : List Act) (ch : Bool) (hp : h ++ [.go c.t ch] <+: c.during)
    (ih : (c.at h).smooth ((c.at h).pc c.t)) : (c.at (h ++ [.go c.t ch])).smooth ((c.at (h ++ [.go c.t ch])).pc c.t) := by
  have hph : h <+: c.during := List.IsPrefix.trans (List.prefix_append _ _) hp
  have hfine := c.fine_at hc hst h hph
  have hA : (c.at h).active = c.start.active := congrArg (·.1) (c.steady_pols hst h hph)
  have hsound := c.sound h
  unfold Sys.Sound at hsound
  rw [hA] at hsound
  have hcr := hu.creates h ch hp
  rw [c.at_snoc]
  change ((c.at h).go c.t ch).smooth (((c.at h).go c.t ch).pc c.t)
  have mine : ∀ p, c.mine p → (c.at h).mgr = some p.dir ∧ (c.at h).gone p.dir = false := by
    intro p hm
    rw [hm.2]
    exact ⟨hsound.1 hm.1, hsound.2⟩
  cases hpc : (c.at h).pc c.t with
  | idle => rw [hpc] at hfine; exact hfine.elim
  | managed =>
    simp only [Sys.go, hpc, Sys.goto_pc]
    split <;> trivial
  | dir =>
    simp only [Sys.go, hpc, Sys.goto_pc]
    trivial
  | dirU =>
    simp only [Sys.go, hpc, Sys.goto_pc]
    trivial
  | ask p =>
    simp only [Sys.go, hpc, Sys.goto_pc]
    split <;> trivial
  | register p =>
    rw [hpc] at hfine
    have hm := mine p hfine
    simp only [Sys.go, hpc, Sys.register]
    rw [if_neg (by simp [hm.1]), if_neg (by simp [hm.2]), Sys.goto_pc]
    trivial
  | look p r =>
    rw [hpc] at hfine
    have hr' : r = true := hfine.2.1
    subst hr'
    simp only [Sys.go, hpc, Sys.lookAt]
    split
    · split
      · rw [Sys.goto_pc]; trivial
      · rw [Sys.goto_pc]; trivial
      · rw [if_neg (by simp)]
        split <;> rw [Sys.goto_pc] <;> trivial
    · rw [Sys.goto_pc]; trivial
  | askDrop p =>
    simp only [Sys.go, hpc, Sys.goto_pc]
    split <;> trivial
  | drop p =>
    rw [hpc] at hfine
    have hm := mine p hfine.1
    simp only [Sys.go, hpc, Sys.dropEntry]
    rw [if_neg (by simp [hm.1]), if_neg (by simp [hm.2]), Sys.goto_pc]
    trivial
  | ask2 p =>
    simp only [Sys.go, hpc, Sys.goto_pc]
    split <;> trivial
  | register2 p =>
    rw [hpc] at hfine
    have hm := mine p hfine.1
    simp only [Sys.go, hpc, Sys.register]
    rw [if_neg (by simp [hm.1]), if_neg (by simp [hm.2]), Sys.goto_pc]
    trivial
  | create p =>
    rw [hpc] at hfine hcr
    have hm := mine p hfine.1
    have hch : ch = true := hcr rfl
    subst hch
    simp only [Sys.go, hpc, Sys.createFile]
    split
    · rw [Sys.goto_pc]; trivial
    · rw [if_neg (by simp [hm.2]), Sys.goto_pc]
      simp [Sys.smooth, Sys.goto, Sys.addFile]
  | askUpdate p =>
    rw [hpc] at ih
    simp only [Sys.go, hpc, Sys.goto_pc]
    split
    · exact ih
    · trivial
  | update p =>
    rw [hpc] at ih hfine
    have hm := mine p hfine.1
    have hf : (c.at h).files p = true := ih
    simp only [Sys.go, hpc, Sys.updateEntry]
    rw [if_neg (by simp [hm.1]), if_neg (by simp [hf]), if_neg (by simp [hm.2]), Sys.goto_pc]
    trivial
  | createU p =>
    rw [hpc] at hfine hcr
    have hch : ch = true := hcr rfl
    subst hch
    have hg : (c.at h).gone p.dir = false := by
      rw [hfine.2.1]
      exact hsound.2
    simp only [Sys.go, hpc, Sys.createFile]
    split
    · rw [Sys.goto_pc]; trivial
    · rw [if_neg (by simp [hg]), Sys.goto_pc]
      trivial
  | done p =>
    simp only [Sys.go, hpc]
    trivial
  | failed e =>
    rw [hpc] at ih
    exact ih.elim

theorem Call.smooth_at (c : Call) (hc : c.Ok) (hst : c.Steady) (hu : c.Undisturbed) :
    ∀ h, h <+: c.during → (c.at h).smooth ((c.at h).pc c.t) ∧ ((c.at h).pc c.t).rank ≤ 12 - c.steps h := by
  refine c.induct _ ?_ ?_ ?_
  · show c.start.smooth (c.start.pc c.t) ∧ (c.start.pc c.t).rank ≤ 12 - 0
    have e : c.start.pc c.t = .managed := by
      unfold Sys.pc
      rw [c.start_thr hc]
    rw [e]
    exact ⟨trivial, Nat.le_refl _⟩
  · intro h ch hp ih
    refine ⟨c.smooth_go hc hst hu h ch hp ih.1, ?_⟩
    have h1 := go_rank (c.at h) c.t ch
    have h2 : c.steps (h ++ [.go c.t ch]) = c.steps h + 1 := by simp [Call.steps]
    rw [h2, c.at_snoc]
    change (((c.at h).go c.t ch).pc c.t).rank ≤ _
    omega
  · intro h a hp ha ih
    have e : (c.at (h ++ [a])).pc c.t = (c.at h).pc c.t := by
      unfold Sys.pc
      rw [c.other_thr hc h a hp ha]
    rw [e]
    have h2 : c.steps (h ++ [a]) = c.steps h := by
      unfold Call.steps
      rw [List.filter_append]
      cases a with
      | go u ch =>
        have : u ≠ c.t := fun e => ha ch (by rw [e])
        simp [this]
      | _ => simp
    rw [h2]
    refine ⟨?_, ih.2⟩
    have hk := fun p => hu.keeps h a p hp ha
    generalize (c.at h).pc c.t = pc at ih
    cases pc <;> first
      | exact ih.1
      | exact hk _ ih.1

/-- If the policy is not replaced, `create` does not raise and nobody removes files during the call, then the call raises nothing and
returns a file after at most twelve steps of its thread, whatever the other threads do in between. -/
theorem C109_delivered_partial (c : Call) (hc : c.Ok) (hst : c.Steady) (hu : c.Undisturbed) :
    (∀ e, ¬c.raised e) ∧ (12 ≤ c.steps c.during → ∃ p, c.returned p) := by
  have h := c.smooth_at hc hst hu c.during List.prefix_rfl
  have hf := c.fine_at hc hst c.during List.prefix_rfl
  refine ⟨fun e he => ?_, fun h12 => ?_⟩
  · have e' : (c.at c.during).pc c.t = .failed e := he
    rw [e'] at h
    exact h.1
  · have hr : ((c.at c.during).pc c.t).rank = 0 := by omega
    cases hpc : (c.at c.during).pc c.t with
    | done p => exact ⟨p, hpc⟩
    | idle => rw [hpc] at hf; exact hf.elim
    | failed e => rw [hpc] at h; exact h.1.elim
    | _ => rw [hpc] at hr; cases hr

/-! ## What happens when it is replaced -/

/-- Policy `user` with directory 1, another directory 2, and policy `off`. -/
def user1 : Pol := ⟨true, 1, false⟩
def user2 : Pol := ⟨true, 2, false⟩
def off5 : Pol := ⟨false, 5, true⟩

/-- `user-cache-directory` is changed between `os.path.join(CACHE.directory(), …)` and the registration. -/
def moved : Call := ⟨user1, [], 0, 7, .no, [.go 0 true, .go 0 true, .replace user2, .go 0 true, .go 0 true]⟩

/-- The same after the file has been downloaded. -/
def movedLate : Call :=
  ⟨user1, [], 0, 7, .no, List.replicate 6 (.go 0 true) ++ [.replace user2, .go 0 true, .go 0 true]⟩

/-- The policy is set to `off` while a file that is in the cache is asked for with a `force` function. -/
def turnedOff : Call := ⟨user1, [.appear ⟨1, .keyed 7⟩], 0, 7, .func, [.go 0 true, .go 0 true, .replace off5, .go 0 true, .go 0 true]⟩

/-- The policy `off` is given up. -/
def turnedOn : Call := ⟨off5, [], 0, 7, .no, [.go 0 true, .replace user1, .go 0 true, .go 0 true]⟩

/-- A call during which the cache settings are changed may raise AssertionError before or after the file has been created, or TypeError;
and with the policy `off` given up, it leaves a file of a new name, unknown to the table, in the cache directory of the user. -/
theorem C109_refuted :
    (∃ c : Call, c.Ok ∧ c.raised .assertion ∧ ∀ p, c.final.files p = false) ∧
    (∃ c : Call, c.Ok ∧ c.raised .assertion ∧ c.final.files ⟨1, .keyed c.key⟩ = true) ∧
    (∃ c : Call, c.Ok ∧ c.raised .type) ∧
    (∃ c : Call, ∃ p, c.Ok ∧ c.returned p ∧ p.name ≠ .keyed c.key ∧ c.final.active = ⟨true, p.dir, false⟩ ∧ c.final.rows p = false) := by
  refine ⟨⟨moved, ⟨by decide +kernel, by intro k f; simp [moved]⟩, by unfold Call.raised; decide +kernel, fun p => rfl⟩,
    ⟨movedLate, ⟨by decide +kernel, by intro k f; simp [movedLate]⟩, by unfold Call.raised; decide +kernel, by decide +kernel⟩,
    ⟨turnedOff, ⟨by decide +kernel, by intro k f; simp [turnedOff]⟩, by unfold Call.raised; decide +kernel⟩,
    ⟨turnedOn, ⟨1, .fresh 0⟩, ⟨by decide +kernel, by intro k f; simp [turnedOn]⟩, by unfold Call.returned; decide +kernel, by decide, by decide +kernel, by decide +kernel⟩⟩

/-! ## Examples -/

/-- Two threads ask for the same file, the limits of the cache being changed in between (which replaces no policy); both get it. -/
def together : Call :=
  ⟨user1, [.start 1 7 .no, .go 1 true, .go 1 true], 0, 7, .no,
    [.go 0 true, .go 1 true, .go 0 true, .go 1 true, .go 0 true, .go 0 true, .go 1 true, .go 0 true, .go 1 true, .go 0 true] ++
      List.replicate 7 (.go 0 true) ++ List.replicate 8 (.go 1 true)⟩

theorem together_ok : together.Ok := ⟨by decide +kernel, by intro k f; simp [together]⟩

theorem together_steady : together.Steady := by intro p; simp [together]

example : together.returned ⟨1, .keyed 7⟩ := by unfold Call.returned; decide +kernel

example : (together.at together.during).pc 1 = .done ⟨1, .keyed 7⟩ := by decide +kernel

example : together.final.rows ⟨1, .keyed 7⟩ = true := by decide +kernel

example := C109_place together together_ok ⟨1, .keyed 7⟩ (by unfold Call.returned; decide +kernel)

example := (C109_steady_partial together together_ok together_steady).2.2 ⟨1, .keyed 7⟩ (by unfold Call.returned; decide +kernel)

example : 12 ≤ together.steps together.during := by decide +kernel

/-- A forced regeneration, alone. -/
def again : Call := ⟨user1, [.start 0 7 .no] ++ List.replicate 12 (.go 0 true), 0, 7, .yes, List.replicate 12 (.go 0 true)⟩

theorem again_ok : again.Ok := ⟨by decide +kernel, by intro k f; simp [again]⟩

theorem again_steady : again.Steady := by intro p; simp [again]

theorem again_undisturbed : again.Undisturbed := by
  have hm : ∀ h a, h ++ [a] <+: again.during → a = .go again.t true := by
    intro h a hp
    have := Call.mem_of_prefix (c := again) hp
    exact List.eq_of_mem_replicate this
  refine ⟨fun h ch hp _ => ?_, fun h a p hp ha _ => absurd (hm h a hp) (ha true)⟩
  have := hm h _ hp
  cases this
  rfl

example : ∃ p, again.returned p := (C109_delivered_partial again again_ok again_steady again_undisturbed).2 (by decide +kernel)

end Verif.DiskCache.Switch

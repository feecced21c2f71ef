import Verif.DiskCache.TableProps7

/-!
# The disk cache's table: which operations raise, and that these change nothing
-/

namespace Verif.DiskCache

/-- What an operation of the manager gives back. -/
def result (e : Env) (s : St) : Op → Except Err Unit
  | .register t p owner => (register e t p owner none s).1
  | .update p d => (updateEntry e p d s).1
  | .check t l u d => (checkSize e t l u d s).1
  | .purge t t' => (purge e t t' s).1
  | .purgeMatch m => (purgeMatch e m s).1
  | .decacheFile p => (decacheFile e p s).1
  | .world _ => .ok ()

/-- A text that does not begin with the cache directory. -/
def Outside (e : Env) (p : Path) : Prop := ¬∃ rest, p = e.dir ++ rest

/-- When operations raise, and what: paths outside the cache are refused; an update needs the file, a removal of an outside path is noticed only if the
file is there. -/
inductive Raises (e : Env) (s : St) : Op → Err → Prop where
  | register (t : Nat) (p : Path) (o : List Char) (h : Outside e p) : Raises e s (.register t p o) .assertion
  | update (p : Path) (d : Option Nat) (h : Outside e p) : Raises e s (.update p d) .assertion
  | gone (p : Path) (d : Option Nat) (h : ¬Outside e p) (hf : s.file p = none) : Raises e s (.update p d) .os
  | decache (p : Path) (h : Outside e p) (f : File) (hf : s.file p = some f) : Raises e s (.decacheFile p) .assertion

theorem outside_iff (e : Env) (p : Path) : Outside e p ↔ inCache e p = false := by
  unfold Outside inCache
  rw [← Bool.not_eq_true, List.isPrefixOf_iff_prefix]
  exact not_congr ⟨fun ⟨r, h⟩ => ⟨r, h.symm⟩, fun ⟨r, h⟩ => ⟨r, h.symm⟩⟩

/-! ### what is never refused -/

theorem ok_trim (e : Env) (goal : Nat) (rs : List Row) (total : Nat) (s : St) (hs : Inside e s) (hin : ∀ r ∈ rs, inCache e r.path = true) :
    ∃ b s', trim e goal rs total s = (.ok b, s') := by
  induction rs generalizing total s with
  | nil => exact ⟨_, _, rfl⟩
  | cons c rs ih =>
    rw [trim]
    obtain ⟨n, s1, h1⟩ := ok_deleteEntry e s.depth c.path (c.size.getD 0) s (hin c List.mem_cons_self) hs
    have l1 := loss_deleteEntry e s.depth c.path (c.size.getD 0) s
    rw [h1] at l1 ⊢
    simp only at l1 ⊢
    by_cases hg : 100 * (total + n) ≥ goal
    · rw [if_pos hg]; exact ⟨_, _, rfl⟩
    · rw [if_neg hg]
      exact ih (total + n) s1 (hs.sub l1) (fun r hr => hin r (List.mem_cons_of_mem _ hr))

theorem ok_sweep (e : Env) (goal latest : Nat) (s : St) (hs : Inside e s) : ∃ s', sweep e goal latest s = (.ok (), s') := by
  unfold sweep
  obtain ⟨⟨b, n⟩, s1, h1⟩ := ok_trim e goal (firstQuery latest s) 0 s hs (fun r hr => hs r (List.mem_filter.1 hr).1)
  have l1 := loss_trim e goal (firstQuery latest s) 0 s
  rw [h1] at l1 ⊢
  cases b with
  | true => exact ⟨_, rfl⟩
  | false =>
    simp only at l1 ⊢
    have hs1 : Inside e s1 := hs.sub l1
    obtain ⟨b, s2, h2⟩ := ok_trim e goal (secondQuery latest s1) n s1 hs1 (fun r hr => by
      unfold secondQuery at hr
      rw [List.mem_insertionSort] at hr
      exact hs1 r (List.mem_filter.1 hr).1)
    rw [h2]
    exact ⟨_, rfl⟩

theorem ok_decache (e : Env) (t goal : Nat) (pg : Bool) (s : St) (hs : Inside e s) : ∃ s', decache e t goal pg s = (.ok (), s') := by
  unfold decache
  by_cases hg : goal = 0
  · rw [if_pos hg]; exact ⟨_, rfl⟩
  · rw [if_neg hg]; exact ok_sweep e goal _ s hs

theorem ok_check (e : Env) (t : Nat) (l u : Option Nat) (d : Disk) (s : St) (hs : Inside e s) : ∃ s', checkSize e t l u d s = (.ok (), s') := by
  have clean : ∀ s goal, Inside e s → ∃ s', decache e t goal false (housekeeping e t false s) = (.ok (), s') := fun s goal hs =>
    ok_decache e t goal false _ ((housekeeping_kept e t false s).inside hs)
  have h1 : ∃ s', checkMax e t l s = (.ok (), s') ∧ Inside e s' := by
    unfold checkMax
    cases l with
    | none => exact ⟨s, rfl, hs⟩
    | some m =>
      simp only
      by_cases hm : s.size > m
      · rw [if_pos hm]
        obtain ⟨s', h⟩ := clean s (100 * (s.size - m)) hs
        have k := (housekeeping_kept e t false s).inside hs
        have l := loss_decache e t (100 * (s.size - m)) (housekeeping e t false s)
        rw [h] at l
        exact ⟨s', h, k.sub l⟩
      · rw [if_neg hm]; exact ⟨s, rfl, hs⟩
  obtain ⟨s1, h1, hs1⟩ := h1
  unfold checkSize
  rw [h1]
  simp only
  unfold checkUsage
  cases u with
  | none => exact ⟨_, rfl⟩
  | some u =>
    simp only
    by_cases hm : d.percent > u
    · rw [if_pos hm]; exact clean s1 _ hs1
    · rw [if_neg hm]; exact ⟨_, rfl⟩

/-! ### who is attached is attached to something inside -/

/-- What files are attached to is in the cache. -/
def Fathers (e : Env) (s : St) : Prop := ∀ r ∈ s.rows, ∀ q, r.parent = some q → inCache e q = true

theorem Fathers.sub {e : Env} {s s' : St} (h : Fathers e s) (hs : ∀ r' ∈ s'.rows, ∃ r ∈ s.rows, r'.parent = r.parent) : Fathers e s' := by
  intro r' hr' q hq
  obtain ⟨r, hr, hp⟩ := hs r' hr'
  exact h r hr q (hp ▸ hq)

theorem fold_fathers (e : Env) (t : Nat) (names : List Path) (hn : ∀ p ∈ names, direct e p = true) (s : St) (hi : Inside e s) (hf : Fathers e s) :
    Fathers e (names.foldl (adopt e t) s) := by
  induction names generalizing s with
  | nil => exact hf
  | cons p ps ih =>
    rw [List.foldl_cons]
    have g : Inside e (adopt e t s p) :=
      (grown_fold e t [p] (fun q hq => hn q (by rw [List.mem_singleton.1 hq]; exact List.mem_cons_self)) s).inside hi
    refine ih (fun q hq => hn q (List.mem_cons_of_mem _ hq)) _ g ?_
    rcases adopt_cases e t s p with h | ⟨_, _, h⟩
    · rw [h]; exact hf
    · rw [h]
      intro r hr q hq
      rcases List.mem_append.1 hr with hr | hr
      · exact hf r hr q hq
      · rw [List.mem_singleton.1 hr] at hq
        obtain ⟨r0, hr0, hp, _⟩ := findParent_spec hq
        rw [← hp]
        exact hi r0 hr0

theorem housekeeping_fathers (e : Env) (t : Nat) (clean : Bool) (s : St) (hi : Inside e s) (hf : Fathers e s) : Fathers e (housekeeping e t clean s) := by
  unfold housekeeping
  refine (fold_fathers e t ((s.files.map (·.1)).filter (direct e)) (fun p hp => (List.mem_filter.1 hp).2) s hi hf).sub (fun r' hr' => ?_)
  obtain ⟨r, hr, h⟩ := List.mem_filterMap.1 hr'
  exact ⟨r, hr, (refresh_same h).parent⟩

theorem decache_fathers (e : Env) (t goal : Nat) (pg : Bool) (s : St) (hf : Fathers e s) : Fathers e (decache e t goal pg s).2 := by
  refine hf.sub (fun r hr => ⟨r, ?_, rfl⟩)
  revert hr
  unfold decache
  by_cases hg : goal = 0
  · rw [if_pos hg]; exact id
  · rw [if_neg hg]; exact fun hr => (loss_sweep e goal _ s).rows.subset hr

theorem check_fathers (e : Env) (t : Nat) (l u : Option Nat) (d : Disk) (s : St) (hi : Inside e s) (hf : Fathers e s) :
    Fathers e (checkSize e t l u d s).2 := by
  have clean : ∀ s goal, Inside e s → Fathers e s → Inside e (decache e t goal false (housekeeping e t false s)).2 ∧
      Fathers e (decache e t goal false (housekeeping e t false s)).2 := fun s goal hs hf =>
    ⟨((housekeeping_kept e t false s).inside hs).sub (loss_decache e t goal _), decache_fathers e t goal false _ (housekeeping_fathers e t false s hs hf)⟩
  have h1 : Inside e (checkMax e t l s).2 ∧ Fathers e (checkMax e t l s).2 := by
    unfold checkMax
    cases l with
    | none => exact ⟨hi, hf⟩
    | some m =>
      simp only
      by_cases hm : s.size > m
      · rw [if_pos hm]; exact clean s _ hi hf
      · rw [if_neg hm]; exact ⟨hi, hf⟩
  unfold checkSize
  generalize checkMax e t l s = x at *
  obtain ⟨r, s1⟩ := x
  cases r with
  | error x => exact h1.2
  | ok _ =>
    simp only at h1 ⊢
    unfold checkUsage
    cases u with
    | none => exact h1.2
    | some u =>
      simp only
      by_cases hm : d.percent > u
      · rw [if_pos hm]; exact (clean s1 _ h1.1 h1.2).2
      · rw [if_neg hm]; exact h1.2

theorem step_fathers (e : Env) (s : St) (hi : Inside e s) (hf : Fathers e s) (op : Op) : Fathers e (step e s op) := by
  cases op with
  | register t p o =>
    intro r hr q hq
    rcases register_marks e t p o s r hr with ⟨r0, hr0, _, _, h3, _⟩ | _
    · exact hf r0 hr0 q (h3 ▸ hq)
    · have hr' : r ∈ (register e t p o none s).2.rows := hr
      unfold register at hr'
      by_cases hp : inCache e p = true
      · rw [if_pos hp] at hr'
        by_cases ha : s.rows.any (fun r => r.path = p) = true
        · rw [if_pos ha] at hr'
          obtain ⟨r0, hr0, rfl⟩ := List.mem_map.1 hr'
          exact hf r0 hr0 q ((touch_path t p r0).2.2.1 ▸ hq)
        · rw [if_neg ha] at hr'
          rcases List.mem_append.1 hr' with hr' | hr'
          · exact hf r hr' q hq
          · rw [List.mem_singleton.1 hr'] at hq
            cases hq
      · rw [if_neg hp] at hr'
        exact hf r hr' q hq
  | update p d =>
    refine hf.sub (fun r hr => ?_)
    rcases (update_effect e p d s (fun _ => True)).derived r hr with ⟨r0, hr0, _, _, h3, _⟩ | ⟨_, _, h⟩
    · exact ⟨r0, hr0, h3⟩
    · exact h.elim
  | check t l u d => exact check_fathers e t l u d s hi hf
  | purge t t' => exact decache_fathers e t' _ true _ (housekeeping_fathers e t true s hi hf)
  | purgeMatch m =>
    refine hf.sub (fun r hr => ?_)
    rcases (match_effect e m s).derived r hr with ⟨r0, hr0, _, _, h3, _⟩ | ⟨_, _, h⟩
    · exact ⟨r0, hr0, h3⟩
    · exact h.elim
  | decacheFile p =>
    refine hf.sub (fun r hr => ?_)
    rcases (decacheFile_effect e p s).derived r hr with ⟨r0, hr0, _, _, h3, _⟩ | ⟨_, _, h⟩
    · exact ⟨r0, hr0, h3⟩
    · exact h.elim
  | world f => exact hf

theorem fathers_run (e : Env) (h : List Op) : Fathers e (run e h) := by
  induction h using List.reverseRecOn with
  | nil => exact fun r hr => (by cases hr)
  | append_singleton h op ih =>
    rw [run_snoc]
    exact step_fathers e _ (inv_run e h).inside ih op

/-! ### C139 -/

theorem decache_outside (e : Env) (s : St) (hf : Fathers e s) (p : Path) (hp : inCache e p = false) :
    decacheFile e p s = if s.exists_ p = true then (.error .assertion, s) else (.ok (), s.dropRow p) := by
  have hno : s.children p = [] := by
    unfold St.children
    rw [List.filter_eq_nil_iff]
    intro r hr hc
    have := hf r hr p (by simpa using hc)
    rw [hp] at this
    cases this
  have hdel : ∀ n, deleteEntry e s.depth p n s = deleteOwn e p n 0 s := fun n => by
    show deleteEntry e (longest s.rows + 1) p n s = _
    rw [deleteEntry_succ, hno, deleteAll_nil]
  unfold decacheFile
  rw [hdel]
  unfold deleteOwn deleteFile
  by_cases h : s.exists_ p = true
  · rw [if_pos h, if_pos h, if_neg (by rw [hp]; exact Bool.false_ne_true)]
  · rw [if_neg h, if_neg h]

theorem ok_decacheFile (e : Env) (s : St) (hs : Inside e s) (p : Path) (hp : inCache e p = true) : (decacheFile e p s).1 = .ok () := by
  unfold decacheFile
  obtain ⟨k, s1, h⟩ := ok_deleteEntry e s.depth p (((s.file p).map (·.size)).getD 0) s hp hs
  rw [h]

/-- After every history, an operation of the manager raises exactly when the specification says so, and what it says. -/
theorem C139_raises (e : Env) (h : List Op) (op : Op) (x : Err) : result e (run e h) op = .error x ↔ Raises e (run e h) op x := by
  have hi := (inv_run e h).inside
  have hf := fathers_run e h
  generalize run e h = s at *
  have okay : ∀ {op}, result e s op = .ok () → (∀ y, ¬Raises e s op y) → (result e s op = .error x ↔ Raises e s op x) := fun h1 h2 =>
    ⟨fun h => (by rw [h1] at h; cases h), fun h => absurd h (h2 x)⟩
  cases op with
  | register t p o =>
    by_cases hp : inCache e p = true
    · refine okay ?_ (fun y hy => by cases hy with | register _ _ _ h => rw [outside_iff, hp] at h; cases h)
      show (register e t p o none s).1 = _
      unfold register
      rw [if_pos hp]
      split <;> rfl
    · have hv : result e s (.register t p o) = .error .assertion := by
        show (register e t p o none s).1 = _
        unfold register
        rw [if_neg hp]
      rw [hv]
      constructor
      · intro h; cases h
        exact .register t p o ((outside_iff e p).2 (by simpa using hp))
      · intro h; cases h; rfl
  | update p d =>
    by_cases hp : inCache e p = true
    · cases hfl : s.file p with
      | none =>
        have hv : result e s (.update p d) = .error .os := by
          show (updateEntry e p d s).1 = _
          unfold updateEntry
          rw [if_pos hp, hfl]
        rw [hv]
        constructor
        · intro h; cases h
          exact .gone p d (fun h => by rw [outside_iff, hp] at h; cases h) hfl
        · intro h
          cases h with
          | update _ _ h => rw [outside_iff, hp] at h; cases h
          | gone => rfl
      | some f =>
        refine okay ?_ (fun y hy => ?_)
        · show (updateEntry e p d s).1 = _
          unfold updateEntry
          rw [if_pos hp, hfl]
        · cases hy with
          | update _ _ h => rw [outside_iff, hp] at h; cases h
          | gone _ _ _ h => rw [hfl] at h; cases h
    · have hv : result e s (.update p d) = .error .assertion := by
        show (updateEntry e p d s).1 = _
        unfold updateEntry
        rw [if_neg hp]
      have ho : Outside e p := (outside_iff e p).2 (by simpa using hp)
      rw [hv]
      constructor
      · intro h; cases h
        exact .update p d ho
      · intro h
        cases h with
        | update => rfl
        | gone _ _ h _ => exact absurd ho h
  | check t l u d =>
    refine okay ?_ (fun y hy => by cases hy)
    obtain ⟨s', h⟩ := ok_check e t l u d s hi
    show (checkSize e t l u d s).1 = _
    rw [h]
  | purge t t' =>
    refine okay ?_ (fun y hy => by cases hy)
    obtain ⟨s', h⟩ := ok_decache e t' (100 * (housekeeping e t true s).size) true _ ((housekeeping_kept e t true s).inside hi)
    show (purge e t t' s).1 = _
    unfold purge
    rw [h]
  | purgeMatch m =>
    refine okay ?_ (fun y hy => by cases hy)
    obtain ⟨k, s', h⟩ := ok_all e s.depth (s.rows.filter m) s hi (fun r hr => hi r (List.mem_filter.1 hr).1)
    show (purgeMatch e m s).1 = _
    unfold purgeMatch
    rw [h]
  | decacheFile p =>
    by_cases hp : inCache e p = true
    · refine okay (ok_decacheFile e s hi p hp) (fun y hy => ?_)
      cases hy with | decache _ h => rw [outside_iff, hp] at h; cases h
    · have hp' : inCache e p = false := by simpa using hp
      have hv : result e s (.decacheFile p) = (decacheFile e p s).1 := rfl
      rw [hv, decache_outside e s hf p hp']
      cases hfl : s.file p with
      | none =>
        have hx : ¬s.exists_ p = true := by unfold St.exists_; rw [hfl]; exact Bool.false_ne_true
        rw [if_neg hx]
        constructor
        · intro h; cases h
        · intro h
          cases h with | decache _ _ f hf => rw [hfl] at hf; cases hf
      | some f =>
        have hx : s.exists_ p = true := by unfold St.exists_; rw [hfl]; rfl
        rw [if_pos hx]
        constructor
        · intro h; cases h
          exact .decache p ((outside_iff e p).2 hp') f hfl
        · intro h; cases h; rfl
  | world f => exact okay rfl (fun y hy => by cases hy)

/-- An operation that raises changes neither the table nor the files. -/
theorem C139_unchanged (e : Env) (h : List Op) (op : Op) (x : Err) (hx : result e (run e h) op = .error x) : run e (h ++ [op]) = run e h := by
  have hr := (C139_raises e h op x).1 hx
  have hf := fathers_run e h
  rw [run_snoc]
  generalize run e h = s at *
  cases hr with
  | register t p o ho =>
    show (register e t p o none s).2 = s
    unfold register
    rw [if_neg (by rw [(outside_iff e p).1 ho]; exact Bool.false_ne_true)]
  | update p d ho =>
    show (updateEntry e p d s).2 = s
    unfold updateEntry
    rw [if_neg (by rw [(outside_iff e p).1 ho]; exact Bool.false_ne_true)]
  | gone p d ho hfl =>
    show (updateEntry e p d s).2 = s
    unfold updateEntry
    split
    · rw [hfl]
    · rfl
  | decache p ho f hfl =>
    show (decacheFile e p s).2 = s
    rw [decache_outside e s hf p ((outside_iff e p).1 ho), if_pos (by unfold St.exists_; rw [hfl]; rfl)]

/-- `C139_raises`, `C139_unchanged`: a file of somebody else is not removed by name. -/
def elsewhere : List Op := [.register 1 "/c/a".toList "url".toList, .world [("/etc/a".toList, ⟨3, 0⟩)]]

example : result envC (run envC elsewhere) (.decacheFile "/etc/a".toList) = .error .assertion :=
  (C139_raises envC elsewhere _ _).2 (.decache _ ((outside_iff _ _).2 (by decide +kernel)) ⟨3, 0⟩ (by decide +kernel))

example : result envC (run envC elsewhere) (.update "/c/a".toList none) = .error .os :=
  (C139_raises envC elsewhere _ _).2 (.gone _ _ (by rw [outside_iff]; decide +kernel) (by decide +kernel))

example : run envC (elsewhere ++ [.decacheFile "/etc/a".toList]) = run envC elsewhere :=
  C139_unchanged envC elsewhere _ .assertion (by decide +kernel)

end Verif.DiskCache

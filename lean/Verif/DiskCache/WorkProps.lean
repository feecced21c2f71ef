import Verif.DiskCache.TableProps2

/-!
# Creations in progress are left alone (C111)

`cache_file` registers a path, makes `path.tmp` under the lock file `path.lock`, renames it and records its size
(caching.py:1003-1031). Meanwhile the managers of all processes serve other requests. The requests, and the changes of files by
anyone, are the operations of `TableSpec.lean`.
-/

namespace Verif.DiskCache.Work

open Verif.DiskCache

/-- The file `p` is being made since `cr`, with the help of a file `f`: there is an unfinished record of it and no file yet; the helper has
no older record; no other record or file in the directory has a name the name of the helper begins with (names contain a digest). -/
structure AtWork (s : St) (p f : Path) (cr : Nat) : Prop where
  unique : Unique s
  record : ∃ u ∈ s.rows, u.path = p ∧ ¬Finished u ∧ u.parent = none ∧ u.created = cr
  absent : s.file p = none
  helper : ∀ r ∈ s.rows, r.path = f → cr ≤ r.created ∧ (r.parent = none ∨ r.parent = some p)
  names : ∀ r ∈ s.rows, r.path <+: f → r.path = p ∨ r.path = f
  strays : ∀ x ∈ s.files, x.1 <+: f → x.1 = f

/-- What others may do meanwhile: anything but asking for the removal of just these files, and purging. -/
def Harmless (p f : Path) (cr : Nat) : Op → Prop
  | .register _ q _ => q <+: f → q = p
  | .update _ _ => True
  | .check t _ _ _ => cr ≤ t
  | .purge _ _ => False
  | .purgeMatch m => ∀ r, r.path = p ∨ r.path = f → m r = false
  | .decacheFile q => q ≠ p ∧ q ≠ f
  | .world files => (∀ x ∈ files, x.1 <+: f → x.1 = f) ∧ ∀ x ∈ files, x.1 ≠ p

/-- Requests to a manager. -/
def request : Op → Bool
  | .world _ => false
  | _ => true

theorem under_p {s : St} {p f : Path} {cr : Nat} (h : AtWork s p f cr) {a : Path} (hu : Under s.rows a p) : a = p := by
  obtain ⟨u, hu', rfl, _, hp, _⟩ := h.record
  exact under_root h.unique hu' hp hu

theorem under_f {s : St} {p f : Path} {cr : Nat} (h : AtWork s p f cr) {a : Path} (hu : Under s.rows a f) : a = f ∨ a = p := by
  generalize hq : f = q at hu
  cases hu with
  | self => exact .inl rfl
  | child hu hr hp =>
    right
    rcases (h.helper _ hr hq.symm).2 with h' | h'
    · rw [h'] at hp; cases hp
    · rw [h'] at hp; cases hp; exact under_p h hu

theorem loses {s s' : St} {p f : Path} {cr : Nat} (h : AtWork s p f cr) (hr : s'.rows.Sublist s.rows) (hf : s'.files.Sublist s.files)
    (hp : ∀ r ∈ s.rows, r ∉ s'.rows → r.path ≠ p) : AtWork s' p f cr := by
  obtain ⟨u, hu, rfl, hnf, hpar, hcr⟩ := h.record
  refine ⟨h.unique.sublist (hr.map _), ⟨u, ?_, rfl, hnf, hpar, hcr⟩, file_none_of_sublist hf h.absent, fun r m => h.helper r (hr.subset m),
    fun r m => h.names r (hr.subset m), fun x m => h.strays x (hf.subset m)⟩
  by_contra hn
  exact hp u hu hn rfl

theorem loses_under {e : Env} {U : Path → Prop} {s s' : St} {p f : Path} {cr : Nat} (h : AtWork s p f cr) (l : Loss e U s s')
    (hp : ¬U p) (hf : ¬U f) : AtWork s' p f cr ∧ ∀ x ∈ s.files, x.1 = f → x ∈ s'.files := by
  refine ⟨loses h l.rows l.files (fun r m n hq => hp (hq ▸ l.removed r m n)), fun x m hq => ?_⟩
  by_contra hn
  exact hf (hq ▸ (l.gone x m hn).2.2)

theorem work_decache (e : Env) (t goal : Nat) (s : St) (p f : Path) (cr : Nat) (h : AtWork s p f cr) :
    AtWork (decache e t goal false s).2 p f cr ∧ ∀ x ∈ s.files, x.1 = f → x ∈ (decache e t goal false s).2.files := by
  obtain ⟨h1, h2⟩ := C60_spares e t goal s
  have l := loss_decache e t goal s
  obtain ⟨u, hu, hup, hnf, hpar, hcr⟩ := h.record
  have onP : ∀ a ∈ s.rows, Finished a → a.path = p → False := by
    intro a ha hfin hap
    have : a = u := h.unique.eq ha hu (hap.trans hup.symm)
    exact hnf (this ▸ hfin)
  refine ⟨loses h l.rows l.files (fun r m n hq => ?_), fun x m hq => ?_⟩
  · obtain ⟨a, ha, hfin, _, hun⟩ := h1 r m n
    rw [hq] at hun
    exact onP a ha hfin (under_p h hun)
  · by_contra hn
    obtain ⟨a, ha, hfin, hnp, hun⟩ := h2 x m hn
    rw [hq] at hun
    rcases under_f h hun with hf | hp
    · exact hnp (.inl ⟨u, hu, hnf, by rw [hcr]; exact (h.helper a ha hf).1⟩)
    · exact onP a ha hfin hp

theorem work_adopt (e : Env) (t : Nat) (s : St) (p f full : Path) (cr : Nat) (h : AtWork s p f cr) (ht : cr ≤ t)
    (hfull : ∃ x ∈ s.files, x.1 = full) : AtWork (adopt e t s full) p f cr ∧ (adopt e t s full).files = s.files := by
  rcases adopt_cases e t s full with h' | ⟨hno, _, h'⟩
  · rw [h']; exact ⟨h, rfl⟩
  · rw [h']
    refine ⟨⟨?_, ?_, h.absent, ?_, ?_, h.strays⟩, rfl⟩
    · unfold Unique
      simp only [List.map_append, List.map_cons, List.map_nil]
      rw [List.nodup_append]
      refine ⟨h.unique, by simp, ?_⟩
      intro a ha b hb
      obtain ⟨r, hr, rfl⟩ := List.mem_map.1 ha
      simp only [List.mem_singleton] at hb
      rw [hb]
      exact hno r hr
    · obtain ⟨u, hu, hrest⟩ := h.record
      exact ⟨u, List.mem_append_left _ hu, hrest⟩
    · intro r hr hrf
      rcases List.mem_append.1 hr with hr | hr
      · exact h.helper r hr hrf
      · simp only [List.mem_singleton] at hr
        subst hr
        refine ⟨ht, ?_⟩
        simp only at hrf ⊢
        cases hq : findParent s full with
        | none => exact .inl rfl
        | some q =>
          right
          obtain ⟨r0, hr0, rfl, hpre⟩ := findParent_spec hq
          rw [hrf] at hpre
          rcases h.names r0 hr0 hpre with h0 | h0
          · rw [h0]
          · exact absurd (h0.trans hrf.symm) (hno r0 hr0)
    · intro r hr hpre
      rcases List.mem_append.1 hr with hr | hr
      · exact h.names r hr hpre
      · simp only [List.mem_singleton] at hr
        subst hr
        obtain ⟨x, hx, rfl⟩ := hfull
        exact .inr (h.strays x hx hpre)

theorem work_fold (e : Env) (t : Nat) (p f : Path) (cr : Nat) (ht : cr ≤ t) (names : List Path) (s : St) (h : AtWork s p f cr)
    (hn : ∀ q ∈ names, ∃ x ∈ s.files, x.1 = q) : AtWork (names.foldl (adopt e t) s) p f cr ∧ (names.foldl (adopt e t) s).files = s.files := by
  induction names generalizing s with
  | nil => exact ⟨h, rfl⟩
  | cons q qs ih =>
    rw [List.foldl_cons]
    have h1 := work_adopt e t s p f q cr h ht (hn q List.mem_cons_self)
    have h2 := ih (adopt e t s q) h1.1 (by rw [h1.2]; exact fun q' m => hn q' (List.mem_cons_of_mem _ m))
    exact ⟨h2.1, h2.2.trans h1.2⟩

theorem work_updateCache (s : St) (p f : Path) (cr : Nat) (h : AtWork s p f cr) : AtWork (updateCache false s) p f cr := by
  have hmem : ∀ r', r' ∈ (updateCache false s).rows ↔ ∃ r ∈ s.rows, refresh s false r = some r' := fun r' => by
    unfold updateCache
    exact List.mem_filterMap
  refine ⟨h.unique.sublist (paths_filterMap s.rows (refresh s false) (fun r r' hh => (refresh_same hh).path)), ?_, h.absent, ?_, ?_, h.strays⟩
  · obtain ⟨u, hu, hup, hnf, hpar, hcr⟩ := h.record
    refine ⟨u, (hmem u).2 ⟨u, hu, ?_⟩, hup, hnf, hpar, hcr⟩
    unfold refresh
    unfold Finished at hnf
    cases hs : u.size with
    | some n => rfl
    | none => simp only [hup, h.absent]; rfl
  · intro r' hr' hrf
    obtain ⟨r, hr, hh⟩ := (hmem r').1 hr'
    have hs := refresh_same hh
    rw [hs.created, hs.parent]
    exact h.helper r hr (hs.path.symm.trans hrf)
  · intro r' hr' hpre
    obtain ⟨r, hr, hh⟩ := (hmem r').1 hr'
    have hs := refresh_same hh
    rw [hs.path] at hpre ⊢
    exact h.names r hr hpre

theorem work_housekeeping (e : Env) (t : Nat) (s : St) (p f : Path) (cr : Nat) (h : AtWork s p f cr) (ht : cr ≤ t) :
    AtWork (housekeeping e t false s) p f cr ∧ (housekeeping e t false s).files = s.files := by
  have h1 := work_fold e t p f cr ht ((s.files.map (·.1)).filter (direct e)) s h (fun q hq => by
    obtain ⟨x, hx, rfl⟩ := List.mem_map.1 (List.mem_filter.1 hq).1
    exact ⟨x, hx, rfl⟩)
  exact ⟨work_updateCache _ p f cr h1.1, h1.2⟩

theorem work_clean (e : Env) (t goal : Nat) (s : St) (p f : Path) (cr : Nat) (h : AtWork s p f cr) (ht : cr ≤ t) :
    AtWork (decache e t goal false (housekeeping e t false s)).2 p f cr ∧
      ∀ x ∈ s.files, x.1 = f → x ∈ (decache e t goal false (housekeeping e t false s)).2.files := by
  have h1 := work_housekeeping e t s p f cr h ht
  have h2 := work_decache e t goal _ p f cr h1.1
  rw [h1.2] at h2
  exact h2

theorem work_check (e : Env) (t : Nat) (limit usage : Option Nat) (disk : Disk) (s : St) (p f : Path) (cr : Nat) (h : AtWork s p f cr) (ht : cr ≤ t) :
    AtWork (checkSize e t limit usage disk s).2 p f cr ∧ ∀ x ∈ s.files, x.1 = f → x ∈ (checkSize e t limit usage disk s).2.files := by
  have hm : AtWork (checkMax e t limit s).2 p f cr ∧ ∀ x ∈ s.files, x.1 = f → x ∈ (checkMax e t limit s).2.files := by
    unfold checkMax
    cases limit with
    | none => exact ⟨h, fun _ hx _ => hx⟩
    | some m =>
      simp only
      by_cases hs : s.size > m
      · rw [if_pos hs]; exact work_clean e t _ s p f cr h ht
      · rw [if_neg hs]; exact ⟨h, fun _ hx _ => hx⟩
  unfold checkSize
  generalize checkMax e t limit s = x at *
  obtain ⟨r, s1⟩ := x
  cases r with
  | error x => exact hm
  | ok _ =>
    simp only at hm ⊢
    unfold checkUsage
    cases usage with
    | none => exact hm
    | some u =>
      simp only
      by_cases hs : disk.percent > u
      · rw [if_pos hs]
        have h2 := work_clean e t ((disk.percent - u) * disk.total) s1 p f cr hm.1 ht
        exact ⟨h2.1, fun x hx hp => h2.2 x (hm.2 x hx hp) hp⟩
      · rw [if_neg hs]; exact hm

theorem work_register (e : Env) (t : Nat) (q p f : Path) (o : List Char) (cr : Nat) (s : St) (h : AtWork s p f cr) (hq : q <+: f → q = p) :
    AtWork (register e t q o none s).2 p f cr ∧ (register e t q o none s).2.files = s.files := by
  unfold register
  by_cases hin : inCache e q
  · rw [if_pos hin]
    by_cases ha : s.rows.any (fun r => r.path = q)
    · rw [if_pos ha]
      have hpath : ∀ r, (touch t q r).path = r.path := fun r => by unfold touch; split <;> rfl
      have hpar : ∀ r, (touch t q r).parent = r.parent := fun r => by unfold touch; split <;> rfl
      have hcr : ∀ r, (touch t q r).created = r.created := fun r => by unfold touch; split <;> rfl
      have hsz : ∀ r, (touch t q r).size = r.size := fun r => by unfold touch; split <;> rfl
      refine ⟨⟨?_, ?_, h.absent, ?_, ?_, h.strays⟩, rfl⟩
      · unfold Unique
        simp only [List.map_map]
        have : ((fun r : Row => r.path) ∘ touch t q) = (fun r : Row => r.path) := funext hpath
        rw [this]
        exact h.unique
      · obtain ⟨u, hu, h1, h2, h3, h4⟩ := h.record
        refine ⟨touch t q u, List.mem_map.2 ⟨u, hu, rfl⟩, (hpath u).trans h1, ?_, (hpar u).trans h3, (hcr u).trans h4⟩
        unfold Finished at *
        rw [hsz]
        exact h2
      · intro r hr hrf
        obtain ⟨r0, hr0, rfl⟩ := List.mem_map.1 hr
        rw [hcr, hpar]
        exact h.helper r0 hr0 ((hpath r0).symm.trans hrf)
      · intro r hr hpre
        obtain ⟨r0, hr0, rfl⟩ := List.mem_map.1 hr
        rw [hpath] at hpre ⊢
        exact h.names r0 hr0 hpre
    · rw [if_neg ha]
      have hno : ∀ r ∈ s.rows, r.path ≠ q := any_path_false.1 (by simpa using ha)
      have hqp : q ≠ p := fun hh => by
        obtain ⟨u, hu, h1, _⟩ := h.record
        exact hno u hu (h1.trans hh.symm)
      have hpre : ¬q <+: f := fun hh => hqp (hq hh)
      refine ⟨⟨?_, ?_, h.absent, ?_, ?_, h.strays⟩, rfl⟩
      · unfold Unique
        simp only [List.map_append, List.map_cons, List.map_nil]
        rw [List.nodup_append]
        refine ⟨h.unique, by simp, ?_⟩
        intro a ha b hb
        obtain ⟨r, hr, rfl⟩ := List.mem_map.1 ha
        simp only [List.mem_singleton] at hb
        rw [hb]
        exact hno r hr
      · obtain ⟨u, hu, hrest⟩ := h.record
        exact ⟨u, List.mem_append_left _ hu, hrest⟩
      · intro r hr hrf
        rcases List.mem_append.1 hr with hr | hr
        · exact h.helper r hr hrf
        · simp only [List.mem_singleton] at hr
          subst hr
          exact absurd (show q <+: f from hrf ▸ List.prefix_rfl) hpre
      · intro r hr hp
        rcases List.mem_append.1 hr with hr | hr
        · exact h.names r hr hp
        · simp only [List.mem_singleton] at hr
          subst hr
          exact absurd hp hpre
  · rw [if_neg hin]; exact ⟨h, rfl⟩

theorem work_update (e : Env) (q p f : Path) (d : Option Nat) (cr : Nat) (s : St) (h : AtWork s p f cr) :
    AtWork (updateEntry e q d s).2 p f cr ∧ (updateEntry e q d s).2.files = s.files := by
  unfold updateEntry
  by_cases hin : inCache e q
  · rw [if_pos hin]
    cases hf : s.file q with
    | none => exact ⟨h, rfl⟩
    | some x =>
      simp only
      have hqp : p ≠ q := fun hh => by rw [← hh, h.absent] at hf; cases hf
      have hpath : ∀ r, (setSize q x.size d r).path = r.path := fun r => by unfold setSize; split <;> rfl
      have hpar : ∀ r, (setSize q x.size d r).parent = r.parent := fun r => by unfold setSize; split <;> rfl
      have hcr : ∀ r, (setSize q x.size d r).created = r.created := fun r => by unfold setSize; split <;> rfl
      refine ⟨⟨?_, ?_, h.absent, ?_, ?_, h.strays⟩, trivial⟩
      · unfold Unique
        simp only [List.map_map]
        have : ((fun r : Row => r.path) ∘ setSize q x.size d) = (fun r : Row => r.path) := funext hpath
        rw [this]
        exact h.unique
      · obtain ⟨u, hu, h1, h2, h3, h4⟩ := h.record
        refine ⟨setSize q x.size d u, List.mem_map.2 ⟨u, hu, rfl⟩, (hpath u).trans h1, ?_, (hpar u).trans h3, (hcr u).trans h4⟩
        unfold setSize
        rw [if_neg (by rw [h1]; exact hqp)]
        exact h2
      · intro r hr hrf
        obtain ⟨r0, hr0, rfl⟩ := List.mem_map.1 hr
        rw [hcr, hpar]
        exact h.helper r0 hr0 ((hpath r0).symm.trans hrf)
      · intro r hr hpre
        obtain ⟨r0, hr0, rfl⟩ := List.mem_map.1 hr
        rw [hpath] at hpre ⊢
        exact h.names r0 hr0 hpre
  · rw [if_neg hin]; exact ⟨h, rfl⟩

theorem work_step (e : Env) (s : St) (p f : Path) (cr : Nat) (op : Op) (h : AtWork s p f cr) (ho : Harmless p f cr op) :
    AtWork (step e s op) p f cr ∧ (request op = true → ∀ x ∈ s.files, x.1 = f → x ∈ (step e s op).files) := by
  cases op with
  | register t q o =>
    have h1 := work_register e t q p f o cr s h ho
    exact ⟨h1.1, fun _ x hx _ => by show x ∈ (register e t q o none s).2.files; rw [h1.2]; exact hx⟩
  | update q d =>
    have h1 := work_update e q p f d cr s h
    exact ⟨h1.1, fun _ x hx _ => by show x ∈ (updateEntry e q d s).2.files; rw [h1.2]; exact hx⟩
  | check t l u d =>
    have h1 := work_check e t l u d s p f cr h ho
    exact ⟨h1.1, fun _ => h1.2⟩
  | purge t t' => exact ho.elim
  | purgeMatch m =>
    have l := loss_all e s.depth (s.rows.filter m) s
    have key : ∀ q, q = p ∨ q = f → ¬∃ c ∈ s.rows.filter m, Under s.rows c.path q := by
      rintro q hq ⟨c, hc, hu⟩
      have hm := List.mem_filter.1 hc
      have : c.path = p ∨ c.path = f := by
        rcases hq with rfl | rfl
        · exact .inl (under_p h hu)
        · exact (under_f h hu).symm
      rw [ho c this] at hm
      cases hm.2
    have h1 := loses_under h l (key p (.inl rfl)) (key f (.inr rfl))
    have h2 : (step e s (.purgeMatch m)) = (deleteAll e s.depth (s.rows.filter m) s).2 := by
      show (purgeMatch e m s).2 = _
      unfold purgeMatch
      generalize deleteAll e s.depth (s.rows.filter m) s = x
      obtain ⟨r, s1⟩ := x
      cases r <;> rfl
    rw [h2]
    exact ⟨h1.1, fun _ => h1.2⟩
  | decacheFile q =>
    have l := loss_deleteEntry e s.depth q (((s.file q).map (·.size)).getD 0) s
    have h1 := loses_under h l (fun hu => ho.1 (under_p h hu)) (fun hu => (under_f h hu).elim ho.2 ho.1)
    have h2 : (step e s (.decacheFile q)) = (deleteEntry e s.depth q (((s.file q).map (·.size)).getD 0) s).2 := by
      show (decacheFile e q s).2 = _
      unfold decacheFile
      generalize deleteEntry e s.depth q (((s.file q).map (·.size)).getD 0) s = x
      obtain ⟨r, s1⟩ := x
      cases r <;> rfl
    rw [h2]
    exact ⟨h1.1, fun _ => h1.2⟩
  | world files =>
    refine ⟨⟨h.unique, h.record, (file_none_iff _ _).2 ho.2, h.helper, h.names, ho.1⟩, fun hr => by cases hr⟩

theorem work_run (e : Env) (h : List Op) (s : St) (p f : Path) (cr : Nat) (hw : AtWork s p f cr) (ho : ∀ op ∈ h, Harmless p f cr op) :
    AtWork (h.foldl (step e) s) p f cr := by
  induction h generalizing s with
  | nil => exact hw
  | cons op h ih => exact ih _ (work_step e s p f cr op hw (ho op List.mem_cons_self)).1 (fun o m => ho o (List.mem_cons_of_mem _ m))

/-- C111 (part): while a file is being made under a record of its own, whatever the managers are asked to do and whatever limits they
have, the record stays and no request removes the helper file `f` (`path.tmp`, `path.lock`). Missing: records left from a lost file, `purge()`
and the moment between renaming and recording, see below. -/
theorem C111_left_alone_partial (e : Env) (h : List Op) (s : St) (p f : Path) (cr : Nat) (hw : AtWork s p f cr) (ho : ∀ op ∈ h, Harmless p f cr op) :
    (∃ u ∈ (h.foldl (step e) s).rows, u.path = p ∧ u.created = cr ∧ ¬Finished u) ∧
    ∀ pre op post, h = pre ++ op :: post → request op = true → ∀ x ∈ (pre.foldl (step e) s).files, x.1 = f →
      x ∈ ((pre ++ [op]).foldl (step e) s).files := by
  constructor
  · obtain ⟨u, hu, h1, h2, _, h4⟩ := (work_run e h s p f cr hw ho).record
    exact ⟨u, hu, h1, h4, h2⟩
  · intro pre op post hh hr x hx hxf
    rw [List.foldl_append]
    have hw1 := work_run e pre s p f cr hw (fun o m => ho o (by rw [hh]; exact List.mem_append_left _ m))
    exact (work_step e _ p f cr op hw1 (ho op (by rw [hh]; simp))).2 hr x hx hxf

/-- C111: the situation arises whenever a path without a record is registered, in a directory without records or files of names that the
name of the helper begins with. -/
theorem C111_begins (e : Env) (s : St) (p f : Path) (o : List Char) (cr : Nat) (hin : inCache e p = true) (hu : Unique s)
    (hr : ∀ r ∈ s.rows, r.path ≠ p ∧ ¬r.path <+: f) (hf : ∀ x ∈ s.files, x.1 ≠ p ∧ (x.1 <+: f → x.1 = f)) (hpf : p ≠ f) :
    AtWork (step e s (.register cr p o)) p f cr := by
  have hn : s.rows.any (fun r => r.path = p) = false := any_path_false.2 (fun r m => (hr r m).1)
  show AtWork (register e cr p o none s).2 p f cr
  rw [register_new e cr p o none s hin hn]
  refine ⟨?_, ⟨_, List.mem_append_right _ (List.mem_singleton.2 rfl), rfl, by unfold Finished; simp, rfl, rfl⟩,
    (file_none_iff _ _).2 (fun x m => (hf x m).1), ?_, ?_, fun x m => (hf x m).2⟩
  · unfold Unique
    simp only [List.map_append, List.map_cons, List.map_nil]
    rw [List.nodup_append]
    refine ⟨hu, by simp, ?_⟩
    intro a ha b hb
    obtain ⟨r, hr', rfl⟩ := List.mem_map.1 ha
    simp only [List.mem_singleton] at hb
    rw [hb]
    exact (hr r hr').1
  · intro r m hrf
    rcases List.mem_append.1 m with m | m
    · exact absurd (show r.path <+: f from hrf ▸ List.prefix_rfl) (hr r m).2
    · simp only [List.mem_singleton] at m
      subst m
      exact absurd hrf hpf
  · intro r m hpre
    rcases List.mem_append.1 m with m | m
    · exact absurd hpre (hr r m).2
    · simp only [List.mem_singleton] at m
      subst m
      exact .inl rfl

/-- C111 (part): the file that was made is recorded with its size, and nothing is raised, if no check comes between renaming and recording. -/
theorem C111_recorded_partial (e : Env) (h : List Op) (s : St) (p f : Path) (cr : Nat) (hw : AtWork s p f cr) (ho : ∀ op ∈ h, Harmless p f cr op)
    (files : List (Path × File)) (d : Option Nat) (x : File) (hin : inCache e p = true) (hx : files.lookup p = some x) :
    (updateEntry e p d { (h.foldl (step e) s) with files := files }).1 = .ok () ∧
    ∃ u ∈ ((h ++ [Op.world files, Op.update p d]).foldl (step e) s).rows, u.path = p ∧ u.size = some x.size ∧ u.created = cr := by
  obtain ⟨u, hu, h1, _, _, h4⟩ := (work_run e h s p f cr hw ho).record
  rw [List.foldl_append]
  generalize h.foldl (step e) s = s1 at *
  have hfile : ({ s1 with files := files } : St).file p = some x := hx
  have key : updateEntry e p d { s1 with files := files } = (.ok (), { rows := s1.rows.map (setSize p x.size d), files := files }) := by
    unfold updateEntry
    rw [if_pos hin, hfile]
  refine ⟨by rw [key], setSize p x.size d u, ?_, ?_, ?_, ?_⟩
  · show _ ∈ (updateEntry e p d { s1 with files := files }).2.rows
    rw [key]
    exact List.mem_map.2 ⟨u, hu, rfl⟩
  · unfold setSize; rw [if_pos h1]; exact h1
  · unfold setSize; rw [if_pos h1]
  · unfold setSize; rw [if_pos h1]; exact h4

/-! ### An instance -/

def p : Path := "/c/url-1.npz".toList
def lock : Path := "/c/url-1.npz.lock".toList
def tmp : Path := "/c/url-1.npz.tmp".toList
def q : Path := "/c/url-2.npz".toList

/-- An old entry over the limit, and a download that takes long: the lock file and the temporary file are older than two minutes and
are found by the check of another download. -/
def history : List Op := [.world [("/c/url-0.npz".toList, ⟨10, 1⟩), (lock, ⟨0, 100⟩), (tmp, ⟨7, 200⟩)], .register 500 q "url".toList,
  .check 1000 (some 5) none ⟨0, 0⟩]

def old : St := ⟨[row "/c/url-0.npz" "url" 1 1 (some 10)], [("/c/url-0.npz".toList, ⟨10, 1⟩)]⟩

theorem history_ok : (∀ f ∈ [lock, tmp], AtWork (step envC old (.register 100 p "url".toList)) p f 100 ∧ ∀ op ∈ history, Harmless p f 100 op) ∧
    ((history.foldl (step envC) (step envC old (.register 100 p "url".toList))).rows.map (·.path)) = [p, q, lock, tmp] ∧
    ((history.foldl (step envC) (step envC old (.register 100 p "url".toList))).files.map (·.1)) = [lock, tmp] := by
  refine ⟨?_, by decide +kernel, by decide +kernel⟩
  intro f hf
  constructor
  · refine C111_begins envC old p f _ 100 (by decide +kernel) (by unfold Unique; decide +kernel) ?_ ?_ ?_
    · simp only [List.mem_cons, List.not_mem_nil, or_false] at hf
      rcases hf with rfl | rfl <;> decide +kernel
    · simp only [List.mem_cons, List.not_mem_nil, or_false] at hf
      rcases hf with rfl | rfl <;> decide +kernel
    · simp only [List.mem_cons, List.not_mem_nil, or_false] at hf
      rcases hf with rfl | rfl <;> decide +kernel
  · simp only [List.mem_cons, List.not_mem_nil, or_false] at hf
    intro op ho
    simp only [history, List.mem_cons, List.not_mem_nil, or_false] at ho
    rcases hf with rfl | rfl <;> rcases ho with rfl | rfl | rfl <;> simp only [Harmless] <;> decide +kernel

/-- `C111_begins` -/
example : AtWork (step envC old (.register 100 p "url".toList)) p tmp 100 :=
  C111_begins envC old p tmp _ 100 (by decide +kernel) (by unfold Unique; decide +kernel) (by decide +kernel) (by decide +kernel) (by decide +kernel)

/-- `C111_left_alone_partial`: the temporary file is there after the check. -/
example : (tmp, (⟨7, 200⟩ : File)) ∈ (history.foldl (step envC) (step envC old (.register 100 p "url".toList))).files :=
  (C111_left_alone_partial envC history _ p tmp 100 (history_ok.1 tmp (by simp)).1 (history_ok.1 tmp (by simp)).2).2
    (history.take 2) (.check 1000 (some 5) none ⟨0, 0⟩) [] rfl rfl _ (by decide +kernel) rfl

/-- `C111_recorded_partial`: the download ends and is recorded. -/
example : (updateEntry envC p none { (history.foldl (step envC) (step envC old (.register 100 p "url".toList))) with files := [(p, ⟨7, 1001⟩)] }).1 = .ok () :=
  (C111_recorded_partial envC history _ p tmp 100 (history_ok.1 tmp (by simp)).1 (history_ok.1 tmp (by simp)).2 [(p, ⟨7, 1001⟩)] none ⟨7, 1001⟩
    (by decide +kernel) (by decide +kernel)).1

/-! ### Where they are not left alone -/

/-- The file is asked for, made, lost (removed by hand, say), asked for again and being made; the lock file is older than two minutes. -/
def lost : List Op := [.register 1 p "url".toList, .world [(p, ⟨10, 1⟩)], .update p none, .world [], .register 500 p "url".toList,
  .world [(lock, ⟨0, 500⟩)], .register 990 q "url".toList]

/-- C111 refuted: the record of a file that was lost still has a size, so the new creation is not seen to be in progress: a check takes its
lock file away — another process can then make the same file at the same time — and its record; when the file is there it is not
recorded, and not counted in the size of the cache. -/
theorem C111_lost_refuted : ((run envC lost).files.map (·.1)) = [lock] ∧
    ((run envC (lost ++ [.check 1000 (some 5) none ⟨0, 0⟩])).files.map (·.1)) = [] ∧
    ((run envC (lost ++ [.check 1000 (some 5) none ⟨0, 0⟩])).rows.map (·.path)) = [q] ∧
    (run envC (lost ++ [.check 1000 (some 5) none ⟨0, 0⟩, .world [(p, ⟨10, 1001⟩)], .update p none])).exists_ p = true ∧
    (run envC (lost ++ [.check 1000 (some 5) none ⟨0, 0⟩, .world [(p, ⟨10, 1001⟩)], .update p none])).size = 0 := by
  decide +kernel

/-- C111 refuted: a `purge()` during a download removes its record, and its lock and temporary files if they are older than two minutes:
the renaming will fail. -/
theorem C111_purge_refuted : ((run envC [.register 1 p "url".toList, .world [(lock, ⟨0, 1⟩), (tmp, ⟨7, 2⟩)]]).files.map (·.1)) = [lock, tmp] ∧
    ((run envC [.register 1 p "url".toList, .world [(lock, ⟨0, 1⟩), (tmp, ⟨7, 2⟩)], .purge 1000 1001]).files.map (·.1)) = [] ∧
    ((run envC [.register 1 p "url".toList, .world [(lock, ⟨0, 1⟩), (tmp, ⟨7, 2⟩)], .purge 1000 1001]).rows.map (·.path)) = [] := by
  decide +kernel

/-- C111 refuted: the check of another download, served between the renaming of a file and the recording of its size, removes the file;
`_update_entry` then raises, and with it the call of `cache_file`. -/
theorem C111_renamed_refuted : ∃ h : List Op, h = [.register 1 p "url".toList, .register 2 q "url".toList, .world [(p, ⟨10, 2⟩), (q, ⟨10, 2⟩)], .update q none,
      .check 3 (some 5) none ⟨0, 0⟩] ∧ (updateEntry envC p none (run envC (h.take 4))).1 = .ok () ∧
    (updateEntry envC p none (run envC h)).1 = .error .os :=
  ⟨_, rfl, by decide +kernel, by decide +kernel⟩

end Verif.DiskCache.Work

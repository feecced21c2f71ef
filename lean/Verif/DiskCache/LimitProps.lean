import Mathlib.Tactic.IntervalCases
import Verif.DiskCache.TableProps

/-!
# C164: the cache stays within maximum-cache-size

docs/guide/misc/caching.rst, "Cache limits": `maximum-cache-size` "sets the maximum disk space used by earthkit-regrid cache"; above it the cache is cleaned
"before downloading additional data".

One program uses a cache that is empty at first. It asks for files one after the other (`cache_file`), changes the limit and purges the cache, of
all or of what a matcher picks; downloads fail or not. The lock file and the `.tmp` file beside the file that is made are left out (housekeeping passes over files younger than two minutes,
and the size of the lock file is 0).
-/

namespace Verif.DiskCache.Limit
open Verif.DiskCache

/-! ## Model -/

/-- A call of `cache_file`: when, for which path; whether `force` wants a new copy; whether the download succeeds, and how large the file
is then; what `os.statvfs` says at the check of the disk that follows. -/
structure Request where
  time : Nat
  path : Path
  force : Bool
  ok : Bool
  size : Nat
  owner : List Char
  disk : Disk

/-- `maximum-cache-size` and `maximum-cache-disk-usage`, each may be None. -/
structure Limits where
  size : Option Nat
  usage : Option Nat

/-- The end of `cache_file` for a file that is not there: the file is made, its size recorded, the size of the cache checked; an
exception of `create` leaves the record as it is — caching.py:1017-1026. -/
def make (e : Env) (m : Limits) (r : Request) (s : St) : St :=
  if r.ok then
    (checkSize e r.time m.size m.usage r.disk (updateEntry e r.path none { s with files := s.files ++ [(r.path, ⟨r.size, r.time⟩)] }).2).2
  else s

/-- A file that is there is deleted if `force` says so — caching.py:1004-1014 -/
def forced (e : Env) (r : Request) (s : St) : St :=
  if s.exists_ r.path && r.force then (register e r.time r.path r.owner none (decacheFile e r.path s).2).2 else s

/-- `cache_file`, policy "user" or "temporary" — caching.py:1003-1031 -/
def cacheFile (e : Env) (m : Limits) (r : Request) (s : St) : St :=
  let s := forced e r (register e r.time r.path r.owner none s).2
  if s.exists_ r.path then s else make e m r s

/-- What a program does. -/
inductive Event where
  | want (r : Request)
  /-- new limits; `_config_changed` checks the size — caching.py:183-187; `d`: the disk at that time -/
  | limit (t : Nat) (m : Limits) (d : Disk)
  /-- `cache.purge()`, begun at `t`; the clock is read again at `t'` -/
  | purge (t t' : Nat)
  /-- `cache.purge(matcher)`; the matcher raises nothing -/
  | drop (matcher : Row → Bool)

/-- One step: the limits and the cache. -/
def step (e : Env) (x : Limits × St) : Event → Limits × St
  | .want r => (x.1, cacheFile e x.1 r x.2)
  | .limit t m d => (m, (checkSize e t m.size m.usage d x.2).2)
  | .purge t t' => (x.1, (purge e t t' x.2).2)
  | .drop matcher => (x.1, (purgeMatch e matcher x.2).2)

/-- A program, from an empty cache. -/
def run (e : Env) (m : Limits) (evs : List Event) : Limits × St := evs.foldl (step e) (m, ⟨[], []⟩)

/-! ## Specification -/

/-- Disk space used. -/
def used (s : St) : Nat := (s.files.map (fun f => f.2.size)).sum

/-- The path was asked for in vain, and has not been got since; nor was the cache purged (of all). -/
def Vain (evs : List Event) (p : Path) : Prop :=
  ∃ pre r post, evs = pre ++ Event.want r :: post ∧ r.path = p ∧ r.ok = false ∧
    (∀ r', Event.want r' ∈ post → r'.path = p → r'.ok = false) ∧ ∀ t t', Event.purge t t' ∉ post

/-- The times of the requests and purges. -/
def times : List Event → List Nat
  | [] => []
  | .want r :: evs => r.time :: times evs
  | .limit _ _ _ :: evs => times evs
  | .drop _ :: evs => times evs
  | .purge t t' :: evs => t :: t' :: times evs

/-! ## Records and files agree -/

/-- What is recorded about finished files. -/
def recs (s : St) : List (Path × Nat) := s.rows.filterMap (fun r => r.size.map (fun n => (r.path, n)))

def held (s : St) : List (Path × Nat) := s.files.map (fun f => (f.1, f.2.size))

theorem size_recs (s : St) : s.size = ((recs s).map Prod.snd).sum := by
  unfold St.size recs
  induction s.rows with
  | nil => rfl
  | cons r rs ih =>
    rw [List.map_cons, List.sum_cons, ih, List.filterMap_cons]
    cases r.size <;> simp

theorem used_held (s : St) : used s = ((held s).map Prod.snd).sum := by
  unfold used held
  rw [List.map_map]; rfl

def Agree (s : St) : Prop := (held s).Perm (recs s)

theorem Agree.used {s : St} (h : Agree s) : used s = s.size := by
  rw [used_held, size_recs]
  exact (h.map Prod.snd).sum_nat

theorem recs_dropRow (s : St) (p : Path) : recs (s.dropRow p) = (recs s).filter (fun x => x.1 != p) := by
  unfold recs St.dropRow
  simp only
  induction s.rows with
  | nil => rfl
  | cons r rs ih =>
    by_cases h : r.path = p
    · rw [List.filter_cons_of_neg (by simp [h]), ih, List.filterMap_cons]
      cases r.size with
      | none => rfl
      | some n => simp [h]
    · rw [List.filter_cons_of_pos (by simp [h]), List.filterMap_cons, List.filterMap_cons]
      cases r.size with
      | none => exact ih
      | some n => simp only [Option.map_some]; rw [List.filter_cons_of_pos (by simp [h]), ih]

theorem held_dropFile (s : St) (p : Path) : held (s.dropFile p) = (held s).filter (fun x => x.1 != p) := by
  unfold held St.dropFile
  rw [List.filter_map]; rfl

theorem file_held (s : St) (p : Path) : s.file p = none ↔ ∀ x ∈ held s, x.1 ≠ p := by
  rw [file_none_iff]
  unfold held
  constructor
  · intro h x hx
    obtain ⟨f, hf, rfl⟩ := List.mem_map.1 hx
    exact h f hf
  · intro h f hf
    exact h _ (List.mem_map.2 ⟨f, hf, rfl⟩)

theorem agree_own {e : Env} (hd : Deletable e) (p : Path) (n m : Nat) (s : St) (h : Agree s) : Agree (deleteOwn e p n m s).2 := by
  unfold deleteOwn
  split
  · unfold deleteFile
    by_cases hc : inCache e p = true
    · rw [if_pos hc, hd p]
      simp only [Bool.false_eq_true, if_false]
      unfold Agree
      rw [recs_dropRow]
      change (held (s.dropFile p)).Perm ((recs s).filter _)
      rw [held_dropFile]
      exact h.filter _
    · rw [if_neg hc]; exact h
  · rename_i hx
    have hn : s.file p = none := by
      unfold St.exists_ at hx
      simpa using hx
    unfold Agree
    simp only
    rw [recs_dropRow]
    have : (recs s).filter (fun x => x.1 != p) = recs s := by
      rw [List.filter_eq_self]
      intro x hx
      have := (file_held s p).1 hn x (h.mem_iff.2 hx)
      simpa using this
    rw [this]
    exact h

theorem agree_rows {del : Path → Nat → St → Except Err Nat × St} (ih : ∀ p n s, Agree s → Agree (del p n s).2) (rs : List Row) :
    ∀ s, Agree s → Agree (forRows del rs s).2 := by
  induction rs with
  | nil => intro s h; exact h
  | cons r rs ih2 =>
    intro s h
    unfold forRows
    have h1 := ih r.path (r.size.getD 0) s h
    cases hx : del r.path (r.size.getD 0) s with
    | mk y s1 =>
      rw [hx] at h1
      cases y with
      | error x => exact h1
      | ok n =>
        simp only
        have h2 := ih2 s1 h1
        cases hy : forRows del rs s1 with
        | mk z s2 =>
          rw [hy] at h2
          cases z <;> exact h2

theorem agree_entry {e : Env} (hd : Deletable e) (fuel : Nat) : ∀ (p : Path) (n : Nat) (s : St), Agree s → Agree (deleteEntry e fuel p n s).2 := by
  induction fuel with
  | zero => intro p n s h; exact h
  | succ fuel ih =>
    intro p n s h
    unfold deleteEntry
    have h1 := agree_rows ih (s.children p) s h
    cases hx : forRows (deleteEntry e fuel) (s.children p) s with
    | mk y s1 =>
      rw [hx] at h1
      cases y with
      | error x => exact h1
      | ok t => exact agree_own hd p n t s1 h1

theorem agree_trim {e : Env} (hd : Deletable e) (goal : Nat) (rs : List Row) : ∀ (total : Nat) (s : St), Agree s → Agree (trim e goal rs total s).2 := by
  induction rs with
  | nil => intro total s h; exact h
  | cons r rs ih =>
    intro total s h
    unfold trim
    have h1 := agree_entry hd s.depth r.path (r.size.getD 0) s h
    cases hx : deleteEntry e s.depth r.path (r.size.getD 0) s with
    | mk y s1 =>
      rw [hx] at h1
      cases y with
      | error x => exact h1
      | ok n =>
        simp only
        split
        · exact h1
        · exact ih _ _ h1

theorem agree_sweep {e : Env} (hd : Deletable e) (goal latest : Nat) (s : St) (h : Agree s) : Agree (sweep e goal latest s).2 := by
  unfold sweep
  have h1 := agree_trim hd goal (firstQuery latest s) 0 s h
  cases hx : trim e goal (firstQuery latest s) 0 s with
  | mk y s1 =>
    rw [hx] at h1
    cases y with
    | error x => exact h1
    | ok b =>
      obtain ⟨b, tot⟩ := b
      cases b with
      | true => exact h1
      | false =>
        simp only
        have h2 := agree_trim hd goal (secondQuery latest s1) tot s1 h1
        cases hy : trim e goal (secondQuery latest s1) tot s1 with
        | mk z s2 =>
          rw [hy] at h2
          cases z <;> exact h2

theorem agree_decache {e : Env} (hd : Deletable e) (t goal : Nat) (b : Bool) (s : St) (h : Agree s) : Agree (decache e t goal b s).2 := by
  unfold decache
  split
  · exact h
  · exact agree_sweep hd _ _ s h

/-! ## The invariant -/

structure Inv (e : Env) (now : Nat) (s : St) : Prop where
  inside : Inside e s
  unique : Unique s
  agree : Agree s
  roots : ∀ r ∈ s.rows, r.parent = none
  past : ∀ r ∈ s.rows, r.created < now
  dates : (s.rows.map (·.created)).Nodup

theorem mem_recs {s : St} {p : Path} {n : Nat} : (p, n) ∈ recs s ↔ ∃ r ∈ s.rows, r.path = p ∧ r.size = some n := by
  unfold recs
  rw [List.mem_filterMap]
  constructor
  · rintro ⟨r, hr, h⟩
    cases hn : r.size with
    | none => rw [hn] at h; cases h
    | some k =>
      rw [hn] at h
      simp only [Option.map_some, Option.some.injEq, Prod.mk.injEq] at h
      exact ⟨r, hr, h.1, by rw [hn, h.2]⟩
  · rintro ⟨r, hr, rfl, h⟩
    exact ⟨r, hr, by rw [h]; rfl⟩

/-- No file is without a row. -/
theorem nothing_new (e : Env) (now t : Nat) (s : St) (h : Inv e now s) : ((s.files.map (·.1)).filter (direct e)).foldl (adopt e t) s = s := by
  have hrow : ∀ f ∈ s.files, s.rows.any (fun r => r.path = f.1) = true := by
    intro f hf
    have : (f.1, f.2.size) ∈ recs s := h.agree.mem_iff.1 (List.mem_map.2 ⟨f, hf, rfl⟩)
    obtain ⟨r, hr, hp, _⟩ := mem_recs.1 this
    rw [List.any_eq_true]
    exact ⟨r, hr, by simp [hp]⟩
  have hfold : ∀ ps : List Path, (∀ p ∈ ps, s.rows.any (fun r => r.path = p) = true) → ps.foldl (adopt e t) s = s := by
    intro ps
    induction ps with
    | nil => intro _; rfl
    | cons p ps ih =>
      intro hp
      rw [List.foldl_cons]
      have : adopt e t s p = s := by unfold adopt; rw [if_pos (hp p (by simp))]
      rw [this]
      exact ih (fun q hq => hp q (by simp [hq]))
  refine hfold _ ?_
  intro p hp
  obtain ⟨f, hf, rfl⟩ := List.mem_map.1 (List.mem_filter.1 hp).1
  exact hrow f hf

/-- An unfinished row has no file. -/
theorem no_file {e : Env} {now : Nat} {s : St} (h : Inv e now s) {r : Row} (hr : r ∈ s.rows) (hs : r.size = none) : s.file r.path = none := by
  rw [file_held]
  rintro ⟨p, n⟩ hx rfl
  obtain ⟨r', hr', hp, hs'⟩ := mem_recs.1 (h.agree.mem_iff.1 hx)
  have : r' = r := h.unique.eq hr' hr hp
  rw [this, hs] at hs'; cases hs'

/-- Housekeeping finds nothing to do. -/
theorem keeps (e : Env) (now t : Nat) (s : St) (h : Inv e now s) : housekeeping e t false s = s := by
  unfold housekeeping
  rw [nothing_new e now t s h]
  unfold updateCache
  have : s.rows.filterMap (refresh s false) = s.rows := by
    conv_rhs => rw [← List.filterMap_some (l := s.rows)]
    apply List.filterMap_congr
    intro r hr
    unfold refresh
    cases hs : r.size with
    | some n => rfl
    | none => rw [no_file h hr hs]; rfl
  rw [this]

/-- Before a purge the unfinished rows are removed. -/
theorem cleans (e : Env) (now t : Nat) (s : St) (h : Inv e now s) :
    housekeeping e t true s = ⟨s.rows.filter (fun r => r.size.isSome), s.files⟩ := by
  unfold housekeeping
  rw [nothing_new e now t s h]
  unfold updateCache
  have : s.rows.filterMap (refresh s true) = s.rows.filter (fun r => r.size.isSome) := by
    rw [← List.filterMap_eq_filter]
    apply List.filterMap_congr
    intro r hr
    unfold refresh
    cases hs : r.size with
    | some n => simp [Option.guard, hs]
    | none => rw [no_file h hr hs]; simp [Option.guard, hs]
  rw [this]

theorem purge_inv {e : Env} (hd : Deletable e) (now t t' : Nat) (s : St) (h : Inv e now s) (ht : now ≤ t) (htt : t < t') :
    Inv e now (purge e t t' s).2 ∧ (∀ u ∈ (purge e t t' s).2.rows, Finished u) ∧ (purge e t t' s).2.size = 0 := by
  obtain ⟨s', h1, h2⟩ := C63_size e hd t t' htt s h.inside (fun r hr => by have := h.past r hr; omega)
  have hr : recs ⟨s.rows.filter (fun r => r.size.isSome), s.files⟩ = recs s := by
    unfold recs
    simp only
    induction s.rows with
    | nil => rfl
    | cons r rs ih => cases hs : r.size <;> simp [hs, ih]
  have sub : (s.rows.filter (fun r => r.size.isSome)).Sublist s.rows := List.filter_sublist
  have hi : Inv e now ⟨s.rows.filter (fun r => r.size.isSome), s.files⟩ := {
    inside := fun r hr => h.inside r (sub.subset hr)
    unique := h.unique.sublist (sub.map _)
    agree := by unfold Agree; rw [hr]; exact h.agree
    roots := fun r hr => h.roots r (sub.subset hr)
    past := fun r hr => h.past r (sub.subset hr)
    dates := h.dates.sublist (sub.map _) }
  refine ⟨?_, ?_, by rw [h1]; exact h2⟩ <;> unfold purge <;> rw [cleans e now t s h] <;>
    generalize (⟨s.rows.filter (fun r => r.size.isSome), s.files⟩ : St).size = g
  all_goals
    have l : Loss e (fun _ => True) ⟨s.rows.filter (fun r => r.size.isSome), s.files⟩
        (decache e t' (100 * g) true ⟨s.rows.filter (fun r => r.size.isSome), s.files⟩).2 := by
      unfold decache
      split
      · exact .refl _ _ _
      · exact (loss_sweep e _ _ _).mono (fun _ _ => trivial)
  · exact {
      inside := hi.inside.sub l
      unique := hi.unique.sublist (l.rows.map _)
      agree := agree_decache hd t' _ true _ hi.agree
      roots := fun r hr => hi.roots r (l.rows.subset hr)
      past := fun r hr => hi.past r (l.rows.subset hr)
      dates := hi.dates.sublist (l.rows.map _) }
  · intro u hu
    have := l.rows.subset hu
    exact (List.mem_filter.1 this).2

theorem agree_all {e : Env} (hd : Deletable e) (fuel : Nat) (rs : List Row) (s : St) (h : Agree s) : Agree (deleteAll e fuel rs s).2 :=
  agree_rows (agree_entry hd fuel) rs s h

/-- What is left when entries were deleted. -/
theorem drop_inv {e : Env} (hd : Deletable e) (now : Nat) (f : Row → Bool) (s : St) (h : Inv e now s) :
    Inv e now (purgeMatch e f s).2 ∧ (purgeMatch e f s).2.rows.Sublist s.rows ∧ (purgeMatch e f s).2.files.Sublist s.files := by
  have hs : (purgeMatch e f s).2 = (deleteAll e s.depth (s.rows.filter f) s).2 := by
    unfold purgeMatch
    cases deleteAll e s.depth (s.rows.filter f) s with
    | mk y s1 => cases y <;> rfl
  rw [hs]
  have l := loss_all e s.depth (s.rows.filter f) s
  exact ⟨⟨h.inside.sub l, h.unique.sublist (l.rows.map _), agree_all hd _ _ _ h.agree, fun r hr => h.roots r (l.rows.subset hr),
    fun r hr => h.past r (l.rows.subset hr), h.dates.sublist (l.rows.map _)⟩, l.rows, l.files⟩

/-- The state after the check of the size. -/
theorem max_state (e : Env) (now t : Nat) (m : Option Nat) (s : St) (h : Inv e now s) : ∃ goal, (checkMax e t m s).2 = (decache e t goal false s).2 := by
  cases m with
  | none => exact ⟨0, rfl⟩
  | some m =>
    unfold checkMax
    simp only
    by_cases hs : s.size > m
    · rw [if_pos hs, keeps e now t s h]
      exact ⟨_, rfl⟩
    · rw [if_neg hs]
      exact ⟨0, rfl⟩

/-- The state after the check of the disk. -/
theorem usage_state (e : Env) (now t : Nat) (u : Option Nat) (d : Disk) (s : St) (h : Inv e now s) :
    ∃ goal, (checkUsage e t u d s).2 = (decache e t goal false s).2 := by
  cases u with
  | none => exact ⟨0, rfl⟩
  | some u =>
    unfold checkUsage
    simp only
    by_cases hs : d.percent > u
    · rw [if_pos hs, keeps e now t s h]
      exact ⟨_, rfl⟩
    · rw [if_neg hs]
      exact ⟨0, rfl⟩

/-- Deleting keeps the invariant, and unfinished entries. -/
theorem decache_inv {e : Env} (hd : Deletable e) (now t goal : Nat) (s : St) (h : Inv e now s) :
    Inv e now (decache e t goal false s).2 ∧ (decache e t goal false s).2.rows.Sublist s.rows ∧
    ∀ u ∈ s.rows, ¬Finished u → u ∈ (decache e t goal false s).2.rows := by
  have l := loss_decache e t goal s
  have sp := (C60_spares e t goal s).1
  refine ⟨⟨h.inside.sub l, h.unique.sublist (l.rows.map _), agree_decache hd t goal false s h.agree, fun r hr => h.roots r (l.rows.subset hr),
    fun r hr => h.past r (l.rows.subset hr), h.dates.sublist (l.rows.map _)⟩, l.rows, ?_⟩
  intro u hu hn
  by_contra hm
  obtain ⟨a, ha, hf, _, hun⟩ := sp u hu hm
  have hp := under_root h.unique hu (h.roots u hu) hun
  have : a = u := h.unique.eq ha hu hp
  exact hn (this ▸ hf)

theorem sublist_sum {a b : List Nat} (h : a.Sublist b) : a.sum ≤ b.sum := by
  induction h with
  | slnil => exact Nat.le_refl _
  | cons x _ ih => rw [List.sum_cons]; omega
  | cons_cons x _ ih => rw [List.sum_cons, List.sum_cons]; omega

theorem sublist_size {s s' : St} (h : s'.rows.Sublist s.rows) : s'.size ≤ s.size := by
  unfold St.size
  exact sublist_sum (h.map _)

theorem max_inv {e : Env} (hd : Deletable e) (now t : Nat) (m : Option Nat) (s : St) (h : Inv e now s) :
    Inv e now (checkMax e t m s).2 ∧ (checkMax e t m s).2.rows.Sublist s.rows ∧ (∀ u ∈ s.rows, ¬Finished u → u ∈ (checkMax e t m s).2.rows) ∧
    ((∀ r ∈ (checkMax e t m s).2.rows, Finished r) → ∀ k, m = some k → (checkMax e t m s).2.size ≤ k ∨ (checkMax e t m s).2.rows.length ≤ 1) := by
  obtain ⟨goal, hg⟩ := max_state e now t m s h
  obtain ⟨k1, k2, k3⟩ := decache_inv hd now t goal s h
  rw [← hg] at k1 k2 k3
  refine ⟨k1, k2, k3, ?_⟩
  rintro hfin k rfl
  obtain ⟨s', hs', hb⟩ := C61_reaches_partial e hd t k s h.inside (keeps e now t s h) ⟨0, 0⟩
  have hs1 : (checkMax e t (some k) s).2 = s' := by
    unfold checkSize at hs'
    cases hx : checkMax e t (some k) s with
    | mk y s1 =>
      rw [hx] at hs'
      cases y with
      | error x => cases hs'
      | ok _ => cases hs'; rfl
  rw [hs1] at k1 k2 k3 hfin ⊢
  rcases hb with hb | hb
  · exact .inl hb
  · right
    -- unfinished entries are not trimmed: there were none
    have hall : ∀ u ∈ s.rows, Finished u := by
      intro u hu
      by_contra hn
      exact hn (hfin u (k3 u hu hn))
    have hnew : ∀ r ∈ s'.rows, ∀ u ∈ s.rows, u.created ≤ r.created := by
      intro r hr
      have hp : Protected s.rows r := by
        by_contra hp
        exact hb r hr ⟨hfin r hr, hp⟩
      rcases hp with ⟨u, hu, hnf, _⟩ | ⟨_, hp⟩
      · exact absurd (hall u hu) hnf
      · exact hp
    have hn := k1.dates
    cases hr : s'.rows with
    | nil => simp
    | cons a rest =>
      cases rest with
      | nil => simp
      | cons b rest =>
        exfalso
        rw [hr] at hn hnew k2
        have h1 := hnew a (by simp) b (k2.subset (by simp))
        have h2 := hnew b (by simp) a (k2.subset (by simp))
        have : a.created = b.created := Nat.le_antisymm h2 h1
        simp [this] at hn

theorem check_inv {e : Env} (hd : Deletable e) (now t : Nat) (m : Limits) (d : Disk) (s : St) (h : Inv e now s) :
    Inv e now (checkSize e t m.size m.usage d s).2 ∧
    (∀ u ∈ (checkSize e t m.size m.usage d s).2.rows, u ∈ s.rows) ∧
    ((∀ r ∈ (checkSize e t m.size m.usage d s).2.rows, Finished r) →
      ∀ k, m.size = some k → (checkSize e t m.size m.usage d s).2.size ≤ k ∨ (checkSize e t m.size m.usage d s).2.rows.length ≤ 1) := by
  obtain ⟨h1, h2, h3, h4⟩ := max_inv hd now t m.size s h
  unfold checkSize
  cases hx : checkMax e t m.size s with
  | mk y s1 =>
    rw [hx] at h1 h2 h3 h4
    cases y with
    | error x => exact ⟨h1, fun u hu => h2.subset hu, h4⟩
    | ok _ =>
      simp only at h1 h2 h3 h4 ⊢
      obtain ⟨goal, hg⟩ := usage_state e now t m.usage d s1 h1
      obtain ⟨k1, k2, k3⟩ := decache_inv hd now t goal s1 h1
      rw [← hg] at k1 k2 k3
      refine ⟨k1, fun u hu => h2.subset (k2.subset hu), ?_⟩
      intro hfin k hk
      have hfin1 : ∀ r ∈ s1.rows, Finished r := by
        intro r hr
        by_contra hn
        exact hn (hfin r (k3 r hr hn))
      rcases h4 hfin1 k hk with hb | hb
      · exact .inl (Nat.le_trans (sublist_size k2) hb)
      · exact .inr (Nat.le_trans k2.length_le hb)

/-! ## A request -/

theorem recs_map (g : Row → Row) (hp : ∀ r, (g r).path = r.path) (hs : ∀ r, (g r).size = r.size) (rows : List Row) (files : List (Path × File)) :
    recs ⟨rows.map g, files⟩ = recs ⟨rows, files⟩ := by
  unfold recs
  simp only [List.filterMap_map]
  apply List.filterMap_congr
  intro r _
  simp only [Function.comp]
  rw [hp, hs]

theorem register_inv (e : Env) (now : Nat) (r : Request) (s : St) (h : Inv e now s) (ht : now ≤ r.time) (hc : inCache e r.path = true) :
    Inv e (r.time + 1) (register e r.time r.path r.owner none s).2 ∧
    (register e r.time r.path r.owner none s).2.files = s.files ∧
    (register e r.time r.path r.owner none s).2.size = s.size ∧
    (∃ u ∈ (register e r.time r.path r.owner none s).2.rows, u.path = r.path) ∧
    (∀ u ∈ (register e r.time r.path r.owner none s).2.rows, (∃ u' ∈ s.rows, u'.path = u.path ∧ u'.size = u.size) ∨ (u.path = r.path ∧ ¬Finished u)) ∧
    ((register e r.time r.path r.owner none s).2.rows.length = s.rows.length ∨
      ∃ u ∈ (register e r.time r.path r.owner none s).2.rows, ¬Finished u) ∧
    (∀ u' ∈ s.rows, ∃ u ∈ (register e r.time r.path r.owner none s).2.rows, u.size = u'.size) ∧
    ∀ u ∈ (register e r.time r.path r.owner none s).2.rows, u.path ≠ r.path → u.created < now := by
  have tp : ∀ u, (touch r.time r.path u).path = u.path := by intro u; unfold touch; split <;> rfl
  have ts : ∀ u, (touch r.time r.path u).size = u.size := by intro u; unfold touch; split <;> rfl
  have tc : ∀ u, (touch r.time r.path u).created = u.created := by intro u; unfold touch; split <;> rfl
  have tr : ∀ u, (touch r.time r.path u).parent = u.parent := by intro u; unfold touch; split <;> rfl
  unfold register
  rw [if_pos hc]
  by_cases ha : s.rows.any (fun u => u.path = r.path) = true
  · rw [if_pos ha]
    simp only
    refine ⟨⟨?_, ?_, ?_, ?_, ?_, ?_⟩, trivial, ?_, ?_, ?_, ?_, ?_, ?_⟩
    · intro u hu
      obtain ⟨u', hu', rfl⟩ := List.mem_map.1 hu
      rw [tp]; exact h.inside u' hu'
    · unfold Unique
      simp only [List.map_map]
      have : ((fun x : Row => x.path) ∘ touch r.time r.path) = (fun x : Row => x.path) := by funext u; exact tp u
      rw [this]; exact h.unique
    · unfold Agree
      rw [recs_map _ tp ts]
      exact h.agree
    · intro u hu
      obtain ⟨u', hu', rfl⟩ := List.mem_map.1 hu
      rw [tr]; exact h.roots u' hu'
    · intro u hu
      obtain ⟨u', hu', rfl⟩ := List.mem_map.1 hu
      rw [tc]; have := h.past u' hu'; omega
    · simp only [List.map_map]
      have : ((fun x : Row => x.created) ∘ touch r.time r.path) = (fun x : Row => x.created) := by funext u; exact tc u
      rw [this]; exact h.dates
    · rw [size_recs, recs_map _ tp ts, size_recs]
    · obtain ⟨u, hu, hp⟩ := List.any_eq_true.1 ha
      exact ⟨_, List.mem_map.2 ⟨u, hu, rfl⟩, by rw [tp]; simpa using hp⟩
    · intro u hu
      obtain ⟨u', hu', rfl⟩ := List.mem_map.1 hu
      exact .inl ⟨u', hu', (tp u').symm, (ts u').symm⟩
    · left; simp
    · intro u' hu'
      exact ⟨_, List.mem_map.2 ⟨u', hu', rfl⟩, ts u'⟩
    · intro u hu _
      obtain ⟨u', hu', rfl⟩ := List.mem_map.1 hu
      rw [tc]; exact h.past u' hu'
  · rw [if_neg ha]
    simp only
    have hno : ∀ u ∈ s.rows, u.path ≠ r.path := by
      intro u hu hp
      exact ha (List.any_eq_true.2 ⟨u, hu, by simp [hp]⟩)
    have hrec : recs ⟨s.rows ++ [⟨r.path, r.owner, r.time, r.time, none, none, 1, none⟩], s.files⟩ = recs s := by
      unfold recs
      simp
    refine ⟨⟨?_, ?_, ?_, ?_, ?_, ?_⟩, trivial, ?_, ?_, ?_, ?_, ?_, ?_⟩
    · intro u hu
      rcases List.mem_append.1 hu with hu | hu
      · exact h.inside u hu
      · simp only [List.mem_singleton] at hu; subst hu; exact hc
    · unfold Unique
      simp only [List.map_append, List.map_cons, List.map_nil]
      rw [List.nodup_append]
      refine ⟨h.unique, by simp, ?_⟩
      intro a ha b hb
      obtain ⟨u, hu, rfl⟩ := List.mem_map.1 ha
      simp only [List.mem_singleton] at hb
      rw [hb]; exact hno u hu
    · unfold Agree
      rw [hrec]; exact h.agree
    · intro u hu
      rcases List.mem_append.1 hu with hu | hu
      · exact h.roots u hu
      · simp only [List.mem_singleton] at hu; subst hu; rfl
    · intro u hu
      rcases List.mem_append.1 hu with hu | hu
      · have := h.past u hu; omega
      · simp only [List.mem_singleton] at hu; subst hu; simp
    · simp only [List.map_append, List.map_cons, List.map_nil]
      rw [List.nodup_append]
      refine ⟨h.dates, by simp, ?_⟩
      intro a ha b hb
      obtain ⟨u, hu, rfl⟩ := List.mem_map.1 ha
      simp only [List.mem_singleton] at hb
      have := h.past u hu
      omega
    · rw [size_recs, hrec, size_recs]
    · exact ⟨_, List.mem_append_right _ (List.mem_singleton.2 rfl), rfl⟩
    · intro u hu
      rcases List.mem_append.1 hu with hu | hu
      · exact .inl ⟨u, hu, rfl, rfl⟩
      · simp only [List.mem_singleton] at hu; subst hu; exact .inr ⟨rfl, by simp [Finished]⟩
    · exact .inr ⟨_, List.mem_append_right _ (List.mem_singleton.2 rfl), by simp [Finished]⟩
    · intro u' hu'
      exact ⟨u', List.mem_append_left _ hu', rfl⟩
    · intro u hu hp
      rcases List.mem_append.1 hu with hu | hu
      · exact h.past u hu
      · simp only [List.mem_singleton] at hu; subst hu; exact absurd rfl hp

/-- A row without a file is unfinished. -/
theorem unfinished {e : Env} {now : Nat} {s : St} (h : Inv e now s) {p : Path} (hf : s.file p = none) {u : Row} (hu : u ∈ s.rows) (hp : u.path = p) :
    ¬Finished u := by
  intro hfin
  obtain ⟨n, hn⟩ := Option.isSome_iff_exists.1 hfin
  have : (p, n) ∈ held s := h.agree.mem_iff.2 (mem_recs.2 ⟨u, hu, hp, hn⟩)
  exact (file_held s p).1 hf _ this rfl

theorem recs_setSize (p : Path) (n : Nat) (d : Option Nat) (files : List (Path × File)) (rows : List Row) (hu : (rows.map (·.path)).Nodup)
    (hr : ∃ u ∈ rows, u.path = p) (hn : ∀ u ∈ rows, u.path = p → u.size = none) :
    (recs ⟨rows.map (setSize p n d), files⟩).Perm ((p, n) :: recs ⟨rows, files⟩) := by
  unfold recs
  simp only
  induction rows with
  | nil => obtain ⟨u, hu, _⟩ := hr; cases hu
  | cons a rows ih =>
    rw [List.map_cons, List.nodup_cons] at hu
    by_cases ha : a.path = p
    · have hrest : rows.map (setSize p n d) = rows := by
        conv_rhs => rw [← List.map_id rows]
        apply List.map_congr_left
        intro u hu'
        unfold setSize
        rw [if_neg, id]
        intro hp
        exact hu.1 (List.mem_map.2 ⟨u, hu', by rw [hp, ha]⟩)
      have hs := hn a (by simp) ha
      rw [List.map_cons, hrest, List.filterMap_cons, List.filterMap_cons, hs]
      simp [setSize, ha]
    · have ih := ih hu.2 (by
        obtain ⟨u, hu', hp⟩ := hr
        rcases List.mem_cons.1 hu' with rfl | hu'
        · exact absurd hp ha
        · exact ⟨u, hu', hp⟩) (fun u hu' => hn u (by simp [hu']))
      have hset : setSize p n d a = a := by unfold setSize; rw [if_neg ha]
      rw [List.map_cons, hset, List.filterMap_cons, List.filterMap_cons]
      cases a.size with
      | none => exact ih
      | some k =>
        simp only [Option.map_some]
        exact (ih.cons _).trans (List.Perm.swap _ _ _)

theorem file_append (s : St) (p : Path) (f : File) (h : s.file p = none) : (⟨s.rows, s.files ++ [(p, f)]⟩ : St).file p = some f := by
  unfold St.file at h ⊢
  simp only at h ⊢
  generalize s.files = fs at h
  induction fs with
  | nil => simp
  | cons x xs ih =>
    obtain ⟨q, g⟩ := x
    rw [List.cons_append]
    rw [List.lookup_cons] at h ⊢
    by_cases hq : (p == q) = true
    · simp [hq] at h
    · simp only [hq] at h ⊢
      exact ih h

/-- After a download the file is recorded with its size. -/
theorem made_inv {e : Env} {now : Nat} {s : St} (h : Inv e now s) (p : Path) (f : File) (hf : s.file p = none) (hc : inCache e p = true)
    (hr : ∃ u ∈ s.rows, u.path = p) :
    Inv e now (updateEntry e p none { s with files := s.files ++ [(p, f)] }).2 ∧
    (updateEntry e p none { s with files := s.files ++ [(p, f)] }).2.rows = s.rows.map (setSize p f.size none) ∧
    (updateEntry e p none { s with files := s.files ++ [(p, f)] }).2.files = s.files ++ [(p, f)] := by
  have hfile := file_append s p f hf
  have sp : ∀ u, (setSize p f.size none u).path = u.path := by intro u; unfold setSize; split <;> rfl
  have sc : ∀ u, (setSize p f.size none u).created = u.created := by intro u; unfold setSize; split <;> rfl
  have sr : ∀ u, (setSize p f.size none u).parent = u.parent := by intro u; unfold setSize; split <;> rfl
  unfold updateEntry
  rw [if_pos hc]
  change Inv e now (match (⟨s.rows, s.files ++ [(p, f)]⟩ : St).file p with | none => _ | some f => _ : Except Err Unit × St).2 ∧ _
  simp only [hfile]
  refine ⟨⟨?_, ?_, ?_, ?_, ?_, ?_⟩, trivial, trivial⟩
  · intro u hu
    obtain ⟨u', hu', rfl⟩ := List.mem_map.1 hu
    rw [sp]; exact h.inside u' hu'
  · unfold Unique
    simp only [List.map_map]
    have : ((fun x : Row => x.path) ∘ setSize p f.size none) = (fun x : Row => x.path) := by funext u; exact sp u
    rw [this]; exact h.unique
  · unfold Agree
    have h1 : held ⟨s.rows.map (setSize p f.size none), s.files ++ [(p, f)]⟩ = held s ++ [(p, f.size)] := by
      unfold held; simp
    rw [h1]
    refine List.Perm.trans ?_ (recs_setSize p f.size none _ s.rows h.unique hr (fun u hu hp => by
      have := unfinished h hf hu hp
      unfold Finished at this
      simpa using this)).symm
    refine (List.perm_append_comm).trans ?_
    exact List.Perm.cons _ h.agree
  · intro u hu
    obtain ⟨u', hu', rfl⟩ := List.mem_map.1 hu
    rw [sr]; exact h.roots u' hu'
  · intro u hu
    obtain ⟨u', hu', rfl⟩ := List.mem_map.1 hu
    rw [sc]; exact h.past u' hu'
  · simp only [List.map_map]
    have : ((fun x : Row => x.created) ∘ setSize p f.size none) = (fun x : Row => x.created) := by funext u; exact sc u
    rw [this]; exact h.dates

/-! ## A program -/

theorem vain_later {evs : List Event} {p : Path} (h : Vain evs p) (ev : Event) (hev : ∀ r, ev = .want r → r.path = p → r.ok = false)
    (hno : ∀ t t', ev ≠ .purge t t') : Vain (evs ++ [ev]) p := by
  obtain ⟨pre, r, post, rfl, hp, ho, hl, hn⟩ := h
  refine ⟨pre, r, post ++ [ev], by simp, hp, ho, ?_, ?_⟩
  · intro r' hr' hp'
    rcases List.mem_append.1 hr' with hr' | hr'
    · exact hl r' hr' hp'
    · simp only [List.mem_singleton] at hr'
      exact hev r' hr'.symm hp'
  · intro t t' hm
    rcases List.mem_append.1 hm with hm | hm
    · exact hn t t' hm
    · simp only [List.mem_singleton] at hm
      exact hno t t' hm.symm

/-- Where the program is. -/
structure Good (e : Env) (evs : List Event) (now : Nat) (x : Limits × St) : Prop where
  inv : Inv e now x.2
  vain : ∀ u ∈ x.2.rows, ¬Finished u → Vain evs u.path
  bound : (∀ k, x.1.size = some k → x.2.size ≤ k ∨ x.2.rows.length ≤ 1) ∨ ∃ p, Vain evs p ∧ x.2.file p = none

/-- An unfinished row is that of a request in vain. -/
theorem good_of {e : Env} {evs : List Event} {now : Nat} {x : Limits × St} (hi : Inv e now x.2) (hv : ∀ u ∈ x.2.rows, ¬Finished u → Vain evs u.path)
    (hb : (∀ u ∈ x.2.rows, Finished u) → ∀ k, x.1.size = some k → x.2.size ≤ k ∨ x.2.rows.length ≤ 1) : Good e evs now x := by
  refine ⟨hi, hv, ?_⟩
  by_cases hf : ∀ u ∈ x.2.rows, Finished u
  · exact .inl (hb hf)
  · push Not at hf
    obtain ⟨u, hu, hn⟩ := hf
    exact .inr ⟨u.path, hv u hu hn, no_file hi hu (by unfold Finished at hn; simpa using hn)⟩

theorem good_limit {e : Env} (hd : Deletable e) {evs : List Event} {now : Nat} {x : Limits × St} (h : Good e evs now x) (t : Nat) (m : Limits) (d : Disk) :
    Good e (evs ++ [.limit t m d]) now (step e x (.limit t m d)) := by
  obtain ⟨h1, h2, h3⟩ := check_inv hd now t m d x.2 h.inv
  exact good_of h1 (fun u hu hn => vain_later (h.vain u (h2 u hu) hn) _ (fun r hr => by cases hr) (fun _ _ h => by cases h)) h3

theorem good_drop {e : Env} (hd : Deletable e) {evs : List Event} {now : Nat} {x : Limits × St} (h : Good e evs now x) (f : Row → Bool) :
    Good e (evs ++ [.drop f]) now (step e x (.drop f)) := by
  obtain ⟨h1, h2, h3⟩ := drop_inv hd now f x.2 h.inv
  refine ⟨h1, fun u hu hn => vain_later (h.vain u (h2.subset hu) hn) _ (fun r hr => by cases hr) (fun _ _ h => by cases h), ?_⟩
  rcases h.bound with hb | ⟨p, hp, hn⟩
  · left
    intro k hk
    rcases hb k hk with hb | hb
    · exact .inl (Nat.le_trans (sublist_size h2) hb)
    · exact .inr (Nat.le_trans h2.length_le hb)
  · refine .inr ⟨p, vain_later hp _ (fun r hr => by cases hr) (fun _ _ h => by cases h), ?_⟩
    rw [file_none_iff] at hn ⊢
    exact fun y hy => hn y (h3.subset hy)

theorem good_purge {e : Env} (hd : Deletable e) {evs : List Event} {now : Nat} {x : Limits × St} (h : Good e evs now x) (t t' : Nat) (ht : now ≤ t) (htt : t < t') :
    Good e (evs ++ [.purge t t']) (t' + 1) (step e x (.purge t t')) := by
  obtain ⟨h1, h2, h3⟩ := purge_inv hd now t t' x.2 h.inv ht htt
  refine ⟨{ h1 with past := fun r hr => ?_ }, fun u hu hn => absurd (h2 u hu) hn, .inl (fun k _ => .inl ?_)⟩
  · have := h1.past r hr
    omega
  · change (purge e t t' x.2).2.size ≤ _
    rw [h3]; exact Nat.zero_le _

/-- The end of a request. -/
theorem good_make {e : Env} (hd : Deletable e) {evs : List Event} (m : Limits) (r : Request) (hc : inCache e r.path = true) (s1 : St) (h1 : Inv e (r.time + 1) s1)
    (h4 : ∃ u ∈ s1.rows, u.path = r.path) (hnone : s1.file r.path = none)
    (back : ∀ u ∈ s1.rows, ¬Finished u → u.path ≠ r.path → Vain (evs ++ [.want r]) u.path) :
    Good e (evs ++ [.want r]) (r.time + 1) (m, make e m r s1) := by
  unfold make
  by_cases ho : r.ok = true
  · rw [if_pos ho]
    obtain ⟨g1, g2, g3⟩ := made_inv h1 r.path ⟨r.size, r.time⟩ hnone hc h4
    generalize hs2 : (updateEntry e r.path none { s1 with files := s1.files ++ [(r.path, ⟨r.size, r.time⟩)] }).2 = s2 at g1 g2 g3
    obtain ⟨k1, k2, k3⟩ := check_inv hd (r.time + 1) r.time m r.disk s2 g1
    refine good_of k1 ?_ k3
    intro u hu hn
    have hu2 := k2 u hu
    rw [g2] at hu2
    obtain ⟨u', hu', rfl⟩ := List.mem_map.1 hu2
    unfold setSize at hn ⊢
    by_cases hp : u'.path = r.path
    · rw [if_pos hp] at hn
      exact absurd rfl hn
    · rw [if_neg hp] at hn ⊢
      exact back u' hu' hn hp
  · rw [if_neg ho]
    obtain ⟨u, hu, hp⟩ := h4
    refine good_of h1 ?_ (fun hfin => absurd (hfin u hu) (unfinished h1 hnone hu hp))
    intro u' hu' hn
    by_cases hp' : u'.path = r.path
    · refine ⟨evs, r, [], rfl, hp'.symm, by simpa using ho, by simp, by simp⟩
    · exact back u' hu' hn hp'

/-- A file that is there is deleted, with its row. -/
theorem decached {e : Env} (hd : Deletable e) (now : Nat) (p : Path) (s : St) (h : Inv e now s) (hc : inCache e p = true) (hx : s.exists_ p = true) :
    (decacheFile e p s).2 = (s.dropFile p).dropRow p := by
  have hch : s.children p = [] := by
    unfold St.children
    rw [List.filter_eq_nil_iff]
    intro u hu
    rw [h.roots u hu]; simp
  unfold decacheFile St.depth
  rw [deleteEntry, hch]
  simp only [forRows]
  unfold deleteOwn
  rw [if_pos hx]
  unfold deleteFile
  rw [if_pos hc, hd p]
  simp

theorem file_gone (s : St) (p : Path) : ((s.dropFile p).dropRow p).file p = none := by
  rw [file_none_iff]
  intro f hf
  unfold St.dropRow St.dropFile at hf
  simpa using (List.mem_filter.1 hf).2

theorem good_want {e : Env} (hd : Deletable e) {evs : List Event} {now : Nat} {x : Limits × St} (h : Good e evs now x) (r : Request) (ht : now ≤ r.time)
    (hc : inCache e r.path = true) : Good e (evs ++ [.want r]) (r.time + 1) (step e x (.want r)) := by
  obtain ⟨h1, h2, h3, h4, h5, h6, h7, h8⟩ := register_inv e now r x.2 h.inv ht hc
  have hstep : step e x (.want r) = (x.1, cacheFile e x.1 r x.2) := rfl
  rw [hstep]
  unfold cacheFile
  generalize hs1 : (register e r.time r.path r.owner none x.2).2 = s1 at h1 h2 h3 h4 h5 h6 h7 h8
  have back : ∀ u ∈ s1.rows, ¬Finished u → u.path ≠ r.path → Vain (evs ++ [.want r]) u.path := by
    intro u hu hn hp
    rcases h5 u hu with ⟨u', hu', e1, e2⟩ | ⟨hp', _⟩
    · rw [← e1]
      refine vain_later (h.vain u' hu' ?_) _ ?_ (fun _ _ h => by cases h)
      · unfold Finished at hn ⊢; rw [e2]; exact hn
      · intro r' hr' hp'
        cases hr'
        exact absurd (e1 ▸ hp'.symm) hp
    · exact absurd hp' hp
  simp only
  by_cases hx : s1.exists_ r.path = true
  · by_cases hf : r.force = true
    · -- deleted and registered again
      have hfd : forced e r s1 = (register e r.time r.path r.owner none ((s1.dropFile r.path).dropRow r.path)).2 := by
        unfold forced
        rw [hx, hf, ← decached hd _ r.path s1 h1 hc hx]
        rfl
      have hi : Inv e now ((s1.dropFile r.path).dropRow r.path) := by
        have sub : ((s1.dropFile r.path).dropRow r.path).rows.Sublist s1.rows := List.filter_sublist
        have hne : ∀ u ∈ ((s1.dropFile r.path).dropRow r.path).rows, u.path ≠ r.path := by
          intro u hu
          unfold St.dropRow at hu
          simpa using (List.mem_filter.1 hu).2
        exact {
          inside := fun u hu => h1.inside u (sub.subset hu)
          unique := h1.unique.sublist (sub.map _)
          agree := by
            unfold Agree
            rw [recs_dropRow]
            change (held (s1.dropFile r.path)).Perm ((recs s1).filter _)
            rw [held_dropFile]
            exact h1.agree.filter _
          roots := fun u hu => h1.roots u (sub.subset hu)
          past := fun u hu => h8 u (sub.subset hu) (hne u hu)
          dates := h1.dates.sublist (sub.map _) }
      have hgone := file_gone s1 r.path
      have hback : ∀ u ∈ ((s1.dropFile r.path).dropRow r.path).rows, ¬Finished u → u.path ≠ r.path → Vain (evs ++ [.want r]) u.path := by
        intro u hu
        exact back u (List.mem_of_mem_filter hu)
      rw [hfd]
      generalize (s1.dropFile r.path).dropRow r.path = s2 at hi hgone hback
      obtain ⟨g1, g2, _, g4, g5, _, _, _⟩ := register_inv e now r s2 hi ht hc
      generalize (register e r.time r.path r.owner none s2).2 = s3 at g1 g2 g4 g5
      have hnone : s3.file r.path = none := by
        unfold St.file at hgone ⊢
        rw [g2]; exact hgone
      have hne : ¬ s3.exists_ r.path = true := by unfold St.exists_; rw [hnone]; simp
      rw [if_neg hne]
      refine good_make hd x.1 r hc s3 g1 g4 hnone ?_
      intro u hu hn hp
      rcases g5 u hu with ⟨u', hu', e1, e2⟩ | ⟨hp', _⟩
      · rw [← e1]
        refine hback u' hu' ?_ (by rw [e1]; exact hp)
        unfold Finished at hn ⊢; rw [e2]; exact hn
      · exact absurd hp' hp
    have hfd : forced e r s1 = s1 := by
      unfold forced
      rw [if_neg]
      simp [hf]
    rw [hfd, if_pos hx]
    -- the file is there: its row is finished
    have hrow : ∀ u ∈ s1.rows, u.path = r.path → Finished u := by
      intro u hu hp
      have hne : s1.file r.path ≠ none := by
        unfold St.exists_ at hx
        intro hn; rw [hn] at hx; cases hx
      rw [Ne, file_held] at hne
      push Not at hne
      obtain ⟨⟨q, n⟩, hq, hqp⟩ := hne
      obtain ⟨u', hu', hp', hs'⟩ := mem_recs.1 (h1.agree.mem_iff.1 hq)
      have : u' = u := h1.unique.eq hu' hu (by rw [hp', hp]; exact hqp)
      subst this
      unfold Finished; rw [hs']; rfl
    have hgood := fun u hu hn => back u hu hn (fun hp => hn (hrow u hu hp))
    rcases h.bound with hb | ⟨p, hv, hnf⟩
    · refine good_of h1 hgood ?_
      intro hfin
      -- the rows are those of before
      rcases h6 with h6 | ⟨u, hu, hn⟩
      · simp only
        rw [h3, h6]
        exact hb
      · exact absurd (hfin u hu) hn
    · have hsame : s1.file p = none := by
        unfold St.file at hnf ⊢
        rw [h2]; exact hnf
      refine ⟨h1, hgood, .inr ⟨p, vain_later hv _ ?_ (fun _ _ h => by cases h), hsame⟩⟩
      intro r' hr' hp'
      cases hr'
      unfold St.exists_ at hx
      rw [hp', hsame] at hx
      cases hx
  · have hfd : forced e r s1 = s1 := by
      unfold forced
      rw [if_neg]
      simp [hx]
    rw [hfd, if_neg hx]
    have hnone : s1.file r.path = none := by
      unfold St.exists_ at hx
      simpa using hx
    exact good_make hd x.1 r hc s1 h1 h4 hnone back

theorem good_start (e : Env) (m : Limits) : Good e [] 0 (m, ⟨[], []⟩) where
  inv := {
    inside := fun _ h => absurd h List.not_mem_nil
    unique := List.nodup_nil
    agree := List.Perm.refl _
    roots := fun _ h => absurd h List.not_mem_nil
    past := fun _ h => absurd h List.not_mem_nil
    dates := List.nodup_nil }
  vain := fun _ h => absurd h List.not_mem_nil
  bound := .inl (fun _ _ => .inr (Nat.zero_le _))

theorem good_run {e : Env} (hd : Deletable e) (evs : List Event) : ∀ (pre : List Event) (now : Nat) (x : Limits × St), Good e pre now x →
    (∀ t ∈ times evs, now ≤ t) → (times evs).Pairwise (· < ·) → (∀ r, Event.want r ∈ evs → inCache e r.path = true) →
    ∃ now', Good e (pre ++ evs) now' (evs.foldl (step e) x) := by
  induction evs with
  | nil => intro pre now x h _ _ _; exact ⟨now, by simpa using h⟩
  | cons ev evs ih =>
    intro pre now x h hnow hpw hin
    cases ev with
    | limit t m d =>
      obtain ⟨now', h'⟩ := ih (pre ++ [.limit t m d]) now _ (good_limit hd h t m d) hnow hpw (fun r hr => hin r (by simp [hr]))
      exact ⟨now', by simpa using h'⟩
    | drop f =>
      obtain ⟨now', h'⟩ := ih (pre ++ [.drop f]) now _ (good_drop hd h f) hnow hpw (fun r hr => hin r (by simp [hr]))
      exact ⟨now', by simpa using h'⟩
    | purge t t' =>
      have h1 := List.pairwise_cons.1 hpw
      have h2 := List.pairwise_cons.1 h1.2
      obtain ⟨now', h'⟩ := ih (pre ++ [.purge t t']) (t' + 1) _ (good_purge hd h t t' (hnow t (by simp [times])) (h1.1 t' (by simp)))
        (fun u hu => h2.1 u hu) h2.2 (fun r' hr' => hin r' (by simp [hr']))
      exact ⟨now', by simpa using h'⟩
    | want r =>
      have hpw' := List.pairwise_cons.1 hpw
      obtain ⟨now', h'⟩ := ih (pre ++ [.want r]) (r.time + 1) _ (good_want hd h r (hnow r.time (by simp [times])) (hin r (by simp)))
        (fun t ht => hpw'.1 t ht) hpw'.2 (fun r' hr' => hin r' (by simp [hr']))
      exact ⟨now', by simpa using h'⟩

/-- C164: a program that has got, sooner or later, everything it asked for since the last purge uses at most `maximum-cache-size`, or has a single file in its
cache; at any time between two requests, in particular when the next download begins. -/
theorem C164_limit_partial (e : Env) (hd : Deletable e) (m : Limits) (evs : List Event) (ht : (times evs).Pairwise (· < ·))
    (hin : ∀ r, Event.want r ∈ evs → inCache e r.path = true) (hv : ∀ p, ¬Vain evs p) (k : Nat)
    (hk : (run e m evs).1.size = some k) : used (run e m evs).2 ≤ k ∨ (run e m evs).2.files.length ≤ 1 := by
  obtain ⟨now, h⟩ := good_run hd evs [] 0 _ (good_start e m) (fun _ _ => Nat.zero_le _) ht hin
  rw [List.nil_append] at h
  have hag : Agree (run e m evs).2 := h.inv.agree
  rcases h.bound with hb | ⟨p, hp, _⟩
  · rcases hb k hk with hb | hb
    · left; rw [hag.used]; exact hb
    right
    have h1 : (held (run e m evs).2).length = (recs (run e m evs).2).length := hag.length_eq
    have h2 : (held (run e m evs).2).length = (run e m evs).2.files.length := by unfold held; simp
    have h3 : (recs (run e m evs).2).length ≤ (run e m evs).2.rows.length := by unfold recs; exact List.length_filterMap_le _ _
    have hb : (run e m evs).2.rows.length ≤ 1 := hb
    omega
  · exact absurd hp (hv p)

/-- What is recorded is what is there, whatever happened. -/
theorem C164_recorded (e : Env) (hd : Deletable e) (m : Limits) (evs : List Event) (ht : (times evs).Pairwise (· < ·))
    (hin : ∀ r, Event.want r ∈ evs → inCache e r.path = true) : (run e m evs).2.size = used (run e m evs).2 := by
  obtain ⟨now, h⟩ := good_run hd evs [] 0 _ (good_start e m) (fun _ _ => Nat.zero_le _) ht hin
  exact h.inv.agree.used.symm

/-! ## A download that failed -/

/-- Where every row is protected nothing is deleted. -/
theorem decache_protected (e : Env) (t goal : Nat) (s : St) (hp : ∀ r ∈ s.rows, Protected s.rows r) : (decache e t goal false s).2 = s := by
  unfold decache
  by_cases h0 : goal = 0
  · rw [if_pos h0]
  · rw [if_neg h0, if_neg Bool.false_ne_true]
    have hno : ∀ r ∈ s.rows, ¬Eligible (latestDate t s) r := fun r hr he => ((eligible_iff t s r hr).1 he).2 (hp r hr)
    have q1 : firstQuery (latestDate t s) s = [] := by
      rw [List.eq_nil_iff_forall_not_mem]
      intro r hr
      exact hno r (first_mem.1 hr).1 (first_mem.1 hr).2.1
    have q2 : secondQuery (latestDate t s) s = [] := by
      rw [List.eq_nil_iff_forall_not_mem]
      intro r hr
      exact hno r (second_mem.1 hr).1 (second_mem.1 hr).2
    unfold sweep
    rw [q1]
    simp only [trim, q2]

theorem check_protected (e : Env) (now t : Nat) (m : Limits) (d : Disk) (s : St) (h : Inv e now s) (hp : ∀ r ∈ s.rows, Protected s.rows r) :
    (checkSize e t m.size m.usage d s).2 = s := by
  obtain ⟨g1, h1⟩ := max_state e now t m.size s h
  obtain ⟨g2, h2⟩ := usage_state e now t m.usage d s h
  rw [decache_protected e t _ s hp] at h1 h2
  unfold checkSize
  cases hx : checkMax e t m.size s with
  | mk y s1 =>
    rw [hx] at h1
    have h1 : s1 = s := h1
    subst h1
    cases y with
    | error x => rfl
    | ok _ => exact h2

/-- C164 refuted: after one download that failed, everything got later stays, however much it is and whatever the limit; the disk fills. -/
theorem C164_vain_refuted (e : Env) (m : Limits) (q : Request) (hq : q.ok = false) (hqc : inCache e q.path = true) (rs : List Request)
    (hok : ∀ r ∈ rs, r.ok = true ∧ inCache e r.path = true) (hp : ((q :: rs).map (·.path)).Nodup) (ht : ((q :: rs).map (·.time)).Pairwise (· < ·)) :
    used (run e m ((q :: rs).map .want)).2 = (rs.map (·.size)).sum := by
  -- all rows are protected by that of the download that failed
  have key : ∀ (rs : List Request) (now : Nat) (s : St), Inv e now s → (∃ u ∈ s.rows, ¬Finished u ∧ ∀ r ∈ s.rows, u.created ≤ r.created) →
      (∀ r ∈ rs, r.ok = true ∧ inCache e r.path = true) → (rs.map (·.path)).Nodup → (∀ r ∈ rs, ∀ u ∈ s.rows, u.path ≠ r.path) →
      (∀ r ∈ rs, now ≤ r.time) → (rs.map (·.time)).Pairwise (· < ·) →
      used ((rs.map Event.want).foldl (step e) (m, s)).2 = used s + (rs.map (·.size)).sum := by
    intro rs
    induction rs with
    | nil => intro now s _ _ _ _ _ _ _; rfl
    | cons r rs ih =>
      intro now s hinv hu hok hpn hfresh hnow hpw
      obtain ⟨hrok, hrc⟩ := hok r (by simp)
      obtain ⟨h1, h2, _, h4, h5, _, _, _⟩ := register_inv e now r s hinv (hnow r (by simp)) hrc
      have hreg : (register e r.time r.path r.owner none s).2 = ⟨s.rows ++ [⟨r.path, r.owner, r.time, r.time, none, none, 1, none⟩], s.files⟩ := by
        unfold register
        rw [if_pos hrc, if_neg]
        rw [List.any_eq_true]
        rintro ⟨u, hu, hp⟩
        exact hfresh r (by simp) u hu (by simpa using hp)
      rw [hreg] at h1 h2 h4 h5
      have hnone : (⟨s.rows ++ [⟨r.path, r.owner, r.time, r.time, none, none, 1, none⟩], s.files⟩ : St).file r.path = none := by
        rw [file_held]
        rintro ⟨p, n⟩ hx rfl
        obtain ⟨u, hu, hp, _⟩ := mem_recs.1 (hinv.agree.mem_iff.1 hx)
        exact hfresh r (by simp) u hu hp
      obtain ⟨g1, g2, g3⟩ := made_inv h1 r.path ⟨r.size, r.time⟩ hnone hrc h4
      have hcf : cacheFile e m r s =
          (checkSize e r.time m.size m.usage r.disk (updateEntry e r.path none
            ⟨s.rows ++ [⟨r.path, r.owner, r.time, r.time, none, none, 1, none⟩], s.files ++ [(r.path, ⟨r.size, r.time⟩)]⟩).2).2 := by
        unfold cacheFile
        rw [hreg]
        have hx : ¬ (⟨s.rows ++ [⟨r.path, r.owner, r.time, r.time, none, none, 1, none⟩], s.files⟩ : St).exists_ r.path = true := by
          unfold St.exists_; rw [hnone]; simp
        have hfd : forced e r ⟨s.rows ++ [⟨r.path, r.owner, r.time, r.time, none, none, 1, none⟩], s.files⟩ =
            ⟨s.rows ++ [⟨r.path, r.owner, r.time, r.time, none, none, 1, none⟩], s.files⟩ := by
          unfold forced
          rw [if_neg]
          intro h
          rw [Bool.and_eq_true] at h
          exact hx h.1
        simp only
        rw [hfd, if_neg hx]
        unfold make
        rw [if_pos hrok]
      generalize hs2 : (updateEntry e r.path none
            ⟨s.rows ++ [⟨r.path, r.owner, r.time, r.time, none, none, 1, none⟩], s.files ++ [(r.path, ⟨r.size, r.time⟩)]⟩).2 = s2 at g1 g2 g3 hcf
      have g1 : Inv e (r.time + 1) s2 := by rw [← hs2]; rw [← hs2] at g1; exact g1
      have g2 : s2.rows = (s.rows ++ [(⟨r.path, r.owner, r.time, r.time, none, none, 1, none⟩ : Row)]).map (setSize r.path r.size none) := by
        rw [← hs2]; rw [← hs2] at g2; exact g2
      have g3 : s2.files = s.files ++ [(r.path, ⟨r.size, r.time⟩)] := by rw [← hs2]; rw [← hs2] at g3; exact g3
      obtain ⟨u, hum, hun, hul⟩ := hu
      have hset : ∀ v ∈ s.rows, setSize r.path r.size none v = v := by
        intro v hv
        unfold setSize
        rw [if_neg (hfresh r (by simp) v hv)]
      have hrows : s2.rows = s.rows ++ [setSize r.path r.size none ⟨r.path, r.owner, r.time, r.time, none, none, 1, none⟩] := by
        rw [g2, List.map_append]
        congr 1
        conv_rhs => rw [← List.map_id s.rows]
        exact List.map_congr_left hset
      have hcr : (setSize r.path r.size none ⟨r.path, r.owner, r.time, r.time, none, none, 1, none⟩).created = r.time := by simp [setSize]
      have hpa : (setSize r.path r.size none ⟨r.path, r.owner, r.time, r.time, none, none, 1, none⟩).path = r.path := by simp [setSize]
      have hus : u ∈ s2.rows ∧ ¬Finished u ∧ ∀ v ∈ s2.rows, u.created ≤ v.created := by
        rw [hrows]
        refine ⟨List.mem_append_left _ hum, hun, ?_⟩
        intro v hv
        rcases List.mem_append.1 hv with hv | hv
        · exact hul v hv
        · simp only [List.mem_singleton] at hv
          rw [hv, hcr]
          have := hinv.past u hum
          have := hnow r (by simp)
          omega
      have hc : cacheFile e m r s = s2 := by
        rw [hcf]
        exact check_protected e (r.time + 1) r.time m r.disk s2 g1 (fun v hv => .inl ⟨u, hus.1, hus.2.1, hus.2.2 v hv⟩)
      rw [List.map_cons, List.foldl_cons]
      change used ((rs.map Event.want).foldl (step e) (m, cacheFile e m r s)).2 = _
      rw [hc]
      rw [List.map_cons, List.nodup_cons] at hpn
      rw [List.map_cons, List.pairwise_cons] at hpw
      rw [ih (r.time + 1) s2 g1 ⟨u, hus⟩ (fun v hv => hok v (by simp [hv])) hpn.2 ?_ (fun v hv => hpw.1 v.time (List.mem_map.2 ⟨v, hv, rfl⟩)) hpw.2]
      · unfold used
        rw [g3]
        simp only [List.map_append, List.map_cons, List.map_nil, List.sum_append, List.sum_cons, List.sum_nil]
        omega
      · intro v hv w hw
        rw [hrows] at hw
        rcases List.mem_append.1 hw with hw | hw
        · exact hfresh v (by simp [hv]) w hw
        · simp only [List.mem_singleton] at hw
          rw [hw, hpa]
          intro hp
          exact hpn.1 (List.mem_map.2 ⟨v, hv, hp.symm⟩)
  have hfirst : cacheFile e m q ⟨[], []⟩ = ⟨[⟨q.path, q.owner, q.time, q.time, none, none, 1, none⟩], []⟩ := by
    simp [cacheFile, forced, register, hqc, make, hq, St.exists_, St.file]
  rw [List.map_cons, List.nodup_cons] at hp
  rw [List.map_cons, List.pairwise_cons] at ht
  have hinv := (register_inv e 0 q ⟨[], []⟩ (good_start e m).inv (Nat.zero_le _) hqc).1
  have hreg : (register e q.time q.path q.owner none ⟨[], []⟩).2 = ⟨[⟨q.path, q.owner, q.time, q.time, none, none, 1, none⟩], []⟩ := by
    simp [register, hqc]
  rw [hreg] at hinv
  unfold run
  rw [List.map_cons, List.foldl_cons]
  change used ((rs.map Event.want).foldl (step e) (m, cacheFile e m q ⟨[], []⟩)).2 = _
  rw [hfirst, key rs (q.time + 1) _ hinv ⟨_, List.mem_singleton.2 rfl, by simp [Finished], by simp⟩ hok hp.2 ?_
    (fun v hv => ht.1 v.time (List.mem_map.2 ⟨v, hv, rfl⟩)) ht.2]
  · simp [used]
  · intro v hv w hw
    simp only [List.mem_singleton] at hw
    rw [hw]
    intro h
    exact hp.1 (List.mem_map.2 ⟨v, hv, h.symm⟩)

/-! ## Examples -/

def home : Env := ⟨"/c".toList, fun _ => false⟩

def ask (t : Nat) (n : String) (ok : Bool) (size : Nat) : Request := ⟨t, ("/c/" ++ n).toList, false, ok, size, "url".toList, ⟨97, 1000⟩⟩

/-- `C164_limit_partial`: three files of 60 under a limit of 100, one of them got at the second attempt only; another download fails and
the cache is purged; again two files, a new copy of one of them, a purge of the files of another owner, a third file, no limit but for the use of the disk, and a
limit of 50. -/
def program : List Event := [.want (ask 1 "a" true 60), .want (ask 2 "b" false 0), .want (ask 3 "b" true 60), .want (ask 4 "c" true 60),
  .want (ask 5 "x" false 0), .purge 6 7, .want (ask 8 "a" true 60), .want (ask 9 "b" true 40), .want { ask 10 "b" true 45 with force := true },
  .drop (fun u => u.owner == "file".toList), .want { ask 11 "d" true 10 with owner := "file".toList }, .drop (fun u => u.path == "/c/b".toList),
  .limit 12 ⟨none, some 95⟩ ⟨96, 1000⟩, .limit 13 ⟨some 50, some 90⟩ ⟨80, 1000⟩]

example : used (run home ⟨some 100, none⟩ program).2 ≤ 50 ∨ (run home ⟨some 100, none⟩ program).2.files.length ≤ 1 := by
  refine C164_limit_partial home (fun _ => rfl) ⟨some 100, none⟩ program (by decide +kernel) ?_ ?_ 50 rfl
  · intro r hr
    simp only [program, List.mem_cons, Event.want.injEq, reduceCtorEq, List.not_mem_nil, or_false, false_or] at hr
    rcases hr with rfl | rfl | rfl | rfl | rfl | rfl | rfl | rfl | rfl <;> decide +kernel
  · rintro p ⟨pre, r, post, h, hp, ho, hl, hn⟩
    have hlen : program[pre.length]? = some (.want r) := by rw [h]; simp
    have hpost : post = program.drop (pre.length + 1) := by rw [h]; simp
    have hb : pre.length < 14 := by
      have := congrArg List.length h
      simp [program] at this
      omega
    generalize pre.length = n at *
    subst hpost
    interval_cases n <;> simp only [program, List.getElem?_cons_zero, List.getElem?_cons_succ, Option.some.injEq, reduceCtorEq, Event.want.injEq] at hlen <;>
      subst hlen
    · cases ho
    · have := hl (ask 3 "b" true 60) (by simp [program]) (by rw [← hp]; rfl)
      cases this
    · cases ho
    · cases ho
    · exact hn 6 7 (by simp [program])
    · cases ho
    · cases ho
    · cases ho
    · cases ho

/-- `C164_vain_refuted`: the first download fails; 120 are used under a limit of 100, with two files. -/
example : used (run home ⟨some 100, some 95⟩ ([ask 1 "x" false 0, ask 2 "a" true 60, ask 3 "b" true 60].map .want)).2 = 120 :=
  C164_vain_refuted home ⟨some 100, some 95⟩ (ask 1 "x" false 0) rfl (by decide +kernel) [ask 2 "a" true 60, ask 3 "b" true 60]
    (fun r hr => by
      simp only [List.mem_cons, List.not_mem_nil, or_false] at hr
      rcases hr with rfl | rfl <;> exact ⟨rfl, by decide +kernel⟩) (by decide +kernel) (by decide +kernel)

/-- `C164_recorded` after the download that failed. -/
example : (run home ⟨some 100, some 95⟩ ([ask 1 "x" false 0, ask 2 "a" true 60, ask 3 "b" true 60].map .want)).2.size = 120 :=
  (C164_recorded home (fun _ => rfl) ⟨some 100, some 95⟩ _ (by decide +kernel) (fun r hr => by
    simp only [List.map_cons, List.map_nil, List.mem_cons, Event.want.injEq, List.not_mem_nil, or_false] at hr
    rcases hr with rfl | rfl | rfl <;> decide +kernel)).trans (by decide +kernel)

end Verif.DiskCache.Limit

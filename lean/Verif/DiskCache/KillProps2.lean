import Verif.DiskCache.KillProps

/-!
# C169: any number of programs, killed or not
-/

namespace Verif.DiskCache.Limit
open Verif.DiskCache

/-! ## Model -/

/-- What happens to a cache: what programs do (a program that begins checks the size: `Event.limit`), or a download that is killed. -/
inductive Act where
  | ev (x : Event)
  | kill (r : Request)

/-- One step: the limits and the cache. -/
def actStep (e : Env) (x : Limits × St) : Act → Limits × St
  | .ev a => step e x a
  | .kill r => (x.1, killed e r x.2)

/-- Programs, one after the other, from an empty cache. -/
def history (e : Env) (m : Limits) (as : List Act) : Limits × St := as.foldl (actStep e) (m, ⟨[], []⟩)

/-! ## Specification -/

/-- The times of the requests and purges. -/
def actTimes : List Act → List Nat
  | [] => []
  | .ev x :: as => times [x] ++ actTimes as
  | .kill r :: as => r.time :: actTimes as

/-- The paths asked for are in the cache directory. -/
def Proper (e : Env) (as : List Act) : Prop := ∀ r, Act.ev (.want r) ∈ as ∨ Act.kill r ∈ as → inCache e r.path = true

/-- The path is got, or the cache purged (of all). -/
def Gets (p : Path) : Act → Prop
  | .ev (.want r) => r.path = p ∧ r.ok = true
  | .ev (.purge _ _) => True
  | .ev _ => False
  | .kill r => r.path = p

/-- The path was asked for in vain, and has not been got since. -/
def VainIn (as : List Act) (p : Path) : Prop :=
  ∃ pre r post, as = pre ++ Act.ev (.want r) :: post ∧ r.path = p ∧ r.ok = false ∧ ∀ a ∈ post, ¬Gets p a

/-! ## Files that may be unrecorded -/

/-- Every file has a row, with its size or none; `W`: the paths with a row and no file. -/
structure Rec (e : Env) (W : Path → Prop) (now : Nat) (s : St) : Prop where
  inside : Inside e s
  unique : Unique s
  roots : ∀ r ∈ s.rows, r.parent = none
  past : ∀ r ∈ s.rows, r.created < now
  dates : (s.rows.map (·.created)).Nodup
  files : (s.files.map Prod.fst).Nodup
  rows : ∀ f ∈ s.files, ∃ u ∈ s.rows, u.path = f.1 ∧ (u.size = none ∨ u.size = some f.2.size)
  here : ∀ u ∈ s.rows, ∀ n, u.size = some n → (u.path, n) ∈ held s
  vain : ∀ u ∈ s.rows, u.size = none → (∀ f ∈ s.files, f.1 ≠ u.path) → W u.path

theorem Rec.weaken {e : Env} {W W' : Path → Prop} {now now' : Nat} {s : St} (h : Rec e W now s) (hn : now ≤ now')
    (hw : ∀ p, W p → (∀ f ∈ s.files, f.1 ≠ p) → W' p) : Rec e W' now' s :=
  { h with
    past := fun r hr => Nat.lt_of_lt_of_le (h.past r hr) hn
    vain := fun u hu hs hf => hw _ (h.vain u hu hs hf) hf }

theorem Inv.toRec {e : Env} {W : Path → Prop} {now : Nat} {s : St} (h : Inv e now s) (hw : ∀ u ∈ s.rows, ¬Finished u → W u.path) : Rec e W now s where
  inside := h.inside
  unique := h.unique
  roots := h.roots
  past := h.past
  dates := h.dates
  files := by
    have h1 : s.files.map Prod.fst = (held s).map Prod.fst := by unfold held; rw [List.map_map]; rfl
    rw [h1, (h.agree.map Prod.fst).nodup_iff]
    refine h.unique.sublist ?_
    unfold recs
    induction s.rows with
    | nil => exact List.Sublist.refl _
    | cons r rs ih =>
      rw [List.filterMap_cons, List.map_cons]
      cases r.size with
      | none => exact ih.cons _
      | some n => exact ih.cons_cons _
  rows := fun f hf => by
    obtain ⟨u, hu, h1, h2⟩ := mem_recs.1 (h.agree.mem_iff.1 (List.mem_map.2 ⟨f, hf, rfl⟩))
    exact ⟨u, hu, h1, .inr h2⟩
  here := fun u hu n hn => h.agree.mem_iff.2 (mem_recs.2 ⟨u, hu, rfl, hn⟩)
  vain := fun u hu hs _ => hw u hu (by unfold Finished; rw [hs]; simp)

/-- Two files of one path are one. -/
theorem Rec.one {e : Env} {W : Path → Prop} {now : Nat} {s : St} (h : Rec e W now s) {f g : Path × File} (hf : f ∈ s.files) (hg : g ∈ s.files) (he : f.1 = g.1) : f = g :=
  List.inj_on_of_nodup_map h.files hf hg he

/-- What is looked up is there. -/
theorem file_mem {s : St} {p : Path} {f : File} (h : s.file p = some f) : (p, f) ∈ s.files := by
  unfold St.file at h
  generalize s.files = fs at h
  induction fs with
  | nil => cases h
  | cons x xs ih =>
    obtain ⟨q, g⟩ := x
    rw [List.lookup_cons] at h
    by_cases hq : (p == q) = true
    · simp only [hq] at h
      cases h
      have : p = q := by simpa using hq
      subst this
      simp
    · simp only [hq] at h
      exact List.mem_cons_of_mem _ (ih h)

/-- Housekeeping records what is not recorded. -/
theorem Rec.hk {e : Env} {W : Path → Prop} {now : Nat} {s : St} (h : Rec e W now s) (t : Nat) (c : Bool) :
    Inv e now (housekeeping e t c s) ∧ (∀ u ∈ (housekeeping e t c s).rows, ¬Finished u → W u.path ∧ c = false) ∧ (housekeeping e t c s).files = s.files := by
  rw [hk_rows e t c s (fun f hf => by obtain ⟨u, hu, hp, _⟩ := h.rows f hf; exact ⟨u, hu, hp⟩)]
  simp only
  have keep : ∀ u ∈ s.rows.filterMap (refresh s c), ∃ u' ∈ s.rows, refresh s c u' = some u := fun u hu => List.mem_filterMap.1 hu
  have hun : ((s.rows.filterMap (refresh s c)).map (·.path)).Nodup := h.unique.sublist (sublist_filterMap _ _ (fun r r' hx => (refresh_keeps hx).1) s.rows)
  refine ⟨⟨?_, hun, ?_, ?_, ?_, ?_⟩, ?_, trivial⟩
  · intro u hu
    obtain ⟨u', hu', hx⟩ := keep u hu
    rw [(refresh_keeps hx).1]
    exact h.inside u' hu'
  · unfold Agree
    have n1 : (held ⟨s.rows.filterMap (refresh s c), s.files⟩).Nodup := by
      refine List.Nodup.of_map Prod.fst ?_
      unfold held
      rw [List.map_map]
      exact h.files
    have n2 : (recs ⟨s.rows.filterMap (refresh s c), s.files⟩).Nodup := by
      refine List.Nodup.of_map Prod.fst ?_
      refine hun.sublist ?_
      unfold recs
      simp only
      induction s.rows.filterMap (refresh s c) with
      | nil => exact List.Sublist.refl _
      | cons r rs ih =>
        rw [List.filterMap_cons, List.map_cons]
        cases r.size with
        | none => exact ih.cons _
        | some n => exact ih.cons_cons _
    rw [List.perm_ext_iff_of_nodup n1 n2]
    rintro ⟨p, n⟩
    rw [mem_recs]
    constructor
    · intro hm
      obtain ⟨f, hf, he⟩ := List.mem_map.1 hm
      cases he
      obtain ⟨u, hu, hp, hs | hs⟩ := h.rows f hf
      · have hfile : s.file u.path = some f.2 := by
          cases hx : s.file u.path with
          | none => exact absurd hp.symm ((file_none_iff _ _).1 hx f hf)
          | some g =>
            have := h.one (file_mem hx) hf hp
            rw [← this]
        refine ⟨{ u with size := some f.2.size }, List.mem_filterMap.2 ⟨u, hu, ?_⟩, hp, rfl⟩
        unfold refresh
        rw [hs]
        simp only
        rw [hfile]
      · refine ⟨u, List.mem_filterMap.2 ⟨u, hu, ?_⟩, hp, hs⟩
        unfold refresh
        rw [hs]
    · rintro ⟨u, hu, rfl, hn⟩
      obtain ⟨u', hu', hx⟩ := keep u hu
      have hp := (refresh_keeps hx).1
      unfold refresh at hx
      split at hx
      · cases hx
        exact h.here u hu' n hn
      · rename_i h0
        split at hx
        · rename_i f hf
          cases hx
          cases hn
          exact List.mem_map.2 ⟨_, file_mem hf, rfl⟩
        · split at hx
          · cases hx
          · cases hx
            rw [h0] at hn
            cases hn
  · intro u hu
    obtain ⟨u', hu', hx⟩ := keep u hu
    rw [(refresh_keeps hx).2.2]
    exact h.roots u' hu'
  · intro u hu
    obtain ⟨u', hu', hx⟩ := keep u hu
    rw [(refresh_keeps hx).2.1]
    exact h.past u' hu'
  · exact h.dates.sublist (sublist_filterMap _ _ (fun r r' hx => (refresh_keeps hx).2.1) s.rows)
  · intro u hu hn
    obtain ⟨u', hu', hx⟩ := keep u hu
    unfold refresh at hx
    split at hx
    · rename_i n hs
      cases hx
      exact absurd (by unfold Finished; rw [hs]; rfl) hn
    · rename_i h0
      split at hx
      · cases hx
        exact absurd rfl hn
      · rename_i hx2
        split at hx
        · cases hx
        · rename_i hcf
          cases hx
          exact ⟨h.vain u hu' h0 (fun f hf => (file_none_iff _ _).1 hx2 f hf), by simpa using hcf⟩

/-! ## Deleting -/

theorem Rec.dropBoth {e : Env} {W : Path → Prop} {now : Nat} {s : St} (h : Rec e W now s) (p : Path) : Rec e W now ((s.dropFile p).dropRow p) where
  inside := fun u hu => h.inside u (List.mem_of_mem_filter hu)
  unique := h.unique.sublist (List.filter_sublist.map _)
  roots := fun u hu => h.roots u (List.mem_of_mem_filter hu)
  past := fun u hu => h.past u (List.mem_of_mem_filter hu)
  dates := h.dates.sublist (List.filter_sublist.map _)
  files := h.files.sublist (List.filter_sublist.map _)
  rows := fun f hf => by
    obtain ⟨u, hu, hp, hs⟩ := h.rows f (List.mem_of_mem_filter hf)
    have hne : f.1 ≠ p := by simpa using (List.mem_filter.1 hf).2
    exact ⟨u, List.mem_filter.2 ⟨hu, by simpa [hp] using hne⟩, hp, hs⟩
  here := fun u hu n hn => by
    have hne : u.path ≠ p := by simpa using (List.mem_filter.1 hu).2
    change (u.path, n) ∈ held (s.dropFile p)
    rw [held_dropFile]
    exact List.mem_filter.2 ⟨h.here u (List.mem_of_mem_filter hu) n hn, by simpa using hne⟩
  vain := fun u hu hs hf => by
    have hne : u.path ≠ p := by simpa using (List.mem_filter.1 hu).2
    refine h.vain u (List.mem_of_mem_filter hu) hs (fun f hfm he => ?_)
    exact hf f (List.mem_filter.2 ⟨hfm, by simpa [he] using hne⟩) he

theorem dropFile_none {s : St} {p : Path} (h : s.file p = none) : s.dropFile p = s := by
  unfold St.dropFile
  rw [List.filter_eq_self.2]
  intro f hf
  simpa using (file_none_iff _ _).1 h f hf

theorem Rec.own {e : Env} (hd : Deletable e) {W : Path → Prop} {now : Nat} (p : Path) (n m : Nat) {s : St} (h : Rec e W now s) : Rec e W now (deleteOwn e p n m s).2 := by
  unfold deleteOwn
  split
  · unfold deleteFile
    by_cases hc : inCache e p = true
    · rw [if_pos hc, hd p]
      simp only [Bool.false_eq_true, if_false]
      exact h.dropBoth p
    · rw [if_neg hc]; exact h
  · rename_i hx
    have hn : s.file p = none := by
      unfold St.exists_ at hx
      simpa using hx
    have := h.dropBoth p
    rw [dropFile_none hn] at this
    exact this

theorem Rec.forRows {e : Env} {W : Path → Prop} {now : Nat} {del : Path → Nat → St → Except Err Nat × St} (ih : ∀ p n s, Rec e W now s → Rec e W now (del p n s).2)
    (rs : List Row) : ∀ s, Rec e W now s → Rec e W now (Verif.DiskCache.forRows del rs s).2 := by
  induction rs with
  | nil => intro s h; exact h
  | cons r rs ih2 =>
    intro s h
    unfold Verif.DiskCache.forRows
    have h1 := ih r.path (r.size.getD 0) s h
    cases hx : del r.path (r.size.getD 0) s with
    | mk y s1 =>
      rw [hx] at h1
      cases y with
      | error x => exact h1
      | ok n =>
        simp only
        have h2 := ih2 s1 h1
        cases hy : Verif.DiskCache.forRows del rs s1 with
        | mk z s2 =>
          rw [hy] at h2
          cases z <;> exact h2

theorem Rec.entry {e : Env} (hd : Deletable e) {W : Path → Prop} {now : Nat} (fuel : Nat) : ∀ (p : Path) (n : Nat) (s : St), Rec e W now s → Rec e W now (deleteEntry e fuel p n s).2 := by
  induction fuel with
  | zero => intro p n s h; exact h
  | succ fuel ih =>
    intro p n s h
    unfold deleteEntry
    have h1 := Rec.forRows ih (s.children p) s h
    cases hx : Verif.DiskCache.forRows (deleteEntry e fuel) (s.children p) s with
    | mk y s1 =>
      rw [hx] at h1
      cases y with
      | error x => exact h1
      | ok t => exact h1.own hd p n t

theorem Rec.drop {e : Env} (hd : Deletable e) {W : Path → Prop} {now : Nat} {s : St} (h : Rec e W now s) (f : Row → Bool) : Rec e W now (purgeMatch e f s).2 := by
  have hs : (purgeMatch e f s).2 = (deleteAll e s.depth (s.rows.filter f) s).2 := by
    unfold purgeMatch
    cases deleteAll e s.depth (s.rows.filter f) s with
    | mk y s1 => cases y <;> rfl
  rw [hs]
  exact Rec.forRows (Rec.entry hd s.depth) _ s h

/-! ## Checks and purges -/

theorem Rec.swept {e : Env} (hd : Deletable e) {W : Path → Prop} {now : Nat} {s : St} (h : Rec e W now s) (t goal : Nat) :
    Rec e W now (decache e t goal false (housekeeping e t false s)).2 := by
  obtain ⟨h1, h2, _⟩ := h.hk t false
  obtain ⟨k1, k2, _⟩ := decache_inv hd now t goal _ h1
  exact k1.toRec (fun u hu hn => (h2 u (k2.subset hu) hn).1)

theorem Rec.start {e : Env} (hd : Deletable e) {W : Path → Prop} {now : Nat} {s : St} (h : Rec e W now s) (t : Nat) (m : Limits) (d : Disk) :
    Rec e W now (checkSize e t m.size m.usage d s).2 := by
  have h1 : Rec e W now (checkMax e t m.size s).2 := by
    unfold checkMax
    cases m.size with
    | none => exact h
    | some k =>
      simp only
      split
      · exact h.swept hd t _
      · exact h
  unfold checkSize
  cases hx : checkMax e t m.size s with
  | mk y s1 =>
    rw [hx] at h1
    cases y with
    | error x => exact h1
    | ok _ =>
      simp only at h1 ⊢
      unfold checkUsage
      cases m.usage with
      | none => exact h1
      | some u =>
        simp only
        split
        · exact h1.swept hd t _
        · exact h1

theorem Rec.purge {e : Env} (hd : Deletable e) {W W' : Path → Prop} {now : Nat} {s : St} (h : Rec e W now s) (t t' : Nat) (ht : now ≤ t) (htt : t < t') :
    Rec e W' (t' + 1) (Verif.DiskCache.purge e t t' s).2 ∧ used (Verif.DiskCache.purge e t t' s).2 = 0 := by
  obtain ⟨h1, h2, _⟩ := h.hk t true
  obtain ⟨s', hs', hz⟩ := C63_size e hd t t' htt s h.inside (fun r hr => by have := h.past r hr; omega)
  have hag : Agree (Verif.DiskCache.purge e t t' s).2 := by
    unfold Verif.DiskCache.purge
    exact agree_decache hd t' _ true _ h1.agree
  have l : Loss e (fun _ => True) (housekeeping e t true s) (Verif.DiskCache.purge e t t' s).2 := by
    unfold Verif.DiskCache.purge
    generalize 100 * (housekeeping e t true s).size = g
    unfold decache
    split
    · exact .refl _ _ _
    · exact (loss_sweep e _ _ _).mono (fun _ _ => trivial)
  refine ⟨Inv.toRec ⟨h1.inside.sub l, h1.unique.sublist (l.rows.map _), hag, fun r hr => h1.roots r (l.rows.subset hr), fun r hr => ?_,
    h1.dates.sublist (l.rows.map _)⟩ (fun u hu hn => ?_), by rw [hag.used, hs', hz]⟩
  · have := h1.past r (l.rows.subset hr)
    omega
  · have := (h2 u (l.rows.subset hu) hn).2
    cases this

/-! ## Requests -/

theorem Rec.register {e : Env} {W : Path → Prop} {now : Nat} {s : St} (h : Rec e W now s) (r : Request) (ht : now ≤ r.time) (hc : inCache e r.path = true) :
    Rec e (fun p => W p ∨ p = r.path) (r.time + 1) (Verif.DiskCache.register e r.time r.path r.owner none s).2 ∧
    (∃ u ∈ (Verif.DiskCache.register e r.time r.path r.owner none s).2.rows, u.path = r.path) ∧
    ∀ u ∈ (Verif.DiskCache.register e r.time r.path r.owner none s).2.rows, u.path ≠ r.path → u.created < now := by
  have tp : ∀ u, (touch r.time r.path u).path = u.path := by intro u; unfold touch; split <;> rfl
  have ts : ∀ u, (touch r.time r.path u).size = u.size := by intro u; unfold touch; split <;> rfl
  have tc : ∀ u, (touch r.time r.path u).created = u.created := by intro u; unfold touch; split <;> rfl
  have tr : ∀ u, (touch r.time r.path u).parent = u.parent := by intro u; unfold touch; split <;> rfl
  unfold Verif.DiskCache.register
  rw [if_pos hc]
  by_cases ha : s.rows.any (fun u => u.path = r.path) = true
  · rw [if_pos ha]
    simp only
    refine ⟨⟨?_, ?_, ?_, ?_, ?_, h.files, ?_, ?_, ?_⟩, ?_, ?_⟩
    · intro u hu
      obtain ⟨u', hu', rfl⟩ := List.mem_map.1 hu
      rw [tp]; exact h.inside u' hu'
    · unfold Unique
      simp only [List.map_map]
      have : ((fun x : Row => x.path) ∘ touch r.time r.path) = (fun x : Row => x.path) := by funext u; exact tp u
      rw [this]; exact h.unique
    · intro u hu
      obtain ⟨u', hu', rfl⟩ := List.mem_map.1 hu
      rw [tr]; exact h.roots u' hu'
    · intro u hu
      obtain ⟨u', hu', rfl⟩ := List.mem_map.1 hu
      rw [tc]; have := h.past u' hu'; omega
    · simp only [List.map_map]
      have : ((fun x : Row => x.created) ∘ touch r.time r.path) = (fun x : Row => x.created) := by funext u; exact tc u
      rw [this]; exact h.dates
    · intro f hf
      obtain ⟨u, hu, h1, h2⟩ := h.rows f hf
      exact ⟨_, List.mem_map.2 ⟨u, hu, rfl⟩, by rw [tp]; exact h1, by rw [ts]; exact h2⟩
    · intro u hu n hn
      obtain ⟨u', hu', rfl⟩ := List.mem_map.1 hu
      rw [tp]; rw [ts] at hn
      exact h.here u' hu' n hn
    · intro u hu hs hf
      obtain ⟨u', hu', rfl⟩ := List.mem_map.1 hu
      rw [tp] at hf ⊢; rw [ts] at hs
      exact .inl (h.vain u' hu' hs hf)
    · obtain ⟨u, hu, hp⟩ := List.any_eq_true.1 ha
      exact ⟨_, List.mem_map.2 ⟨u, hu, rfl⟩, by rw [tp]; simpa using hp⟩
    · intro u hu _
      obtain ⟨u', hu', rfl⟩ := List.mem_map.1 hu
      rw [tc]; exact h.past u' hu'
  · rw [if_neg ha]
    simp only
    have hno : ∀ u ∈ s.rows, u.path ≠ r.path := by
      intro u hu hp
      exact ha (List.any_eq_true.2 ⟨u, hu, by simp [hp]⟩)
    refine ⟨⟨?_, ?_, ?_, ?_, ?_, h.files, ?_, ?_, ?_⟩, ?_, ?_⟩
    · intro u hu
      rcases List.mem_append.1 hu with hu | hu
      · exact h.inside u hu
      · simp only [List.mem_singleton] at hu; subst hu; exact hc
    · unfold Unique
      simp only [List.map_append, List.map_cons, List.map_nil]
      rw [List.nodup_append]
      refine ⟨h.unique, by simp, ?_⟩
      intro a ha b hb
      obtain ⟨u, hu, rfl⟩ := List.mem_map.1 ha
      simp only [List.mem_singleton] at hb
      rw [hb]; exact hno u hu
    · intro u hu
      rcases List.mem_append.1 hu with hu | hu
      · exact h.roots u hu
      · simp only [List.mem_singleton] at hu; subst hu; rfl
    · intro u hu
      rcases List.mem_append.1 hu with hu | hu
      · have := h.past u hu; omega
      · simp only [List.mem_singleton] at hu; subst hu; simp
    · simp only [List.map_append, List.map_cons, List.map_nil]
      rw [List.nodup_append]
      refine ⟨h.dates, by simp, ?_⟩
      intro a ha b hb
      obtain ⟨u, hu, rfl⟩ := List.mem_map.1 ha
      simp only [List.mem_singleton] at hb
      have := h.past u hu
      omega
    · intro f hf
      obtain ⟨u, hu, h1, h2⟩ := h.rows f hf
      exact ⟨u, List.mem_append_left _ hu, h1, h2⟩
    · intro u hu n hn
      rcases List.mem_append.1 hu with hu | hu
      · exact h.here u hu n hn
      · simp only [List.mem_singleton] at hu; subst hu; cases hn
    · intro u hu hs hf
      rcases List.mem_append.1 hu with hu | hu
      · exact .inl (h.vain u hu hs hf)
      · simp only [List.mem_singleton] at hu; subst hu; exact .inr rfl
    · exact ⟨_, List.mem_append_right _ (List.mem_singleton.2 rfl), rfl⟩
    · intro u hu hp
      rcases List.mem_append.1 hu with hu | hu
      · exact h.past u hu
      · simp only [List.mem_singleton] at hu; subst hu; exact absurd rfl hp

theorem Rec.ready {e : Env} (hd : Deletable e) {W : Path → Prop} {now : Nat} {s : St} (h : Rec e W now s) (r : Request) (ht : now ≤ r.time) (hc : inCache e r.path = true) :
    Rec e (fun p => W p ∨ p = r.path) (r.time + 1) (forced e r (Verif.DiskCache.register e r.time r.path r.owner none s).2) ∧
    ∃ u ∈ (forced e r (Verif.DiskCache.register e r.time r.path r.owner none s).2).rows, u.path = r.path := by
  obtain ⟨h1, h4, h8⟩ := h.register r ht hc
  generalize hs1 : (Verif.DiskCache.register e r.time r.path r.owner none s).2 = s1 at h1 h4 h8
  by_cases hx : (s1.exists_ r.path && r.force) = true
  · have hx1 : s1.exists_ r.path = true := by
      cases hy : s1.exists_ r.path with
      | true => rfl
      | false => rw [hy] at hx; cases hx
    have hdec : (decacheFile e r.path s1).2 = (s1.dropFile r.path).dropRow r.path := by
      have hch : s1.children r.path = [] := by
        unfold St.children
        rw [List.filter_eq_nil_iff]
        intro u hu
        rw [h1.roots u hu]; simp
      unfold decacheFile St.depth
      rw [deleteEntry, hch]
      simp only [Verif.DiskCache.forRows]
      unfold deleteOwn
      rw [if_pos hx1]
      unfold deleteFile
      rw [if_pos hc, hd r.path]
      simp
    have hfd : forced e r s1 = (Verif.DiskCache.register e r.time r.path r.owner none ((s1.dropFile r.path).dropRow r.path)).2 := by
      unfold forced
      rw [if_pos hx, hdec]
    rw [hfd]
    have hi : Rec e (fun p => W p ∨ p = r.path) now ((s1.dropFile r.path).dropRow r.path) :=
      { h1.dropBoth r.path with
        past := fun u hu => h8 u (List.mem_of_mem_filter hu) (by simpa using (List.mem_filter.1 hu).2) }
    obtain ⟨g1, g2, _⟩ := hi.register r ht hc
    exact ⟨g1.weaken (Nat.le_refl _) (fun p hp _ => hp.elim id .inr), g2⟩
  · have hfd : forced e r s1 = s1 := by unfold forced; rw [if_neg hx]
    rw [hfd]
    exact ⟨h1, h4⟩

/-- A file is made, and not recorded. -/
theorem Rec.add {e : Env} {W : Path → Prop} {now : Nat} {s : St} {p : Path} (h : Rec e (fun q => W q ∨ q = p) now s) (f : File) (hf : s.file p = none) (hr : ∃ u ∈ s.rows, u.path = p) :
    Rec e W now ⟨s.rows, s.files ++ [(p, f)]⟩ where
  inside := h.inside
  unique := h.unique
  roots := h.roots
  past := h.past
  dates := h.dates
  files := by
    simp only [List.map_append, List.map_cons, List.map_nil]
    rw [List.nodup_append]
    refine ⟨h.files, by simp, ?_⟩
    intro a ha b hb
    obtain ⟨x, hx, rfl⟩ := List.mem_map.1 ha
    simp only [List.mem_singleton] at hb
    rw [hb]
    exact (file_none_iff _ _).1 hf x hx
  rows := fun x hx => by
    rcases List.mem_append.1 hx with hx | hx
    · exact h.rows x hx
    · simp only [List.mem_singleton] at hx
      subst hx
      obtain ⟨u, hu, hp⟩ := hr
      refine ⟨u, hu, hp, .inl ?_⟩
      cases hs : u.size with
      | none => rfl
      | some n =>
        exfalso
        have := h.here u hu n hs
        rw [hp] at this
        exact (file_held s p).1 hf _ this rfl
  here := fun u hu n hn => by
    have := h.here u hu n hn
    unfold held at this ⊢
    simp only [List.map_append]
    exact List.mem_append_left _ this
  vain := fun u hu hs hx => by
    refine (h.vain u hu hs (fun g hg => hx g (List.mem_append_left _ hg))).resolve_right (fun hp => ?_)
    exact hx (p, f) (List.mem_append_right _ (List.mem_singleton.2 rfl)) hp.symm

/-- A file that is there is recorded. -/
theorem Rec.update {e : Env} {W : Path → Prop} {now : Nat} {s : St} (h : Rec e W now s) (p : Path) (hc : inCache e p = true) : Rec e W now (updateEntry e p none s).2 := by
  unfold updateEntry
  rw [if_pos hc]
  cases hf : s.file p with
  | none => exact h
  | some f =>
    have sp : ∀ u, (setSize p f.size none u).path = u.path := by intro u; unfold setSize; split <;> rfl
    have sc : ∀ u, (setSize p f.size none u).created = u.created := by intro u; unfold setSize; split <;> rfl
    have sr : ∀ u, (setSize p f.size none u).parent = u.parent := by intro u; unfold setSize; split <;> rfl
    have hm := file_mem hf
    refine ⟨?_, ?_, ?_, ?_, ?_, h.files, ?_, ?_, ?_⟩
    · intro u hu
      obtain ⟨u', hu', rfl⟩ := List.mem_map.1 hu
      rw [sp]; exact h.inside u' hu'
    · unfold Unique
      simp only [List.map_map]
      have : ((fun x : Row => x.path) ∘ setSize p f.size none) = (fun x : Row => x.path) := by funext u; exact sp u
      rw [this]; exact h.unique
    · intro u hu
      obtain ⟨u', hu', rfl⟩ := List.mem_map.1 hu
      rw [sr]; exact h.roots u' hu'
    · intro u hu
      obtain ⟨u', hu', rfl⟩ := List.mem_map.1 hu
      rw [sc]; exact h.past u' hu'
    · simp only [List.map_map]
      have : ((fun x : Row => x.created) ∘ setSize p f.size none) = (fun x : Row => x.created) := by funext u; exact sc u
      rw [this]; exact h.dates
    · intro x hx
      obtain ⟨u, hu, h1, h2⟩ := h.rows x hx
      refine ⟨_, List.mem_map.2 ⟨u, hu, rfl⟩, by rw [sp]; exact h1, ?_⟩
      unfold setSize
      split
      · rename_i hp
        right
        have := h.one hx hm (by rw [← h1, hp])
        rw [this]
      · exact h2
    · intro u hu n hn
      obtain ⟨u', hu', rfl⟩ := List.mem_map.1 hu
      rw [sp]
      unfold setSize at hn
      split at hn
      · rename_i hp
        cases hn
        rw [hp]
        exact List.mem_map.2 ⟨_, hm, rfl⟩
      · exact h.here u' hu' n hn
    · intro u hu hs hx
      obtain ⟨u', hu', rfl⟩ := List.mem_map.1 hu
      rw [sp] at hx ⊢
      unfold setSize at hs
      split at hs
      · cases hs
      · exact h.vain u' hu' hs hx

theorem Rec.made {e : Env} (hd : Deletable e) {W W' : Path → Prop} {now : Nat} {s : St} (h : Rec e W now s) (r : Request) (ht : now ≤ r.time) (hc : inCache e r.path = true)
    (hold : ∀ p, W p → p ≠ r.path → W' p) (hw : r.ok = false → W' r.path) (m : Limits) : Rec e W' (r.time + 1) (cacheFile e m r s) := by
  obtain ⟨h1, h2⟩ := h.ready hd r ht hc
  replace h1 := h1.weaken (W' := fun p => W' p ∨ p = r.path) (Nat.le_refl _) (fun p hp _ => (em (p = r.path)).symm.imp (fun hn => hold p (hp.resolve_right hn) hn) id)
  unfold cacheFile
  generalize forced e r (Verif.DiskCache.register e r.time r.path r.owner none s).2 = s1 at h1 h2
  simp only
  by_cases hx : s1.exists_ r.path = true
  · rw [if_pos hx]
    refine h1.weaken (Nat.le_refl _) (fun p hp hf => hp.resolve_right ?_)
    rintro rfl
    unfold St.exists_ at hx
    rw [(file_none_iff _ _).2 hf] at hx
    cases hx
  · rw [if_neg hx]
    have hnone : s1.file r.path = none := by
      unfold St.exists_ at hx
      simpa using hx
    unfold make
    by_cases ho : r.ok = true
    · rw [if_pos ho]
      exact ((h1.add ⟨r.size, r.time⟩ hnone h2).update r.path hc).start hd r.time m r.disk
    · rw [if_neg ho]
      exact h1.weaken (Nat.le_refl _) (fun p hp _ => hp.elim id (fun he => by rw [he]; exact hw (by simpa using ho)))

theorem Rec.killed {e : Env} (hd : Deletable e) {W W' : Path → Prop} {now : Nat} {s : St} (h : Rec e W now s) (r : Request) (ht : now ≤ r.time) (hc : inCache e r.path = true)
    (hold : ∀ p, W p → p ≠ r.path → W' p) : Rec e W' (r.time + 1) (Limit.killed e r s) := by
  obtain ⟨h1, h2⟩ := h.ready hd r ht hc
  replace h1 := h1.weaken (W' := fun p => W' p ∨ p = r.path) (Nat.le_refl _) (fun p hp _ => (em (p = r.path)).symm.imp (fun hn => hold p (hp.resolve_right hn) hn) id)
  unfold Limit.killed
  generalize forced e r (Verif.DiskCache.register e r.time r.path r.owner none s).2 = s1 at h1 h2
  simp only
  by_cases hx : s1.exists_ r.path = true
  · rw [if_pos hx]
    refine h1.weaken (Nat.le_refl _) (fun p hp hf => hp.resolve_right ?_)
    rintro rfl
    unfold St.exists_ at hx
    rw [(file_none_iff _ _).2 hf] at hx
    cases hx
  · rw [if_neg hx]
    have hnone : s1.file r.path = none := by
      unfold St.exists_ at hx
      simpa using hx
    exact h1.add ⟨r.size, r.time⟩ hnone h2

/-! ## Histories -/

theorem vainIn_later {as : List Act} {p : Path} (h : VainIn as p) (a : Act) (ha : ¬Gets p a) : VainIn (as ++ [a]) p := by
  obtain ⟨pre, r, post, rfl, hp, ho, hl⟩ := h
  refine ⟨pre, r, post ++ [a], by simp, hp, ho, ?_⟩
  intro b hb
  rcases List.mem_append.1 hb with hb | hb
  · exact hl b hb
  · simp only [List.mem_singleton] at hb
    rw [hb]; exact ha

theorem rec_run {e : Env} (hd : Deletable e) (b : Nat) (as : List Act) : ∀ (pre : List Act) (now : Nat) (x : Limits × St), Rec e (VainIn pre) now x.2 →
    (∀ t ∈ actTimes as, now ≤ t) → (actTimes as).Pairwise (· < ·) → Proper e as → now ≤ b → (∀ t ∈ actTimes as, t < b) →
    ∃ now' ≤ b, Rec e (VainIn (pre ++ as)) now' (as.foldl (actStep e) x).2 := by
  induction as with
  | nil => intro pre now x h _ _ _ hb _; exact ⟨now, hb, by simpa using h⟩
  | cons a as ih =>
    intro pre now x h hnow hpw hin hb htb
    have hin' : Proper e as := fun r hr => hin r (hr.imp (List.mem_cons_of_mem _) (List.mem_cons_of_mem _))
    have go : ∀ now1, Rec e (VainIn (pre ++ [a])) now1 (actStep e x a).2 → (∀ t ∈ actTimes as, now1 ≤ t) → (actTimes as).Pairwise (· < ·) → now1 ≤ b →
        (∀ t ∈ actTimes as, t < b) → ∃ now' ≤ b, Rec e (VainIn (pre ++ a :: as)) now' ((a :: as).foldl (actStep e) x).2 := by
      intro now1 h1 h2 h3 h4 h5
      obtain ⟨now', hb', h'⟩ := ih (pre ++ [a]) now1 _ h1 h2 h3 hin' h4 h5
      exact ⟨now', hb', by simpa using h'⟩
    cases a with
    | kill r =>
      have hpw' := List.pairwise_cons.1 hpw
      exact go (r.time + 1) (h.killed hd r (hnow r.time (by simp [actTimes])) (hin r (.inr (by simp)))
        (fun p hp hn => vainIn_later hp _ (fun hg => hn hg.symm))) (fun t ht => hpw'.1 t ht) hpw'.2 (htb r.time (by simp [actTimes]))
        (fun t ht => htb t (by simp [actTimes, ht]))
    | ev v =>
      cases v with
      | limit t m d =>
        exact go now ((h.start hd t m d).weaken (Nat.le_refl _) (fun p hp _ => vainIn_later hp _ (fun hg => hg))) hnow hpw hb htb
      | drop f =>
        exact go now ((h.drop hd f).weaken (Nat.le_refl _) (fun p hp _ => vainIn_later hp _ (fun hg => hg))) hnow hpw hb htb
      | purge t t' =>
        have h1 := List.pairwise_cons.1 hpw
        have h2 := List.pairwise_cons.1 h1.2
        exact go (t' + 1) (h.purge hd t t' (hnow t (by simp [actTimes, times])) (h1.1 t' (by simp))).1 (fun u hu => h2.1 u hu) h2.2
          (htb t' (by simp [actTimes, times])) (fun u hu => htb u (by simp [actTimes, hu]))
      | want r =>
        have hpw' := List.pairwise_cons.1 hpw
        exact go (r.time + 1) (h.made hd r (hnow r.time (by simp [actTimes, times])) (hin r (.inl (by simp)))
          (fun p hp hn => vainIn_later hp (.ev (.want r)) (fun hg => hn (And.left hg).symm)) (fun ho => ⟨pre, r, [], rfl, rfl, ho, by simp⟩) x.1)
          (fun t ht => hpw'.1 t ht) hpw'.2 (htb r.time (by simp [actTimes, times])) (fun t ht => htb t (by simp [actTimes, ht]))

theorem rec_history {e : Env} (hd : Deletable e) (m : Limits) (as : List Act) (ht : (actTimes as).Pairwise (· < ·)) (hin : Proper e as) (b : Nat)
    (hb : ∀ t ∈ actTimes as, t < b) : Rec e (VainIn as) b (history e m as).2 := by
  obtain ⟨now, h1, h2⟩ := rec_run hd b as [] 0 (m, ⟨[], []⟩) (((good_start e m).inv).toRec (fun u hu => absurd hu List.not_mem_nil))
    (fun _ _ => Nat.zero_le _) ht hin (Nat.zero_le _) hb
  exact h2.weaken h1 (fun p hp _ => hp)

/-- C169: whatever programs did and at whichever downloads they were killed, `cache.purge()` deletes all files. -/
theorem C169_history_purge (e : Env) (hd : Deletable e) (m : Limits) (as : List Act) (ht : (actTimes as).Pairwise (· < ·)) (hin : Proper e as)
    (t t' : Nat) (hb : ∀ u ∈ actTimes as, u < t) (h2 : t < t') : used (purge e t t' (history e m as).2).2 = 0 :=
  ((rec_history hd m as ht hin t hb).purge (W' := fun _ => True) hd t t' (Nat.le_refl _) h2).2

/-- C169: whatever programs did and at whichever downloads they were killed: every file in the directory is in the table, and what is recorded about it is right. -/
theorem C169_tracked (e : Env) (hd : Deletable e) (m : Limits) (as : List Act) (ht : (actTimes as).Pairwise (· < ·)) (hin : Proper e as) :
    (∀ f ∈ (history e m as).2.files, ∃ u ∈ (history e m as).2.rows, u.path = f.1 ∧ (u.size = none ∨ u.size = some f.2.size)) ∧
    (∀ u ∈ (history e m as).2.rows, ∀ n, u.size = some n → ∃ f ∈ (history e m as).2.files, f.1 = u.path ∧ f.2.size = n) := by
  obtain ⟨b, hb⟩ : ∃ b, ∀ t ∈ actTimes as, t < b := by
    generalize actTimes as = l
    induction l with
    | nil => exact ⟨0, fun _ h => absurd h List.not_mem_nil⟩
    | cons a l ih =>
      obtain ⟨b, hb⟩ := ih
      refine ⟨max b (a + 1), fun t ht => ?_⟩
      rcases List.mem_cons.1 ht with rfl | ht
      · omega
      · have := hb t ht; omega
  have h := rec_history hd m as ht hin b hb
  refine ⟨h.rows, fun u hu n hn => ?_⟩
  obtain ⟨f, hf, he⟩ := List.mem_map.1 (h.here u hu n hn)
  exact ⟨f, hf, congrArg Prod.fst he, congrArg Prod.snd he⟩

/-- C169, the part that holds: whatever programs did and at whichever downloads they were killed, if everything asked for was got sooner or later: once what is recorded is
above the limit, or the disk too full, at a check, all files are recorded, and the check after that brings the cache within the limit. -/
theorem C169_history_partial (e : Env) (hd : Deletable e) (m : Limits) (as : List Act) (ht : (actTimes as).Pairwise (· < ·)) (hin : Proper e as)
    (hv : ∀ p, ¬VainIn as p) (m' : Limits) (t t' : Nat) (d d' : Disk) (hb : ∀ u ∈ actTimes as, u < t) (k : Nat) (hk : m'.size = some k)
    (hx : k < (history e m as).2.size ∨ ∃ u, m'.usage = some u ∧ u < d.percent) :
    (∀ f ∈ (start e t m' d (history e m as).2).files, ∃ u ∈ (start e t m' d (history e m as).2).rows, u.path = f.1 ∧ u.size = some f.2.size) ∧
    (used (start e t' m' d' (start e t m' d (history e m as).2)) ≤ k ∨ (start e t' m' d' (start e t m' d (history e m as).2)).files.length ≤ 1) := by
  have h := rec_history hd m as ht hin t hb
  obtain ⟨k1, k2, _⟩ := h.hk t false
  obtain ⟨g1, g2⟩ := start_inv hd _ t m' d _ k1 (hx.imp (fun h => ⟨k, hk, h⟩) id)
  generalize start e t m' d (history e m as).2 = s1 at g1 g2
  refine ⟨fun f hf => ?_, ?_⟩
  · exact mem_recs.1 (g1.agree.mem_iff.1 (List.mem_map.2 ⟨f, hf, rfl⟩))
  · obtain ⟨j1, j2, j3⟩ := check_inv hd _ t' m' d' s1 g1
    have hfin : ∀ u ∈ (start e t' m' d' s1).rows, Finished u := by
      intro u hu
      by_contra hn
      exact hv _ (k2 u (g2.subset (j2 u hu)) hn).1
    rw [show start e t' m' d' s1 = (checkSize e t' m'.size m'.usage d' s1).2 from rfl] at *
    rcases j3 hfin k hk with hb | hb
    · left; rw [j1.agree.used]; exact hb
    · right
      rw [← j1.agree.recs_length]
      exact Nat.le_trans (List.length_filterMap_le _ _) hb

/-! ## Examples -/

/-- Two files, two kills, a program that begins in between, a purge of the files of one owner, a third kill. -/
def stormy : List Act := [.ev (.want (calm 1 "a" 50)), .kill (calm 2 "x" 60), .ev (.limit 3 ⟨some 100, some 95⟩ ⟨50, 1000⟩), .ev (.want (calm 4 "b" 50)),
  .kill (calm 5 "y" 60), .ev (.drop (fun r => r.owner = "mir".toList)), .kill (calm 6 "z" 60)]

theorem stormy_proper : Proper home stormy := by
  intro r hr
  simp only [stormy, List.mem_cons, Act.ev.injEq, Event.want.injEq, List.not_mem_nil, or_false, reduceCtorEq, false_or, Act.kill.injEq] at hr
  rcases hr with (rfl | rfl) | rfl | rfl | rfl <;> decide +kernel

theorem stormy_vain (p : Path) : ¬VainIn stormy p := by
  rintro ⟨pre, r, post, h, _, ho, _⟩
  have : Act.ev (.want r) ∈ stormy := by rw [h]; simp
  simp only [stormy, List.mem_cons, Act.ev.injEq, Event.want.injEq, List.not_mem_nil, or_false, reduceCtorEq, false_or] at this
  rcases this with rfl | rfl <;> cases ho

/-- `C169_history_purge`: 280 are used under a limit of 100. -/
example : used (history home ⟨some 100, some 95⟩ stormy).2 = 280 ∧ used (purge home 7 8 (history home ⟨some 100, some 95⟩ stormy).2).2 = 0 :=
  ⟨by decide +kernel, C169_history_purge home (fun _ => rfl) ⟨some 100, some 95⟩ stormy (by decide +kernel) stormy_proper 7 8 (by decide +kernel) (by decide)⟩

/-- `C169_tracked`: five files, two of them recorded. -/
example : (history home ⟨some 100, some 95⟩ stormy).2.files.length = 5 ∧ (recs (history home ⟨some 100, some 95⟩ stormy).2).length = 2 ∧
    ∀ f ∈ (history home ⟨some 100, some 95⟩ stormy).2.files, ∃ u ∈ (history home ⟨some 100, some 95⟩ stormy).2.rows, u.path = f.1 ∧
      (u.size = none ∨ u.size = some f.2.size) :=
  ⟨by decide +kernel, by decide +kernel, (C169_tracked home (fun _ => rfl) ⟨some 100, some 95⟩ stormy (by decide +kernel) stormy_proper).1⟩

/-- `C169_history_partial`: the next program has a limit of 90; after its first check 230 are used, after the second 60. -/
example : used (start home 7 ⟨some 90, some 95⟩ ⟨50, 1000⟩ (history home ⟨some 100, some 95⟩ stormy).2) = 230 ∧
    (used (start home 8 ⟨some 90, some 95⟩ ⟨50, 1000⟩ (start home 7 ⟨some 90, some 95⟩ ⟨50, 1000⟩ (history home ⟨some 100, some 95⟩ stormy).2)) ≤ 90 ∨
      (start home 8 ⟨some 90, some 95⟩ ⟨50, 1000⟩ (start home 7 ⟨some 90, some 95⟩ ⟨50, 1000⟩ (history home ⟨some 100, some 95⟩ stormy).2)).files.length ≤ 1) :=
  ⟨by decide +kernel, (C169_history_partial home (fun _ => rfl) ⟨some 100, some 95⟩ stormy (by decide +kernel) stormy_proper stormy_vain ⟨some 90, some 95⟩ 7 8 ⟨50, 1000⟩
    ⟨50, 1000⟩ (by decide +kernel) 90 rfl (.inl (by decide +kernel))).2⟩

end Verif.DiskCache.Limit

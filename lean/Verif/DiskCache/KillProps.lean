import Verif.DiskCache.LimitProps2

/-!
# C169: programs that are killed, and maximum-cache-size

A program is killed after a file was made (`os.rename`) and before its size was recorded (`_update_entry`). The next program begins with a check of the size
(`Cache._make_policy`, `CacheManager._config_changed`).
-/

namespace Verif.DiskCache.Limit
open Verif.DiskCache

/-! ## Model -/

/-- `cache_file` until after `os.rename`: the file is there, its size is not in the table — caching.py:1003-1023 -/
def killed (e : Env) (r : Request) (s : St) : St :=
  let s := forced e r (register e r.time r.path r.owner none s).2
  if s.exists_ r.path then s else { s with files := s.files ++ [(r.path, ⟨r.size, r.time⟩)] }

/-- A program begins: the size of the cache is checked — caching.py:776-785, 183-187. `d`: the disk at that time. -/
def start (e : Env) (t : Nat) (m : Limits) (d : Disk) (s : St) : St := (checkSize e t m.size m.usage d s).2

/-- Programs one after the other, each killed at its first download. -/
def sessions (e : Env) (m : Limits) (rs : List Request) : St := rs.foldl (fun s r => killed e r (start e r.time m r.disk s)) ⟨[], []⟩

/-! ## Housekeeping records the file -/

theorem refresh_keeps {s : St} {c : Bool} {r r' : Row} (h : refresh s c r = some r') :
    r'.path = r.path ∧ r'.created = r.created ∧ r'.parent = r.parent := by
  unfold refresh at h
  split at h
  · cases h; exact ⟨rfl, rfl, rfl⟩
  · split at h
    · cases h; exact ⟨rfl, rfl, rfl⟩
    · split at h
      · cases h
      · cases h; exact ⟨rfl, rfl, rfl⟩

theorem sublist_filterMap {α : Type} (g : Row → α) (f : Row → Option Row) (hf : ∀ r r', f r = some r' → g r' = g r) (l : List Row) :
    ((l.filterMap f).map g).Sublist (l.map g) := by
  induction l with
  | nil => exact List.Sublist.refl _
  | cons a l ih =>
    rw [List.filterMap_cons, List.map_cons]
    cases hx : f a with
    | none => exact ih.cons _
    | some b =>
      simp only [List.map_cons]
      rw [hf a b hx]
      exact ih.cons_cons _

/-- Every file has a row: housekeeping looks at the rows only. -/
theorem hk_rows (e : Env) (t : Nat) (c : Bool) (s : St) (h : ∀ f ∈ s.files, ∃ u ∈ s.rows, u.path = f.1) :
    housekeeping e t c s = ⟨s.rows.filterMap (refresh s c), s.files⟩ := by
  unfold housekeeping
  have hfold : ∀ ps : List Path, (∀ p ∈ ps, s.rows.any (fun r => r.path = p) = true) → ps.foldl (adopt e t) s = s := by
    intro ps
    induction ps with
    | nil => intro _; rfl
    | cons p ps ih =>
      intro hp
      rw [List.foldl_cons]
      have : adopt e t s p = s := by unfold adopt; rw [if_pos (hp p (by simp))]
      rw [this]
      exact ih (fun q hq => hp q (by simp [hq]))
  rw [hfold]
  · rfl
  · intro p hp
    obtain ⟨f, hf, rfl⟩ := List.mem_map.1 (List.mem_filter.1 hp).1
    obtain ⟨u, hu, he⟩ := h f hf
    rw [List.any_eq_true]
    exact ⟨u, hu, by simp [he]⟩

/-- Another path is looked up as before. -/
theorem file_other (s : St) (p q : Path) (f : File) (hq : q ≠ p) (h : s.file q = none) : (⟨s.rows, s.files ++ [(p, f)]⟩ : St).file q = none := by
  rw [file_none_iff] at h ⊢
  intro x hx
  rcases List.mem_append.1 hx with hx | hx
  · exact h x hx
  · simp only [List.mem_singleton] at hx
    subst hx
    exact fun he => hq he.symm

theorem hk_inv {e : Env} {now : Nat} {s : St} (h : Inv e now s) (p : Path) (f : File) (hf : s.file p = none) (hc : inCache e p = true)
    (hr : ∃ u ∈ s.rows, u.path = p) (t : Nat) (c : Bool) :
    Inv e now (housekeeping e t c ⟨s.rows, s.files ++ [(p, f)]⟩) ∧
    ∀ u ∈ (housekeeping e t c ⟨s.rows, s.files ++ [(p, f)]⟩).rows, ¬Finished u → u.path ≠ p ∧ u ∈ s.rows := by
  obtain ⟨g1, g2, g3⟩ := made_inv h p f hf hc hr
  have hfile := file_append s p f hf
  have hrow : ∀ x ∈ (⟨s.rows, s.files ++ [(p, f)]⟩ : St).files, ∃ u ∈ (⟨s.rows, s.files ++ [(p, f)]⟩ : St).rows, u.path = x.1 := by
    intro x hx
    rcases List.mem_append.1 hx with hx | hx
    · obtain ⟨u, hu, he, _⟩ := mem_recs.1 (h.agree.mem_iff.1 (List.mem_map.2 ⟨x, hx, rfl⟩))
      exact ⟨u, hu, he⟩
    · simp only [List.mem_singleton] at hx
      subst hx
      exact hr
  rw [hk_rows e t c _ hrow]
  simp only
  have keep : ∀ u ∈ s.rows.filterMap (refresh ⟨s.rows, s.files ++ [(p, f)]⟩ c), ∃ u' ∈ s.rows, refresh ⟨s.rows, s.files ++ [(p, f)]⟩ c u' = some u :=
    fun u hu => List.mem_filterMap.1 hu
  have hrec : recs ⟨s.rows.filterMap (refresh ⟨s.rows, s.files ++ [(p, f)]⟩ c), s.files ++ [(p, f)]⟩ =
      recs ⟨s.rows.map (setSize p f.size none), s.files ++ [(p, f)]⟩ := by
    unfold recs
    simp only [List.filterMap_filterMap, List.filterMap_map]
    apply List.filterMap_congr
    intro u hu
    simp only [Function.comp]
    by_cases hp : u.path = p
    · have hn := unfinished h hf hu hp
      have hs : u.size = none := by unfold Finished at hn; simpa using hn
      unfold refresh setSize
      rw [hs, if_pos hp, hp, hfile]
      simp [hp]
    · unfold setSize
      rw [if_neg hp]
      unfold refresh
      cases hs : u.size with
      | some n => simp [hs]
      | none =>
        simp only
        rw [file_other s p u.path f hp (no_file h hu hs)]
        cases c <;> simp [hs]
  refine ⟨⟨?_, ?_, ?_, ?_, ?_, ?_⟩, ?_⟩
  · intro u hu
    obtain ⟨u', hu', hx⟩ := keep u hu
    rw [(refresh_keeps hx).1]
    exact h.inside u' hu'
  · exact h.unique.sublist (sublist_filterMap _ _ (fun r r' hx => (refresh_keeps hx).1) s.rows)
  · have := g1.agree
    unfold Agree at this ⊢
    rw [hrec]
    generalize (updateEntry e p none { s with files := s.files ++ [(p, f)] }).2 = y at this g2 g3
    obtain ⟨a, b⟩ := y
    simp only at g2 g3
    rw [g2, g3] at this
    exact this
  · intro u hu
    obtain ⟨u', hu', hx⟩ := keep u hu
    rw [(refresh_keeps hx).2.2]
    exact h.roots u' hu'
  · intro u hu
    obtain ⟨u', hu', hx⟩ := keep u hu
    rw [(refresh_keeps hx).2.1]
    exact h.past u' hu'
  · exact h.dates.sublist (sublist_filterMap _ _ (fun r r' hx => (refresh_keeps hx).2.1) s.rows)
  · intro u hu hn
    obtain ⟨u', hu', hx⟩ := keep u hu
    unfold refresh at hx
    split at hx
    · rename_i n hs
      cases hx
      exact absurd (by unfold Finished; rw [hs]; rfl) hn
    · split at hx
      · cases hx
        exact absurd rfl hn
      · rename_i hx2
        split at hx
        · cases hx
        · cases hx
          refine ⟨fun hp => ?_, hu'⟩
          rw [hp, hfile] at hx2
          cases hx2

/-! ## What a killed program leaves -/

/-- Where the download begins. -/
theorem ready_inv {e : Env} (hd : Deletable e) (now : Nat) (r : Request) (s : St) (h : Inv e now s) (ht : now ≤ r.time) (hc : inCache e r.path = true) :
    Inv e (r.time + 1) (forced e r (register e r.time r.path r.owner none s).2) ∧
    (∃ u ∈ (forced e r (register e r.time r.path r.owner none s).2).rows, u.path = r.path) ∧
    ∀ u ∈ (forced e r (register e r.time r.path r.owner none s).2).rows, ¬Finished u → u.path ≠ r.path → ∃ u' ∈ s.rows, ¬Finished u' ∧ u'.path = u.path := by
  obtain ⟨h1, h2, _, h4, h5, _, _, h8⟩ := register_inv e now r s h ht hc
  generalize hs1 : (register e r.time r.path r.owner none s).2 = s1 at h1 h2 h4 h5 h8
  have back : ∀ u ∈ s1.rows, ¬Finished u → u.path ≠ r.path → ∃ u' ∈ s.rows, ¬Finished u' ∧ u'.path = u.path := by
    intro u hu hn hp
    rcases h5 u hu with ⟨u', hu', e1, e2⟩ | ⟨hp', _⟩
    · refine ⟨u', hu', ?_, e1⟩
      unfold Finished at hn ⊢; rw [e2]; exact hn
    · exact absurd hp' hp
  by_cases hx : (s1.exists_ r.path && r.force) = true
  · have hx1 : s1.exists_ r.path = true := by
      cases hy : s1.exists_ r.path with
      | true => rfl
      | false => rw [hy] at hx; cases hx
    have hfd : forced e r s1 = (register e r.time r.path r.owner none ((s1.dropFile r.path).dropRow r.path)).2 := by
      unfold forced
      rw [if_pos hx, ← decached hd _ r.path s1 h1 hc hx1]
    have sub : ((s1.dropFile r.path).dropRow r.path).rows.Sublist s1.rows := List.filter_sublist
    have hne : ∀ u ∈ ((s1.dropFile r.path).dropRow r.path).rows, u.path ≠ r.path := by
      intro u hu
      unfold St.dropRow at hu
      simpa using (List.mem_filter.1 hu).2
    have hi : Inv e now ((s1.dropFile r.path).dropRow r.path) := {
      inside := fun u hu => h1.inside u (sub.subset hu)
      unique := h1.unique.sublist (sub.map _)
      agree := by
        unfold Agree
        rw [recs_dropRow]
        change (held (s1.dropFile r.path)).Perm ((recs s1).filter _)
        rw [held_dropFile]
        exact h1.agree.filter _
      roots := fun u hu => h1.roots u (sub.subset hu)
      past := fun u hu => h8 u (sub.subset hu) (hne u hu)
      dates := h1.dates.sublist (sub.map _) }
    rw [hfd]
    generalize (s1.dropFile r.path).dropRow r.path = s2 at hi sub hne
    obtain ⟨g1, _, _, g4, g5, _, _, _⟩ := register_inv e now r s2 hi ht hc
    refine ⟨g1, g4, ?_⟩
    intro u hu hn hp
    rcases g5 u hu with ⟨u', hu', e1, e2⟩ | ⟨hp', _⟩
    · rw [← e1] at hp ⊢
      refine back u' (sub.subset hu') ?_ hp
      unfold Finished at hn ⊢; rw [e2]; exact hn
    · exact absurd hp' hp
  · have hfd : forced e r s1 = s1 := by unfold forced; rw [if_neg hx]
    rw [hfd]
    exact ⟨h1, h4, back⟩

/-- Housekeeping after a program was killed. -/
theorem killed_hk {e : Env} (hd : Deletable e) (now : Nat) (r : Request) (s : St) (h : Inv e now s) (ht : now ≤ r.time) (hc : inCache e r.path = true) (t : Nat)
    (c : Bool) :
    Inv e (r.time + 1) (housekeeping e t c (killed e r s)) ∧
    ∀ u ∈ (housekeeping e t c (killed e r s)).rows, ¬Finished u → u.path ≠ r.path ∧ ∃ u' ∈ s.rows, ¬Finished u' ∧ u'.path = u.path := by
  obtain ⟨h1, h2, h3⟩ := ready_inv hd now r s h ht hc
  unfold killed
  generalize forced e r (register e r.time r.path r.owner none s).2 = s1 at h1 h2 h3
  simp only
  by_cases hx : s1.exists_ r.path = true
  · rw [if_pos hx]
    have hpres : ∀ u ∈ s1.rows, ¬Finished u → u.path ≠ r.path := by
      intro u hu hn hp
      unfold St.exists_ at hx
      rw [← hp, no_file h1 hu (by unfold Finished at hn; simpa using hn)] at hx
      cases hx
    cases c with
    | false =>
      rw [keeps e _ t s1 h1]
      exact ⟨h1, fun u hu hn => ⟨hpres u hu hn, h3 u hu hn (hpres u hu hn)⟩⟩
    | true =>
      rw [cleans e _ t s1 h1]
      have sub : (s1.rows.filter (fun r => r.size.isSome)).Sublist s1.rows := List.filter_sublist
      refine ⟨⟨fun r hr => h1.inside r (sub.subset hr), h1.unique.sublist (sub.map _), ?_, fun r hr => h1.roots r (sub.subset hr),
        fun r hr => h1.past r (sub.subset hr), h1.dates.sublist (sub.map _)⟩, fun u hu hn => absurd (List.mem_filter.1 hu).2 hn⟩
      have hr : recs ⟨s1.rows.filter (fun r => r.size.isSome), s1.files⟩ = recs s1 := by
        unfold recs
        simp only
        induction s1.rows with
        | nil => rfl
        | cons r rs ih => cases hs : r.size <;> simp [hs, ih]
      unfold Agree
      rw [hr]
      exact h1.agree
  · rw [if_neg hx]
    have hnone : s1.file r.path = none := by
      unfold St.exists_ at hx
      simpa using hx
    obtain ⟨k1, k2⟩ := hk_inv h1 r.path ⟨r.size, r.time⟩ hnone hc h2 t c
    exact ⟨k1, fun u hu hn => ⟨(k2 u hu hn).1, h3 u (k2 u hu hn).2 hn (k2 u hu hn).1⟩⟩

/-! ## Programs that are killed -/

theorem killed_rows (e : Env) (r : Request) (s : St) (hn : ∀ u ∈ s.rows, u.size = none) (hf : s.file r.path = none) (hc : inCache e r.path = true) :
    (∀ u ∈ (killed e r s).rows, u.size = none) ∧ (killed e r s).files = s.files ++ [(r.path, ⟨r.size, r.time⟩)] := by
  have hreg : (∀ u ∈ (register e r.time r.path r.owner none s).2.rows, u.size = none) ∧ (register e r.time r.path r.owner none s).2.files = s.files := by
    unfold register
    rw [if_pos hc]
    split
    · refine ⟨fun u hu => ?_, rfl⟩
      obtain ⟨u', hu', rfl⟩ := List.mem_map.1 hu
      unfold touch
      split <;> exact hn u' hu'
    · refine ⟨fun u hu => ?_, rfl⟩
      rcases List.mem_append.1 hu with hu | hu
      · exact hn u hu
      · simp only [List.mem_singleton] at hu; subst hu; rfl
  unfold killed
  generalize (register e r.time r.path r.owner none s).2 = s1 at hreg
  have hx : s1.exists_ r.path = false := by
    unfold St.exists_ St.file
    rw [hreg.2]
    unfold St.file at hf
    rw [hf]; rfl
  have hfd : forced e r s1 = s1 := by
    unfold forced
    rw [hx, if_neg (by simp)]
  simp only
  rw [hfd, hx, if_neg (by simp), hreg.2]
  exact ⟨hreg.1, rfl⟩

theorem size_zero_of {s : St} (h : ∀ u ∈ s.rows, u.size = none) : s.size = 0 := by
  unfold St.size
  have : ∀ rows : List Row, (∀ u ∈ rows, u.size = none) → (rows.map (fun r => r.size.getD 0)).sum = 0 := by
    intro rows
    induction rows with
    | nil => intro _; rfl
    | cons a rows ih =>
      intro hh
      rw [List.map_cons, List.sum_cons, ih (fun u hu => hh u (by simp [hu])), hh a (by simp)]
      rfl
  exact this s.rows h

/-- Nothing is recorded, and the disk is not too full: the check does nothing. -/
theorem start_idle (e : Env) (t : Nat) (m : Limits) (d : Disk) (s : St) (h : ∀ u ∈ s.rows, u.size = none) (hd : ∀ u, m.usage = some u → d.percent ≤ u) :
    start e t m d s = s := by
  have hmax : checkMax e t m.size s = (.ok (), s) := by
    unfold checkMax
    cases m.size with
    | none => rfl
    | some k =>
      simp only
      rw [size_zero_of h, if_neg (by omega)]
  unfold start checkSize
  rw [hmax]
  simp only
  unfold checkUsage
  cases hu : m.usage with
  | none => rfl
  | some u =>
    simp only
    rw [if_neg (by have := hd u hu; omega)]

theorem sessions_from (e : Env) (m : Limits) (rs : List Request) : ∀ s : St, (∀ u ∈ s.rows, u.size = none) →
    (∀ f ∈ s.files, f.1 ∉ rs.map (·.path)) → (rs.map (·.path)).Nodup → (∀ r ∈ rs, inCache e r.path = true) →
    (∀ r ∈ rs, ∀ u, m.usage = some u → r.disk.percent ≤ u) →
    (∀ u ∈ (rs.foldl (fun s r => killed e r (start e r.time m r.disk s)) s).rows, u.size = none) ∧
    held (rs.foldl (fun s r => killed e r (start e r.time m r.disk s)) s) = held s ++ rs.map (fun r => (r.path, r.size)) := by
  induction rs with
  | nil => intro s h _ _ _ _; exact ⟨h, by simp⟩
  | cons r rs ih =>
    intro s h hf hnd hc hd
    rw [List.map_cons, List.nodup_cons] at hnd
    have hnone : s.file r.path = none := by
      rw [file_none_iff]
      intro f hfm he
      exact hf f hfm (by simp [he])
    rw [List.foldl_cons, start_idle e r.time m r.disk s h (hd r (by simp))]
    obtain ⟨k1, k2⟩ := killed_rows e r s h hnone (hc r (by simp))
    have k3 : held (killed e r s) = held s ++ [(r.path, r.size)] := by
      unfold held; rw [k2]; simp
    generalize killed e r s = s1 at k1 k2 k3
    obtain ⟨g1, g2⟩ := ih s1 k1 (by
      intro f hfm
      rw [k2] at hfm
      rcases List.mem_append.1 hfm with hfm | hfm
      · intro hm
        exact hf f hfm (by simp only [List.map_cons, List.mem_cons]; exact .inr hm)
      · simp only [List.mem_singleton] at hfm
        subst hfm
        exact hnd.1) hnd.2 (fun x hx => hc x (by simp [hx])) (fun x hx => hd x (by simp [hx]))
    exact ⟨g1, by rw [g2, k3]; simp⟩

/-- C169 is false: programs that are killed after they made a file, however many and with files of any size, leave all their files, whatever the limit is; for the
program that begins then the size of the cache is 0. -/
theorem C169_refuted (e : Env) (m : Limits) (rs : List Request) (hp : (rs.map (·.path)).Nodup) (hc : ∀ r ∈ rs, inCache e r.path = true)
    (hd : ∀ r ∈ rs, ∀ u, m.usage = some u → r.disk.percent ≤ u) (t : Nat) (d : Disk) (hu : ∀ u, m.usage = some u → d.percent ≤ u) :
    (start e t m d (sessions e m rs)).files.map (fun f => (f.1, f.2.size)) = rs.map (fun r => (r.path, r.size)) ∧
    used (start e t m d (sessions e m rs)) = (rs.map (·.size)).sum ∧ (start e t m d (sessions e m rs)).size = 0 := by
  obtain ⟨h1, h2⟩ := sessions_from e m rs ⟨[], []⟩ (fun _ h => absurd h List.not_mem_nil) (fun _ h => absurd h List.not_mem_nil) hp hc hd
  rw [show rs.foldl (fun s r => killed e r (start e r.time m r.disk s)) ⟨[], []⟩ = sessions e m rs from rfl] at h1 h2
  rw [start_idle e t m d _ h1 hu]
  have h3 : held (sessions e m rs) = rs.map (fun r => (r.path, r.size)) := by rw [h2]; rfl
  refine ⟨h3, ?_, size_zero_of h1⟩
  rw [used_held, h3, List.map_map]
  rfl

/-! ## One program that is killed -/

theorem good_before {e : Env} (hd : Deletable e) (b : Nat) (evs : List Event) : ∀ (pre : List Event) (now : Nat) (x : Limits × St), Good e pre now x →
    (∀ t ∈ times evs, now ≤ t) → (times evs).Pairwise (· < ·) → (∀ r, Event.want r ∈ evs → inCache e r.path = true) → now ≤ b → (∀ t ∈ times evs, t < b) →
    ∃ now' ≤ b, Good e (pre ++ evs) now' (evs.foldl (step e) x) := by
  induction evs with
  | nil => intro pre now x h _ _ _ hb _; exact ⟨now, hb, by simpa using h⟩
  | cons ev evs ih =>
    intro pre now x h hnow hpw hin hb htb
    have hin' : ∀ r, Event.want r ∈ evs → inCache e r.path = true := fun r hr => hin r (by simp [hr])
    cases ev with
    | limit t m d =>
      obtain ⟨now', hb', h'⟩ := ih (pre ++ [.limit t m d]) now _ (good_limit hd h t m d) hnow hpw hin' hb htb
      exact ⟨now', hb', by simpa using h'⟩
    | drop f =>
      obtain ⟨now', hb', h'⟩ := ih (pre ++ [.drop f]) now _ (good_drop hd h f) hnow hpw hin' hb htb
      exact ⟨now', hb', by simpa using h'⟩
    | purge t t' =>
      have h1 := List.pairwise_cons.1 hpw
      have h2 := List.pairwise_cons.1 h1.2
      obtain ⟨now', hb', h'⟩ := ih (pre ++ [.purge t t']) (t' + 1) _ (good_purge hd h t t' (hnow t (by simp [times])) (h1.1 t' (by simp)))
        (fun u hu => h2.1 u hu) h2.2 hin' (htb t' (by simp [times])) (fun u hu => htb u (by simp [times, hu]))
      exact ⟨now', hb', by simpa using h'⟩
    | want r =>
      have hpw' := List.pairwise_cons.1 hpw
      obtain ⟨now', hb', h'⟩ := ih (pre ++ [.want r]) (r.time + 1) _ (good_want hd h r (hnow r.time (by simp [times])) (hin r (by simp)))
        (fun t ht => hpw'.1 t ht) hpw'.2 hin' (htb r.time (by simp [times])) (fun u hu => htb u (by simp [times, hu]))
      exact ⟨now', hb', by simpa using h'⟩

theorem killed_same (e : Env) (r : Request) (s : St) : (killed e r s).rows = (forced e r (register e r.time r.path r.owner none s).2).rows := by
  unfold killed
  simp only
  split <;> rfl

/-- C169, `purge`: after a program that was killed at its last download, `cache.purge()` deletes the file that was not recorded, too. -/
theorem C169_purge (e : Env) (hd : Deletable e) (m : Limits) (evs : List Event) (ht : (times evs).Pairwise (· < ·))
    (hin : ∀ r, Event.want r ∈ evs → inCache e r.path = true) (r : Request) (hr : ∀ t ∈ times evs, t < r.time) (hc : inCache e r.path = true)
    (t t' : Nat) (h1 : r.time < t) (h2 : t < t') : used (purge e t t' (killed e r (run e m evs).2)).2 = 0 := by
  obtain ⟨now, hb, h⟩ := good_before hd r.time evs [] 0 _ (good_start e m) (fun _ _ => Nat.zero_le _) ht hin (Nat.zero_le _) hr
  have hi : Inv e now (run e m evs).2 := h.inv
  generalize (run e m evs).2 = s at hi
  obtain ⟨k1, _⟩ := killed_hk hd now r s hi hb hc t true
  obtain ⟨g1, _, _⟩ := ready_inv hd now r s hi hb hc
  obtain ⟨s', hs', hz⟩ := C63_size e hd t t' h2 (killed e r s) (fun u hu => g1.inside u (by rw [← killed_same]; exact hu))
    (fun u hu => by have := g1.past u (by rw [← killed_same]; exact hu); omega)
  have hag : Agree (purge e t t' (killed e r s)).2 := by
    unfold purge
    exact agree_decache hd t' _ true _ k1.agree
  rw [hag.used, hs', hz]

/-- The first check that looks at the directory. -/
theorem start_inv {e : Env} (hd : Deletable e) (now t : Nat) (m : Limits) (d : Disk) (x : St) (h : Inv e now (housekeeping e t false x))
    (hx : (∃ k, m.size = some k ∧ k < x.size) ∨ ∃ u, m.usage = some u ∧ u < d.percent) :
    Inv e now (start e t m d x) ∧ (start e t m d x).rows.Sublist (housekeeping e t false x).rows := by
  unfold start
  by_cases hk : ∃ k, m.size = some k ∧ k < x.size
  · obtain ⟨k, hk, hlt⟩ := hk
    have hmax : checkMax e t m.size x = decache e t (100 * (x.size - k)) false (housekeeping e t false x) := by
      unfold checkMax
      rw [hk]
      simp only
      rw [if_pos hlt]
    obtain ⟨k1, k2, _⟩ := decache_inv hd now t (100 * (x.size - k)) _ h
    rw [← hmax] at k1 k2
    unfold checkSize
    cases hy : checkMax e t m.size x with
    | mk y s1 =>
      rw [hy] at k1 k2
      cases y with
      | error _ => exact ⟨k1, k2⟩
      | ok _ =>
        simp only at k1 k2 ⊢
        obtain ⟨goal, hg⟩ := usage_state e now t m.usage d s1 k1
        obtain ⟨j1, j2, _⟩ := decache_inv hd now t goal s1 k1
        rw [← hg] at j1 j2
        exact ⟨j1, j2.trans k2⟩
  · have hmax : checkMax e t m.size x = (.ok (), x) := by
      unfold checkMax
      cases hm : m.size with
      | none => rfl
      | some k =>
        simp only
        rw [if_neg]
        intro hlt
        exact hk ⟨k, hm, hlt⟩
    obtain ⟨u, hu, hlt⟩ := hx.resolve_left hk
    obtain ⟨k1, k2, _⟩ := decache_inv hd now t ((d.percent - u) * d.total) _ h
    have hus : checkUsage e t m.usage d x = decache e t ((d.percent - u) * d.total) false (housekeeping e t false x) := by
      unfold checkUsage
      rw [hu]
      simp only
      rw [if_pos hlt]
    unfold checkSize
    rw [hmax]
    simp only
    rw [hus]
    exact ⟨k1, k2⟩

/-- C169 for one program that is killed: if what is recorded is above the limit, or the disk too full, the file that was not recorded is found at the start of the next
program, and the second check brings the cache within the limit. -/
theorem C169_found_partial (e : Env) (hd : Deletable e) (m : Limits) (evs : List Event) (ht : (times evs).Pairwise (· < ·))
    (hin : ∀ r, Event.want r ∈ evs → inCache e r.path = true) (r : Request) (hr : ∀ t ∈ times evs, t < r.time) (hc : inCache e r.path = true)
    (hv : ∀ p, Vain evs p → p = r.path) (m' : Limits) (t t' : Nat) (d d' : Disk) (k : Nat) (hk : m'.size = some k)
    (hx : k < (killed e r (run e m evs).2).size ∨ ∃ u, m'.usage = some u ∧ u < d.percent) :
    (∀ f ∈ (start e t m' d (killed e r (run e m evs).2)).files,
      ∃ u ∈ (start e t m' d (killed e r (run e m evs).2)).rows, u.path = f.1 ∧ u.size = some f.2.size) ∧
    (used (start e t' m' d' (start e t m' d (killed e r (run e m evs).2))) ≤ k ∨
      (start e t' m' d' (start e t m' d (killed e r (run e m evs).2))).files.length ≤ 1) := by
  obtain ⟨now, hb, h⟩ := good_before hd r.time evs [] 0 _ (good_start e m) (fun _ _ => Nat.zero_le _) ht hin (Nat.zero_le _) hr
  have hi : Inv e now (run e m evs).2 := h.inv
  have hvain : ∀ u ∈ (run e m evs).2.rows, ¬Finished u → Vain evs u.path := h.vain
  generalize (run e m evs).2 = s at hi hvain hx
  obtain ⟨k1, k2⟩ := killed_hk hd now r s hi hb hc t false
  obtain ⟨g1, g2⟩ := start_inv hd _ t m' d (killed e r s) k1 (hx.imp (fun h => ⟨k, hk, h⟩) id)
  generalize start e t m' d (killed e r s) = s1 at g1 g2
  refine ⟨fun f hf => ?_, ?_⟩
  · exact mem_recs.1 (g1.agree.mem_iff.1 (List.mem_map.2 ⟨f, hf, rfl⟩))
  · obtain ⟨j1, j2, j3⟩ := check_inv hd _ t' m' d' s1 g1
    have hfin : ∀ u ∈ (start e t' m' d' s1).rows, Finished u := by
      intro u hu
      by_contra hn
      obtain ⟨hne, u', hu', hn', hp⟩ := k2 u (g2.subset (j2 u hu)) hn
      exact hne (hp ▸ hv _ (hvain u' hu' hn'))
    rw [show start e t' m' d' s1 = (checkSize e t' m'.size m'.usage d' s1).2 from rfl] at *
    rcases j3 hfin k hk with hb | hb
    · left; rw [j1.agree.used]; exact hb
    · right
      rw [← j1.agree.recs_length]
      exact Nat.le_trans (List.length_filterMap_le _ _) hb

/-! ## Examples -/

/-- A request while the disk is not too full. -/
def calm (t : Nat) (n : String) (size : Nat) : Request := { ask t n true size with disk := ⟨50, 1000⟩ }

/-- `C169_refuted`: three programs are killed with a file of 60 each, under a limit of 100. -/
def struck : List Request := [calm 1 "a" 60, calm 2 "b" 60, calm 3 "c" 60]

example : used (start home 4 ⟨some 100, some 95⟩ ⟨50, 1000⟩ (sessions home ⟨some 100, some 95⟩ struck)) = 180 :=
  (C169_refuted home ⟨some 100, some 95⟩ struck (by decide +kernel) (by decide +kernel) (by
    intro r hr u hu
    simp only [struck, List.mem_cons, List.not_mem_nil, or_false] at hr
    cases hu
    rcases hr with rfl | rfl | rfl <;> decide +kernel) 4 ⟨50, 1000⟩ (by intro u hu; cases hu; decide)).2.1

/-- A program with two files; the third download is killed. -/
def twoFiles : List Event := [.want (calm 1 "a" 50), .want (calm 2 "b" 50)]

theorem twoFiles_in : ∀ r, Event.want r ∈ twoFiles → inCache home r.path = true := by
  intro r hr
  simp only [twoFiles, List.mem_cons, Event.want.injEq, List.not_mem_nil, or_false] at hr
  rcases hr with rfl | rfl <;> decide +kernel

theorem twoFiles_vain (p : Path) : ¬Vain twoFiles p := by
  rintro ⟨pre, r, post, h, _, ho, _⟩
  have : Event.want r ∈ twoFiles := by rw [h]; simp
  simp only [twoFiles, List.mem_cons, Event.want.injEq, List.not_mem_nil, or_false] at this
  rcases this with rfl | rfl <;> cases ho

/-- `C169_purge` -/
example : used (killed home (calm 3 "c" 70) (run home ⟨some 100, some 95⟩ twoFiles).2) = 170 ∧
    used (purge home 4 5 (killed home (calm 3 "c" 70) (run home ⟨some 100, some 95⟩ twoFiles).2)).2 = 0 :=
  ⟨by decide +kernel, C169_purge home (fun _ => rfl) ⟨some 100, some 95⟩ twoFiles (by decide +kernel) twoFiles_in (calm 3 "c" 70) (by decide +kernel) (by decide +kernel)
    4 5 (by decide +kernel) (by decide)⟩

/-- `C169_found_partial`: the next program has a limit of 90; after its first check there are 120, after the second 70. -/
example : used (start home 4 ⟨some 90, some 95⟩ ⟨50, 1000⟩ (killed home (calm 3 "c" 70) (run home ⟨some 100, some 95⟩ twoFiles).2)) = 120 ∧
    (used (start home 5 ⟨some 90, some 95⟩ ⟨50, 1000⟩ (start home 4 ⟨some 90, some 95⟩ ⟨50, 1000⟩ (killed home (calm 3 "c" 70) (run home ⟨some 100, some 95⟩ twoFiles).2)))
        ≤ 90 ∨ (start home 5 ⟨some 90, some 95⟩ ⟨50, 1000⟩ (start home 4 ⟨some 90, some 95⟩ ⟨50, 1000⟩
          (killed home (calm 3 "c" 70) (run home ⟨some 100, some 95⟩ twoFiles).2))).files.length ≤ 1) :=
  ⟨by decide +kernel, (C169_found_partial home (fun _ => rfl) ⟨some 100, some 95⟩ twoFiles (by decide +kernel) twoFiles_in (calm 3 "c" 70) (by decide +kernel)
    (by decide +kernel) (fun p hp => absurd hp (twoFiles_vain p)) ⟨some 90, some 95⟩ 4 5 ⟨50, 1000⟩ ⟨50, 1000⟩ 90 rfl (.inl (by decide +kernel))).2⟩

end Verif.DiskCache.Limit

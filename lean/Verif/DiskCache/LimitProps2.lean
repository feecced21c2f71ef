import Verif.DiskCache.LimitProps

/-!
# C164: what is above the limit

After every program, whatever failed: what the cache uses beyond the limit are files recorded after a request in vain.
-/

namespace Verif.DiskCache.Limit
open Verif.DiskCache

/-! ## Specification -/

/-- The path was asked for in vain at time `t`, and has not been got since; nor was the cache purged (of all). -/
def VainAt (evs : List Event) (p : Path) (t : Nat) : Prop :=
  ∃ pre r post, evs = pre ++ Event.want r :: post ∧ r.path = p ∧ r.time = t ∧ r.ok = false ∧
    (∀ r', Event.want r' ∈ post → r'.path = p → r'.ok = false) ∧ ∀ t t', Event.purge t t' ∉ post

/-! ## Proof -/

theorem vainAt_later {evs : List Event} {p : Path} {t : Nat} (h : VainAt evs p t) (ev : Event) (hev : ∀ r, ev = .want r → r.path = p → r.ok = false)
    (hno : ∀ t t', ev ≠ .purge t t') : VainAt (evs ++ [ev]) p t := by
  obtain ⟨pre, r, post, rfl, hp, ht, ho, hl, hn⟩ := h
  refine ⟨pre, r, post ++ [ev], by simp, hp, ht, ho, ?_, ?_⟩
  · intro r' hr' hp'
    rcases List.mem_append.1 hr' with hr' | hr'
    · exact hl r' hr' hp'
    · simp only [List.mem_singleton] at hr'
      exact hev r' hr'.symm hp'
  · intro t t' hm
    rcases List.mem_append.1 hm with hm | hm
    · exact hn t t' hm
    · simp only [List.mem_singleton] at hm
      exact hno t t' hm.symm

/-- Within the limit, or one file, or all files recorded after a request in vain. -/
def Bound (evs : List Event) (k : Nat) (s : St) : Prop :=
  s.size ≤ k ∨ (recs s).length ≤ 1 ∨ ∀ r ∈ s.rows, Finished r → ∃ p t, VainAt evs p t ∧ t ≤ r.created ∧ s.file p = none

theorem files_none {s s' : St} (h : s'.files.Sublist s.files) {p : Path} (hp : s.file p = none) : s'.file p = none := by
  rw [file_none_iff] at hp ⊢
  exact fun f hf => hp f (h.subset hf)

theorem Agree.recs_length {s : St} (h : Agree s) : (recs s).length = s.files.length := by
  rw [← h.length_eq]; unfold held; simp

theorem bound_transfer {evs evs' : List Event} {k : Nat} {s s' : St} (h : Bound evs k s) (ha : Agree s) (ha' : Agree s') (hf : s'.files.Sublist s.files)
    (hrow : ∀ r' ∈ s'.rows, Finished r' → ∃ r ∈ s.rows, Finished r ∧ r.created = r'.created)
    (hv : ∀ p t, VainAt evs p t → s.file p = none → VainAt evs' p t) : Bound evs' k s' := by
  rcases h with h | h | h
  · left
    rw [← ha'.used]
    rw [← ha.used] at h
    exact Nat.le_trans (sublist_sum (hf.map _)) h
  · right; left
    rw [ha'.recs_length]
    rw [ha.recs_length] at h
    exact Nat.le_trans hf.length_le h
  · right; right
    intro r' hr' hfin
    obtain ⟨r, hr, h1, h2⟩ := hrow r' hr' hfin
    obtain ⟨p, t, k1, k2, k3⟩ := h r hr h1
    exact ⟨p, t, hv p t k1 k3, by omega, files_none hf k3⟩

theorem bound_decache {e : Env} (hd : Deletable e) {evs : List Event} {now k : Nat} (t goal : Nat) {s : St} (hi : Inv e now s) (h : Bound evs k s) :
    Bound evs k (decache e t goal false s).2 := by
  have l := loss_decache e t goal s
  exact bound_transfer h hi.agree (agree_decache hd t goal false s hi.agree) l.files (fun r hr hf => ⟨r, l.rows.subset hr, hf, rfl⟩) (fun _ _ h _ => h)

theorem bound_max {e : Env} (hd : Deletable e) {evs : List Event} (now t k : Nat) (s : St) (h : Inv e now s)
    (hv : ∀ u ∈ s.rows, ¬Finished u → VainAt evs u.path u.created) : Bound evs k (checkMax e t (some k) s).2 := by
  obtain ⟨k1, k2, k3, k4⟩ := max_inv hd now t (some k) s h
  by_cases hall : ∀ u ∈ s.rows, Finished u
  · rcases k4 (fun r hr => hall r (k2.subset hr)) k rfl with hb | hb
    · exact .inl hb
    · refine .inr (.inl (Nat.le_trans ?_ hb))
      unfold recs
      exact List.length_filterMap_le _ _
  · obtain ⟨s', hs', hb⟩ := C61_reaches_partial e hd t k s h.inside (keeps e now t s h) ⟨0, 0⟩
    have hs1 : (checkMax e t (some k) s).2 = s' := by
      unfold checkSize at hs'
      cases hx : checkMax e t (some k) s with
      | mk y s1 =>
        rw [hx] at hs'
        cases y with
        | error x => cases hs'
        | ok _ => cases hs'; rfl
    obtain ⟨goal, hg⟩ := max_state e now t (some k) s h
    have l := loss_decache e t goal s
    rw [← hg] at l
    rw [hs1] at l ⊢
    rcases hb with hb | hb
    · exact .inl hb
    · refine .inr (.inr ?_)
      intro r hr hf
      have hp : Protected s.rows r := by
        by_contra hp
        exact hb r hr ⟨hf, hp⟩
      rcases hp with ⟨u, hu, hn, hle⟩ | ⟨hp, _⟩
      · exact ⟨u.path, u.created, hv u hu hn, hle, files_none l.files (no_file h hu (by unfold Finished at hn; simpa using hn))⟩
      · exact absurd hp hall

theorem bound_check {e : Env} (hd : Deletable e) {evs : List Event} (now t : Nat) (m : Limits) (d : Disk) (s : St) (h : Inv e now s)
    (hv : ∀ u ∈ s.rows, ¬Finished u → VainAt evs u.path u.created) (k : Nat) (hk : m.size = some k) : Bound evs k (checkSize e t m.size m.usage d s).2 := by
  have hb := bound_max hd now t k s h hv
  obtain ⟨h1, _⟩ := max_inv hd now t (some k) s h
  unfold checkSize
  rw [hk]
  cases hx : checkMax e t (some k) s with
  | mk y s1 =>
    rw [hx] at hb h1
    cases y with
    | error x => exact hb
    | ok _ =>
      simp only at h1 hb ⊢
      obtain ⟨goal, hg⟩ := usage_state e now t m.usage d s1 h1
      rw [hg]
      exact bound_decache hd t goal h1 hb

/-- Where the program is. -/
structure Track (e : Env) (evs : List Event) (now : Nat) (x : Limits × St) : Prop where
  inv : Inv e now x.2
  vain : ∀ u ∈ x.2.rows, ¬Finished u → VainAt evs u.path u.created
  bound : ∀ k, x.1.size = some k → Bound evs k x.2

theorem track_limit {e : Env} (hd : Deletable e) {evs : List Event} {now : Nat} {x : Limits × St} (h : Track e evs now x) (t : Nat) (m : Limits) (d : Disk) :
    Track e (evs ++ [.limit t m d]) now (step e x (.limit t m d)) := by
  have hv : ∀ u ∈ x.2.rows, ¬Finished u → VainAt (evs ++ [.limit t m d]) u.path u.created := fun u hu hn =>
    vainAt_later (h.vain u hu hn) _ (fun r hr => by cases hr) (fun _ _ h => by cases h)
  obtain ⟨h1, h2, _⟩ := check_inv hd now t m d x.2 h.inv
  exact ⟨h1, fun u hu hn => hv u (h2 u hu) hn, fun k hk => bound_check hd now t m d x.2 h.inv hv k hk⟩

theorem track_drop {e : Env} (hd : Deletable e) {evs : List Event} {now : Nat} {x : Limits × St} (h : Track e evs now x) (f : Row → Bool) :
    Track e (evs ++ [.drop f]) now (step e x (.drop f)) := by
  obtain ⟨h1, h2, h3⟩ := drop_inv hd now f x.2 h.inv
  have later : ∀ p t, VainAt evs p t → VainAt (evs ++ [.drop f]) p t := fun p t hp =>
    vainAt_later hp _ (fun r hr => by cases hr) (fun _ _ h => by cases h)
  exact ⟨h1, fun u hu hn => later _ _ (h.vain u (h2.subset hu) hn), fun k hk =>
    bound_transfer (h.bound k hk) h.inv.agree h1.agree h3 (fun r hr hf => ⟨r, h2.subset hr, hf, rfl⟩) (fun p t hp _ => later p t hp)⟩

theorem track_purge {e : Env} (hd : Deletable e) {evs : List Event} {now : Nat} {x : Limits × St} (h : Track e evs now x) (t t' : Nat) (ht : now ≤ t) (htt : t < t') :
    Track e (evs ++ [.purge t t']) (t' + 1) (step e x (.purge t t')) := by
  obtain ⟨h1, h2, h3⟩ := purge_inv hd now t t' x.2 h.inv ht htt
  refine ⟨{ h1 with past := fun r hr => ?_ }, fun u hu hn => absurd (h2 u hu) hn, fun k _ => .inl ?_⟩
  · have := h1.past r hr
    omega
  · change (purge e t t' x.2).2.size ≤ _
    rw [h3]; exact Nat.zero_le _

/-- The rows after a registration. -/
theorem register_rows (e : Env) (r : Request) (s : St) (hc : inCache e r.path = true) :
    ∀ u ∈ (register e r.time r.path r.owner none s).2.rows,
      (∃ u' ∈ s.rows, u'.path = u.path ∧ u'.size = u.size ∧ u'.created = u.created) ∨
      (u.path = r.path ∧ ¬Finished u ∧ u.created = r.time) := by
  unfold register
  rw [if_pos hc]
  split
  · intro u hu
    obtain ⟨u', hu', rfl⟩ := List.mem_map.1 hu
    refine .inl ⟨u', hu', ?_⟩
    unfold touch
    split <;> exact ⟨rfl, rfl, rfl⟩
  · intro u hu
    rcases List.mem_append.1 hu with hu | hu
    · exact .inl ⟨u, hu, rfl, rfl, rfl⟩
    · simp only [List.mem_singleton] at hu
      subst hu
      exact .inr ⟨rfl, by simp [Finished], rfl⟩

theorem track_make {e : Env} (hd : Deletable e) {evs : List Event} (m : Limits) (r : Request) (hc : inCache e r.path = true) (s1 : St) (h1 : Inv e (r.time + 1) s1)
    (h4 : ∃ u ∈ s1.rows, u.path = r.path) (hnone : s1.file r.path = none)
    (back : ∀ u ∈ s1.rows, ¬Finished u → u.path ≠ r.path ∨ r.ok = false → VainAt evs u.path u.created)
    (hb : r.ok = false → ∀ k, m.size = some k → Bound evs k s1) : Track e evs (r.time + 1) (m, make e m r s1) := by
  unfold make
  by_cases ho : r.ok = true
  · rw [if_pos ho]
    obtain ⟨g1, g2, g3⟩ := made_inv h1 r.path ⟨r.size, r.time⟩ hnone hc h4
    generalize hs2 : (updateEntry e r.path none { s1 with files := s1.files ++ [(r.path, ⟨r.size, r.time⟩)] }).2 = s2 at g1 g2 g3
    have hv : ∀ u ∈ s2.rows, ¬Finished u → VainAt evs u.path u.created := by
      intro u hu hn
      rw [g2] at hu
      obtain ⟨u', hu', rfl⟩ := List.mem_map.1 hu
      unfold setSize at hn ⊢
      by_cases hp : u'.path = r.path
      · rw [if_pos hp] at hn
        exact absurd rfl hn
      · rw [if_neg hp] at hn ⊢
        exact back u' hu' hn (.inl hp)
    obtain ⟨k1, k2, _⟩ := check_inv hd (r.time + 1) r.time m r.disk s2 g1
    exact ⟨k1, fun u hu hn => hv u (k2 u hu) hn, fun k hk => bound_check hd (r.time + 1) r.time m r.disk s2 g1 hv k hk⟩
  · rw [if_neg ho]
    have ho : r.ok = false := by simpa using ho
    exact ⟨h1, fun u hu hn => back u hu hn (.inr ho), hb ho⟩

theorem track_want {e : Env} (hd : Deletable e) {evs : List Event} {now : Nat} {x : Limits × St} (h : Track e evs now x) (r : Request) (ht : now ≤ r.time)
    (hc : inCache e r.path = true) : Track e (evs ++ [.want r]) (r.time + 1) (step e x (.want r)) := by
  obtain ⟨h1, h2, _, h4, _, _, _, h8⟩ := register_inv e now r x.2 h.inv ht hc
  have h5 := register_rows e r x.2 hc
  have hstep : step e x (.want r) = (x.1, cacheFile e x.1 r x.2) := rfl
  rw [hstep]
  unfold cacheFile
  generalize hs1 : (register e r.time r.path r.owner none x.2).2 = s1 at h1 h2 h4 h5 h8
  have now_vain : r.ok = false → VainAt (evs ++ [.want r]) r.path r.time := fun ho => ⟨evs, r, [], rfl, rfl, rfl, ho, by simp, by simp⟩
  have later : ∀ p t, p ≠ r.path ∨ r.ok = false → VainAt evs p t → VainAt (evs ++ [.want r]) p t := by
    intro p t hp hv
    refine vainAt_later hv _ ?_ (fun _ _ h => by cases h)
    intro r' hr' hp'
    cases hr'
    rcases hp with hp | hp
    · exact absurd hp'.symm hp
    · exact hp
  have back : ∀ u ∈ s1.rows, ¬Finished u → u.path ≠ r.path ∨ r.ok = false → VainAt (evs ++ [.want r]) u.path u.created := by
    intro u hu hn hp
    rcases h5 u hu with ⟨u', hu', e1, e2, e3⟩ | ⟨hp', _, e3⟩
    · rw [← e1] at hp ⊢
      rw [← e3]
      refine later _ _ hp (h.vain u' hu' ?_)
      unfold Finished at hn ⊢; rw [e2]; exact hn
    · rw [hp', e3]
      rcases hp with hp | hp
      · exact absurd hp' hp
      · exact now_vain hp
  have old : ∀ u ∈ s1.rows, Finished u → ∃ u' ∈ x.2.rows, Finished u' ∧ u'.created = u.created := by
    intro u hu hf
    rcases h5 u hu with ⟨u', hu', e1, e2, e3⟩ | ⟨_, hn, _⟩
    · refine ⟨u', hu', ?_, e3⟩
      unfold Finished at hf ⊢; rw [e2]; exact hf
    · exact absurd hf hn
  simp only
  by_cases hx : s1.exists_ r.path = true
  · by_cases hf : r.force = true
    · have hfd : forced e r s1 = (register e r.time r.path r.owner none ((s1.dropFile r.path).dropRow r.path)).2 := by
        unfold forced
        rw [hx, hf, ← decached hd _ r.path s1 h1 hc hx]
        rfl
      have sub : ((s1.dropFile r.path).dropRow r.path).rows.Sublist s1.rows := List.filter_sublist
      have subf : ((s1.dropFile r.path).dropRow r.path).files.Sublist s1.files := List.filter_sublist
      have hne : ∀ u ∈ ((s1.dropFile r.path).dropRow r.path).rows, u.path ≠ r.path := by
        intro u hu
        unfold St.dropRow at hu
        simpa using (List.mem_filter.1 hu).2
      have hi : Inv e now ((s1.dropFile r.path).dropRow r.path) := {
        inside := fun u hu => h1.inside u (sub.subset hu)
        unique := h1.unique.sublist (sub.map _)
        agree := by
          unfold Agree
          rw [recs_dropRow]
          change (held (s1.dropFile r.path)).Perm ((recs s1).filter _)
          rw [held_dropFile]
          exact h1.agree.filter _
        roots := fun u hu => h1.roots u (sub.subset hu)
        past := fun u hu => h8 u (sub.subset hu) (hne u hu)
        dates := h1.dates.sublist (sub.map _) }
      have hgone := file_gone s1 r.path
      rw [hfd]
      generalize (s1.dropFile r.path).dropRow r.path = s2 at hi hgone sub subf hne
      obtain ⟨g1, g2, _, g4, _, _, _, _⟩ := register_inv e now r s2 hi ht hc
      have g5 := register_rows e r s2 hc
      generalize (register e r.time r.path r.owner none s2).2 = s3 at g1 g2 g4 g5
      have hnone : s3.file r.path = none := by
        unfold St.file at hgone ⊢
        rw [g2]; exact hgone
      have hnx : ¬ s3.exists_ r.path = true := by unfold St.exists_; rw [hnone]; simp
      rw [if_neg hnx]
      refine track_make hd x.1 r hc s3 g1 g4 hnone ?_ ?_
      · intro u hu hn hp
        rcases g5 u hu with ⟨u', hu', e1, e2, e3⟩ | ⟨hp', _, e3⟩
        · rw [← e1] at hp ⊢
          rw [← e3]
          refine back u' (sub.subset hu') ?_ hp
          unfold Finished at hn ⊢; rw [e2]; exact hn
        · rw [hp', e3]
          rcases hp with hp | hp
          · exact absurd hp' hp
          · exact now_vain hp
      · intro ho k hk
        refine bound_transfer (h.bound k hk) h.inv.agree g1.agree ?_ ?_ (fun p t hp _ => later p t (.inr ho) hp)
        · rw [g2, ← h2]; exact subf
        · intro u hu hfin
          rcases g5 u hu with ⟨u', hu', e1, e2, e3⟩ | ⟨_, hn, _⟩
          · obtain ⟨v, hv, k1, k2⟩ := old u' (sub.subset hu') (by unfold Finished at hfin ⊢; rw [e2]; exact hfin)
            exact ⟨v, hv, k1, k2.trans e3⟩
          · exact absurd hfin hn
    · have hfd : forced e r s1 = s1 := by
        unfold forced
        rw [if_neg]
        simp [hf]
      rw [hfd, if_pos hx]
      have hpres : s1.file r.path ≠ none := by
        unfold St.exists_ at hx
        intro hn; rw [hn] at hx; cases hx
      refine ⟨h1, fun u hu hn => back u hu hn (.inl fun hp => ?_), fun k hk => ?_⟩
      · exact hpres (hp ▸ no_file h1 hu (by unfold Finished at hn; simpa using hn))
      · refine bound_transfer (h.bound k hk) h.inv.agree h1.agree (by rw [h2]) old (fun p t hp hn => later p t (.inl fun he => ?_) hp)
        refine hpres ?_
        unfold St.file at hn ⊢
        rw [h2, ← he]; exact hn
  · have hfd : forced e r s1 = s1 := by
      unfold forced
      rw [if_neg]
      simp [hx]
    rw [hfd, if_neg hx]
    have hnone : s1.file r.path = none := by
      unfold St.exists_ at hx
      simpa using hx
    exact track_make hd x.1 r hc s1 h1 h4 hnone back (fun ho k hk =>
      bound_transfer (h.bound k hk) h.inv.agree h1.agree (by rw [h2]) old (fun p t hp _ => later p t (.inr ho) hp))

theorem track_run {e : Env} (hd : Deletable e) (evs : List Event) : ∀ (pre : List Event) (now : Nat) (x : Limits × St), Track e pre now x →
    (∀ t ∈ times evs, now ≤ t) → (times evs).Pairwise (· < ·) → (∀ r, Event.want r ∈ evs → inCache e r.path = true) →
    ∃ now', Track e (pre ++ evs) now' (evs.foldl (step e) x) := by
  induction evs with
  | nil => intro pre now x h _ _ _; exact ⟨now, by simpa using h⟩
  | cons ev evs ih =>
    intro pre now x h hnow hpw hin
    have hin' : ∀ r, Event.want r ∈ evs → inCache e r.path = true := fun r hr => hin r (by simp [hr])
    cases ev with
    | limit t m d =>
      obtain ⟨now', h'⟩ := ih (pre ++ [.limit t m d]) now _ (track_limit hd h t m d) hnow hpw hin'
      exact ⟨now', by simpa using h'⟩
    | drop f =>
      obtain ⟨now', h'⟩ := ih (pre ++ [.drop f]) now _ (track_drop hd h f) hnow hpw hin'
      exact ⟨now', by simpa using h'⟩
    | purge t t' =>
      have h1 := List.pairwise_cons.1 hpw
      have h2 := List.pairwise_cons.1 h1.2
      obtain ⟨now', h'⟩ := ih (pre ++ [.purge t t']) (t' + 1) _ (track_purge hd h t t' (hnow t (by simp [times])) (h1.1 t' (by simp)))
        (fun u hu => h2.1 u hu) h2.2 hin'
      exact ⟨now', by simpa using h'⟩
    | want r =>
      have hpw' := List.pairwise_cons.1 hpw
      obtain ⟨now', h'⟩ := ih (pre ++ [.want r]) (r.time + 1) _ (track_want hd h r (hnow r.time (by simp [times])) (hin r (by simp)))
        (fun t ht => hpw'.1 t ht) hpw'.2 hin'
      exact ⟨now', by simpa using h'⟩

/-- C164, whatever failed: the cache is within the limit, or has one file at most, or all its entries were recorded not before a request in vain for a path
that is not there. So what was there before that request is deleted as the limit demands. -/
theorem C164_excess (e : Env) (hd : Deletable e) (m : Limits) (evs : List Event) (ht : (times evs).Pairwise (· < ·))
    (hin : ∀ r, Event.want r ∈ evs → inCache e r.path = true) (k : Nat) (hk : (run e m evs).1.size = some k) :
    used (run e m evs).2 ≤ k ∨ (run e m evs).2.files.length ≤ 1 ∨
      ∀ f ∈ (run e m evs).2.files, ∃ r ∈ (run e m evs).2.rows, r.path = f.1 ∧ r.size = some f.2.size ∧
        ∃ p t, VainAt evs p t ∧ t ≤ r.created ∧ (run e m evs).2.file p = none := by
  have h0 : Track e [] 0 (m, ⟨[], []⟩) :=
    ⟨(good_start e m).inv, fun u hu => absurd hu List.not_mem_nil, fun k _ => .inr (.inl (Nat.zero_le _))⟩
  obtain ⟨now, h⟩ := track_run hd evs [] 0 _ h0 (fun _ _ => Nat.zero_le _) ht hin
  rw [List.nil_append] at h
  have hag : Agree (run e m evs).2 := h.inv.agree
  rcases h.bound k hk with hb | hb | hb
  · left; rw [hag.used]; exact hb
  · right; left; rw [← hag.recs_length]; exact hb
  · right; right
    intro f hf
    obtain ⟨r, hr, h1, h2⟩ := mem_recs.1 (hag.mem_iff.1 (List.mem_map.2 ⟨f, hf, rfl⟩))
    exact ⟨r, hr, h1, h2, hb r hr (by unfold Finished; rw [h2]; rfl)⟩

/-! ## Example -/

/-- `C164_excess`: the second of four downloads fails. The first file is deleted; the others use 120 of 100. -/
def failing : List Event := [ask 1 "a" true 60, ask 2 "x" false 0, ask 3 "b" true 60, ask 4 "c" true 60].map .want

example : (run home ⟨some 100, some 95⟩ failing).2.files.map (·.1) = ["/c/b".toList, "/c/c".toList] ∧
    ∀ f ∈ (run home ⟨some 100, some 95⟩ failing).2.files, ∃ r ∈ (run home ⟨some 100, some 95⟩ failing).2.rows, r.path = f.1 ∧ r.size = some f.2.size ∧
      ∃ p t, VainAt failing p t ∧ t ≤ r.created ∧ (run home ⟨some 100, some 95⟩ failing).2.file p = none := by
  refine ⟨by decide +kernel, ?_⟩
  rcases C164_excess home (fun _ => rfl) ⟨some 100, some 95⟩ failing (by decide +kernel) (fun r hr => by
    simp only [failing, List.map_cons, List.map_nil, List.mem_cons, Event.want.injEq, List.not_mem_nil, or_false] at hr
    rcases hr with rfl | rfl | rfl | rfl <;> decide +kernel) 100 rfl with h | h | h
  · exact absurd h (by decide +kernel)
  · exact absurd h (by decide +kernel)
  · exact h

end Verif.DiskCache.Limit

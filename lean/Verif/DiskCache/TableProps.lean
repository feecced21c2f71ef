import Verif.DiskCache.TableLemmas3

/-!
# Properties of trimming and purging (C60–C63)
-/

namespace Verif.DiskCache

/-! ### C60: trimming spares new and in-progress entries -/

/-- Trimming (`_decache`): a row or a file that goes is, or is attached to, a finished entry that is not protected. -/
theorem C60_spares (e : Env) (t goal : Nat) (s : St) :
    (∀ r ∈ s.rows, r ∉ (decache e t goal false s).2.rows → ∃ a ∈ s.rows, Finished a ∧ ¬Protected s.rows a ∧ Under s.rows a.path r.path) ∧
    (∀ f ∈ s.files, f ∉ (decache e t goal false s).2.files → ∃ a ∈ s.rows, Finished a ∧ ¬Protected s.rows a ∧ Under s.rows a.path f.1) := by
  unfold decache
  by_cases hg : goal = 0
  · rw [if_pos hg]
    exact ⟨fun _ h h' => absurd h h', fun _ h h' => absurd h h'⟩
  · rw [if_neg hg, if_neg Bool.false_ne_true]
    have l := loss_sweep e goal (latestDate t s) s
    refine ⟨fun r hr hn => ?_, fun f hf hn => ?_⟩
    · obtain ⟨c, hc, hel, hu⟩ := l.removed r hr hn
      exact ⟨c, hc, ((eligible_iff t s c hc).1 hel).1, ((eligible_iff t s c hc).1 hel).2, hu⟩
    · obtain ⟨c, hc, hel, hu⟩ := (l.gone f hf hn).2.2
      exact ⟨c, hc, ((eligible_iff t s c hc).1 hel).1, ((eligible_iff t s c hc).1 hel).2, hu⟩

theorem under_root {rows : List Row} (hu : (rows.map (·.path)).Nodup) {r : Row} (hr : r ∈ rows) (hp : r.parent = none) {a : Path} (h : Under rows a r.path) :
    a = r.path := by
  generalize hq : r.path = q at h
  cases h with
  | self => rfl
  | child _ hr' hp' =>
    have : r = _ := List.inj_on_of_nodup_map hu hr hr' hq
    rw [this] at hp
    rw [hp] at hp'
    cases hp'

/-- A protected entry that is not attached to another keeps its record and its file. -/
theorem C60_protected (e : Env) (t goal : Nat) (s : St) (hu : Unique s) (r : Row) (hr : r ∈ s.rows) (hp : r.parent = none)
    (h : Protected s.rows r) :
    r ∈ (decache e t goal false s).2.rows ∧ ∀ f ∈ s.files, f.1 = r.path → f ∈ (decache e t goal false s).2.files := by
  have key : ∀ a ∈ s.rows, Finished a → ¬Protected s.rows a → Under s.rows a.path r.path → False := by
    intro a ha _ hnp hun
    have := hu.eq ha hr (under_root hu hr hp hun)
    rw [this] at hnp
    exact hnp h
  obtain ⟨h1, h2⟩ := C60_spares e t goal s
  constructor
  · by_contra hn
    obtain ⟨a, ha, hf, hnp, hun⟩ := h1 r hr hn
    exact key a ha hf hnp hun
  · intro f hf hfp
    by_contra hn
    obtain ⟨a, ha, hfin, hnp, hun⟩ := h2 f hf hn
    rw [hfp] at hun
    exact key a ha hfin hnp hun

/-- In the table there are an unfinished entry without a file and an entry registered at or after it, neither attached to another. -/
structure InProgress (s : St) (pu pr : Path) (cr : Nat) : Prop where
  unique : Unique s
  unfinished : ∃ u ∈ s.rows, u.path = pu ∧ ¬Finished u ∧ u.parent = none ∧ s.file u.path = none ∧ u.created ≤ cr
  entry : ∃ r ∈ s.rows, r.path = pr ∧ r.parent = none ∧ r.created = cr

theorem Loss.unique {e : Env} {U : Path → Prop} {s s' : St} (l : Loss e U s s') (h : Unique s) : Unique s' :=
  h.sublist (l.rows.map _)

theorem loss_decache (e : Env) (t goal : Nat) (s : St) : Loss e (fun _ => True) s (decache e t goal false s).2 := by
  unfold decache
  by_cases hg : goal = 0
  · rw [if_pos hg]; exact .refl _ _ _
  · rw [if_neg hg]; exact (loss_sweep e goal _ s).mono (fun _ _ => trivial)

theorem inProgress_decache (e : Env) (t goal : Nat) (s : St) (pu pr : Path) (cr : Nat) (h : InProgress s pu pr cr) :
    InProgress (decache e t goal false s).2 pu pr cr ∧ ∀ f ∈ s.files, f.1 = pr → f ∈ (decache e t goal false s).2.files := by
  obtain ⟨hu, ⟨u, hur, rfl, hnf, hpar, hfile, hle⟩, ⟨r, hr, rfl, hrp, rfl⟩⟩ := h
  have l := loss_decache e t goal s
  have h1 := C60_protected e t goal s hu u hur hpar (.inl ⟨u, hur, hnf, Nat.le_refl _⟩)
  have h2 := C60_protected e t goal s hu r hr hrp (.inl ⟨u, hur, hnf, hle⟩)
  exact ⟨⟨l.unique hu, ⟨u, h1.1, rfl, hnf, hpar, file_none_of_sublist l.files hfile, hle⟩, ⟨r, h2.1, rfl, hrp, rfl⟩⟩, h2.2⟩

theorem inProgress_housekeeping (e : Env) (t : Nat) (s : St) (pu pr : Path) (cr : Nat) (h : InProgress s pu pr cr) :
    InProgress (housekeeping e t false s) pu pr cr := by
  obtain ⟨hu, ⟨u, hur, rfl, hnf, hpar, hfile, hle⟩, ⟨r, hr, rfl, hrp, rfl⟩⟩ := h
  have k := housekeeping_kept e t false s
  obtain ⟨u', hu', hsu, hsz⟩ := k.forth rfl u hur
  obtain ⟨r', hr', hsr, _⟩ := k.forth rfl r hr
  refine ⟨k.unique hu, ⟨u', hu', hsu.path, ?_, hsu.parent.trans hpar, ?_, by rw [hsu.created]; exact hle⟩,
    ⟨r', hr', hsr.path, hsr.parent.trans hrp, hsr.created⟩⟩
  · unfold Finished at *
    rw [hsz hfile]
    exact hnf
  · unfold St.file at *
    rw [k.files, hsu.path]
    exact hfile

/-- `check_size`, whatever the limits and the disk: what is being downloaded, and everything registered since, stays. -/
theorem C60_in_progress (e : Env) (t : Nat) (limit usage : Option Nat) (disk : Disk) (s : St) (pu pr : Path) (cr : Nat)
    (h : InProgress s pu pr cr) :
    InProgress (checkSize e t limit usage disk s).2 pu pr cr ∧ ∀ f ∈ s.files, f.1 = pr → f ∈ (checkSize e t limit usage disk s).2.files := by
  have key : ∀ (goal : Nat) (s : St), InProgress s pu pr cr → InProgress (decache e t goal false (housekeeping e t false s)).2 pu pr cr ∧
      ∀ f ∈ s.files, f.1 = pr → f ∈ (decache e t goal false (housekeeping e t false s)).2.files := by
    intro goal s h
    have h1 := inProgress_decache e t goal _ pu pr cr (inProgress_housekeeping e t s pu pr cr h)
    rw [(housekeeping_kept e t false s).files] at h1
    exact h1
  have hm : InProgress (checkMax e t limit s).2 pu pr cr ∧ ∀ f ∈ s.files, f.1 = pr → f ∈ (checkMax e t limit s).2.files := by
    unfold checkMax
    cases limit with
    | none => exact ⟨h, fun _ hf _ => hf⟩
    | some m =>
      simp only
      by_cases hs : s.size > m
      · rw [if_pos hs]; exact key _ s h
      · rw [if_neg hs]; exact ⟨h, fun _ hf _ => hf⟩
  unfold checkSize
  generalize checkMax e t limit s = x at *
  obtain ⟨r, s1⟩ := x
  cases r with
  | error x => exact hm
  | ok _ =>
    simp only at hm ⊢
    unfold checkUsage
    cases usage with
    | none => exact hm
    | some u =>
      simp only
      by_cases hs : disk.percent > u
      · rw [if_pos hs]
        have h2 := key ((disk.percent - u) * disk.total) s1 hm.1
        exact ⟨h2.1, fun f hf hp => h2.2 f (hm.2 f hf hp) hp⟩
      · rw [if_neg hs]; exact hm

/-! A cache in `/c`. -/

def envC : Env := ⟨"/c".toList, fun _ => false⟩

def row (p : String) (owner : String) (created access : Nat) (size : Option Nat) : Row :=
  ⟨p.toList, owner.toList, created, access, size, none, 1, none⟩

/-- One download finished, one unfinished, one newer; the size is over the limit. -/
def busy : St := ⟨[row "/c/a" "url" 1 1 (some 10), row "/c/b" "url" 2 2 none, row "/c/d" "url" 3 3 (some 10)],
  [("/c/a".toList, ⟨10, 1⟩), ("/c/d".toList, ⟨10, 3⟩)]⟩

theorem busy_progress : InProgress busy "/c/b".toList "/c/d".toList 3 ∧ ((checkSize envC 1000 (some 5) none ⟨0, 0⟩ busy).2.rows.map (·.created)) = [2, 3] := by
  refine ⟨⟨by unfold Unique; decide +kernel, ⟨row "/c/b" "url" 2 2 none, ?_⟩, ⟨row "/c/d" "url" 3 3 (some 10), ?_⟩⟩, by decide +kernel⟩
  · refine ⟨by decide +kernel, rfl, by unfold Finished; decide, rfl, by decide +kernel, by decide⟩
  · exact ⟨by decide +kernel, rfl, rfl, rfl⟩

/-- `C60_protected`, `C60_in_progress` here. -/
example : row "/c/d" "url" 3 3 (some 10) ∈ (decache envC 1000 500 false busy).2.rows ∧
    InProgress (checkSize envC 1000 (some 5) none ⟨0, 0⟩ busy).2 "/c/b".toList "/c/d".toList 3 :=
  ⟨(C60_protected envC 1000 500 busy busy_progress.1.unique (row "/c/d" "url" 3 3 (some 10)) (by decide +kernel) rfl
      (.inl ⟨row "/c/b" "url" 2 2 none, by decide +kernel, by unfold Finished; decide, by decide⟩)).1,
    (C60_in_progress envC 1000 (some 5) none ⟨0, 0⟩ busy _ _ 3 busy_progress.1).1⟩

/-- The most recent complete entry is not safe from `check_size`: an old file without a record is registered at this instant, and the
entry is then no longer the most recent one. -/
theorem C60_refuted : ∃ s r, (∀ u ∈ s.rows, Finished u) ∧ r ∈ s.rows ∧ (∀ u ∈ s.rows, u.created ≤ r.created) ∧ Protected s.rows r ∧
    r.path ∉ (checkSize envC 1000 (some 5) none ⟨0, 0⟩ s).2.rows.map (·.path) ∧
    r.path ∉ (checkSize envC 1000 (some 5) none ⟨0, 0⟩ s).2.files.map (·.1) := by
  refine ⟨⟨[row "/c/a" "url" 1 1 (some 10)], [("/c/a".toList, ⟨10, 1⟩), ("/c/stray".toList, ⟨1, 0⟩)]⟩, row "/c/a" "url" 1 1 (some 10), ?_, ?_, ?_, ?_, ?_, ?_⟩
  · simp [Finished, row]
  · simp
  · simp
  · right
    simp [Finished, row]
  · decide +kernel
  · decide +kernel

/-! ### trimming in order -/

theorem trim_spec (e : Env) (hd : Deletable e) (goal : Nat) (rs : List Row) (total : Nat) (s : St) (hs : Inside e s)
    (hin : ∀ r ∈ rs, inCache e r.path = true) (hrs : ∀ r ∈ rs, r ∈ s.rows ∨ s.file r.path = none) :
    ∃ b tot s', trim e goal rs total s = (.ok (b, tot), s') ∧ tot + s'.size ≤ total + s.size ∧ Cleared s s' ∧
      ∃ done rest, rs = done ++ rest ∧ Loss e (fun q => ∃ c ∈ done, Under s.rows c.path q) s s' ∧
        (∀ c ∈ done, ∀ r ∈ s'.rows, r.path ≠ c.path) ∧ (b = true → 100 * tot ≥ goal) ∧ (b = false → rest = []) := by
  induction rs generalizing total s with
  | nil =>
    exact ⟨false, total, s, rfl, Nat.le_refl _, .refl s, [], [], rfl, .refl _ _ _, fun c hc => (by cases hc), fun h => (by cases h), fun _ => rfl⟩
  | cons c rs ih =>
    rw [trim]
    obtain ⟨n, s1, h1⟩ := ok_deleteEntry e s.depth c.path (c.size.getD 0) s (hin c List.mem_cons_self) hs
    have l1 := loss_deleteEntry e s.depth c.path (c.size.getD 0) s
    have c1 := cleared_deleteEntry e hd s.depth c.path (c.size.getD 0) s
    have f1 := freed_deleteEntry e hd s.depth c n s s1 (hrs c List.mem_cons_self) h1
    have g1 := entry_gone e (longest s.rows) c.path _ n s s1 h1
    rw [h1] at l1 c1 ⊢
    simp only at l1 c1 ⊢
    by_cases hg : 100 * (total + n) ≥ goal
    · rw [if_pos hg]
      refine ⟨true, total + n, s1, rfl, by omega, c1, [c], rs, rfl, l1.mono (fun q hq => ⟨c, List.mem_singleton_self c, hq⟩), ?_, fun _ => hg, fun h => (by cases h)⟩
      intro c' hc' r hr
      rw [List.mem_singleton.1 hc']
      exact g1 r hr
    · rw [if_neg hg]
      obtain ⟨b, tot, s', h2, f2, c2, done, rest, hsplit, l2, g2, hb, hb'⟩ := ih (total + n) s1 (hs.sub l1)
        (fun r hr => hin r (List.mem_cons_of_mem _ hr)) (fun r hr => still c1 l1 (hrs r (List.mem_cons_of_mem _ hr)))
      refine ⟨b, tot, s', h2, by omega, c1.trans c2 l2, c :: done, rest, by rw [hsplit]; rfl,
        (l1.mono (fun q hq => ⟨c, List.mem_cons_self, hq⟩)).trans (l2.mono (fun q ⟨c', hc', hq⟩ => ⟨c', List.mem_cons_of_mem _ hc', l1.under hq⟩)), ?_, hb, hb'⟩
      intro c' hc' r hr
      rcases List.mem_cons.1 hc' with rfl | hc'
      · exact g1 r (l2.rows.subset hr)
      · exact g2 c' hc' r hr

theorem second_sorted (latest : Nat) (s : St) : (secondQuery latest s).Pairwise (fun a b => a.access ≤ b.access) := by
  unfold secondQuery
  have : Std.Total (fun a b : Row => a.access ≤ b.access) := ⟨fun a b => by omega⟩
  have : IsTrans Row (fun a b : Row => a.access ≤ b.access) := ⟨fun a b c => by omega⟩
  exact List.pairwise_insertionSort _ _

/-- What one sweep does: how much it frees, that it stops only when enough is freed or nothing eligible is left, and in which order. -/
theorem sweep_spec (e : Env) (hd : Deletable e) (goal latest : Nat) (s : St) (hs : Inside e s) :
    ∃ tot s', sweep e goal latest s = (.ok (), s') ∧ tot + s'.size ≤ s.size ∧ Cleared s s' ∧
      (100 * tot ≥ goal ∨ ∀ r ∈ s'.rows, ¬Eligible latest r) ∧
      ∀ a ∈ s.rows, a ∉ s'.rows → ∀ b ∈ s'.rows, Eligible latest b →
        ∃ v ∈ s.rows, Eligible latest v ∧ v ∉ s'.rows ∧ Under s.rows v.path a.path ∧ (v.owner = orphans ∨ (b.owner ≠ orphans ∧ v.access ≤ b.access)) := by
  unfold sweep
  obtain ⟨b1, tot1, s1, h1, f1, c1, done1, rest1, hsplit1, l1, g1, hb1, hb1'⟩ := trim_spec e hd goal (firstQuery latest s) 0 s hs
    (fun r hr => hs r (first_mem.1 hr).1) (fun r hr => .inl (first_mem.1 hr).1)
  have first : ∀ a ∈ s.rows, a ∉ s1.rows → ∃ v ∈ s.rows, Eligible latest v ∧ v ∉ s1.rows ∧ Under s.rows v.path a.path ∧ v.owner = orphans := by
    intro a ha hn
    obtain ⟨c, hc, hu⟩ := l1.removed a ha hn
    have := first_mem.1 (hsplit1 ▸ List.mem_append_left rest1 hc)
    exact ⟨c, this.1, this.2.1, fun h => g1 c hc c h rfl, hu, this.2.2⟩
  rw [h1]
  cases b1 with
  | true =>
    refine ⟨tot1, s1, rfl, by omega, c1, .inl (hb1 rfl), fun a ha hn b _ _ => ?_⟩
    obtain ⟨v, x1, x2, x3, x4, x5⟩ := first a ha hn
    exact ⟨v, x1, x2, x3, x4, .inl x5⟩
  | false =>
    have hr1 := hb1' rfl
    subst hr1
    rw [List.append_nil] at hsplit1
    simp only
    obtain ⟨b2, tot2, s2, h2, f2, c2, done2, rest2, hsplit2, l2, g2, hb2, hb2'⟩ := trim_spec e hd goal (secondQuery latest s1) tot1 s1 (hs.sub l1)
      (fun r hr => hs r (l1.rows.subset (second_mem.1 hr).1)) (fun r hr => .inl (second_mem.1 hr).1)
    rw [h2]
    refine ⟨tot2, s2, rfl, by omega, c1.trans c2 l2, ?_, fun a ha hn b hb hel => ?_⟩
    · cases b2 with
      | true => exact .inl (hb2 rfl)
      | false =>
        right
        intro r hr hel
        have hr2 := hb2' rfl
        subst hr2
        rw [List.append_nil] at hsplit2
        exact g2 r (hsplit2 ▸ second_mem.2 ⟨l2.rows.subset hr, hel⟩) r hr rfl
    · by_cases ha1 : a ∈ s1.rows
      · obtain ⟨c, hc, hu⟩ := l2.removed a ha1 hn
        have hcm := second_mem.1 (hsplit2 ▸ List.mem_append_left rest2 hc)
        have hbm : b ∈ secondQuery latest s1 := second_mem.2 ⟨l2.rows.subset hb, hel⟩
        refine ⟨c, l1.rows.subset hcm.1, hcm.2, fun h => g2 c hc c h rfl, l1.under hu, .inr ⟨fun ho => ?_, ?_⟩⟩
        · have : b ∈ done1 := by
            rw [← hsplit1]
            exact first_mem.2 ⟨l1.rows.subset (l2.rows.subset hb), hel, ho⟩
          exact g1 b this b (l2.rows.subset hb) rfl
        · rw [hsplit2] at hbm
          have hb2m : b ∈ rest2 := by
            rcases List.mem_append.1 hbm with h | h
            · exact absurd rfl (g2 b h b hb)
            · exact h
          have hsorted := second_sorted latest s1
          rw [hsplit2, List.pairwise_append] at hsorted
          exact hsorted.2.2 c hc b hb2m
      · obtain ⟨v, x1, x2, x3, x4, x5⟩ := first a ha ha1
        exact ⟨v, x1, x2, fun h => x3 (l2.rows.subset h), x4, .inl x5⟩

/-! ### C61: trimming reaches the limit -/

/-- If the records are up to date when `check_size` is called (housekeeping has nothing to do), the cache is afterwards within its
maximum size or nothing that may be trimmed is left. -/
theorem C61_reaches_partial (e : Env) (hd : Deletable e) (t m : Nat) (s : St) (hs : Inside e s) (hk : housekeeping e t false s = s) (disk : Disk) :
    ∃ s', checkSize e t (some m) none disk s = (.ok (), s') ∧
      (s'.size ≤ m ∨ ∀ r ∈ s'.rows, ¬(Finished r ∧ ¬Protected s.rows r)) := by
  have key : ∃ s', checkMax e t (some m) s = (.ok (), s') ∧ (s'.size ≤ m ∨ ∀ r ∈ s'.rows, ¬(Finished r ∧ ¬Protected s.rows r)) := by
    unfold checkMax
    simp only
    by_cases hsz : s.size > m
    · rw [if_pos hsz, hk]
      unfold decache
      rw [if_neg (by omega), if_neg Bool.false_ne_true]
      have l := loss_sweep e (100 * (s.size - m)) (latestDate t s) s
      obtain ⟨tot, s', h1, h2, _, h3, _⟩ := sweep_spec e hd (100 * (s.size - m)) (latestDate t s) s hs
      rw [h1] at l
      refine ⟨s', h1, ?_⟩
      rcases h3 with h3 | h3
      · left
        omega
      · right
        intro r hr hh
        exact h3 r hr ((eligible_iff t s r (l.rows.subset hr)).2 hh)
    · rw [if_neg hsz]
      exact ⟨s, rfl, .inl (by omega)⟩
  obtain ⟨s', h1, h2⟩ := key
  refine ⟨s', ?_, h2⟩
  unfold checkSize
  rw [h1]
  rfl

example : housekeeping envC 1000 false busy = busy ∧ (checkSize envC 1000 (some 15) none ⟨0, 0⟩ busy).2.size = 10 := by
  have h : (housekeeping envC 1000 false busy).rows = busy.rows := by decide +kernel
  refine ⟨?_, by decide +kernel⟩
  have hf := (housekeeping_kept envC 1000 false busy).files
  generalize housekeeping envC 1000 false busy = s at *
  cases s
  simp only at h hf
  rw [h, hf]

/-- The third file is complete but its record is not. -/
def late : St := ⟨[row "/c/a" "url" 1 1 (some 10), row "/c/b" "url" 2 2 (some 10), row "/c/d" "url" 3 3 none],
  [("/c/a".toList, ⟨10, 1⟩), ("/c/b".toList, ⟨10, 2⟩), ("/c/d".toList, ⟨100, 3⟩)]⟩

theorem pair_of_fst {α β : Type} {x : α × β} {a : α} (h : x.1 = a) : x = (a, x.2) := by
  rw [← h]

/-- The size is taken before housekeeping: a finished file that housekeeping only then counts leaves the cache above its maximum although
another entry may be trimmed. -/
theorem C61_refuted : ∃ s s', Inside envC s ∧ checkSize envC 1000 (some 15) none ⟨0, 0⟩ s = (.ok (), s') ∧ s'.size > 15 ∧
    ∃ r ∈ s'.rows, Finished r ∧ ¬Protected s'.rows r := by
  have h1 : (checkSize envC 1000 (some 15) none ⟨0, 0⟩ late).1 = .ok () := by decide +kernel
  have h2 : (checkSize envC 1000 (some 15) none ⟨0, 0⟩ late).2.size > 15 := by decide +kernel
  refine ⟨late, (checkSize envC 1000 (some 15) none ⟨0, 0⟩ late).2, ?_, pair_of_fst h1, h2, ?_⟩
  · have : ∀ r ∈ late.rows, inCache envC r.path = true := by decide +kernel
    exact this
  · have hrows : (checkSize envC 1000 (some 15) none ⟨0, 0⟩ late).2.rows = [row "/c/b" "url" 2 2 (some 10), row "/c/d" "url" 3 3 (some 100)] := by
      decide +kernel
    rw [hrows]
    refine ⟨row "/c/b" "url" 2 2 (some 10), by simp, by simp [Finished, row], ?_⟩
    rintro (⟨u, hu, hnf, _⟩ | ⟨_, h⟩)
    · simp only [List.mem_cons, List.not_mem_nil, or_false] at hu
      rcases hu with rfl | rfl <;> simp [Finished, row] at hnf
    · have := h (row "/c/d" "url" 3 3 (some 100)) (by simp)
      simp [row] at this

/-! ### C62: order -/

/-- If something is trimmed while an entry that could have been trimmed stays, then it is, or is attached to, a trimmed entry that is an
orphan, or one last used no later than the entry that stays, which is no orphan. -/
theorem C62_order (e : Env) (hd : Deletable e) (t goal : Nat) (s : St) (hs : Inside e s) (a b : Row) (ha : a ∈ s.rows)
    (hb : b ∈ (decache e t goal false s).2.rows) (hel : Finished b ∧ ¬Protected s.rows b) (hn : a ∉ (decache e t goal false s).2.rows) :
    ∃ v ∈ s.rows, v ∉ (decache e t goal false s).2.rows ∧ Finished v ∧ ¬Protected s.rows v ∧ Under s.rows v.path a.path ∧
      (v.owner = orphans ∨ (b.owner ≠ orphans ∧ v.access ≤ b.access)) := by
  have l := loss_decache e t goal s
  have hbs := l.rows.subset hb
  unfold decache at *
  by_cases hg : goal = 0
  · rw [if_pos hg] at hn
    exact absurd ha hn
  · rw [if_neg hg, if_neg Bool.false_ne_true] at *
    obtain ⟨tot, s', h1, _, _, _, h2⟩ := sweep_spec e hd goal (latestDate t s) s hs
    rw [h1] at hb hn ⊢
    obtain ⟨v, x1, x2, x3, x4, x5⟩ := h2 a ha hn b hb ((eligible_iff t s b hbs).2 hel)
    have := (eligible_iff t s v x1).1 x2
    exact ⟨v, x1, x3, this.1, this.2, x4, x5⟩

/-! ### C63: purge -/

/-- After `purge()` the cache size is 0. -/
theorem C63_size (e : Env) (hd : Deletable e) (t t' : Nat) (ht : t < t') (s : St) (hs : Inside e s) (hc : ∀ r ∈ s.rows, r.created < t') :
    ∃ s', purge e t t' s = (.ok (), s') ∧ s'.size = 0 := by
  unfold purge
  have k := housekeeping_kept e t true s
  generalize housekeeping e t true s = s1 at *
  unfold decache
  by_cases hg : 100 * s1.size = 0
  · rw [if_pos hg]
    exact ⟨s1, rfl, by omega⟩
  · rw [if_neg hg, if_pos rfl]
    obtain ⟨tot, s', h1, h2, _, h3, _⟩ := sweep_spec e hd (100 * s1.size) t' s1 (k.inside hs)
    have l := loss_sweep e (100 * s1.size) t' s1
    rw [h1] at l
    refine ⟨s', h1, ?_⟩
    rcases h3 with h3 | h3
    · omega
    · have : s'.rows = [] := by
        apply List.eq_nil_iff_forall_not_mem.2
        intro r hr
        refine h3 r hr ⟨?_, ?_⟩
        · have := k.sized r (l.rows.subset hr)
          unfold Finished
          cases hz : r.size with
          | some n => rfl
          | none => have := (this hz).1; cases this
        · rcases k.back r (l.rows.subset hr) with ⟨r0, hr0, hsame⟩ | ⟨_, hcr, _⟩
          · rw [hsame.created]
            exact hc r0 hr0
          · omega
      unfold St.size
      rw [this]
      rfl

theorem size_zero {s : St} (h : s.size = 0) (r : Row) (hr : r ∈ s.rows) : r.size.getD 0 = 0 := by
  have := size_dropRow s r hr
  omega

/-- Whatever is left after `purge()` is empty: it was recorded with size 0, or its file is there and has no bytes. -/
theorem C63_left (e : Env) (hd : Deletable e) (t t' : Nat) (ht : t < t') (s : St) (hs : Inside e s) (hc : ∀ r ∈ s.rows, r.created < t') :
    ∃ s', purge e t t' s = (.ok (), s') ∧
      ∀ r ∈ s'.rows, r.size = some 0 ∧ (r ∈ s.rows ∨ ∃ f, (r.path, f) ∈ s.files ∧ f.size = 0) := by
  obtain ⟨s', h1, h2⟩ := C63_size e hd t t' ht s hs hc
  refine ⟨s', h1, fun r hr => ?_⟩
  have h0 := size_zero h2 r hr
  have k := housekeeping_kept e t true s
  have hmem : r ∈ (housekeeping e t true s).rows := by
    unfold purge at h1
    have l : Loss e (fun _ => True) (housekeeping e t true s) (decache e t' (100 * (housekeeping e t true s).size) true (housekeeping e t true s)).2 := by
      unfold decache
      split
      · exact .refl _ _ _
      · exact (loss_sweep e _ _ _).mono (fun _ _ => trivial)
    rw [h1] at l
    exact l.rows.subset hr
  have hsome : r.size ≠ none := fun hn => by have := (k.sized r hmem hn).1; cases this
  have hzero : r.size = some 0 := by
    cases hz : r.size with
    | none => exact absurd hz hsome
    | some n =>
      rw [hz] at h0
      simp only [Option.getD_some] at h0
      rw [h0]
  refine ⟨hzero, ?_⟩
  rcases k.sizes r hmem with h | h | ⟨f, hfile, hsz⟩
  · exact Or.inl h
  · exact absurd h hsome
  · refine Or.inr ⟨f, ?_, Option.some.inj (hsz.symm.trans hzero)⟩
    unfold St.file at hfile
    obtain ⟨l1, l2, heq, _⟩ := List.lookup_eq_some_iff.1 hfile
    rw [heq]
    simp

/-- After `purge()` no entry is left, if no file is empty. -/
theorem C63_no_entries_partial (e : Env) (hd : Deletable e) (t t' : Nat) (ht : t < t') (s : St) (hs : Inside e s) (hc : ∀ r ∈ s.rows, r.created < t')
    (hz : ∀ r ∈ s.rows, r.size ≠ some 0) (hf : ∀ f ∈ s.files, f.2.size ≠ 0) :
    ∃ s', purge e t t' s = (.ok (), s') ∧ s'.rows = [] ∧ entries s' = [] := by
  obtain ⟨s', h1, h2⟩ := C63_left e hd t t' ht s hs hc
  have hrows : s'.rows = [] := by
    apply List.eq_nil_iff_forall_not_mem.2
    intro r hr
    obtain ⟨h3, h4 | ⟨f, h4, h5⟩⟩ := h2 r hr
    · exact hz r h4 h3
    · exact hf _ h4 h5
  exact ⟨s', h1, hrows, by unfold entries; rw [hrows]; rfl⟩

example : ∃ s', purge envC 1000 1001 busy = (.ok (), s') ∧ s'.rows = [] :=
  ⟨(purge envC 1000 1001 busy).2, pair_of_fst (by decide +kernel), by decide +kernel⟩

def hollow : St := ⟨[row "/c/a" "url" 1 1 (some 0)], [("/c/a".toList, ⟨0, 1⟩)]⟩

/-- `C63_left`: one empty entry, and it is left. -/
example : ∃ r ∈ (purge envC 1000 1001 hollow).2.rows, r.size = some 0 ∧ r ∈ hollow.rows := by decide +kernel

/-- An empty file survives `purge()`. -/
theorem C63_refuted : ∃ s s', Inside envC s ∧ (∀ r ∈ s.rows, r.created < 1001) ∧ purge envC 1000 1001 s = (.ok (), s') ∧ entries s' ≠ [] := by
  have h1 : (purge envC 1000 1001 hollow).1 = .ok () := by decide +kernel
  have h2 : entries (purge envC 1000 1001 hollow).2 ≠ [] := by decide +kernel
  refine ⟨hollow, (purge envC 1000 1001 hollow).2, ?_, ?_, pair_of_fst h1, h2⟩
  · have : ∀ r ∈ hollow.rows, inCache envC r.path = true := by decide +kernel
    exact this
  · have : ∀ r ∈ hollow.rows, r.created < 1001 := by decide +kernel
    exact this

/-- `purge(matcher)` removes exactly the records that match and those attached to them, with their files. -/
theorem C63_matcher (e : Env) (hd : Deletable e) (matcher : Row → Bool) (s : St) (hu : Unique s) (hs : Inside e s) (hr : Rooted s) :
    ∃ s', purgeMatch e matcher s = (.ok (), s') ∧
      (∀ r, r ∈ s'.rows ↔ r ∈ s.rows ∧ ¬∃ m ∈ s.rows, matcher m = true ∧ Under s.rows m.path r.path) ∧
      ∀ f, f ∈ s'.files ↔ f ∈ s.files ∧ ¬∃ m ∈ s.rows, matcher m = true ∧ Under s.rows m.path f.1 := by
  unfold purgeMatch
  obtain ⟨k, s', h⟩ := ok_all e s.depth (s.rows.filter matcher) s hs (fun r hr => hs r (List.mem_filter.1 hr).1)
  have l := loss_all e s.depth (s.rows.filter matcher) s
  have c := cleared_all e hd s.depth (s.rows.filter matcher) s
  obtain ⟨hcl, hgone⟩ := closed_deleteAll e s.depth (fun p n k s s' a b c d => closed_deleteEntry e _ p n k s s' a b c d) (s.rows.filter matcher) s s' k
    (fun c _ r hr => depth_bound s r hr c.path) (fun _ => by unfold St.depth; omega) hr h
  rw [h] at l c ⊢
  have under : ∀ m ∈ s.rows, matcher m = true → ∀ q, Under s.rows m.path q → ∀ r ∈ s'.rows, r.path ≠ q := by
    intro m hm hmm q hq
    have hmf := List.mem_filter.2 ⟨hm, hmm⟩
    have hno : m ∉ s'.rows := fun h => hgone m hmf m h rfl
    exact (under_gone hu l.rows hcl (hgone m hmf) (hcl m hm hno) hq).1
  refine ⟨s', rfl, fun r => ⟨fun hr' => ⟨l.rows.subset hr', fun ⟨m, hm, hmm, hun⟩ => under m hm hmm _ hun r hr' rfl⟩, fun ⟨hr', hn⟩ => ?_⟩,
    fun f => ⟨fun hf => ⟨l.files.subset hf, fun ⟨m, hm, hmm, hun⟩ => ?_⟩, fun ⟨hf, hn⟩ => ?_⟩⟩
  · by_contra hno
    obtain ⟨m, hm, hun⟩ := l.removed r hr' hno
    exact hn ⟨m, (List.mem_filter.1 hm).1, (List.mem_filter.1 hm).2, hun⟩
  · have hfile : s'.file f.1 = none := by
      generalize hq : f.1 = q at hun
      cases hun with
      | self => exact c m hm (fun h => under m hm hmm _ .self m h rfl)
      | @child q0 r0 h0 hr0 hp0 => exact c r0 hr0 (fun h => under m hm hmm _ (.child h0 hr0 hp0) r0 h rfl)
    exact (file_none_iff s' f.1).1 hfile f hf rfl
  · by_contra hno
    obtain ⟨_, _, m, hm, hun⟩ := l.gone f hf hno
    exact hn ⟨m, (List.mem_filter.1 hm).1, (List.mem_filter.1 hm).2, hun⟩

/-- An entry with an attached file and an attached file of that. -/
def attached : St := ⟨[row "/c/a" "url" 1 1 (some 10), ⟨"/c/a.x".toList, orphans, 2, 2, some 1, some "/c/a".toList, 1, none⟩,
    ⟨"/c/a.x.y".toList, orphans, 3, 3, some 1, some "/c/a.x".toList, 1, none⟩, row "/c/b" "url" 1 1 (some 10)],
  [("/c/a".toList, ⟨10, 1⟩), ("/c/a.x".toList, ⟨1, 1⟩), ("/c/a.x.y".toList, ⟨1, 1⟩), ("/c/b".toList, ⟨10, 1⟩)]⟩

theorem attached_ok : Unique attached ∧ Rooted attached ∧ Inside envC attached ∧
    ((purgeMatch envC (fun r => r.path == "/c/a".toList) attached).2.rows.map (·.path)) = ["/c/b".toList] := by
  refine ⟨by unfold Unique; decide +kernel, ?_, ?_, by decide +kernel⟩
  · have : ∀ r ∈ attached.rows, (r.parent.all (fun p => decide (p.length < r.path.length))) = true := by decide +kernel
    intro r hr p hp
    have := this r hr
    rw [hp] at this
    simpa using this
  · have : ∀ r ∈ attached.rows, inCache envC r.path = true := by decide +kernel
    exact this

/-- `C62_order`: of an older entry used recently and a newer one not used, the second goes. -/
def usedLater : St := ⟨[row "/c/a" "url" 1 9 (some 10), row "/c/b" "url" 2 2 (some 10), row "/c/d" "url" 3 3 (some 10)],
  [("/c/a".toList, ⟨10, 1⟩), ("/c/b".toList, ⟨10, 2⟩), ("/c/d".toList, ⟨10, 3⟩)]⟩

example : ∃ v ∈ usedLater.rows, v ∉ (decache envC 1000 500 false usedLater).2.rows ∧ Finished v ∧ ¬Protected usedLater.rows v ∧
    Under usedLater.rows v.path "/c/b".toList ∧ (v.owner = orphans ∨ ((row "/c/a" "url" 1 9 (some 10)).owner ≠ orphans ∧ v.access ≤ 9)) := by
  have hi : ∀ r ∈ usedLater.rows, inCache envC r.path = true := by decide +kernel
  refine C62_order envC (fun _ => rfl) 1000 500 usedLater hi (row "/c/b" "url" 2 2 (some 10)) (row "/c/a" "url" 1 9 (some 10)) (by decide +kernel)
    (by decide +kernel) ⟨rfl, ?_⟩ (by decide +kernel)
  rintro (⟨u, hu, hn, _⟩ | ⟨_, h⟩)
  · have : ∀ r ∈ usedLater.rows, r.size.isSome = true := by decide +kernel
    exact hn (this u hu)
  · exact absurd (h (row "/c/d" "url" 3 3 (some 10)) (by decide +kernel)) (by decide)

/-- `C63_size` and `C63_matcher` -/
example : (∃ s', purge envC 1000 1001 busy = (.ok (), s') ∧ s'.size = 0) ∧
    ∃ s', purgeMatch envC (fun r => r.path == "/c/a".toList) attached = (.ok (), s') ∧
      (∀ r, r ∈ s'.rows ↔ r ∈ attached.rows ∧ ¬∃ m ∈ attached.rows, (m.path == "/c/a".toList) = true ∧ Under attached.rows m.path r.path) := by
  have hi : ∀ r ∈ busy.rows, inCache envC r.path = true := by decide +kernel
  refine ⟨C63_size envC (fun _ => rfl) 1000 1001 (by decide) busy hi (by decide +kernel), ?_⟩
  obtain ⟨s', h1, h2, _⟩ := C63_matcher envC (fun _ => rfl) (fun r => r.path == "/c/a".toList) attached attached_ok.1 attached_ok.2.2.1 attached_ok.2.1
  exact ⟨s', h1, h2⟩

end Verif.DiskCache

import Mathlib.Tactic.Ring
import Verif.DiskCache.Usage
import Verif.DiskCache.TableProps4
import Verif.DiskCache.TableProps5

/-!
# Properties of the cache table: the limit on the use of the disk (C118)
-/

namespace Verif.DiskCache

/-! ## Specification -/

/-- Bytes in use on the disk. -/
def inUse (others : Nat) (s : St) : Nat := others + diskBytes s

/-- At most `u` percent of the disk, rounded to whole percents (halves up), are in use. -/
def WithinRounded (u others total : Nat) (s : St) : Prop := 200 * inUse others s < (2 * u + 1) * total

/-- At most `u` percent of the disk are in use. -/
def WithinUsage (u others total : Nat) (s : St) : Prop := 100 * inUse others s ≤ u * total

/-! ## Files and records -/

/-- Bytes of the files without a finished record. -/
def unaccounted (s : St) : Nat :=
  ((s.files.filter (fun f => !((s.rows.filter (fun r => r.size.isSome)).map (·.path)).contains f.1)).map (fun f => f.2.size)).sum

theorem sum_split (P : Path → Bool) (k : Path) (g : File) : ∀ l : List (Path × File), (l.map (·.1)).Nodup → l.lookup k = some g → P k = true →
    ((l.filter (fun f => P f.1 && f.1 != k)).map (fun f => f.2.size)).sum + g.size = ((l.filter (fun f => P f.1)).map (fun f => f.2.size)).sum := by
  intro l
  induction l with
  | nil => intro _ h; cases h
  | cons x l ih =>
    obtain ⟨a, f⟩ := x
    intro hn hl hk
    rw [List.map_cons, List.nodup_cons] at hn
    rw [List.lookup_cons] at hl
    by_cases ha : k = a
    · subst ha
      simp only [beq_self_eq_true] at hl
      cases hl
      have : l.filter (fun f => P f.1 && f.1 != k) = l.filter (fun f => P f.1) := by
        refine List.filter_congr (fun x hx => ?_)
        have : x.1 ≠ k := fun h => hn.1 (h ▸ List.mem_map.2 ⟨x, hx, rfl⟩)
        simp [this]
      rw [List.filter_cons_of_neg (by simp), List.filter_cons_of_pos (by simpa using hk), this]
      simp only [List.map_cons, List.sum_cons]
      omega
    · have : (k == a) = false := by simpa using ha
      rw [this] at hl
      simp only at hl
      have ih := ih hn.2 hl hk
      have hak : (a != k) = true := by simpa using fun h => ha h.symm
      by_cases hp : P a = true
      · rw [List.filter_cons_of_pos (by simp only [hp, hak, Bool.and_self]), List.filter_cons_of_pos (by simpa using hp)]
        simp only [List.map_cons, List.sum_cons]
        omega
      · rw [List.filter_cons_of_neg (by simp [hp]), List.filter_cons_of_neg (by simpa using hp)]
        exact ih

theorem accounts {s : St} (hu : Unique s) (ht : Truthful s) (hn : (s.files.map (·.1)).Nodup) : s.size + unaccounted s = diskBytes s := by
  have gen : ∀ rs : List Row, (rs.map (·.path)).Nodup → (∀ r ∈ rs, ∀ n, r.size = some n → ∃ f, s.file r.path = some f ∧ f.size = n) →
      (rs.map (fun r => r.size.getD 0)).sum +
        ((s.files.filter (fun f => !((rs.filter (fun r => r.size.isSome)).map (·.path)).contains f.1)).map (fun f => f.2.size)).sum = diskBytes s := by
    intro rs
    induction rs with
    | nil => intro _ _; simp [diskBytes]
    | cons r rs ih =>
      intro hu hr
      rw [List.map_cons, List.nodup_cons] at hu
      have ih := ih hu.2 (fun x hx => hr x (List.mem_cons_of_mem _ hx))
      cases hs : r.size with
      | none =>
        rw [List.filter_cons_of_neg (by rw [hs]; simp), List.map_cons, List.sum_cons, hs]
        simpa using ih
      | some n =>
        obtain ⟨f, h1, h2⟩ := hr r List.mem_cons_self n hs
        have h3 := sum_split (fun p => !((rs.filter (fun r => r.size.isSome)).map (·.path)).contains p) r.path f s.files hn h1 (by
          simp only [Bool.not_eq_true', ← Bool.not_eq_true, List.contains_iff_mem]
          intro hm
          obtain ⟨x, hx, he⟩ := List.mem_map.1 hm
          exact hu.1 (List.mem_map.2 ⟨x, (List.mem_filter.1 hx).1, he⟩))
        have h4 : s.files.filter (fun f => !(((r :: rs).filter (fun r => r.size.isSome)).map (·.path)).contains f.1) =
            s.files.filter (fun f => !((rs.filter (fun r => r.size.isSome)).map (·.path)).contains f.1 && f.1 != r.path) := by
          refine List.filter_congr (fun x _ => ?_)
          rw [List.filter_cons_of_pos (by rw [hs]; rfl), List.map_cons, List.contains_cons, Bool.not_or, Bool.and_comm]
          rfl
        rw [h4, List.map_cons, List.sum_cons, hs]
        simp only [Option.getD_some]
        omega
  exact gen s.rows hu ht

theorem sum_le_of_sublist {l l' : List Nat} (h : l'.Sublist l) : l'.sum ≤ l.sum := by
  induction h with
  | slnil => exact Nat.le_refl _
  | cons a h ih => rw [List.sum_cons]; omega
  | cons_cons a h ih => rw [List.sum_cons, List.sum_cons]; omega

theorem lookup_mem {l : List (Path × File)} {p : Path} {f : File} (hm : (p, f) ∈ l) : (l.lookup p).isSome = true := by
  induction l with
  | nil => cases hm
  | cons x l ih =>
    obtain ⟨a, g⟩ := x
    rw [List.lookup_cons]
    by_cases ha : p = a
    · subst ha; simp
    · have : (p == a) = false := by simpa using ha
      rw [this]
      rcases List.mem_cons.1 hm with hm | hm
      · cases hm; exact absurd rfl ha
      · exact ih hm

theorem unaccounted_le {e : Env} {U : Path → Prop} {s s' : St} (l : Loss e U s s') (c : Cleared s s') : unaccounted s' ≤ unaccounted s := by
  unfold unaccounted
  refine sum_le_of_sublist (List.Sublist.map _ ?_)
  have h1 : s'.files.filter (fun f => !((s'.rows.filter (fun r => r.size.isSome)).map (·.path)).contains f.1) =
      (s'.files.filter (fun f => !((s'.rows.filter (fun r => r.size.isSome)).map (·.path)).contains f.1)).filter
        (fun f => !((s.rows.filter (fun r => r.size.isSome)).map (·.path)).contains f.1) := by
    symm
    rw [List.filter_eq_self]
    intro x hx
    obtain ⟨hx, hn⟩ := List.mem_filter.1 hx
    simp only [Bool.not_eq_true', ← Bool.not_eq_true, List.contains_iff_mem] at hn ⊢
    intro hm
    obtain ⟨r, hr, he⟩ := List.mem_map.1 hm
    obtain ⟨hr, hsz⟩ := List.mem_filter.1 hr
    by_cases hr' : r ∈ s'.rows
    · exact hn (List.mem_map.2 ⟨r, List.mem_filter.2 ⟨hr', hsz⟩, he⟩)
    · have h2 := c r hr hr'
      have h3 : (s'.files.lookup r.path).isSome = true := lookup_mem (f := x.2) (by rw [he]; exact hx)
      unfold St.file at h2
      rw [h2] at h3
      cases h3
  rw [h1]
  exact (List.Sublist.filter _ List.filter_sublist).trans (l.files.filter _)

/-! ## What one check does -/

theorem diskBytes_le {e : Env} {U : Path → Prop} {s s' : St} (l : Loss e U s s') : diskBytes s' ≤ diskBytes s :=
  sum_le_of_sublist (l.files.map _)

theorem nodup_loss {e : Env} {U : Path → Prop} {s s' : St} (l : Loss e U s s') (hn : (s.files.map (·.1)).Nodup) : (s'.files.map (·.1)).Nodup :=
  (l.files.map _).nodup hn

/-- Deleting records of known size frees at least that much of the disk. -/
theorem freed (e : Env) (hd : Deletable e) (t goal : Nat) (hg : goal ≠ 0) (s : St) (hi : Inv e s) (ht : Truthful s)
    (hn : (s.files.map (·.1)).Nodup) :
    ∃ tot s', decache e t goal false s = (.ok (), s') ∧ tot + diskBytes s' ≤ diskBytes s ∧
      (100 * tot ≥ goal ∨ ∀ r ∈ s'.rows, ¬(Finished r ∧ ¬Protected s.rows r)) ∧ Inv e s' ∧ Truthful s' ∧ (s'.files.map (·.1)).Nodup := by
  have ht' := tidy_decache e t goal false s
  unfold decache at ht' ⊢
  rw [if_neg hg, if_neg Bool.false_ne_true] at ht' ⊢
  have l := loss_sweep e goal (latestDate t s) s
  obtain ⟨tot, s', h1, h2, c, h3, _⟩ := sweep_spec e hd goal (latestDate t s) s hi.inside
  rw [h1] at l ht'
  replace l : Loss e _ s s' := l
  replace ht' : Tidy' s s' := ht'
  have ht'' := ht'.truthful ht
  have hi' := l.inv hi
  have hn' := nodup_loss l hn
  refine ⟨tot, s', h1, ?_, h3.imp_right (fun h r hr hh => h r hr ((eligible_iff t s r (l.rows.subset hr)).2 hh)), hi', ht'', hn'⟩
  have a1 := accounts hi.unique ht hn
  have a2 := accounts hi'.unique ht'' hn'
  have a3 := unaccounted_le l c
  omega

theorem percent_spec {total used p : Nat} (h0 : 0 < total) (hp : p = (200 * used + total) / (2 * total)) (u : Nat) :
    p ≤ u ↔ 200 * used < (2 * u + 1) * total := by
  subst hp
  rw [← Nat.lt_succ_iff, Nat.div_lt_iff_lt_mul (by omega)]
  have : u.succ * (2 * total) = (2 * u + 1) * total + total := by rw [Nat.succ_eq_add_one]; ring
  rw [this]
  omega

theorem diskUsage_eq {others total : Nat} {s : St} (h0 : 0 < total) (hfit : inUse others s ≤ total) :
    diskUsage others total s = some ⟨(200 * inUse others s + total) / (2 * total), total⟩ := by
  unfold inUse at *
  unfold diskUsage diskPercent
  rw [if_neg (by omega)]
  have : total - (total - (others + diskBytes s)) = others + diskBytes s := by omega
  rw [this]
  rfl

theorem keeps_housekeeping (e : Env) (t : Nat) {s : St} (hi : Inv e s) (ht : Truthful s) (hn : (s.files.map (·.1)).Nodup) :
    Inv e (housekeeping e t false s) ∧ Truthful (housekeeping e t false s) ∧ ((housekeeping e t false s).files.map (·.1)).Nodup ∧
    diskBytes (housekeeping e t false s) = diskBytes s := by
  have k := housekeeping_kept e t false s
  refine ⟨⟨k.unique hi.unique, k.inside hi.inside, k.rooted hi.rooted⟩, truthful_housekeeping e t false ht, by rw [k.files]; exact hn, ?_⟩
  unfold diskBytes
  rw [k.files]

theorem usage_spec (e : Env) (hd : Deletable e) (t u others total : Nat) (s : St) (hi : Inv e s) (ht : Truthful s)
    (hn : (s.files.map (·.1)).Nodup) (h0 : 0 < total) (hfit : inUse others s ≤ total) :
    ∃ s', usageNow e t (some u) others total s = (.ok (), s') ∧
      (WithinRounded u others total s' ∨ ∀ r ∈ s'.rows, ¬(Finished r ∧ ¬Protected (housekeeping e t false s).rows r)) ∧
      (WithinRounded u others total s → s' = s) := by
  unfold usageNow
  simp only
  rw [diskUsage_eq h0 hfit]
  simp only [checkUsage]
  have hp := percent_spec h0 (rfl : (200 * inUse others s + total) / (2 * total) = _) u
  have hp0 := percent_spec h0 (rfl : (200 * inUse others s + total) / (2 * total) = _) ((200 * inUse others s + total) / (2 * total))
  generalize (200 * inUse others s + total) / (2 * total) = p at *
  by_cases hpu : p > u
  · rw [if_pos hpu]
    obtain ⟨i1, i2, i3, i4⟩ := keeps_housekeeping e t hi ht hn
    generalize housekeeping e t false s = h at *
    obtain ⟨tot, s', h1, h2, h3, _⟩ := freed e hd t ((p - u) * total) (Nat.mul_ne_zero (by omega) (by omega)) h i1 i2 i3
    rw [h1]
    refine ⟨s', rfl, h3.imp_left (fun h3 => ?_), fun hw => absurd (hp.2 hw) (by omega)⟩
    have h4 := hp0.1 (Nat.le_refl p)
    unfold WithinRounded inUse at *
    rw [i4] at h2
    obtain ⟨k, rfl⟩ : ∃ k, p = u + k := ⟨p - u, by omega⟩
    rw [show u + k - u = k by omega] at h3
    have : (2 * (u + k) + 1) * total = (2 * u + 1) * total + 2 * (k * total) := by ring
    omega
  · rw [if_neg hpu]
    exact ⟨s, rfl, .inl (hp.1 (by omega)), fun _ => rfl⟩

/-! ## C118 -/

/-- The state `check_size` looks at the disk in: the absolute limit has been dealt with. -/
theorem max_spec (e : Env) (hd : Deletable e) (t : Nat) (limit : Option Nat) (s : St) (hi : Inv e s) (ht : Truthful s)
    (hn : (s.files.map (·.1)).Nodup) :
    ∃ s', checkMax e t limit s = (.ok (), s') ∧ Inv e s' ∧ Truthful s' ∧ (s'.files.map (·.1)).Nodup ∧ diskBytes s' ≤ diskBytes s := by
  unfold checkMax
  cases limit with
  | none => exact ⟨s, rfl, hi, ht, hn, Nat.le_refl _⟩
  | some m =>
    simp only
    by_cases hm : s.size > m
    · rw [if_pos hm]
      obtain ⟨i1, i2, i3, i4⟩ := keeps_housekeeping e t hi ht hn
      generalize housekeeping e t false s = h at *
      obtain ⟨tot, s', h1, h2, _, j1, j2, j3⟩ := freed e hd t (100 * (s.size - m)) (by omega) h i1 i2 i3
      exact ⟨s', h1, j1, j2, j3, by omega⟩
    · rw [if_neg hm]
      exact ⟨s, rfl, hi, ht, hn, Nat.le_refl _⟩

/-- After `check_size`, the use of the disk, in whole percents, is at most `maximum-cache-disk-usage`, or nothing is left that may be
trimmed — as long as others leave the files of finished entries alone. -/
theorem C118_reaches_partial (e : Env) (hd : Deletable e) (h : List Op) (hf : FairHistory e h) (hn : ((run e h).files.map (·.1)).Nodup)
    (t u others total : Nat) (limit : Option Nat) (h0 : 0 < total) (hfit : inUse others (run e h) ≤ total) :
    ∃ s1 s', checkMax e t limit (run e h) = (.ok (), s1) ∧ checkNow e t limit (some u) others total (run e h) = (.ok (), s') ∧
      (WithinRounded u others total s' ∨ ∀ r ∈ s'.rows, ¬(Finished r ∧ ¬Protected (housekeeping e t false s1).rows r)) := by
  obtain ⟨s1, h1, i1, i2, i3, i4⟩ := max_spec e hd t limit _ (inv_run e h) (truthful_run e h hf) hn
  obtain ⟨s', h2, h3, _⟩ := usage_spec e hd t u others total s1 i1 i2 i3 h0 (by unfold inUse at *; omega)
  refine ⟨s1, s', h1, ?_, h3⟩
  unfold checkNow
  rw [h1]
  exact h2

/-- Nothing is trimmed while the use of the disk is within the limit: exactly when the use, in whole percents, is at most the limit,
`check_size` starts no trimming because of it. -/
theorem C118_quiet (e : Env) (t u others total : Nat) (s : St) (h0 : 0 < total) (hfit : inUse others s ≤ total) :
    (WithinUsage u others total s → checkNow e t none (some u) others total s = (.ok (), s)) ∧
    (WithinRounded u others total s → checkNow e t none (some u) others total s = (.ok (), s)) := by
  have key : WithinRounded u others total s → checkNow e t none (some u) others total s = (.ok (), s) := by
    intro hw
    show usageNow e t (some u) others total s = (.ok (), s)
    unfold usageNow
    simp only
    rw [diskUsage_eq h0 hfit]
    simp only [checkUsage]
    rw [if_neg (by
      have := (percent_spec h0 (rfl : (200 * inUse others s + total) / (2 * total) = _) u).2 hw
      omega)]
  refine ⟨fun hw => key ?_, key⟩
  unfold WithinUsage at hw
  unfold WithinRounded
  have : (2 * u + 1) * total = 2 * (u * total) + total := by ring
  omega

/-- The limit asked for is not reached exactly: on a disk of 1000 bytes of which 904 are used, with a limit of 90 %, nothing is trimmed
although there is an old entry that could be. -/
theorem C118_refuted : ∃ s, Truthful s ∧ Inv envC s ∧ ¬WithinUsage 90 884 1000 s ∧
    (∃ r ∈ s.rows, Finished r ∧ ¬Protected s.rows r) ∧ checkNow envC 1000 none (some 90) 884 1000 s = (.ok (), s) := by
  refine ⟨busy, ?_, ⟨by unfold Unique; decide +kernel, by unfold Inside; decide +kernel, by unfold Rooted; decide +kernel⟩,
    by unfold WithinUsage; decide +kernel, ⟨row "/c/a" "url" 1 1 (some 10), by decide +kernel, rfl, ?_⟩,
    (C118_quiet envC 1000 90 884 1000 busy (by decide) (by decide +kernel)).2 (by unfold WithinRounded; decide +kernel)⟩
  · intro r hr n hn
    unfold busy at hr
    simp only [List.mem_cons, List.not_mem_nil, or_false] at hr
    rcases hr with rfl | rfl | rfl
    · cases hn; exact ⟨⟨10, 1⟩, by decide +kernel, rfl⟩
    · cases hn
    · cases hn; exact ⟨⟨10, 3⟩, by decide +kernel, rfl⟩
  · unfold Protected Finished
    decide +kernel

/-- A disk without size — some file systems report 0 blocks — makes `check_size` raise ZeroDivisionError whenever a limit on the use of
the disk is set, after the absolute limit has been dealt with. -/
theorem C118_zero_refuted (e : Env) (t u others : Nat) (limit : Option Nat) (s s1 : St) (h1 : checkMax e t limit s = (.ok (), s1)) :
    checkNow e t limit (some u) others 0 s = (.error .zeroDivision, s1) := by
  unfold checkNow
  rw [h1]
  rfl

/-- C118: without a relative limit the disk is not looked at; a record of a file outside the cache fails the check with its AssertionError
at either limit, and after the absolute one the disk is not looked at. -/
theorem C118_unset (e : Env) (t others total : Nat) (limit : Option Nat) (s s1 : St) :
    (checkMax e t limit s = (.ok (), s1) → checkNow e t limit none others total s = (.ok (), s1)) ∧
    (∀ usage x, checkMax e t limit s = (.error x, s1) → checkNow e t limit usage others total s = (.error (.cache x), s1)) ∧
    (∀ u x s2, checkMax e t limit s = (.ok (), s1) → 0 < total → inUse others s1 ≤ total → ¬WithinRounded u others total s1 →
      decache e t (((200 * inUse others s1 + total) / (2 * total) - u) * total) false (housekeeping e t false s1) = (.error x, s2) →
      checkNow e t limit (some u) others total s = (.error (.cache x), s2)) := by
  refine ⟨fun h => ?_, fun usage x h => ?_, fun u x s2 h h0 hfit hw hd => ?_⟩
  · unfold checkNow; rw [h]; rfl
  · unfold checkNow; rw [h]
  · unfold checkNow
    rw [h]
    show usageNow e t (some u) others total s1 = _
    unfold usageNow
    simp only
    rw [diskUsage_eq h0 hfit]
    simp only [checkUsage]
    rw [if_pos (by
      have := (percent_spec h0 (rfl : (200 * inUse others s1 + total) / (2 * total) = _) u).1
      exact Nat.lt_of_not_le fun hle => hw (this hle)), hd]

/-! ## Non-vacuity -/

/-- Two entries registered, written and recorded. -/
def twoEntries : List Op :=
  [.register 1 "/c/a".toList "url".toList, .world [("/c/a".toList, ⟨300, 1⟩)], .update "/c/a".toList none,
    .register 2 "/c/b".toList "url".toList, .world [("/c/a".toList, ⟨300, 1⟩), ("/c/b".toList, ⟨200, 2⟩)], .update "/c/b".toList none]

/-- On a disk of 1000 bytes with 450 used by others, a limit of 80 % trims the older entry. -/
theorem twoEntries_ok : FairHistory envC twoEntries ∧ (checkNow envC 1000 none (some 80) 450 1000 (run envC twoEntries)).2.rows.map (·.path) = ["/c/b".toList] ∧
    (checkNow envC 1000 none (some 80) 450 1000 (run envC twoEntries)).2.files.map (·.1) = ["/c/b".toList] ∧
    ¬WithinRounded 80 450 1000 (run envC twoEntries) ∧ inUse 450 (run envC twoEntries) ≤ 1000 ∧
    (run envC twoEntries).files.map (·.1) = ["/c/a".toList, "/c/b".toList] := by
  unfold WithinRounded
  exact ⟨fair_of_all _ _ (by decide +kernel), by decide +kernel⟩

/-- `C118_reaches_partial`, and `C118_quiet` with a limit of 96 %. -/
example : (∃ s1 s', checkMax envC 1000 none (run envC twoEntries) = (.ok (), s1) ∧
      checkNow envC 1000 none (some 80) 450 1000 (run envC twoEntries) = (.ok (), s') ∧
      (WithinRounded 80 450 1000 s' ∨ ∀ r ∈ s'.rows, ¬(Finished r ∧ ¬Protected (housekeeping envC 1000 false s1).rows r))) ∧
    checkNow envC 1000 none (some 96) 450 1000 (run envC twoEntries) = (.ok (), run envC twoEntries) :=
  ⟨C118_reaches_partial envC (fun _ => rfl) twoEntries twoEntries_ok.1 (by rw [twoEntries_ok.2.2.2.2.2]; decide +kernel) 1000 80 450 1000 none (by decide)
      twoEntries_ok.2.2.2.2.1,
    (C118_quiet envC 1000 96 450 1000 (run envC twoEntries) (by decide) twoEntries_ok.2.2.2.2.1).1 (by unfold WithinUsage; decide +kernel)⟩

/-- A manager of another directory, with records of files it must not touch. -/
def envD : Env := ⟨"/d".toList, fun _ => false⟩

/-- `C118_unset`: nothing set; a record of a file outside, at either limit (10 bytes, or 50 % of a disk of 100). -/
example : checkNow envC 1000 none none 5 0 busy = (.ok (), busy) ∧ (checkNow envD 1000 (some 10) none 5 0 busy).1 = .error (.cache .assertion) ∧
    (checkNow envD 1000 none (some 50) 60 100 busy).1 = .error (.cache .assertion) := by
  refine ⟨(C118_unset envC 1000 5 0 none busy busy).1 rfl, ?_, ?_⟩
  · rw [(C118_unset envD 1000 5 0 (some 10) busy (checkMax envD 1000 (some 10) busy).2).2.1 none .assertion (Prod.ext (by decide +kernel) rfl)]
  · rw [(C118_unset envD 1000 60 100 none busy busy).2.2 50 .assertion
      (decache envD 1000 (((200 * inUse 60 busy + 100) / (2 * 100) - 50) * 100) false (housekeeping envD 1000 false busy)).2
      rfl (by decide) (by decide +kernel) (by unfold WithinRounded; decide +kernel) (Prod.ext (by decide +kernel) rfl)]

end Verif.DiskCache

import Verif.DiskCache.TableProps

/-!
# Properties of the cache table: how far trimming stays above the limit (C61)
-/

namespace Verif.DiskCache

/-- What is above the maximum after `check_size`, if entries that may be trimmed remain, is at most what housekeeping counted for the
first time in that call. -/
theorem C61_overshoot (e : Env) (hd : Deletable e) (t m : Nat) (s : St) (hs : Inside e s) (disk : Disk) :
    ∃ s', checkSize e t (some m) none disk s = (.ok (), s') ∧
      (s'.size ≤ m + ((housekeeping e t false s).size - s.size) ∨
        ∀ r ∈ s'.rows, ¬(Finished r ∧ ¬Protected (housekeeping e t false s).rows r)) := by
  have key : ∃ s', checkMax e t (some m) s = (.ok (), s') ∧ (s'.size ≤ m + ((housekeeping e t false s).size - s.size) ∨
        ∀ r ∈ s'.rows, ¬(Finished r ∧ ¬Protected (housekeeping e t false s).rows r)) := by
    unfold checkMax
    simp only
    by_cases hsz : s.size > m
    · rw [if_pos hsz]
      have hi := (housekeeping_kept e t false s).inside hs
      generalize housekeeping e t false s = h at *
      unfold decache
      rw [if_neg (by omega), if_neg Bool.false_ne_true]
      have l := loss_sweep e (100 * (s.size - m)) (latestDate t h) h
      obtain ⟨tot, s', h1, h2, _, h3, _⟩ := sweep_spec e hd (100 * (s.size - m)) (latestDate t h) h hi
      rw [h1] at l
      refine ⟨s', h1, ?_⟩
      rcases h3 with h3 | h3
      · left
        omega
      · right
        intro r hr hh
        exact h3 r hr ((eligible_iff t h r (l.rows.subset hr)).2 hh)
    · rw [if_neg hsz]
      exact ⟨s, rfl, .inl (by omega)⟩
  obtain ⟨s', h1, h2⟩ := key
  refine ⟨s', ?_, h2⟩
  unfold checkSize
  rw [h1]
  rfl

/-- `late`: 95 above the maximum of 15, at most the 100 counted in that call; the next call frees the rest. -/
example : (checkSize envC 1000 (some 15) none ⟨0, 0⟩ late).2.size = 110 ∧ (housekeeping envC 1000 false late).size - late.size = 100 ∧
    (checkSize envC 1000 (some 15) none ⟨0, 0⟩ (checkSize envC 1000 (some 15) none ⟨0, 0⟩ late).2).2.size = 100 := by
  decide +kernel

/-- Housekeeping has nothing to do: every file of the directory has a record or is too recent, every file that exists is counted. -/
def Settled (e : Env) (t : Nat) (s : St) : Prop :=
  (∀ p f, direct e p = true → s.file p = some f → (∃ r ∈ s.rows, r.path = p) ∨ t - f.mtime < 120) ∧
  ∀ r ∈ s.rows, r.size = none → s.file r.path = none

theorem file_of_mem {s : St} {p : Path} (h : p ∈ s.files.map (·.1)) : ∃ f, s.file p = some f := by
  cases hf : s.file p with
  | some f => exact ⟨f, rfl⟩
  | none =>
    obtain ⟨g, hg, rfl⟩ := List.mem_map.1 h
    exact absurd rfl ((file_none_iff s _).1 hf g hg)

theorem housekeeping_settled {e : Env} {t : Nat} {s : St} (h : Settled e t s) : housekeeping e t false s = s := by
  have h1 : ∀ names : List Path, (∀ p ∈ names, direct e p = true ∧ ∃ f, s.file p = some f) → names.foldl (adopt e t) s = s := by
    intro names
    induction names with
    | nil => intro _; rfl
    | cons p ps ih =>
      intro hp
      obtain ⟨hdir, f, hf⟩ := hp p List.mem_cons_self
      have : adopt e t s p = s := by
        unfold adopt
        rcases h.1 p f hdir hf with ⟨r, hr, hrp⟩ | hy
        · rw [if_pos (List.any_eq_true.2 ⟨r, hr, by simpa using hrp⟩)]
        · split
          · rfl
          · rw [hf]
            simp only
            rw [if_pos hy]
      rw [List.foldl_cons, this]
      exact ih (fun q hq => hp q (List.mem_cons_of_mem _ hq))
  unfold housekeeping
  rw [h1]
  · unfold updateCache
    have : s.rows.filterMap (refresh s false) = s.rows := by
      have hg : ∀ rs : List Row, (∀ r ∈ rs, refresh s false r = some r) → rs.filterMap (refresh s false) = rs := by
        intro rs
        induction rs with
        | nil => intro _; rfl
        | cons r rs ih =>
          intro hr
          rw [List.filterMap_cons, hr r List.mem_cons_self, ih (fun q hq => hr q (List.mem_cons_of_mem _ hq))]
      apply hg
      intro r hr
      unfold refresh
      cases hsz : r.size with
      | some n => rfl
      | none => simp only [h.2 r hr hsz]; rfl
    rw [this]
  · intro p hp
    rw [List.mem_filter] at hp
    exact ⟨hp.2, file_of_mem hp.1⟩

theorem adopt_files (e : Env) (t : Nat) (s : St) (p : Path) : (adopt e t s p).files = s.files := by
  rcases adopt_cases e t s p with h | ⟨_, _, h⟩ <;> rw [h]

theorem adopt_rows (e : Env) (t : Nat) (s : St) (p : Path) : ∀ r ∈ s.rows, r ∈ (adopt e t s p).rows := by
  intro r hr
  rcases adopt_cases e t s p with h | ⟨_, _, h⟩ <;> rw [h]
  · exact hr
  · exact List.mem_append_left _ hr

theorem adopt_does {e : Env} {t : Nat} {s : St} {p : Path} {f : File} (hdir : direct e p = true) (hf : s.file p = some f) :
    (∃ r ∈ (adopt e t s p).rows, r.path = p) ∨ t - f.mtime < 120 := by
  unfold adopt
  by_cases ha : s.rows.any (fun r => r.path = p)
  · rw [if_pos ha]
    obtain ⟨r, hr, hp⟩ := List.any_eq_true.1 ha
    exact .inl ⟨r, hr, by simpa using hp⟩
  · rw [if_neg ha, hf]
    simp only
    by_cases hy : t - f.mtime < 120
    · exact .inr hy
    · rw [if_neg hy, register_new e t p orphans _ s (direct_inCache hdir) (by simpa using ha)]
      exact .inl ⟨_, List.mem_append_right _ (List.mem_singleton.2 rfl), rfl⟩

theorem fold_does {e : Env} {t : Nat} (names : List Path) (s : St) :
    (names.foldl (adopt e t) s).files = s.files ∧ (∀ r ∈ s.rows, r ∈ (names.foldl (adopt e t) s).rows) ∧
    ∀ p ∈ names, ∀ f, direct e p = true → s.file p = some f → (∃ r ∈ (names.foldl (adopt e t) s).rows, r.path = p) ∨ t - f.mtime < 120 := by
  induction names generalizing s with
  | nil => exact ⟨rfl, fun _ h => h, fun _ h => by cases h⟩
  | cons q qs ih =>
    obtain ⟨h1, h2, h3⟩ := ih (adopt e t s q)
    have hfl : ∀ p, (adopt e t s q).file p = s.file p := fun p => by unfold St.file; rw [adopt_files]
    rw [List.foldl_cons]
    refine ⟨h1.trans (adopt_files ..), fun r hr => h2 r (adopt_rows e t s q r hr), ?_⟩
    intro p hp f hdir hf
    rcases List.mem_cons.1 hp with rfl | hp
    · rcases adopt_does (t := t) hdir hf with ⟨r, hr, hrp⟩ | h
      · exact .inl ⟨r, h2 r hr, hrp⟩
      · exact .inr h
    · exact h3 p hp f hdir (by rw [hfl]; exact hf)

/-- After housekeeping there is nothing to do for housekeeping. -/
theorem settled_housekeeping (e : Env) (t : Nat) (s : St) : Settled e t (housekeeping e t false s) := by
  have hk := housekeeping_kept e t false s
  have hfl : ∀ p, (housekeeping e t false s).file p = s.file p := fun p => by unfold St.file; rw [hk.files]
  refine ⟨?_, fun r hr hn => by rw [hfl]; exact (hk.sized r hr hn).2⟩
  intro p f hdir hf
  rw [hfl] at hf
  obtain ⟨h1, _, h3⟩ := fold_does (e := e) (t := t) ((s.files.map (·.1)).filter (direct e)) s
  have hp : p ∈ (s.files.map (·.1)).filter (direct e) := by
    rw [List.mem_filter]
    refine ⟨?_, hdir⟩
    by_contra hc
    have : s.file p = none := (file_none_iff s p).2 (fun g hg he => hc (List.mem_map.2 ⟨g, hg, he⟩))
    rw [this] at hf
    cases hf
  rcases h3 p hp f hdir hf with ⟨r, hr, hrp⟩ | h
  · left
    unfold housekeeping updateCache
    obtain ⟨r', hr'⟩ := refresh_kept (((s.files.map (·.1)).filter (direct e)).foldl (adopt e t) s) r
    exact ⟨r', List.mem_filterMap.2 ⟨r, hr, hr'⟩, ((refresh_same hr').path).trans hrp⟩
  · exact .inr h

theorem lookup_sublist {l l' : List (Path × File)} (h : l'.Sublist l) (hn : (l.map (·.1)).Nodup) {p : Path} {f : File}
    (hf : l'.lookup p = some f) : l.lookup p = some f := by
  induction h with
  | slnil => exact hf
  | cons a h ih =>
    rw [List.map_cons, List.nodup_cons] at hn
    have := ih hn.2 hf
    obtain ⟨q, g⟩ := a
    rw [List.lookup_cons]
    have hne : (p == q) = false := by
      rw [beq_eq_false_iff_ne]
      rintro rfl
      have hno := (file_none_iff ⟨[], _⟩ p).2 (fun x hx hxp => hn.1 (List.mem_map.2 ⟨x, hx, hxp⟩))
      unfold St.file at hno
      rw [this] at hno
      cases hno
    rw [hne]
    exact this
  | cons_cons a h ih =>
    rw [List.map_cons, List.nodup_cons] at hn
    obtain ⟨q, g⟩ := a
    rw [List.lookup_cons] at hf ⊢
    cases hpq : p == q with
    | true => rw [hpq] at hf; exact hf
    | false => rw [hpq] at hf; exact ih hn.2 hf

theorem settled_loss {e : Env} {t : Nat} {U : Path → Prop} {s s' : St} (h : Settled e t s) (l : Loss e U s s') (c : Cleared s s')
    (hn : (s.files.map (·.1)).Nodup) : Settled e t s' := by
  refine ⟨?_, fun r hr hz => file_none_of_sublist l.files (h.2 r (l.rows.subset hr) hz)⟩
  intro p f hdir hf
  rcases h.1 p f hdir (lookup_sublist l.files hn hf) with ⟨r, hr, rfl⟩ | hy
  · by_cases hr' : r ∈ s'.rows
    · exact .inl ⟨r, hr', rfl⟩
    · rw [c r hr hr'] at hf
      cases hf
  · exact .inr hy

/-- Calling `check_size` again, when nothing has changed in between, brings the cache within its maximum or leaves nothing that may be
trimmed. -/
theorem C61_again (e : Env) (hd : Deletable e) (t m : Nat) (s : St) (hs : Inside e s) (hn : (s.files.map (·.1)).Nodup) (disk disk' : Disk) :
    ∃ s' s'', checkSize e t (some m) none disk s = (.ok (), s') ∧ checkSize e t (some m) none disk' s' = (.ok (), s'') ∧
      (s''.size ≤ m ∨ ∀ r ∈ s''.rows, ¬(Finished r ∧ ¬Protected s'.rows r)) := by
  have key : ∃ s', checkMax e t (some m) s = (.ok (), s') ∧ Inside e s' ∧ (s'.size ≤ m ∨ housekeeping e t false s' = s') := by
    unfold checkMax
    simp only
    by_cases hsz : s.size > m
    · rw [if_pos hsz]
      have hk := housekeeping_kept e t false s
      have hset := settled_housekeeping e t s
      have hi := hk.inside hs
      have hn' : ((housekeeping e t false s).files.map (·.1)).Nodup := by rw [hk.files]; exact hn
      generalize housekeeping e t false s = h at *
      unfold decache
      rw [if_neg (by omega), if_neg Bool.false_ne_true]
      have l := loss_sweep e (100 * (s.size - m)) (latestDate t h) h
      obtain ⟨tot, s', h1, _, h2, _⟩ := sweep_spec e hd (100 * (s.size - m)) (latestDate t h) h hi
      rw [h1] at l
      exact ⟨s', h1, hi.sub l, .inr (housekeeping_settled (settled_loss hset l h2 hn'))⟩
    · rw [if_neg hsz]
      exact ⟨s, rfl, hs, .inl (by omega)⟩
  obtain ⟨s', h1, hi, h2⟩ := key
  have hc : checkSize e t (some m) none disk s = (.ok (), s') := by
    unfold checkSize
    rw [h1]
    rfl
  rcases h2 with h2 | h2
  · refine ⟨s', s', hc, ?_, .inl h2⟩
    unfold checkSize checkMax
    simp only
    rw [if_neg (by omega)]
    rfl
  · obtain ⟨s'', h3, h4⟩ := C61_reaches_partial e hd t m s' hi h2 disk'
    exact ⟨s', s'', hc, h3, h4⟩

/-- `C61_again` -/
example : ∃ s' s'', checkSize envC 1000 (some 15) none ⟨0, 0⟩ late = (.ok (), s') ∧ checkSize envC 1000 (some 15) none ⟨0, 0⟩ s' = (.ok (), s'') ∧
    (s''.size ≤ 15 ∨ ∀ r ∈ s''.rows, ¬(Finished r ∧ ¬Protected s'.rows r)) := by
  have hi : ∀ r ∈ late.rows, inCache envC r.path = true := by decide +kernel
  exact C61_again envC (fun _ => rfl) 1000 15 late hi (by decide +kernel) ⟨0, 0⟩ ⟨0, 0⟩

end Verif.DiskCache

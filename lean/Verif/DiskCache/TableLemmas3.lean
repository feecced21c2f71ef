import Verif.DiskCache.TableLemmas2

/-!
# Lemmas: housekeeping, and what every operation does to the rows
-/

namespace Verif.DiskCache

/-- The same record, up to the size. -/
structure Same (r r' : Row) : Prop where
  path : r'.path = r.path
  owner : r'.owner = r.owner
  created : r'.created = r.created
  access : r'.access = r.access
  parent : r'.parent = r.parent
  accesses : r'.accesses = r.accesses
  data : r'.data = r.data

theorem Same.refl (r : Row) : Same r r := ⟨rfl, rfl, rfl, rfl, rfl, rfl, rfl⟩

theorem refresh_same {s : St} {clean : Bool} {r r' : Row} (h : refresh s clean r = some r') : Same r r' := by
  unfold refresh at h
  cases hs : r.size with
  | some n => rw [hs] at h; cases h; exact .refl _
  | none =>
    rw [hs] at h
    cases hf : s.file r.path with
    | some f => rw [hf] at h; cases h; exact ⟨rfl, rfl, rfl, rfl, rfl, rfl, rfl⟩
    | none =>
      rw [hf] at h
      cases clean with
      | true => cases h
      | false => cases h; exact .refl _

theorem refresh_kept (s : St) (r : Row) : ∃ r', refresh s false r = some r' := by
  unfold refresh
  split
  · exact ⟨_, rfl⟩
  · split
    · exact ⟨_, rfl⟩
    · exact ⟨_, rfl⟩

theorem paths_filterMap (rs : List Row) (g : Row → Option Row) (hg : ∀ r r', g r = some r' → r'.path = r.path) :
    ((rs.filterMap g).map (·.path)).Sublist (rs.map (·.path)) := by
  induction rs with
  | nil => simp
  | cons r rs ih =>
    cases h : g r with
    | none =>
      simp only [List.filterMap_cons, h, List.map_cons]
      exact ih.trans (List.sublist_cons_self _ _)
    | some r' =>
      simp only [List.filterMap_cons, h, List.map_cons, hg r r' h]
      exact ih.cons_cons _

/-- What `register` does: a touch, a new row at the end, or nothing. -/
theorem register_new (e : Env) (t : Nat) (p : Path) (o : List Char) (par : Option Path) (s : St) (hp : inCache e p = true)
    (hn : s.rows.any (fun r => r.path = p) = false) :
    (register e t p o par s) = (.ok (), { s with rows := s.rows ++ [⟨p, o, t, t, none, par, 1, none⟩] }) := by
  unfold register
  rw [if_pos hp, if_neg (by rw [hn]; exact Bool.false_ne_true)]

theorem any_path_false {s : St} {p : Path} : s.rows.any (fun r => r.path = p) = false ↔ ∀ r ∈ s.rows, r.path ≠ p := by
  rw [List.any_eq_false]
  simp

theorem findParent_spec {s : St} {full q : Path} (h : findParent s full = some q) : ∃ r ∈ s.rows, r.path = q ∧ q <+: full := by
  unfold findParent at h
  cases hf : s.rows.find? (fun r => r.parent = none && (beforeDot full).isPrefixOf r.path && r.path.isPrefixOf full) with
  | none => rw [hf] at h; cases h
  | some r =>
    rw [hf] at h
    cases h
    have h1 := List.find?_some hf
    simp only [Bool.and_eq_true] at h1
    exact ⟨r, List.mem_of_find?_eq_some hf, rfl, List.isPrefixOf_iff_prefix.1 h1.2⟩

theorem adopt_cases (e : Env) (t : Nat) (s : St) (full : Path) :
    adopt e t s full = s ∨ ((∀ r ∈ s.rows, r.path ≠ full) ∧ inCache e full = true ∧
      adopt e t s full = { s with rows := s.rows ++ [⟨full, orphans, t, t, none, findParent s full, 1, none⟩] }) := by
  unfold adopt
  by_cases ha : s.rows.any (fun r => r.path = full)
  · rw [if_pos ha]
    exact .inl rfl
  · rw [if_neg ha]
    have hn : s.rows.any (fun r => r.path = full) = false := by simpa using ha
    have key : (register e t full orphans (findParent s full) s).2 = s ∨ ((∀ r ∈ s.rows, r.path ≠ full) ∧ inCache e full = true ∧
        (register e t full orphans (findParent s full) s).2 = { s with rows := s.rows ++ [⟨full, orphans, t, t, none, findParent s full, 1, none⟩] }) := by
      by_cases hp : inCache e full
      · right
        rw [register_new e t full orphans _ s hp hn]
        exact ⟨any_path_false.1 hn, hp, rfl⟩
      · left
        unfold register
        rw [if_neg hp]
    cases s.file full with
    | none => exact key
    | some f =>
      simp only
      by_cases hm : t - f.mtime < 120
      · rw [if_pos hm]
        exact .inl rfl
      · rw [if_neg hm]
        exact key

/-- The rows after looking at the directory: the old ones and, behind them, new ones of this instant. -/
structure Grown (e : Env) (t : Nat) (s s' : St) : Prop where
  files : s'.files = s.files
  rows : ∃ new, s'.rows = s.rows ++ new ∧ ∀ r ∈ new, r.owner = orphans ∧ r.created = t ∧ r.accesses = 1 ∧ r.size = none ∧
    direct e r.path = true
  unique : Unique s → Unique s'
  inside : Inside e s → Inside e s'
  rooted : Rooted s → Rooted s'

theorem grown_fold (e : Env) (t : Nat) (names : List Path) (hn : ∀ p ∈ names, direct e p = true) (s : St) :
    Grown e t s (names.foldl (adopt e t) s) := by
  induction names generalizing s with
  | nil => exact ⟨rfl, ⟨[], by simp⟩, id, id, id⟩
  | cons p ps ih =>
    rw [List.foldl_cons]
    have hrec := ih (fun q hq => hn q (List.mem_cons_of_mem _ hq)) (adopt e t s p)
    rcases adopt_cases e t s p with h | ⟨hno, hin, h⟩
    · rw [h] at hrec ⊢
      exact hrec
    · obtain ⟨h1, ⟨new, h2, h3⟩, h4, h5, h6⟩ := hrec
      rw [h] at h1 h2 h4 h5 h6
      rw [h]
      refine ⟨h1, ⟨⟨p, orphans, t, t, none, findParent s p, 1, none⟩ :: new, by rw [h2]; simp, ?_⟩, fun hu => h4 ?_, fun hi => h5 ?_, fun hr => h6 ?_⟩
      · intro r hr
        rcases List.mem_cons.1 hr with rfl | hr
        · exact ⟨rfl, rfl, rfl, rfl, hn p List.mem_cons_self⟩
        · exact h3 r hr
      · unfold Unique at *
        simp only [List.map_append, List.map_cons, List.map_nil]
        rw [List.nodup_append]
        refine ⟨hu, by simp, ?_⟩
        intro a ha b hb
        obtain ⟨r, hr, rfl⟩ := List.mem_map.1 ha
        simp only [List.mem_singleton] at hb
        rw [hb]
        exact hno r hr
      · intro r hr
        rcases List.mem_append.1 hr with hr | hr
        · exact hi r hr
        · simp only [List.mem_singleton] at hr
          rw [hr]
          exact hin
      · intro r hr' q hq
        rcases List.mem_append.1 hr' with hr' | hr'
        · exact hr r hr' q hq
        · simp only [List.mem_singleton] at hr'
          subst hr'
          obtain ⟨r0, hr0, hpath, hpre⟩ := findParent_spec hq
          rcases Nat.lt_or_ge q.length p.length with hlt | hge
          · exact hlt
          · exact absurd (hpath.trans (hpre.eq_of_length_le hge)) (hno r0 hr0)

theorem direct_inCache {e : Env} {p : Path} (h : direct e p = true) : inCache e p = true := by
  unfold direct at h
  simp only [Bool.and_eq_true] at h
  have h1 := List.isPrefixOf_iff_prefix.1 h.1.1.1
  exact List.isPrefixOf_iff_prefix.2 (List.IsPrefix.trans (List.prefix_append _ _) h1)

/-- What `_housekeeping` does to the rows. -/
structure Kept (e : Env) (t : Nat) (clean : Bool) (s s' : St) : Prop where
  files : s'.files = s.files
  back : ∀ r' ∈ s'.rows, (∃ r ∈ s.rows, Same r r') ∨ (r'.owner = orphans ∧ r'.created = t ∧ r'.accesses = 1 ∧ direct e r'.path = true)
  forth : clean = false → ∀ r ∈ s.rows, ∃ r' ∈ s'.rows, Same r r' ∧ (s.file r.path = none → r'.size = r.size)
  sized : ∀ r' ∈ s'.rows, r'.size = none → clean = false ∧ s.file r'.path = none
  sizes : ∀ r' ∈ s'.rows, r' ∈ s.rows ∨ r'.size = none ∨ ∃ f, s.file r'.path = some f ∧ r'.size = some f.size
  unique : Unique s → Unique s'
  inside : Inside e s → Inside e s'
  rooted : Rooted s → Rooted s'

theorem housekeeping_kept (e : Env) (t : Nat) (clean : Bool) (s : St) : Kept e t clean s (housekeeping e t clean s) := by
  unfold housekeeping
  have g := grown_fold e t ((s.files.map (·.1)).filter (direct e)) (fun p hp => (List.mem_filter.1 hp).2) s
  generalize ((s.files.map (·.1)).filter (direct e)).foldl (adopt e t) s = s1 at *
  obtain ⟨hf, ⟨new, hrows, hnew⟩, hu, hi, hr⟩ := g
  have hfile : ∀ p, s1.file p = s.file p := fun p => by unfold St.file; rw [hf]
  have hmem : ∀ r', r' ∈ (updateCache clean s1).rows ↔ ∃ r ∈ s1.rows, refresh s1 clean r = some r' := fun r' => by
    unfold updateCache
    exact List.mem_filterMap
  have hsub := paths_filterMap s1.rows (refresh s1 clean) (fun r r' h => (refresh_same h).path)
  refine ⟨hf, ?_, ?_, ?_, ?_, ?_, ?_, ?_⟩
  · intro r' hr'
    obtain ⟨r, hr1, h⟩ := (hmem r').1 hr'
    have hsame := refresh_same h
    rw [hrows] at hr1
    rcases List.mem_append.1 hr1 with hr1 | hr1
    · exact .inl ⟨r, hr1, hsame⟩
    · obtain ⟨a, b, c, _, d⟩ := hnew r hr1
      exact .inr ⟨hsame.owner.trans a, hsame.created.trans b, hsame.accesses.trans c, by rw [hsame.path]; exact d⟩
  · intro hcl r hr1
    subst hcl
    obtain ⟨r', h⟩ := refresh_kept s1 r
    refine ⟨r', (hmem r').2 ⟨r, by rw [hrows]; exact List.mem_append_left _ hr1, h⟩, refresh_same h, fun hn => ?_⟩
    rw [← hfile] at hn
    unfold refresh at h
    cases hs : r.size with
    | some n => rw [hs] at h; cases h; exact hs
    | none =>
      rw [hs] at h
      simp only [hn] at h
      cases h
      exact hs
  · intro r' hr' hn
    obtain ⟨r, hr1, h⟩ := (hmem r').1 hr'
    have hp := (refresh_same h).path
    unfold refresh at h
    cases hs : r.size with
    | some n => rw [hs] at h; cases h; rw [hs] at hn; cases hn
    | none =>
      rw [hs] at h
      cases hfl : s1.file r.path with
      | some f => simp only [hfl] at h; cases h; cases hn
      | none =>
        simp only [hfl] at h
        cases clean with
        | true => cases h
        | false => exact ⟨rfl, by rw [hp, ← hfile]; exact hfl⟩
  · intro r' hr'
    obtain ⟨r, hr1, h⟩ := (hmem r').1 hr'
    unfold refresh at h
    cases hs : r.size with
    | some n =>
      rw [hs] at h; cases h
      rw [hrows] at hr1
      rcases List.mem_append.1 hr1 with hr1 | hr1
      · exact .inl hr1
      · exact .inr (.inl (hnew _ hr1).2.2.2.1)
    | none =>
      rw [hs] at h
      cases hfl : s1.file r.path with
      | some f => simp only [hfl] at h; cases h; exact .inr (.inr ⟨f, by rw [← hfile]; exact hfl, rfl⟩)
      | none =>
        simp only [hfl] at h
        cases clean with
        | true => cases h
        | false => cases h; exact .inr (.inl hs)
  · exact fun h => (hu h).sublist hsub
  · intro h r' hr'
    obtain ⟨r, hr1, hh⟩ := (hmem r').1 hr'
    rw [(refresh_same hh).path]
    exact hi h r hr1
  · intro h r' hr' p hp
    obtain ⟨r, hr1, hh⟩ := (hmem r').1 hr'
    rw [(refresh_same hh).parent] at hp
    rw [(refresh_same hh).path]
    exact hr h r hr1 p hp

end Verif.DiskCache

import Verif.DiskCache.TableProps2

/-!
# The disk cache's table: when an entry was last used
-/

namespace Verif.DiskCache

/-- Rows come from rows, with the same path and owner, used at `t` if `p` was asked for at `t` and as before otherwise; or are new: adopted, or just asked for. -/
def Uses (req : Option (Nat × Path)) (s s' : St) : Prop :=
  ∀ r' ∈ s'.rows, (∃ r ∈ s.rows, r'.path = r.path ∧ r'.owner = r.owner ∧
      ((∃ t, req = some (t, r.path) ∧ r'.access = t) ∨ ((∀ t, req ≠ some (t, r.path)) ∧ r'.access = r.access))) ∨
    r'.owner = orphans ∨ req = some (r'.access, r'.path)

theorem Uses.trans {a b c : St} (h : Uses none a b) (h' : Uses none b c) : Uses none a c := by
  intro r2 hr2
  rcases h' r2 hr2 with ⟨r1, hr1, h1, h2, ⟨t, ht, _⟩ | ⟨_, h3⟩⟩ | h | h
  · cases ht
  · rcases h r1 hr1 with ⟨r0, hr0, h4, h5, ⟨t, ht, _⟩ | ⟨h6, h7⟩⟩ | h | h
    · cases ht
    · exact .inl ⟨r0, hr0, h1.trans h4, h2.trans h5, .inr ⟨h6, h3.trans h7⟩⟩
    · exact .inr (.inl (h2.trans h))
    · cases h
  · exact .inr (.inl h)
  · cases h

theorem uses_sub {s s' : St} (h : ∀ r ∈ s'.rows, r ∈ s.rows) : Uses none s s' :=
  fun r hr => .inl ⟨r, h r hr, rfl, rfl, .inr ⟨fun _ h => (by cases h), rfl⟩⟩

theorem Loss.uses {e : Env} {U : Path → Prop} {s s' : St} (l : Loss e U s s') : Uses none s s' :=
  uses_sub (fun _ hr => l.rows.subset hr)

theorem Kept.uses {e : Env} {t : Nat} {clean : Bool} {s s' : St} (k : Kept e t clean s s') : Uses none s s' := by
  intro r hr
  rcases k.back r hr with ⟨r0, hr0, hs⟩ | ⟨h1, _⟩
  · exact .inl ⟨r0, hr0, hs.path, hs.owner, .inr ⟨fun _ h => (by cases h), hs.access⟩⟩
  · exact .inr (.inl h1)

theorem decache_uses (e : Env) (t goal : Nat) (pg : Bool) (s : St) : Uses none s (decache e t goal pg s).2 := by
  unfold decache
  by_cases hg : goal = 0
  · rw [if_pos hg]; exact uses_sub (fun _ h => h)
  · rw [if_neg hg]; exact (loss_sweep e goal _ s).uses

theorem clean_uses (e : Env) (t t' goal : Nat) (clean pg : Bool) (s : St) : Uses none s (decache e t' goal pg (housekeeping e t clean s)).2 :=
  (housekeeping_kept e t clean s).uses.trans (decache_uses e t' goal pg _)

theorem check_uses (e : Env) (t : Nat) (l u : Option Nat) (d : Disk) (s : St) : Uses none s (checkSize e t l u d s).2 := by
  have refl : ∀ s : St, Uses none s s := fun s => uses_sub (fun _ h => h)
  have h1 : Uses none s (checkMax e t l s).2 := by
    unfold checkMax
    cases l with
    | none => exact refl s
    | some m =>
      simp only
      by_cases hs : s.size > m
      · rw [if_pos hs]; exact clean_uses e t t _ false false s
      · rw [if_neg hs]; exact refl s
  unfold checkSize
  generalize checkMax e t l s = x at *
  obtain ⟨r, s1⟩ := x
  cases r with
  | error x => exact h1
  | ok _ =>
    simp only at h1 ⊢
    unfold checkUsage
    cases u with
    | none => exact h1
    | some u =>
      simp only
      by_cases hs : d.percent > u
      · rw [if_pos hs]; exact h1.trans (clean_uses e t t _ false false s1)
      · rw [if_neg hs]; exact h1

theorem register_uses (e : Env) (t : Nat) (p : Path) (o : List Char) (s : St) (hin : Inside e s) : Uses (some (t, p)) s (register e t p o none s).2 := by
  by_cases hp : inCache e p = true
  · by_cases ha : s.rows.any (fun r => r.path = p) = false
    · rw [register_new e t p o none s hp ha]
      have hno := any_path_false.1 ha
      intro r hr
      rcases List.mem_append.1 hr with hr | hr
      · exact .inl ⟨r, hr, rfl, rfl, .inr ⟨fun t' h => hno r hr (by cases h; rfl), rfl⟩⟩
      · rw [List.mem_singleton.1 hr]
        exact .inr (.inr rfl)
    · have : register e t p o none s = (.ok (), { s with rows := s.rows.map (touch t p) }) := by
        unfold register
        rw [if_pos hp, if_pos (by simpa using ha)]
      rw [this]
      intro r hr
      obtain ⟨r0, hr0, rfl⟩ := List.mem_map.1 hr
      refine .inl ⟨r0, hr0, ?_⟩
      unfold touch
      by_cases h : r0.path = p
      · rw [if_pos h]
        exact ⟨rfl, rfl, .inl ⟨t, by rw [h], rfl⟩⟩
      · rw [if_neg h]
        exact ⟨rfl, rfl, .inr ⟨fun t' h' => h (by cases h'; rfl), rfl⟩⟩
  · have : register e t p o none s = (.error .assertion, s) := by
      unfold register
      rw [if_neg hp]
    rw [this]
    intro r hr
    exact .inl ⟨r, hr, rfl, rfl, .inr ⟨fun t' h => hp (by cases h; exact hin r hr), rfl⟩⟩

/-- The request an operation makes. -/
def Op.request : Op → Option (Nat × Path)
  | .register t p _ => some (t, p)
  | _ => none

theorem step_uses (e : Env) (s : St) (hin : Inside e s) (op : Op) : Uses op.request s (step e s op) := by
  cases op with
  | register t p o => exact register_uses e t p o s hin
  | update p d =>
    show Uses none s (updateEntry e p d s).2
    unfold updateEntry
    by_cases hp : inCache e p
    · rw [if_pos hp]
      cases s.file p with
      | none => exact uses_sub (fun _ h => h)
      | some f =>
        intro r hr
        obtain ⟨r0, hr0, rfl⟩ := List.mem_map.1 hr
        refine .inl ⟨r0, hr0, ?_⟩
        unfold setSize
        by_cases h : r0.path = p
        · rw [if_pos h]; exact ⟨rfl, rfl, .inr ⟨fun _ h => (by cases h), rfl⟩⟩
        · rw [if_neg h]; exact ⟨rfl, rfl, .inr ⟨fun _ h => (by cases h), rfl⟩⟩
    · rw [if_neg hp]; exact uses_sub (fun _ h => h)
  | check t l u d => exact check_uses e t l u d s
  | purge t t' => exact clean_uses e t t' _ true true s
  | purgeMatch m =>
    show Uses none s (purgeMatch e m s).2
    unfold purgeMatch
    have l := (loss_all e s.depth (s.rows.filter m) s).uses
    generalize deleteAll e s.depth (s.rows.filter m) s = x at *
    obtain ⟨r, s1⟩ := x
    cases r <;> exact l
  | decacheFile p =>
    show Uses none s (decacheFile e p s).2
    unfold decacheFile
    have l := (loss_deleteEntry e s.depth p (((s.file p).map (·.size)).getD 0) s).uses
    generalize deleteEntry e s.depth p (((s.file p).map (·.size)).getD 0) s = x at *
    obtain ⟨r, s1⟩ := x
    cases r <;> exact l
  | world f => exact uses_sub (fun _ h => h)

/-! ### C62: last used, as in last asked for -/

/-- The last request for `p` in a history was at `t`. -/
def LastAsked (h : List Op) (p : Path) (t : Nat) : Prop :=
  ∃ before o after, h = before ++ Op.register t p o :: after ∧ ∀ t' o', Op.register t' p o' ∉ after

/-- After every history, the recorded use of an entry that is no orphan is the last request for it. -/
theorem C62_access (e : Env) (h : List Op) (r : Row) (hr : r ∈ (run e h).rows) (ho : r.owner ≠ orphans) : LastAsked h r.path r.access := by
  induction h using List.reverseRecOn generalizing r with
  | nil => cases hr
  | append_singleton h op ih =>
    rw [run_snoc] at hr
    rcases step_uses e _ (inv_run e h).inside op r hr with ⟨r0, hr0, hp, hown, ⟨t, ht, ha⟩ | ⟨hne, ha⟩⟩ | h1 | h1
    · cases op with
      | register t' p o =>
        cases ht
        exact ⟨h, o, [], by rw [hp, ha], fun _ _ hm => (by cases hm)⟩
      | _ => cases ht
    · obtain ⟨b, o, a, h1, h2⟩ := ih r0 hr0 (by rw [← hown]; exact ho)
      refine ⟨b, o, a ++ [op], by rw [h1, hp, ha]; simp, fun t' o' hm => ?_⟩
      rcases List.mem_append.1 hm with hm | hm
      · exact h2 t' o' (by rw [← hp]; exact hm)
      · have := List.mem_singleton.1 hm
        exact hne t' (by rw [← this, ← hp]; rfl)
    · exact absurd h1 ho
    · cases op with
      | register t' p o =>
        obtain ⟨rfl, rfl⟩ : t' = r.access ∧ p = r.path := by
          simp only [Op.request, Option.some.injEq, Prod.mk.injEq] at h1
          exact h1
        exact ⟨h, o, [], rfl, fun _ _ hm => (by cases hm)⟩
      | _ => cases h1

/-- What is trimmed, after any history, while an entry that could have been trimmed stays, was asked for last no later than the entry that stays;
or it belongs to an orphan. -/
theorem C62_least_recent_partial (e : Env) (hd : Deletable e) (h : List Op) (t goal : Nat) (a b : Row) (ha : a ∈ (run e h).rows)
    (hb : b ∈ (decache e t goal false (run e h)).2.rows) (hel : Finished b ∧ ¬Protected (run e h).rows b)
    (hn : a ∉ (decache e t goal false (run e h)).2.rows) :
    ∃ v ∈ (run e h).rows, v ∉ (decache e t goal false (run e h)).2.rows ∧ Under (run e h).rows v.path a.path ∧
      (v.owner = orphans ∨ ∃ tv tb, LastAsked h v.path tv ∧ LastAsked h b.path tb ∧ tv ≤ tb) := by
  obtain ⟨v, h1, h2, _, _, h3, h4⟩ := C62_order e hd t goal (run e h) (inv_run e h).inside a b ha hb hel hn
  refine ⟨v, h1, h2, h3, ?_⟩
  by_cases ho : v.owner = orphans
  · exact .inl ho
  · rcases h4 with h4 | ⟨h4, h5⟩
    · exact absurd h4 ho
    · exact .inr ⟨_, _, C62_access e h v h1 ho, C62_access e h b ((loss_decache e t goal _).rows.subset hb) h4, h5⟩

/-- Two requested entries, the second asked for again last. -/
def asked : List Op :=
  [.register 1 "/c/a".toList "url".toList, .register 2 "/c/b".toList "url".toList, .register 3 "/c/d".toList "url".toList,
   .world [("/c/a".toList, ⟨10, 1⟩), ("/c/b".toList, ⟨10, 2⟩), ("/c/d".toList, ⟨10, 3⟩)],
   .update "/c/a".toList none, .update "/c/b".toList none, .update "/c/d".toList none, .register 5 "/c/a".toList "url".toList]

example : ((run envC asked).rows.map (·.access)) = [5, 2, 3] ∧ ((decache envC 1000 500 false (run envC asked)).2.rows.map (·.path)) = ["/c/a".toList, "/c/d".toList] := by
  decide +kernel

example : LastAsked asked "/c/a".toList 5 := ⟨asked.dropLast, "url".toList, [], rfl, fun _ _ h => (by cases h)⟩

/-- A file that was in the directory already is found when the size is checked, at 300, and asked for at 900; another is asked for once, at 200. -/
def found : List Op :=
  [.register 100 "/c/u".toList "url".toList, .register 200 "/c/z".toList "url".toList,
   .world [("/c/a".toList, ⟨10, 1⟩), ("/c/z".toList, ⟨10, 200⟩)], .update "/c/z".toList none, .check 300 (some 5) none ⟨0, 0⟩,
   .world [("/c/a".toList, ⟨10, 1⟩), ("/c/z".toList, ⟨10, 200⟩), ("/c/u".toList, ⟨10, 310⟩)], .update "/c/u".toList none,
   .register 900 "/c/a".toList "url".toList, .register 950 "/c/w".toList "url".toList,
   .world [("/c/a".toList, ⟨10, 1⟩), ("/c/z".toList, ⟨10, 200⟩), ("/c/u".toList, ⟨10, 310⟩), ("/c/w".toList, ⟨10, 960⟩)], .update "/c/w".toList none]

/-- An orphan stays an orphan when it is asked for: it goes first, though asked for after an entry that stays. -/
theorem C62_least_recent_refuted :
    ∃ a ∈ (run envC found).rows, a ∉ (decache envC 1000 500 false (run envC found)).2.rows ∧
      ∃ b ∈ (decache envC 1000 500 false (run envC found)).2.rows, Finished b ∧ ¬Protected (run envC found).rows b ∧
        (∀ v ∈ (run envC found).rows, v ∉ (decache envC 1000 500 false (run envC found)).2.rows → v = a) ∧
        LastAsked found a.path 900 ∧ LastAsked found b.path 200 := by
  have e1 : (run envC found).rows = [row "/c/u" "url" 100 100 (some 10), row "/c/z" "url" 200 200 (some 10),
      { row "/c/a" "orphans" 300 900 (some 10) with accesses := 2 }, row "/c/w" "url" 950 950 (some 10)] := by decide +kernel
  have e2 : (decache envC 1000 500 false (run envC found)).2.rows =
      [row "/c/u" "url" 100 100 (some 10), row "/c/z" "url" 200 200 (some 10), row "/c/w" "url" 950 950 (some 10)] := by decide +kernel
  rw [e2, e1]
  refine ⟨{ row "/c/a" "orphans" 300 900 (some 10) with accesses := 2 }, by simp, by decide +kernel, row "/c/z" "url" 200 200 (some 10), by simp, rfl, ?_,
    by decide +kernel, ?_, ?_⟩
  · rintro (⟨u, hu, hn, _⟩ | ⟨_, h⟩)
    · simp only [List.mem_cons, List.not_mem_nil, or_false] at hu
      rcases hu with rfl | rfl | rfl | rfl <;> exact hn rfl
    · have := h (row "/c/w" "url" 950 950 (some 10)) (by simp)
      exact absurd this (by decide +kernel)
  · refine ⟨found.take 7, "url".toList, found.drop 8, rfl, fun t o h => ?_⟩
    simp only [found, List.drop, List.mem_cons, List.not_mem_nil, or_false, Op.register.injEq, reduceCtorEq] at h
    exact absurd h.2.1 (by decide +kernel)
  · refine ⟨found.take 1, "url".toList, found.drop 2, rfl, fun t o h => ?_⟩
    simp only [found, List.drop, List.mem_cons, List.not_mem_nil, or_false, Op.register.injEq, reduceCtorEq, false_or] at h
    rcases h with h | h
    · exact absurd h.2.1 (by decide +kernel)
    · exact absurd h.2.1 (by decide +kernel)

/-- `C62_access`, `C62_least_recent_partial`: `/c/b` goes, asked for last at 2; `/c/a`, asked for again at 5, stays. -/
example : ∃ v ∈ (run envC asked).rows, v ∉ (decache envC 1000 500 false (run envC asked)).2.rows ∧ Under (run envC asked).rows v.path "/c/b".toList ∧
    (v.owner = orphans ∨ ∃ tv tb, LastAsked asked v.path tv ∧ LastAsked asked "/c/a".toList tb ∧ tv ≤ tb) := by
  have ha : ∃ a ∈ (run envC asked).rows, a.path = "/c/b".toList ∧ a ∉ (decache envC 1000 500 false (run envC asked)).2.rows := by decide +kernel
  have hb : ∃ b ∈ (decache envC 1000 500 false (run envC asked)).2.rows, b.path = "/c/a".toList ∧ b.size.isSome = true ∧ b.created = 1 := by decide +kernel
  obtain ⟨a, h1, h2, h3⟩ := ha
  obtain ⟨b, h4, h5, h6, h7⟩ := hb
  have := C62_least_recent_partial envC (fun _ => rfl) asked 1000 500 a b h1 h4 ⟨h6, ?_⟩ h3
  · rwa [h2, h5] at this
  · have hfin : ∀ r ∈ (run envC asked).rows, r.size.isSome = true := by decide +kernel
    have hlast : ∃ r ∈ (run envC asked).rows, r.created = 3 := by decide +kernel
    rintro (⟨u, hu, hn, _⟩ | ⟨_, h⟩)
    · exact hn (hfin u hu)
    · obtain ⟨r, hr, hc⟩ := hlast
      have := h r hr
      omega

example (r : Row) (hr : r ∈ (run envC asked).rows) (ho : r.owner ≠ orphans) : LastAsked asked r.path r.access := C62_access envC asked r hr ho

end Verif.DiskCache

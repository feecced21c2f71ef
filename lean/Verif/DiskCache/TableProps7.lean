import Verif.DiskCache.TableProps3

/-!
# The disk cache's table: its own database, what goes with an entry, and what is noted about it
-/

namespace Verif.DiskCache

/-- The name of a helper file: that of the entry and more; from a dot on, unless the entry's has a dot already. -/
def Attached (q p : Path) : Prop := ∃ rest, p = q ++ rest ∧ rest ≠ [] ∧ ('.' ∈ q ∨ rest.head? = some '.')

theorem takeWhile_prefix {p q : Path} (h : beforeDot p <+: q) (hq : q <+: p) (hne : q ≠ p) : Attached q p := by
  obtain ⟨rest, hrest⟩ := hq
  have hr : rest ≠ [] := by
    rintro rfl
    exact hne (by rw [← hrest]; simp)
  refine ⟨rest, hrest.symm, hr, ?_⟩
  by_cases hd : '.' ∈ q
  · exact .inl hd
  · right
    have hall : ∀ c ∈ q, (decide (c ≠ '.')) = true := fun c hc => by
      have : c ≠ '.' := fun hh => hd (hh ▸ hc)
      simpa using this
    unfold beforeDot at h
    rw [← hrest, List.takeWhile_append_of_pos hall] at h
    have hlen := h.length_le
    cases rest with
    | nil => exact absurd rfl hr
    | cons c cs =>
      by_cases hc : c = '.'
      · rw [hc]; rfl
      · rw [List.takeWhile_cons_of_pos (by simpa using hc)] at hlen
        simp only [List.length_append, List.length_cons] at hlen
        omega

theorem findParent_attached {s : St} {full q : Path} (h : findParent s full = some q) (hno : ∀ r ∈ s.rows, r.path ≠ full) : Attached q full := by
  unfold findParent at h
  cases hf : s.rows.find? (fun r => r.parent = none && (beforeDot full).isPrefixOf r.path && r.path.isPrefixOf full) with
  | none => rw [hf] at h; cases h
  | some r =>
    rw [hf] at h
    cases h
    have h1 := List.find?_some hf
    simp only [Bool.and_eq_true] at h1
    exact takeWhile_prefix (List.isPrefixOf_iff_prefix.1 h1.1.2) (List.isPrefixOf_iff_prefix.1 h1.2) (hno r (List.mem_of_find?_eq_some hf))

/-- Rows come from rows, with the same path, birth and parent, and with the noted data unless this notes other data; or are new, with nothing noted,
and attached, if to anything, to a file of this name. -/
def Marks (upd : Option (Path × Option Nat)) (time : Option Nat) (s s' : St) : Prop :=
  ∀ r' ∈ s'.rows, (∃ r ∈ s.rows, r'.path = r.path ∧ r'.created = r.created ∧ r'.parent = r.parent ∧
      ((∃ d, upd = some (r.path, d) ∧ r'.data = d) ∨ ((∀ d, upd ≠ some (r.path, d)) ∧ r'.data = r.data))) ∨
    (r'.data = none ∧ time = some r'.created ∧ ∀ q, r'.parent = some q → Attached q r'.path)

theorem Marks.trans {time : Option Nat} {a b c : St} (h : Marks none time a b) (h' : Marks none time b c) : Marks none time a c := by
  intro r2 hr2
  rcases h' r2 hr2 with ⟨r1, hr1, h1, h2, h3, ⟨d, hd, _⟩ | ⟨_, h4⟩⟩ | h
  · cases hd
  · rcases h r1 hr1 with ⟨r0, hr0, h5, h6, h7, ⟨d, hd, _⟩ | ⟨h8, h9⟩⟩ | ⟨h5, h6, h7⟩
    · cases hd
    · exact .inl ⟨r0, hr0, h1.trans h5, h2.trans h6, h3.trans h7, .inr ⟨h8, h4.trans h9⟩⟩
    · exact .inr ⟨h4.trans h5, by rw [h2]; exact h6, by rw [h3, h1]; exact h7⟩
  · exact .inr h

theorem marks_sub {time : Option Nat} {s s' : St} (h : ∀ r ∈ s'.rows, r ∈ s.rows) : Marks none time s s' :=
  fun r hr => .inl ⟨r, h r hr, rfl, rfl, rfl, .inr ⟨fun _ h => (by cases h), rfl⟩⟩

theorem Loss.marks {e : Env} {U : Path → Prop} {time : Option Nat} {s s' : St} (l : Loss e U s s') : Marks none time s s' :=
  marks_sub (fun _ hr => l.rows.subset hr)

theorem adopt_marks (e : Env) (t : Nat) (s : St) (p : Path) : Marks none (some t) s (adopt e t s p) := by
  rcases adopt_cases e t s p with h | ⟨hno, _, h⟩
  · rw [h]; exact marks_sub (fun _ h => h)
  · rw [h]
    intro r hr
    rcases List.mem_append.1 hr with hr | hr
    · exact .inl ⟨r, hr, rfl, rfl, rfl, .inr ⟨fun _ h => (by cases h), rfl⟩⟩
    · rw [List.mem_singleton.1 hr]
      exact .inr ⟨rfl, rfl, fun q hq => findParent_attached hq hno⟩

theorem fold_marks (e : Env) (t : Nat) (names : List Path) (s : St) : Marks none (some t) s (names.foldl (adopt e t) s) := by
  induction names generalizing s with
  | nil => exact marks_sub (fun _ h => h)
  | cons p ps ih => exact (adopt_marks e t s p).trans (ih _)

theorem update_marks (time : Option Nat) (clean : Bool) (s : St) : Marks none time s (updateCache clean s) := by
  intro r' hr'
  obtain ⟨r, hr, h⟩ := List.mem_filterMap.1 hr'
  have := refresh_same h
  exact .inl ⟨r, hr, this.path, this.created, this.parent, .inr ⟨fun _ h => (by cases h), this.data⟩⟩

theorem housekeeping_marks (e : Env) (t : Nat) (clean : Bool) (s : St) : Marks none (some t) s (housekeeping e t clean s) :=
  (fold_marks e t _ s).trans (update_marks _ clean _)

theorem decache_marks (e : Env) (time : Option Nat) (t' goal : Nat) (pg : Bool) (s : St) : Marks none time s (decache e t' goal pg s).2 := by
  unfold decache
  by_cases hg : goal = 0
  · rw [if_pos hg]; exact marks_sub (fun _ h => h)
  · rw [if_neg hg]; exact (loss_sweep e goal _ s).marks

theorem clean_marks (e : Env) (t t' goal : Nat) (clean pg : Bool) (s : St) :
    Marks none (some t) s (decache e t' goal pg (housekeeping e t clean s)).2 :=
  (housekeeping_marks e t clean s).trans (decache_marks e _ t' goal pg _)

theorem check_marks (e : Env) (t : Nat) (l u : Option Nat) (d : Disk) (s : St) : Marks none (some t) s (checkSize e t l u d s).2 := by
  have refl : ∀ s : St, Marks none (some t) s s := fun s => marks_sub (fun _ h => h)
  have h1 : Marks none (some t) s (checkMax e t l s).2 := by
    unfold checkMax
    cases l with
    | none => exact refl s
    | some m =>
      simp only
      by_cases hs : s.size > m
      · rw [if_pos hs]; exact clean_marks e t t _ false false s
      · rw [if_neg hs]; exact refl s
  unfold checkSize
  generalize checkMax e t l s = x at *
  obtain ⟨r, s1⟩ := x
  cases r with
  | error x => exact h1
  | ok _ =>
    simp only at h1 ⊢
    unfold checkUsage
    cases u with
    | none => exact h1
    | some u =>
      simp only
      by_cases hs : d.percent > u
      · rw [if_pos hs]; exact h1.trans (clean_marks e t t _ false false s1)
      · rw [if_neg hs]; exact h1

theorem register_marks (e : Env) (t : Nat) (p : Path) (o : List Char) (s : St) : Marks none (some t) s (register e t p o none s).2 := by
  by_cases hp : inCache e p = true
  · by_cases ha : s.rows.any (fun r => r.path = p) = false
    · rw [register_new e t p o none s hp ha]
      intro r hr
      rcases List.mem_append.1 hr with hr | hr
      · exact .inl ⟨r, hr, rfl, rfl, rfl, .inr ⟨fun _ h => (by cases h), rfl⟩⟩
      · rw [List.mem_singleton.1 hr]
        exact .inr ⟨rfl, rfl, fun q hq => (by cases hq)⟩
    · have : register e t p o none s = (.ok (), { s with rows := s.rows.map (touch t p) }) := by
        unfold register
        rw [if_pos hp, if_pos (by simpa using ha)]
      rw [this]
      intro r hr
      obtain ⟨r0, hr0, rfl⟩ := List.mem_map.1 hr
      refine .inl ⟨r0, hr0, ?_⟩
      unfold touch
      by_cases h : r0.path = p
      · rw [if_pos h]; exact ⟨rfl, rfl, rfl, .inr ⟨fun _ h => (by cases h), rfl⟩⟩
      · rw [if_neg h]; exact ⟨rfl, rfl, rfl, .inr ⟨fun _ h => (by cases h), rfl⟩⟩
  · have : register e t p o none s = (.error .assertion, s) := by
      unfold register
      rw [if_neg hp]
    rw [this]
    exact marks_sub (fun _ h => h)

/-- What an operation notes: an update of a file that is there. -/
def Op.notes (s : St) : Op → Option (Path × Option Nat)
  | .update p d => if (s.file p).isSome then some (p, d) else none
  | _ => none

theorem step_marks (e : Env) (s : St) (hin : Inside e s) (op : Op) : Marks (op.notes s) op.time s (step e s op) := by
  cases op with
  | register t p o => exact register_marks e t p o s
  | update p d =>
    show Marks (if (s.file p).isSome then some (p, d) else none) none s (updateEntry e p d s).2
    unfold updateEntry
    by_cases hp : inCache e p
    · rw [if_pos hp]
      cases s.file p with
      | none => exact marks_sub (fun _ h => h)
      | some f =>
        intro r hr
        obtain ⟨r0, hr0, rfl⟩ := List.mem_map.1 hr
        refine .inl ⟨r0, hr0, ?_⟩
        unfold setSize
        by_cases h : r0.path = p
        · rw [if_pos h]; exact ⟨rfl, rfl, rfl, .inl ⟨d, by rw [h]; rfl, rfl⟩⟩
        · rw [if_neg h]
          refine ⟨rfl, rfl, rfl, .inr ⟨fun d' hd' => h ?_, rfl⟩⟩
          simp only [Option.isSome_some, if_true, Option.some.injEq, Prod.mk.injEq] at hd'
          exact hd'.1.symm
    · rw [if_neg hp]
      intro r hr
      refine .inl ⟨r, hr, rfl, rfl, rfl, .inr ⟨fun d' hd' => hp ?_, rfl⟩⟩
      by_cases hf : (s.file p).isSome = true
      · rw [if_pos hf] at hd'
        cases hd'
        exact hin r hr
      · rw [if_neg hf] at hd'
        cases hd'
  | check t l u d => exact check_marks e t l u d s
  | purge t t' => exact clean_marks e t t' _ true true s
  | purgeMatch m =>
    show Marks none none s (purgeMatch e m s).2
    unfold purgeMatch
    have l : Marks none none s _ := (loss_all e s.depth (s.rows.filter m) s).marks
    generalize deleteAll e s.depth (s.rows.filter m) s = x at *
    obtain ⟨r, s1⟩ := x
    cases r <;> exact l
  | decacheFile p =>
    show Marks none none s (decacheFile e p s).2
    unfold decacheFile
    have l : Marks none none s _ := (loss_deleteEntry e s.depth p (((s.file p).map (·.size)).getD 0) s).marks
    generalize deleteEntry e s.depth p (((s.file p).map (·.size)).getD 0) s = x at *
    obtain ⟨r, s1⟩ := x
    cases r <;> exact l
  | world f => exact marks_sub (fun _ h => h)

/-! ### C137: the database, and what goes with an entry -/

/-- The file of the database. -/
def database (e : Env) : Path := e.dir ++ "/cache-2.db".toList

theorem database_not_direct (e : Env) : direct e (database e) = false := by
  have : (database e != e.dir ++ dbName) = false := by
    rw [bne_eq_false_iff_eq]
    rfl
  unfold direct
  rw [this]
  simp

theorem no_database_row (e : Env) (h : List Op) (hn : ∀ op ∈ h, ¬op.names (database e)) (r : Row) (hr : r ∈ (run e h).rows) : r.path ≠ database e := by
  obtain ⟨b, op, a, h1, _, h2, _⟩ := C64_accesses e h r hr
  intro hp
  rw [hp] at h2
  rcases h2 with h2 | h2
  · exact hn op (by rw [h1]; simp) h2
  · rw [database_not_direct] at h2
    cases h2

/-- Unless someone asks for it by name, no operation of the manager ever deletes the file of its database, and the table never lists it. -/
theorem C137_database (e : Env) (h : List Op) (op : Op) (hn : ∀ o ∈ h ++ [op], ¬o.names (database e)) (hw : ¬op.isWorld) :
    (∀ f, (database e, f) ∈ (run e h).files → (database e, f) ∈ (run e (h ++ [op])).files) ∧
      ∀ r ∈ (run e (h ++ [op])).rows, r.path ≠ database e := by
  refine ⟨fun f hf => ?_, no_database_row e _ hn⟩
  by_contra hc
  rw [run_snoc] at hc
  obtain ⟨_, _, h1⟩ := (step_effect e _ (inv_run e h).inside op hw).files _ hf hc
  rcases h1 with h1 | ⟨r, hr, hp⟩ | h1
  · exact hn op (by simp) h1
  · exact no_database_row e h (fun o ho => hn o (List.mem_append_left _ ho)) r hr hp
  · rw [database_not_direct] at h1
    cases h1

/-- A file is attached to another only if its name is the name of the other and more; from a dot on, if there is no dot in the other's path. -/
theorem C137_helpers_partial (e : Env) (h : List Op) (r : Row) (hr : r ∈ (run e h).rows) (q : Path) (hq : r.parent = some q) :
    ∃ rest, r.path = q ++ rest ∧ rest ≠ [] ∧ ('.' ∉ q → ∃ ext, r.path = q ++ '.' :: ext) := by
  have key : Attached q r.path := by
    induction h using List.reverseRecOn generalizing r with
    | nil => cases hr
    | append_singleton h op ih =>
      rw [run_snoc] at hr
      rcases step_marks e _ (inv_run e h).inside op r hr with ⟨r0, hr0, h1, _, h3, _⟩ | ⟨_, _, h3⟩
      · rw [h1]
        exact ih r0 hr0 (h3 ▸ hq)
      · exact h3 q hq
  obtain ⟨rest, h1, h2, h3⟩ := key
  refine ⟨rest, h1, h2, fun hd => ?_⟩
  rcases h3 with h3 | h3
  · exact absurd h3 hd
  · cases rest with
    | nil => cases h3
    | cons c cs =>
      simp only [List.head?_cons, Option.some.injEq] at h3
      exact ⟨cs, by rw [h1, h3]⟩

/-- The same for a file attached through others: its name is the name of the first and more; from a dot on, if there is no dot in the path of the first. -/
theorem C137_chain_partial (e : Env) (h : List Op) (p q : Path) (hu : Under (run e h).rows p q) (hne : q ≠ p) :
    ∃ rest, q = p ++ rest ∧ rest ≠ [] ∧ ('.' ∉ p → ∃ ext, q = p ++ '.' :: ext) := by
  induction hu with
  | self => exact absurd rfl hne
  | @child q r _ hr hp ih =>
    obtain ⟨rest, h1, h2, h3⟩ := C137_helpers_partial e h r hr q hp
    by_cases hq : q = p
    · subst hq
      exact ⟨rest, h1, h2, h3⟩
    · obtain ⟨rest', k1, k2, k3⟩ := ih hq
      refine ⟨rest' ++ rest, by rw [h1, k1, List.append_assoc], by simp [h2], fun hd => ?_⟩
      obtain ⟨ext, k3⟩ := k3 hd
      exact ⟨ext ++ rest, by rw [h1, k3]; simp⟩

/-- What goes with an entry: after any history, a file that `purge(matcher)` or trimming deletes is that of an entry that matches, or of one that may be trimmed, or
its name is the name of such an entry and more; from a dot on, if there is no dot in the path of the entry. -/
theorem C137_deleted_partial (e : Env) (hd : Deletable e) (h : List Op) (f : Path × File) (hf : f ∈ (run e h).files) :
    (∀ matcher, f ∉ (purgeMatch e matcher (run e h)).2.files → ∃ m ∈ (run e h).rows, matcher m = true ∧
      (f.1 = m.path ∨ ∃ rest, f.1 = m.path ++ rest ∧ rest ≠ [] ∧ ('.' ∉ m.path → ∃ ext, f.1 = m.path ++ '.' :: ext))) ∧
    (∀ t goal, f ∉ (decache e t goal false (run e h)).2.files → ∃ m ∈ (run e h).rows, Finished m ∧ ¬Protected (run e h).rows m ∧
      (f.1 = m.path ∨ ∃ rest, f.1 = m.path ++ rest ∧ rest ≠ [] ∧ ('.' ∉ m.path → ∃ ext, f.1 = m.path ++ '.' :: ext))) := by
  have i := inv_run e h
  refine ⟨fun matcher hg => ?_, fun t goal hg => ?_⟩
  · obtain ⟨s', h1, _, h3⟩ := C63_matcher e hd matcher (run e h) i.unique i.inside i.rooted
    rw [h1] at hg
    by_contra hn
    refine hg ((h3 f).2 ⟨hf, ?_⟩)
    rintro ⟨m, hm, hmm, hu⟩
    refine hn ⟨m, hm, hmm, ?_⟩
    by_cases he : f.1 = m.path
    · exact .inl he
    · exact .inr (C137_chain_partial e h m.path f.1 hu he)
  · obtain ⟨m, hm, h1, h2, hu⟩ := (C60_spares e t goal (run e h)).2 f hf hg
    refine ⟨m, hm, h1, h2, ?_⟩
    by_cases he : f.1 = m.path
    · exact .inl he
    · exact .inr (C137_chain_partial e h m.path f.1 hu he)

/-- A directory with a dot in its path, as under `~/.cache`. -/
def envDot : Env := ⟨"/c.d".toList, fun _ => false⟩

/-- An entry, and beside it an old file of someone else whose name begins with the name of the entry. -/
def beside : List Op :=
  [.register 500 "/c.d/u".toList "url".toList, .register 1000 "/c.d/a".toList "url".toList,
   .world [("/c.d/a".toList, ⟨10, 1000⟩), ("/c.d/about".toList, ⟨7, 0⟩), ("/c.d/cache-2.db".toList, ⟨99, 0⟩)],
   .update "/c.d/a".toList (some 5), .check 2000 (some 9) none ⟨0, 0⟩]

/-- The file beside it goes with the entry, though it is no helper of it. -/
theorem C137_helpers_refuted :
    ∃ r ∈ (run envDot beside).rows, r.parent = some "/c.d/a".toList ∧ (¬∃ ext, r.path = "/c.d/a".toList ++ '.' :: ext) ∧
      (∃ f, (r.path, f) ∈ (run envDot beside).files) ∧
      ∀ f, (r.path, f) ∉ (run envDot (beside ++ [.purgeMatch (fun r => r.path = "/c.d/a".toList)])).files := by
  have h1 : (run envDot beside).rows = [⟨"/c.d/u".toList, "url".toList, 500, 500, none, none, 1, none⟩,
      ⟨"/c.d/a".toList, "url".toList, 1000, 1000, some 10, none, 1, some 5⟩,
      ⟨"/c.d/about".toList, orphans, 2000, 2000, some 7, some "/c.d/a".toList, 1, none⟩] := by decide +kernel
  have h2 : (run envDot beside).files = [("/c.d/a".toList, ⟨10, 1000⟩), ("/c.d/about".toList, ⟨7, 0⟩), ("/c.d/cache-2.db".toList, ⟨99, 0⟩)] := by
    decide +kernel
  have h3 : (run envDot (beside ++ [.purgeMatch (fun r => r.path = "/c.d/a".toList)])).files = [("/c.d/cache-2.db".toList, ⟨99, 0⟩)] := by
    decide +kernel
  rw [h1, h2, h3]
  refine ⟨_, List.mem_cons_of_mem _ (List.mem_cons_of_mem _ List.mem_cons_self), rfl, ?_, ⟨⟨7, 0⟩, by decide +kernel⟩, fun f hf => ?_⟩
  · rintro ⟨ext, h⟩
    have := congrArg (fun l : List Char => l[6]?) h
    exact absurd this (by simp)
  · have := List.mem_singleton.1 hf
    have h4 : "/c.d/about".toList = "/c.d/cache-2.db".toList := congrArg Prod.fst this
    exact absurd h4 (by decide +kernel)

/-! ### C138: what is noted about an entry -/

/-- What the last update of `p` that found the file noted, since the record was made at `t`; nothing if there was none. -/
def LastNoted (e : Env) (h : List Op) (p : Path) (t : Nat) (x : Option Nat) : Prop :=
  ∃ before op after, h = before ++ op :: after ∧
    ((op = .update p x ∧ ∃ f, (run e before).file p = some f) ∨ (x = none ∧ op.time = some t)) ∧
    ∀ now d later, after = now ++ .update p d :: later → (run e (before ++ op :: now)).file p = none

/-- After every history the data noted with an entry is that of the last update that found the file. -/
theorem C138_data (e : Env) (h : List Op) (r : Row) (hr : r ∈ (run e h).rows) : LastNoted e h r.path r.created r.data := by
  induction h using List.reverseRecOn generalizing r with
  | nil => cases hr
  | append_singleton h op ih =>
    rw [run_snoc] at hr
    rcases step_marks e _ (inv_run e h).inside op r hr with ⟨r0, hr0, hp, hc, _, ⟨d, hd, hx⟩ | ⟨hne, hx⟩⟩ | ⟨hx, ht, _⟩
    · cases op with
      | update p d' =>
        simp only [Op.notes] at hd
        by_cases hf : ((run e h).file p).isSome = true
        · rw [if_pos hf] at hd
          cases hd
          refine ⟨h, _, [], rfl, .inl ⟨by rw [hp, hx], ?_⟩, fun now d later hl => ?_⟩
          · rw [hp]; exact Option.isSome_iff_exists.1 hf
          · exact absurd hl (by simp)
        · rw [if_neg hf] at hd
          cases hd
      | _ => cases hd
    · obtain ⟨b, o, a, h1, h2, h3⟩ := ih r0 hr0
      refine ⟨b, o, a ++ [op], by rw [h1]; simp, by rw [hp, hc, hx]; exact h2, fun now d later hl => ?_⟩
      rcases List.eq_nil_or_concat' later with rfl | ⟨l, x, rfl⟩
      · have h4 := List.append_inj' hl rfl
        obtain ⟨h4, h5⟩ := h4
        simp only [List.cons.injEq, and_true] at h5
        rw [← h4, ← h1]
        subst h5
        have := hne d
        rw [hp] at this ⊢
        by_cases hf : ((run e h).file r0.path).isSome = true
        · exact absurd (by simp only [Op.notes]; rw [if_pos hf]) this
        · simpa using hf
      · have h4 : a = now ++ Op.update r.path d :: l := by
          have := List.append_inj' (s₁ := a) (t₁ := [op]) (s₂ := now ++ Op.update r.path d :: l) (t₂ := [x]) (by rw [hl]; simp) rfl
          exact this.1
        rw [hp] at h4 ⊢
        exact h3 now d l h4
    · exact ⟨h, op, [], rfl, .inr ⟨hx, ht⟩, fun now d later hl => absurd hl (by simp)⟩

/-- An update that finds the file is noted: with the data given, and the size of the file. -/
theorem C138_update (e : Env) (h : List Op) (p : Path) (d : Option Nat) (f : File) (hf : (run e h).file p = some f) (r : Row)
    (hr : r ∈ (run e (h ++ [.update p d])).rows) (hp : r.path = p) : r.data = d ∧ r.size = some f.size := by
  rw [run_snoc] at hr
  have hr' : r ∈ (updateEntry e p d (run e h)).2.rows := hr
  unfold updateEntry at hr'
  by_cases hc : inCache e p = true
  · rw [if_pos hc, hf] at hr'
    obtain ⟨r0, _, rfl⟩ := List.mem_map.1 hr'
    rw [(setSize_path p f.size d r0).1] at hp
    unfold setSize
    rw [if_pos hp]
    exact ⟨rfl, rfl⟩
  · rw [if_neg hc] at hr'
    exact absurd (hp ▸ (inv_run e h).inside r hr') hc

/-- `C137_database`, `C137_helpers_partial`: purging leaves the database. -/
example : (∀ f, (database envDot, f) ∈ (run envDot beside).files → (database envDot, f) ∈ (run envDot (beside ++ [.purge 3000 3001])).files) :=
  (C137_database envDot beside (.purge 3000 3001) (by
    intro o ho
    simp only [beside, List.cons_append, List.nil_append, List.mem_cons, List.not_mem_nil, or_false] at ho
    rcases ho with rfl | rfl | rfl | rfl | rfl | rfl
    · show ¬database envDot = "/c.d/u".toList
      decide +kernel
    · show ¬database envDot = "/c.d/a".toList
      decide +kernel
    all_goals exact id) id).1

example : (run envDot (beside ++ [.purge 3000 3001])).files = [(database envDot, ⟨99, 0⟩)] := by decide +kernel

/-- A helper file in a directory without a dot. -/
def helper : List Op :=
  [.register 500 "/c/u".toList "url".toList, .register 1000 "/c/a".toList "url".toList,
   .world [("/c/a".toList, ⟨10, 1000⟩), ("/c/a.idx".toList, ⟨7, 0⟩), ("/c/about".toList, ⟨7, 0⟩)],
   .update "/c/a".toList (some 5), .check 2000 (some 9) none ⟨0, 0⟩, .update "/c/gone".toList (some 8)]

example : (run envC helper).rows.map (fun r => (r.path, r.parent)) =
    [("/c/u".toList, none), ("/c/a".toList, none), ("/c/a.idx".toList, some "/c/a".toList), ("/c/about".toList, none)] := by decide +kernel

example (r : Row) (hr : r ∈ (run envC helper).rows) (hq : r.parent = some "/c/a".toList) :
    ∃ rest, r.path = "/c/a".toList ++ rest ∧ rest ≠ [] ∧ ('.' ∉ "/c/a".toList → ∃ ext, r.path = "/c/a".toList ++ '.' :: ext) :=
  C137_helpers_partial envC helper r hr _ hq

/-- `C137_chain_partial`, `C137_deleted_partial`: the helper goes with the entry. -/
example : Under (run envC helper).rows "/c/a".toList "/c/a.idx".toList ∧ ∃ ext, "/c/a.idx".toList = "/c/a".toList ++ '.' :: ext := by
  have hu : Under (run envC helper).rows "/c/a".toList "/c/a.idx".toList := by
    have hm : ∃ r ∈ (run envC helper).rows, r.path = "/c/a.idx".toList ∧ r.parent = some "/c/a".toList := by decide +kernel
    obtain ⟨r, hr, h1, h2⟩ := hm
    rw [← h1]
    exact .child .self hr h2
  obtain ⟨_, _, _, h⟩ := C137_chain_partial envC helper _ _ hu (by decide)
  exact ⟨hu, h (by decide)⟩

example : ("/c/a.idx".toList, (⟨7, 0⟩ : File)) ∈ (run envC helper).files ∧
    ∃ m ∈ (run envC helper).rows, decide (m.path = "/c/a".toList) = true ∧
      ("/c/a.idx".toList = m.path ∨ ∃ rest, "/c/a.idx".toList = m.path ++ rest ∧ rest ≠ [] ∧ ('.' ∉ m.path → ∃ ext, "/c/a.idx".toList = m.path ++ '.' :: ext)) := by
  have hf : ("/c/a.idx".toList, (⟨7, 0⟩ : File)) ∈ (run envC helper).files := by decide +kernel
  exact ⟨hf, (C137_deleted_partial envC (fun _ => rfl) helper _ hf).1 (fun r => decide (r.path = "/c/a".toList)) (by decide +kernel)⟩

/-- `C138_data`, `C138_update`. -/
example (r : Row) (hr : r ∈ (run envC helper).rows) : LastNoted envC helper r.path r.created r.data := C138_data envC helper r hr

example : (run envC helper).rows.map (·.data) = [none, some 5, none, none] := by decide +kernel

example (r : Row) (hr : r ∈ (run envC (helper ++ [.update "/c/a".toList (some 6)])).rows) (hp : r.path = "/c/a".toList) : r.data = some 6 ∧ r.size = some 10 :=
  C138_update envC helper _ _ ⟨10, 1000⟩ (by decide +kernel) r hr hp

end Verif.DiskCache

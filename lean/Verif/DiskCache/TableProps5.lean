import Verif.DiskCache.TableProps2

/-!
# Properties of the cache table: what the cache reports (C115)

`cache.size()`, `cache.entries()` and `cache.summary_dump_database()` — caching.py:799-884 — hand out what the manager computes; with
policy `off` they return None.
-/

namespace Verif.DiskCache

/-! ## Specification -/

/-- Every size on record is that of the file. -/
def Truthful (s : St) : Prop := ∀ r ∈ s.rows, ∀ n, r.size = some n → ∃ f, s.file r.path = some f ∧ f.size = n

/-- Bytes on disk that belong to finished entries. -/
def bytesOnDisk (s : St) : Nat := ((s.rows.filter (fun r => r.size.isSome)).map (fun r => ((s.file r.path).map File.size).getD 0)).sum

/-- Others do not touch the files of finished entries. -/
def Fair (s : St) : Op → Prop
  | .world files => ∀ r ∈ s.rows, Finished r → files.lookup r.path = s.file r.path
  | _ => True

def FairHistory (e : Env) (h : List Op) : Prop := ∀ before op after, h = before ++ op :: after → Fair (run e before) op

/-! ## Deleting -/

/-- Rows disappear, and the files of the rows that stay are not touched. -/
structure Tidy' (s s' : St) : Prop where
  rows : s'.rows.Sublist s.rows
  files : ∀ r ∈ s'.rows, s'.file r.path = s.file r.path

theorem Tidy'.refl (s : St) : Tidy' s s := ⟨.refl _, fun _ _ => rfl⟩

theorem Tidy'.trans {a b c : St} (h : Tidy' a b) (h' : Tidy' b c) : Tidy' a c :=
  ⟨h'.rows.trans h.rows, fun r hr => (h'.files r hr).trans (h.files r (h'.rows.subset hr))⟩

theorem Tidy'.truthful {s s' : St} (h : Tidy' s s') (ht : Truthful s) : Truthful s' := by
  intro r hr n hn
  rw [h.files r hr]
  exact ht r (h.rows.subset hr) n hn

theorem lookup_filter_ne {p q : Path} (h : q ≠ p) : ∀ l : List (Path × File), (l.filter (fun f => f.1 != p)).lookup q = l.lookup q := by
  intro l
  induction l with
  | nil => rfl
  | cons x l ih =>
    obtain ⟨a, f⟩ := x
    by_cases ha : a = p
    · subst ha
      rw [List.filter_cons_of_neg (by simp), ih, List.lookup_cons]
      have : (q == a) = false := by simpa using h
      rw [this]
    · rw [List.filter_cons_of_pos (by simpa using ha), List.lookup_cons, List.lookup_cons, ih]

theorem tidy_deleteOwn (e : Env) (p : Path) (n m : Nat) (s : St) : Tidy' s (deleteOwn e p n m s).2 := by
  have drop : ∀ s' : St, s'.rows = s.rows → (∀ q, q ≠ p → s'.file q = s.file q) → Tidy' s (s'.dropRow p) := by
    intro s' hr hf
    refine ⟨?_, ?_⟩
    · show (s'.rows.filter _).Sublist _
      rw [hr]
      exact List.filter_sublist
    · intro r hm
      have := (List.mem_filter.1 hm).2
      exact hf r.path (by simpa using this)
  unfold deleteOwn
  split
  · unfold deleteFile
    by_cases hc : inCache e p = true
    · rw [if_pos hc]
      by_cases hs : e.stuck p = true
      · rw [if_pos hs]
        exact drop s rfl (fun _ _ => rfl)
      · rw [if_neg hs]
        exact drop (s.dropFile p) rfl (fun q hq => lookup_filter_ne hq s.files)
    · rw [if_neg hc]
      exact .refl s
  · exact drop s rfl (fun _ _ => rfl)

theorem tidy_rows (delete : Path → Nat → St → Except Err Nat × St) (hd : ∀ p n s, Tidy' s (delete p n s).2) (rs : List Row) :
    ∀ s, Tidy' s (forRows delete rs s).2 := by
  induction rs with
  | nil => intro s; exact .refl s
  | cons r rs ih =>
    intro s
    rw [forRows]
    have h1 := hd r.path (r.size.getD 0) s
    generalize delete r.path (r.size.getD 0) s = x at h1
    obtain ⟨x, s1⟩ := x
    cases x with
    | error x => exact h1
    | ok n =>
      simp only
      have h2 := ih s1
      generalize forRows delete rs s1 = y at h2
      obtain ⟨y, s2⟩ := y
      cases y with
      | error y => exact h1.trans h2
      | ok m => exact h1.trans h2

theorem tidy_entry (e : Env) (fuel : Nat) : ∀ p n s, Tidy' s (deleteEntry e fuel p n s).2 := by
  induction fuel with
  | zero => intro p n s; exact .refl s
  | succ fuel ih =>
    intro p n s
    rw [deleteEntry]
    have h1 := tidy_rows (deleteEntry e fuel) ih (s.children p) s
    generalize forRows (deleteEntry e fuel) (s.children p) s = x at h1
    obtain ⟨x, s1⟩ := x
    cases x with
    | error x => exact h1
    | ok m => exact h1.trans (tidy_deleteOwn e p n m s1)

theorem tidy_trim (e : Env) (goal : Nat) (rs : List Row) : ∀ total s, Tidy' s (trim e goal rs total s).2 := by
  induction rs with
  | nil => intro total s; exact .refl s
  | cons c rs ih =>
    intro total s
    rw [trim]
    have h1 := tidy_entry e s.depth c.path (c.size.getD 0) s
    generalize deleteEntry e s.depth c.path (c.size.getD 0) s = x at h1
    obtain ⟨x, s1⟩ := x
    cases x with
    | error x => exact h1
    | ok n =>
      simp only
      split
      · exact h1
      · exact h1.trans (ih _ s1)

theorem tidy_sweep (e : Env) (goal latest : Nat) (s : St) : Tidy' s (sweep e goal latest s).2 := by
  unfold sweep
  have h1 := tidy_trim e goal (firstQuery latest s) 0 s
  generalize trim e goal (firstQuery latest s) 0 s = x at h1
  obtain ⟨r, s1⟩ := x
  rcases r with x | ⟨_ | _, total⟩
  · exact h1
  · simp only
    have h2 := tidy_trim e goal (secondQuery latest s1) total s1
    generalize trim e goal (secondQuery latest s1) total s1 = y at h2
    obtain ⟨r, s2⟩ := y
    cases r with
    | error x => exact h1.trans h2
    | ok m => exact h1.trans h2
  · exact h1

theorem tidy_decache (e : Env) (t goal : Nat) (pg : Bool) (s : St) : Tidy' s (decache e t goal pg s).2 := by
  unfold decache
  split
  · exact .refl s
  · exact tidy_sweep _ _ _ _

/-! ## Recording -/

theorem truthful_housekeeping (e : Env) (t : Nat) (clean : Bool) {s : St} (h : Truthful s) : Truthful (housekeeping e t clean s) := by
  have k := housekeeping_kept e t clean s
  have hf : ∀ p, (housekeeping e t clean s).file p = s.file p := fun p => by unfold St.file; rw [k.files]
  intro r hr n hn
  rw [hf]
  rcases k.sizes r hr with h1 | h1 | ⟨f, h1, h2⟩
  · exact h r h1 n hn
  · rw [h1] at hn; cases hn
  · rw [h2] at hn; cases hn; exact ⟨f, h1, rfl⟩

theorem truthful_register (e : Env) (t : Nat) (p : Path) (o : List Char) {s : St} (h : Truthful s) : Truthful (register e t p o none s).2 := by
  unfold register
  split
  · split
    · intro r hr n hn
      obtain ⟨r0, hr0, rfl⟩ := List.mem_map.1 hr
      show ∃ f, s.file _ = some f ∧ f.size = n
      unfold touch at hn ⊢
      split
      · rename_i hp
        rw [if_pos hp] at hn
        exact h r0 hr0 n hn
      · rename_i hp
        rw [if_neg hp] at hn
        exact h r0 hr0 n hn
    · intro r hr n hn
      rcases List.mem_append.1 hr with hr | hr
      · exact h r hr n hn
      · rw [List.mem_singleton] at hr
        subst hr
        cases hn
  · exact h

theorem truthful_update (e : Env) (p : Path) (d : Option Nat) {s : St} (h : Truthful s) : Truthful (updateEntry e p d s).2 := by
  unfold updateEntry
  split
  · cases hf : s.file p with
    | none => exact h
    | some f =>
      intro r hr n hn
      obtain ⟨r0, hr0, rfl⟩ := List.mem_map.1 hr
      show ∃ f, s.file _ = some f ∧ f.size = n
      unfold setSize at hn ⊢
      split
      · rename_i hp
        rw [if_pos hp] at hn
        cases hn
        exact ⟨f, by rw [← hf, ← hp], rfl⟩
      · rename_i hp
        rw [if_neg hp] at hn
        exact h r0 hr0 n hn
  · exact h

theorem truthful_check (e : Env) (t : Nat) (l u : Option Nat) (d : Disk) {s : St} (h : Truthful s) : Truthful (checkSize e t l u d s).2 := by
  have key : ∀ (goal : Nat) {s : St}, Truthful s → Truthful (decache e t goal false (housekeeping e t false s)).2 :=
    fun goal s h => (tidy_decache e t goal false _).truthful (truthful_housekeeping e t false h)
  have h1 : Truthful (checkMax e t l s).2 := by
    unfold checkMax
    split
    · exact h
    · split
      · exact key _ h
      · exact h
  have h2 : ∀ {s : St}, Truthful s → Truthful (checkUsage e t u d s).2 := by
    intro s h
    unfold checkUsage
    split
    · exact h
    · split
      · exact key _ h
      · exact h
  unfold checkSize
  generalize checkMax e t l s = x at h1
  obtain ⟨x, s1⟩ := x
  cases x with
  | error x => exact h1
  | ok _ => exact h2 h1

theorem truthful_step (e : Env) {s : St} (h : Truthful s) (op : Op) (hf : Fair s op) : Truthful (step e s op) := by
  cases op with
  | register t p o => exact truthful_register e t p o h
  | update p d => exact truthful_update e p d h
  | check t l u d => exact truthful_check e t l u d h
  | purge t t' => exact (tidy_decache e t' _ true _).truthful (truthful_housekeeping e t true h)
  | purgeMatch m =>
    show Truthful (purgeMatch e m s).2
    unfold purgeMatch deleteAll
    have h1 := tidy_rows (deleteEntry e s.depth) (tidy_entry e s.depth) (s.rows.filter m) s
    generalize forRows (deleteEntry e s.depth) (s.rows.filter m) s = x at h1
    obtain ⟨x, s1⟩ := x
    cases x with
    | error x => exact h1.truthful h
    | ok _ => exact h1.truthful h
  | decacheFile p =>
    show Truthful (decacheFile e p s).2
    unfold decacheFile
    have h1 := tidy_entry e s.depth p (((s.file p).map (·.size)).getD 0) s
    generalize deleteEntry e s.depth p (((s.file p).map (·.size)).getD 0) s = x at h1
    obtain ⟨x, s1⟩ := x
    cases x with
    | error x => exact h1.truthful h
    | ok _ => exact h1.truthful h
  | world files =>
    intro r hr n hn
    show ∃ f, files.lookup r.path = some f ∧ f.size = n
    rw [hf r hr (by unfold Finished; rw [hn]; rfl)]
    exact h r hr n hn

theorem truthful_run (e : Env) (h : List Op) (hf : FairHistory e h) : Truthful (run e h) := by
  induction h using List.reverseRecOn with
  | nil => exact fun r hr => (by cases hr)
  | append_singleton h op ih =>
    rw [run_snoc]
    refine truthful_step e (ih ?_) op (hf h op [] rfl)
    intro before op' after heq
    exact hf before op' (after ++ [op]) (by rw [heq]; simp)

/-! ## C115 -/

theorem size_truthful {s : St} (h : Truthful s) : s.size = bytesOnDisk s := by
  have gen : ∀ rs : List Row, (∀ r ∈ rs, ∀ n, r.size = some n → ∃ f, s.file r.path = some f ∧ f.size = n) →
      (rs.map (fun r => r.size.getD 0)).sum = ((rs.filter (fun r => r.size.isSome)).map (fun r => ((s.file r.path).map File.size).getD 0)).sum := by
    intro rs
    induction rs with
    | nil => intro _; rfl
    | cons r rs ih =>
      intro hr
      have ih := ih (fun x hx => hr x (List.mem_cons_of_mem _ hx))
      cases hn : r.size with
      | none =>
        rw [List.filter_cons_of_neg (by rw [hn]; simp), List.map_cons, List.sum_cons, ih, hn]
        simp
      | some n =>
        obtain ⟨f, h1, h2⟩ := hr r List.mem_cons_self n hn
        rw [List.filter_cons_of_pos (by rw [hn]; rfl), List.map_cons, List.map_cons, List.sum_cons, List.sum_cons, ih, hn, h1]
        simp [h2]
  exact gen s.rows h

/-- As long as others leave the files of finished entries alone, `size()` is the number of bytes on disk that belong to finished entries,
and every finished entry is listed by `entries()`. -/
theorem C115_reports_partial (e : Env) (h : List Op) (hf : FairHistory e h) :
    (run e h).size = bytesOnDisk (run e h) ∧ ∀ r ∈ (run e h).rows, Finished r → r ∈ entries (run e h) := by
  have ht := truthful_run e h hf
  refine ⟨size_truthful ht, ?_⟩
  intro r hr hfin
  unfold Finished at hfin
  obtain ⟨n, hn⟩ := Option.isSome_iff_exists.1 hfin
  obtain ⟨f, h1, _⟩ := ht r hr n hn
  unfold entries
  rw [List.mem_filter]
  exact ⟨hr, by unfold St.exists_; rw [h1]; rfl⟩

/-- If nothing is being created either, `entries()` is the whole table, and `summary_dump_database()` gives the number of entries and
the bytes of their files. -/
theorem C115_quiet_partial (e : Env) (h : List Op) (hf : FairHistory e h) (hq : ∀ r ∈ (run e h).rows, Finished r) :
    entries (run e h) = (run e h).rows ∧
    summary (run e h) = .ok ((entries (run e h)).length, ((entries (run e h)).map (fun r => (((run e h).file r.path).map File.size).getD 0)).sum) := by
  have h1 := C115_reports_partial e h hf
  have h2 : entries (run e h) = (run e h).rows := by
    refine List.filter_eq_self.2 (fun r hr => ?_)
    exact (List.mem_filter.1 (h1.2 r hr (hq r hr))).2
  refine ⟨h2, ?_⟩
  rw [C87_summary_partial _ hq, h1.1, h2]
  unfold bytesOnDisk
  rw [List.filter_eq_self.2 (fun r hr => hq r hr)]

/-- And nothing is trimmed while the files are within the limit. -/
theorem C115_within_partial (e : Env) (h : List Op) (hf : FairHistory e h) (t m : Nat) (d : Disk) (hm : bytesOnDisk (run e h) ≤ m) :
    step e (run e h) (.check t (some m) none d) = run e h := by
  have h1 := (C115_reports_partial e h hf).1
  show (checkSize e t (some m) none d (run e h)).2 = run e h
  unfold checkSize checkMax
  simp only
  rw [if_neg (by omega)]
  rfl

/-- Two files are downloaded. -/
def twoFiles : List Op :=
  [.register 1 "/c/a".toList "url".toList, .world [("/c/a".toList, ⟨90, 1⟩)], .update "/c/a".toList none,
   .register 2 "/c/b".toList "url".toList, .world [("/c/a".toList, ⟨90, 1⟩), ("/c/b".toList, ⟨50, 2⟩)], .update "/c/b".toList none,
   .register 3 "/c/d".toList "url".toList, .world [("/c/a".toList, ⟨90, 1⟩), ("/c/b".toList, ⟨50, 2⟩), ("/c/d".toList, ⟨1, 3⟩)], .update "/c/d".toList none]

/-- Decidable form, for the example. -/
def fairB (s : St) : Op → Bool
  | .world files => s.rows.all (fun r => r.size.isNone || decide (files.lookup r.path = s.file r.path))
  | _ => true

def fairAll (e : Env) : St → List Op → Bool
  | _, [] => true
  | s, op :: h => fairB s op && fairAll e (step e s op) h

theorem fair_of_all (e : Env) (h : List Op) (hb : fairAll e ⟨[], []⟩ h = true) : FairHistory e h := by
  have gen : ∀ (before : List Op) (s : St) (op : Op) (after : List Op), fairAll e s (before ++ op :: after) = true →
      Fair (before.foldl (step e) s) op := by
    intro before
    induction before with
    | nil =>
      intro s op after hb
      have hb : fairB s op = true := (Bool.and_eq_true_iff.1 hb).1
      cases op with
      | world files =>
        intro r hr hfin
        have := List.all_eq_true.1 hb r hr
        rw [Bool.or_eq_true] at this
        rcases this with h | h
        · unfold Finished at hfin
          rw [Option.isSome_iff_exists] at hfin
          obtain ⟨n, hn⟩ := hfin
          rw [hn] at h; cases h
        · exact of_decide_eq_true h
      | _ => trivial
    | cons o before ih =>
      intro s op after hb
      exact ih (step e s o) op after (Bool.and_eq_true_iff.1 hb).2
  intro before op after heq
  exact gen before ⟨[], []⟩ op after (heq ▸ hb)

theorem twoFiles_ok : FairHistory envC twoFiles ∧ (∀ r ∈ (run envC twoFiles).rows, Finished r) ∧ (run envC twoFiles).size = 141 ∧
    bytesOnDisk (run envC twoFiles) = 141 := by
  refine ⟨fair_of_all _ _ (by decide +kernel), ?_, by decide +kernel, by decide +kernel⟩
  have : (run envC twoFiles).rows.all (fun r => r.size.isSome) = true := by decide +kernel
  exact fun r hr => List.all_eq_true.1 this r hr

/-- Somebody removes a cached file by hand: `size()` goes on counting it, and files are trimmed although those that exist are within
the limit. -/
theorem C115_refuted : ∃ (h : List Op) (m : Nat), (∀ r ∈ (run envC h).rows, Finished r) ∧
    (run envC h).size ≠ bytesOnDisk (run envC h) ∧ bytesOnDisk (run envC h) ≤ m ∧
    "/c/b".toList ∈ (run envC h).files.map (·.1) ∧ "/c/b".toList ∉ (step envC (run envC h) (.check 9 (some m) none ⟨0, 0⟩)).files.map (·.1) := by
  refine ⟨twoFiles ++ [.world [("/c/b".toList, ⟨50, 2⟩), ("/c/d".toList, ⟨1, 3⟩)]], 100, ?_, by decide +kernel, by decide +kernel,
    by decide +kernel, by decide +kernel⟩
  have : (run envC (twoFiles ++ [.world [("/c/b".toList, ⟨50, 2⟩), ("/c/d".toList, ⟨1, 3⟩)]])).rows.all (fun r => r.size.isSome) = true := by decide +kernel
  exact fun r hr => List.all_eq_true.1 this r hr

/-- `C115_reports_partial`, `C115_quiet_partial`, `C115_within_partial` -/
example : (run envC twoFiles).size = bytesOnDisk (run envC twoFiles) ∧ entries (run envC twoFiles) = (run envC twoFiles).rows ∧
    step envC (run envC twoFiles) (.check 9 (some 150) none ⟨0, 0⟩) = run envC twoFiles :=
  ⟨(C115_reports_partial envC twoFiles twoFiles_ok.1).1, (C115_quiet_partial envC twoFiles twoFiles_ok.1 twoFiles_ok.2.1).1,
    C115_within_partial envC twoFiles twoFiles_ok.1 9 150 ⟨0, 0⟩ (by rw [twoFiles_ok.2.2.2]; decide)⟩

end Verif.DiskCache

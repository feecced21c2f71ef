import Verif.DiskCache.TableSpec

/-!
# Lemmas about the manager's table
-/

namespace Verif.DiskCache

theorem Under.trans {rows : List Row} {a b c : Path} (h : Under rows a b) (h' : Under rows b c) : Under rows a c := by
  induction h' with
  | self => exact h
  | child _ hr hp ih => exact .child ih hr hp

theorem Under.mono {rows rows' : List Row} (hs : ∀ r ∈ rows, r ∈ rows') {a b : Path} (h : Under rows a b) : Under rows' a b := by
  induction h with
  | self => exact .self
  | child _ hr hp ih => exact .child ih (hs _ hr) hp

/-- From `s` to `s'` rows and files only disappear, only those of paths in `U`, and only files of the cache directory. -/
structure Loss (e : Env) (U : Path → Prop) (s s' : St) : Prop where
  rows : s'.rows.Sublist s.rows
  removed : ∀ r ∈ s.rows, r ∉ s'.rows → U r.path
  files : s'.files.Sublist s.files
  gone : ∀ f ∈ s.files, f ∉ s'.files → inCache e f.1 = true ∧ e.stuck f.1 = false ∧ U f.1

theorem Loss.refl (e : Env) (U : Path → Prop) (s : St) : Loss e U s s :=
  ⟨.refl _, fun _ h h' => absurd h h', .refl _, fun _ h h' => absurd h h'⟩

theorem Loss.mono {e : Env} {U V : Path → Prop} (h : ∀ p, U p → V p) {s s' : St} (l : Loss e U s s') : Loss e V s s' :=
  ⟨l.rows, fun r a b => h _ (l.removed r a b), l.files, fun f a b => ⟨(l.gone f a b).1, (l.gone f a b).2.1, h _ (l.gone f a b).2.2⟩⟩

theorem Loss.trans {e : Env} {U : Path → Prop} {a b c : St} (h : Loss e U a b) (h' : Loss e U b c) : Loss e U a c := by
  refine ⟨h'.rows.trans h.rows, fun r hr hn => ?_, h'.files.trans h.files, fun f hf hn => ?_⟩
  · by_cases hb : r ∈ b.rows
    · exact h'.removed r hb hn
    · exact h.removed r hr hb
  · by_cases hb : f ∈ b.files
    · exact h'.gone f hb hn
    · exact h.gone f hf hb

theorem Loss.under {e : Env} {U : Path → Prop} {s s' : St} (h : Loss e U s s') {a b : Path} (hu : Under s'.rows a b) :
    Under s.rows a b := hu.mono (fun _ hr => h.rows.subset hr)

theorem loss_dropRow (e : Env) (s : St) (p : Path) : Loss e (· = p) s (s.dropRow p) := by
  refine ⟨List.filter_sublist, fun r hr hn => ?_, .refl _, fun _ h h' => absurd h h'⟩
  by_cases h : r.path = p
  · exact h
  · exact absurd (List.mem_filter.2 ⟨hr, by simpa using h⟩) hn

theorem loss_dropFile (e : Env) (s : St) (p : Path) (hc : inCache e p = true) (hs : e.stuck p = false) :
    Loss e (· = p) s (s.dropFile p) := by
  refine ⟨.refl _, fun _ h h' => absurd h h', List.filter_sublist, fun f hf hn => ?_⟩
  by_cases h : f.1 = p
  · rw [h]
    exact ⟨hc, hs, rfl⟩
  · exact absurd (List.mem_filter.2 ⟨hf, by simpa using h⟩) hn

theorem loss_deleteFile (e : Env) (s : St) (p : Path) : Loss e (· = p) s (deleteFile e p s).2 := by
  unfold deleteFile
  by_cases h : inCache e p
  · rw [if_pos h]
    by_cases h' : e.stuck p
    · rw [if_pos h']
      exact .refl _ _ _
    · rw [if_neg h']
      exact loss_dropFile e s p h (by simpa using h')
  · rw [if_neg h]
    exact .refl _ _ _

theorem loss_deleteOwn (e : Env) (p : Path) (n m : Nat) (s : St) : Loss e (· = p) s (deleteOwn e p n m s).2 := by
  unfold deleteOwn
  by_cases h : s.exists_ p
  · rw [if_pos h]
    have := loss_deleteFile e s p
    generalize deleteFile e p s = x at *
    obtain ⟨r, s1⟩ := x
    cases r with
    | error x => exact this
    | ok _ => exact this.trans (loss_dropRow e _ p)
  · rw [if_neg h]
    exact loss_dropRow e s p

theorem deleteAll_nil (e : Env) (fuel : Nat) (s : St) : deleteAll e fuel [] s = (.ok 0, s) := rfl

theorem deleteAll_cons (e : Env) (fuel : Nat) (r : Row) (rs : List Row) (s : St) : deleteAll e fuel (r :: rs) s =
    match deleteEntry e fuel r.path (r.size.getD 0) s with
    | (.error x, s) => (.error x, s)
    | (.ok n, s) =>
      match deleteAll e fuel rs s with
      | (.error x, s) => (.error x, s)
      | (.ok m, s) => (.ok (n + m), s) := rfl

theorem deleteEntry_zero (e : Env) (p : Path) (n : Nat) (s : St) : deleteEntry e 0 p n s = (.ok 0, s) := rfl

theorem deleteEntry_succ (e : Env) (fuel : Nat) (p : Path) (size : Nat) (s : St) : deleteEntry e (fuel + 1) p size s =
    match deleteAll e fuel (s.children p) s with
    | (.error x, s) => (.error x, s)
    | (.ok total, s) => deleteOwn e p size total s := rfl

theorem loss_deleteAll (e : Env) (fuel : Nat) (ih : ∀ p n s, Loss e (Under s.rows p) s (deleteEntry e fuel p n s).2) (rs : List Row) (s : St) :
    Loss e (fun q => ∃ c ∈ rs, Under s.rows c.path q) s (deleteAll e fuel rs s).2 := by
  induction rs generalizing s with
  | nil =>
    rw [deleteAll_nil]
    exact .refl _ _ _
  | cons c rs ihr =>
    rw [deleteAll_cons]
    have h1 := ih c.path (c.size.getD 0) s
    generalize deleteEntry e fuel c.path (c.size.getD 0) s = x at *
    obtain ⟨r, s1⟩ := x
    have h1' : Loss e (fun q => ∃ c' ∈ c :: rs, Under s.rows c'.path q) s s1 := h1.mono (fun q hq => ⟨c, List.mem_cons_self, hq⟩)
    cases r with
    | error x => exact h1'
    | ok n =>
      simp only
      have h2 := ihr s1
      generalize deleteAll e fuel rs s1 = y at *
      obtain ⟨r, s2⟩ := y
      have h2' : Loss e (fun q => ∃ c' ∈ c :: rs, Under s.rows c'.path q) s1 s2 :=
        h2.mono (fun q ⟨c', hc', hq⟩ => ⟨c', List.mem_cons_of_mem _ hc', h1.under hq⟩)
      cases r with
      | error x => exact h1'.trans h2'
      | ok m => exact h1'.trans h2'

theorem loss_deleteEntry (e : Env) (fuel : Nat) (p : Path) (n : Nat) (s : St) :
    Loss e (Under s.rows p) s (deleteEntry e fuel p n s).2 := by
  induction fuel generalizing p n s with
  | zero =>
    rw [deleteEntry_zero]
    exact .refl _ _ _
  | succ fuel ih =>
    rw [deleteEntry_succ]
    have h1 := loss_deleteAll e fuel ih (s.children p) s
    generalize deleteAll e fuel (s.children p) s = x at *
    obtain ⟨r, s1⟩ := x
    have h1' : Loss e (Under s.rows p) s s1 := h1.mono (fun q ⟨c, hc, hq⟩ => by
      have hm := List.mem_filter.1 hc
      exact (Under.child .self hm.1 (of_decide_eq_true hm.2)).trans hq)
    cases r with
    | error x => exact h1'
    | ok m => exact h1'.trans ((loss_deleteOwn e p n m s1).mono (fun q hq => hq ▸ .self))

theorem loss_all (e : Env) (fuel : Nat) (rs : List Row) (s : St) :
    Loss e (fun q => ∃ c ∈ rs, Under s.rows c.path q) s (deleteAll e fuel rs s).2 :=
  loss_deleteAll e fuel (loss_deleteEntry e fuel) rs s

theorem loss_trim (e : Env) (goal : Nat) (rs : List Row) (total : Nat) (s : St) :
    Loss e (fun q => ∃ c ∈ rs, Under s.rows c.path q) s (trim e goal rs total s).2 := by
  induction rs generalizing total s with
  | nil => exact .refl _ _ _
  | cons c rs ih =>
    rw [trim]
    have h1 := loss_deleteEntry e s.depth c.path (c.size.getD 0) s
    generalize deleteEntry e s.depth c.path (c.size.getD 0) s = x at *
    obtain ⟨r, s1⟩ := x
    have h1' : Loss e (fun q => ∃ c' ∈ c :: rs, Under s.rows c'.path q) s s1 := h1.mono (fun q hq => ⟨c, List.mem_cons_self, hq⟩)
    cases r with
    | error x => exact h1'
    | ok n =>
      simp only
      by_cases hg : 100 * (total + n) ≥ goal
      · rw [if_pos hg]
        exact h1'
      · rw [if_neg hg]
        exact h1'.trans ((ih (total + n) s1).mono (fun q ⟨c', hc', hq⟩ => ⟨c', List.mem_cons_of_mem _ hc', h1.under hq⟩))

/-- The rows `_decache` may delete. -/
def Eligible (latest : Nat) (r : Row) : Prop := Finished r ∧ r.created < latest

theorem first_mem {latest : Nat} {s : St} {r : Row} : r ∈ firstQuery latest s ↔ r ∈ s.rows ∧ Eligible latest r ∧ r.owner = orphans := by
  unfold firstQuery Eligible Finished
  rw [List.mem_filter]
  simp only [Bool.and_eq_true, decide_eq_true_eq]
  constructor
  · rintro ⟨a, ⟨b, c⟩, d⟩; exact ⟨a, ⟨b, d⟩, c⟩
  · rintro ⟨a, ⟨b, d⟩, c⟩; exact ⟨a, ⟨b, c⟩, d⟩

theorem second_mem {latest : Nat} {s : St} {r : Row} : r ∈ secondQuery latest s ↔ r ∈ s.rows ∧ Eligible latest r := by
  unfold secondQuery Eligible Finished
  rw [(List.perm_insertionSort _ _).mem_iff, List.mem_filter]
  simp only [Bool.and_eq_true, decide_eq_true_eq]

theorem loss_sweep (e : Env) (goal latest : Nat) (s : St) :
    Loss e (fun q => ∃ c ∈ s.rows, Eligible latest c ∧ Under s.rows c.path q) s (sweep e goal latest s).2 := by
  unfold sweep
  have h1 := loss_trim e goal (firstQuery latest s) 0 s
  generalize trim e goal (firstQuery latest s) 0 s = x at *
  obtain ⟨r, s1⟩ := x
  have h1' : Loss e (fun q => ∃ c ∈ s.rows, Eligible latest c ∧ Under s.rows c.path q) s s1 :=
    h1.mono (fun q ⟨c, hc, hq⟩ => ⟨c, (first_mem.1 hc).1, (first_mem.1 hc).2.1, hq⟩)
  rcases r with x | ⟨_ | _, total⟩
  · exact h1'
  · simp only
    have h2 := loss_trim e goal (secondQuery latest s1) total s1
    generalize trim e goal (secondQuery latest s1) total s1 = y at *
    obtain ⟨r, s2⟩ := y
    have h2' : Loss e (fun q => ∃ c ∈ s.rows, Eligible latest c ∧ Under s.rows c.path q) s1 s2 :=
      h2.mono (fun q ⟨c, hc, hq⟩ => ⟨c, h1.rows.subset (second_mem.1 hc).1, (second_mem.1 hc).2, h1.under hq⟩)
    cases r with
    | error x => exact h1'.trans h2'
    | ok m => exact h1'.trans h2'
  · exact h1'

/-! ### latest date -/

theorem minDate_spec (rs : List Row) : (minDate rs = none ↔ rs = []) ∧ ∀ d, minDate rs = some d → (∃ r ∈ rs, r.created = d) ∧ ∀ r ∈ rs, d ≤ r.created := by
  induction rs with
  | nil => exact ⟨by simp [minDate], fun d h => by cases h⟩
  | cons r rs ih =>
    rw [minDate]
    cases hm : minDate rs with
    | none =>
      have : rs = [] := ih.1.1 hm
      subst this
      refine ⟨by simp, fun d h => ?_⟩
      cases h
      exact ⟨⟨r, by simp, rfl⟩, fun q hq => by simp at hq; rw [hq]⟩
    | some m =>
      obtain ⟨⟨a, ha, hb⟩, hc⟩ := ih.2 m hm
      refine ⟨by simp, fun d h => ?_⟩
      simp only [Option.some.injEq] at h
      subst h
      refine ⟨?_, fun q hq => ?_⟩
      · by_cases hle : r.created ≤ m
        · exact ⟨r, by simp, by omega⟩
        · exact ⟨a, List.mem_cons_of_mem _ ha, by omega⟩
      · rcases List.mem_cons.1 hq with rfl | hq
        · omega
        · have := hc q hq
          omega

theorem maxDate_spec (rs : List Row) : (maxDate rs = none ↔ rs = []) ∧ ∀ d, maxDate rs = some d → (∃ r ∈ rs, r.created = d) ∧ ∀ r ∈ rs, r.created ≤ d := by
  induction rs with
  | nil => exact ⟨by simp [maxDate], fun d h => by cases h⟩
  | cons r rs ih =>
    rw [maxDate]
    cases hm : maxDate rs with
    | none =>
      have : rs = [] := ih.1.1 hm
      subst this
      refine ⟨by simp, fun d h => ?_⟩
      cases h
      exact ⟨⟨r, by simp, rfl⟩, fun q hq => by simp at hq; rw [hq]⟩
    | some m =>
      obtain ⟨⟨a, ha, hb⟩, hc⟩ := ih.2 m hm
      refine ⟨by simp, fun d h => ?_⟩
      simp only [Option.some.injEq] at h
      subst h
      refine ⟨?_, fun q hq => ?_⟩
      · by_cases hle : m ≤ r.created
        · exact ⟨r, by simp, by omega⟩
        · exact ⟨a, List.mem_cons_of_mem _ ha, by omega⟩
      · rcases List.mem_cons.1 hq with rfl | hq
        · omega
        · have := hc q hq
          omega

/-- Eligible for trimming is what is finished and not protected. -/
theorem eligible_iff (t : Nat) (s : St) (r : Row) (hr : r ∈ s.rows) :
    Eligible (latestDate t s) r ↔ Finished r ∧ ¬Protected s.rows r := by
  unfold Eligible
  refine and_congr_right (fun hf => ?_)
  unfold latestDate Protected
  obtain ⟨hn, hs⟩ := minDate_spec (s.rows.filter (fun r => r.size.isNone))
  cases hm : minDate (s.rows.filter (fun r => r.size.isNone)) with
  | some d =>
    simp only
    obtain ⟨⟨u, hu, hud⟩, hall⟩ := hs d hm
    have hu' := List.mem_filter.1 hu
    have hnf : ¬Finished u := fun h => by unfold Finished at h; have := hu'.2; simp at this h; simp [this] at h
    constructor
    · rintro hlt (⟨v, hv, hvf, hvc⟩ | ⟨hv, _⟩)
      · have := hall v (List.mem_filter.2 ⟨hv, by unfold Finished at hvf; simpa using hvf⟩)
        omega
      · exact hnf (hv u hu'.1)
    · intro hnp
      by_contra hlt
      exact hnp (.inl ⟨u, hu'.1, hnf, by omega⟩)
  | none =>
    have hall : ∀ u ∈ s.rows, Finished u := by
      intro u hu
      have := List.filter_eq_nil_iff.1 (hn.1 hm) u hu
      unfold Finished
      simpa [Option.isNone_iff_eq_none, Option.isSome_iff_ne_none] using this
    have hfilter : s.rows.filter (fun r => r.size.isSome) = s.rows := List.filter_eq_self.2 (fun u hu => hall u hu)
    obtain ⟨hn', hs'⟩ := maxDate_spec (s.rows.filter (fun r => r.size.isSome))
    rw [hfilter] at hn' hs' ⊢
    cases hm' : maxDate s.rows with
    | none => rw [hn'.1 hm'] at hr; cases hr
    | some d =>
      obtain ⟨⟨u, hu, hud⟩, hle⟩ := hs' d hm'
      simp only
      constructor
      · rintro hlt (⟨v, hv, hvf, _⟩ | ⟨_, hv⟩)
        · exact hvf (hall v hv)
        · have := hv u hu
          omega
      · intro hnp
        by_contra hlt
        exact hnp (.inr ⟨hall, fun v hv => by have := hle v hv; omega⟩)

end Verif.DiskCache

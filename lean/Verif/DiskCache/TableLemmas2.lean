import Verif.DiskCache.TableLemmas

/-!
# Lemmas: what deleting frees, and that it deletes all that is attached
-/

namespace Verif.DiskCache

theorem file_none_iff (s : St) (p : Path) : s.file p = none ↔ ∀ f ∈ s.files, f.1 ≠ p := by
  unfold St.file
  rw [List.lookup_eq_none_iff]
  constructor
  · intro h f hf hp
    have := h f hf
    rw [hp] at this
    simp at this
  · intro h f hf
    simpa using fun hp : p = f.1 => h f hf hp.symm

theorem file_none_of_sublist {s s' : St} (h : s'.files.Sublist s.files) {p : Path} (hp : s.file p = none) : s'.file p = none := by
  rw [file_none_iff] at *
  exact fun f hf => hp f (h.subset hf)

theorem file_dropFile (s : St) (p : Path) : (s.dropFile p).file p = none := by
  rw [file_none_iff]
  intro f hf
  have := (List.mem_filter.1 hf).2
  simpa using this

theorem size_le {s s' : St} (h : s'.rows.Sublist s.rows) : s'.size ≤ s.size := by
  unfold St.size
  generalize s'.rows = a at h
  generalize s.rows = b at h
  induction h with
  | slnil => simp
  | cons _ _ ih => simp; omega
  | cons_cons _ _ ih => simp; omega

theorem sum_filter_add (rs : List Row) (r : Row) (hr : r ∈ rs) :
    ((rs.filter (fun q => q.path != r.path)).map (fun q => q.size.getD 0)).sum + r.size.getD 0 ≤ (rs.map (fun q => q.size.getD 0)).sum := by
  induction rs with
  | nil => cases hr
  | cons a rs ih =>
    have hle : ((rs.filter (fun q => q.path != r.path)).map (fun q => q.size.getD 0)).sum ≤ (rs.map (fun q => q.size.getD 0)).sum :=
      size_le (s := ⟨rs, []⟩) (s' := ⟨rs.filter (fun q => q.path != r.path), []⟩) List.filter_sublist
    rcases List.mem_cons.1 hr with rfl | hr
    · simp
      omega
    · have := ih hr
      by_cases ha : a.path = r.path
      · simp [ha]
        omega
      · simp [ha]
        omega

theorem size_dropRow (s : St) (r : Row) (hr : r ∈ s.rows) : (s.dropRow r.path).size + r.size.getD 0 ≤ s.size :=
  sum_filter_add s.rows r hr

/-- Rows that disappear have no file left. -/
def Cleared (s s' : St) : Prop := ∀ r ∈ s.rows, r ∉ s'.rows → s'.file r.path = none

theorem Cleared.refl (s : St) : Cleared s s := fun _ h h' => absurd h h'

theorem Cleared.trans {e : Env} {U : Path → Prop} {a b c : St} (h : Cleared a b) (h' : Cleared b c) (l : Loss e U b c) : Cleared a c := by
  intro r hr hn
  by_cases hb : r ∈ b.rows
  · exact h' r hb hn
  · exact file_none_of_sublist l.files (h r hr hb)

theorem cleared_deleteOwn (e : Env) (hd : Deletable e) (p : Path) (n m : Nat) (s : St) : Cleared s (deleteOwn e p n m s).2 := by
  unfold deleteOwn
  by_cases h : s.exists_ p
  · rw [if_pos h]
    unfold deleteFile
    by_cases hc : inCache e p
    · rw [if_pos hc, if_neg (by rw [hd p]; exact Bool.false_ne_true)]
      intro r hr hn
      have : r.path = p := (loss_dropRow e (s.dropFile p) p).removed r hr hn
      rw [this]
      exact file_dropFile s p
    · rw [if_neg hc]
      exact .refl s
  · rw [if_neg h]
    intro r hr hn
    have : r.path = p := (loss_dropRow e s p).removed r hr hn
    rw [this]
    unfold St.exists_ at h
    simp only [Option.not_isSome_iff_eq_none] at h
    exact h

theorem cleared_deleteAll (e : Env) (fuel : Nat) (ih : ∀ p n s, Cleared s (deleteEntry e fuel p n s).2) (rs : List Row) (s : St) :
    Cleared s (deleteAll e fuel rs s).2 := by
  induction rs generalizing s with
  | nil =>
    rw [deleteAll_nil]
    exact .refl s
  | cons c rs ihr =>
    rw [deleteAll_cons]
    have h1 := ih c.path (c.size.getD 0) s
    generalize deleteEntry e fuel c.path (c.size.getD 0) s = x at *
    obtain ⟨r, s1⟩ := x
    cases r with
    | error x => exact h1
    | ok n =>
      simp only
      have h2 := ihr s1
      have l2 := loss_all e fuel rs s1
      generalize deleteAll e fuel rs s1 = y at *
      obtain ⟨r, s2⟩ := y
      cases r with
      | error x => exact h1.trans h2 l2
      | ok m => exact h1.trans h2 l2

theorem cleared_deleteEntry (e : Env) (hd : Deletable e) (fuel : Nat) (p : Path) (n : Nat) (s : St) :
    Cleared s (deleteEntry e fuel p n s).2 := by
  induction fuel generalizing p n s with
  | zero =>
    rw [deleteEntry_zero]
    exact .refl s
  | succ fuel ih =>
    rw [deleteEntry_succ]
    have h1 := cleared_deleteAll e fuel ih (s.children p) s
    generalize deleteAll e fuel (s.children p) s = x at *
    obtain ⟨r, s1⟩ := x
    cases r with
    | error x => exact h1
    | ok m => exact h1.trans (cleared_deleteOwn e hd p n m s1) (loss_deleteOwn e p n m s1)

theorem cleared_all (e : Env) (hd : Deletable e) (fuel : Nat) (rs : List Row) (s : St) : Cleared s (deleteAll e fuel rs s).2 :=
  cleared_deleteAll e fuel (cleared_deleteEntry e hd fuel) rs s

/-! ### success -/

theorem Inside.sub {e : Env} {U : Path → Prop} {s s' : St} (h : Inside e s) (l : Loss e U s s') : Inside e s' :=
  fun r hr => h r (l.rows.subset hr)

theorem ok_deleteOwn (e : Env) (p : Path) (hp : inCache e p = true) (n m : Nat) (s : St) : ∃ k s', deleteOwn e p n m s = (.ok k, s') := by
  unfold deleteOwn
  by_cases h : s.exists_ p
  · rw [if_pos h]
    unfold deleteFile
    rw [if_pos hp]
    by_cases h' : e.stuck p
    · rw [if_pos h']; exact ⟨_, _, rfl⟩
    · rw [if_neg h']; exact ⟨_, _, rfl⟩
  · rw [if_neg h]
    exact ⟨_, _, rfl⟩

theorem ok_deleteAll (e : Env) (fuel : Nat) (ih : ∀ p n s, inCache e p = true → Inside e s → ∃ k s', deleteEntry e fuel p n s = (.ok k, s'))
    (rs : List Row) (s : St) (hs : Inside e s) (hrs : ∀ r ∈ rs, inCache e r.path = true) : ∃ k s', deleteAll e fuel rs s = (.ok k, s') := by
  induction rs generalizing s with
  | nil => exact ⟨0, s, by rw [deleteAll_nil]⟩
  | cons c rs ihr =>
    rw [deleteAll_cons]
    obtain ⟨n, s1, h1⟩ := ih c.path (c.size.getD 0) s (hrs c List.mem_cons_self) hs
    have l1 := loss_deleteEntry e fuel c.path (c.size.getD 0) s
    rw [h1] at l1 ⊢
    obtain ⟨m, s2, h2⟩ := ihr s1 (hs.sub l1) (fun r hr => hrs r (List.mem_cons_of_mem _ hr))
    simp only [h2]
    exact ⟨_, _, rfl⟩

theorem ok_deleteEntry (e : Env) (fuel : Nat) (p : Path) (n : Nat) (s : St) (hp : inCache e p = true) (hs : Inside e s) :
    ∃ k s', deleteEntry e fuel p n s = (.ok k, s') := by
  induction fuel generalizing p n s with
  | zero => exact ⟨0, s, by rw [deleteEntry_zero]⟩
  | succ fuel ih =>
    rw [deleteEntry_succ]
    obtain ⟨m, s1, h1⟩ := ok_deleteAll e fuel (fun p n s a b => ih p n s a b) (s.children p) s hs
      (fun r hr => hs r (List.mem_filter.1 hr).1)
    rw [h1]
    exact ok_deleteOwn e p hp n m s1

theorem ok_all (e : Env) (fuel : Nat) (rs : List Row) (s : St) (hs : Inside e s) (hrs : ∀ r ∈ rs, inCache e r.path = true) :
    ∃ k s', deleteAll e fuel rs s = (.ok k, s') :=
  ok_deleteAll e fuel (fun p n s a b => ok_deleteEntry e fuel p n s a b) rs s hs hrs

/-- The row itself is gone. -/
theorem own_gone (e : Env) (p : Path) (n m k : Nat) (s s' : St) (h : deleteOwn e p n m s = (.ok k, s')) : ∀ r ∈ s'.rows, r.path ≠ p := by
  have key : ∀ s : St, ∀ r ∈ (s.dropRow p).rows, r.path ≠ p := fun s r hr => by
    have := (List.mem_filter.1 hr).2
    simpa using this
  unfold deleteOwn at h
  by_cases hx : s.exists_ p
  · rw [if_pos hx] at h
    generalize deleteFile e p s = x at *
    obtain ⟨r, s1⟩ := x
    cases r with
    | error x => cases h
    | ok _ => cases h; exact key _
  · rw [if_neg hx] at h
    cases h
    exact key _

theorem entry_gone (e : Env) (fuel : Nat) (p : Path) (n k : Nat) (s s' : St) (h : deleteEntry e (fuel + 1) p n s = (.ok k, s')) :
    ∀ r ∈ s'.rows, r.path ≠ p := by
  rw [deleteEntry_succ] at h
  generalize deleteAll e fuel (s.children p) s = x at *
  obtain ⟨r, s1⟩ := x
  cases r with
  | error x => cases h
  | ok m => exact own_gone e p n m k s1 s' h

/-! ### the amount freed -/

theorem freed_deleteOwn (e : Env) (r : Row) (m k : Nat) (s s' : St)
    (hr : r ∈ s.rows ∨ s.file r.path = none) (h : deleteOwn e r.path (r.size.getD 0) m s = (.ok k, s')) : k + s'.size ≤ m + s.size := by
  unfold deleteOwn at h
  by_cases hx : s.exists_ r.path
  · rw [if_pos hx] at h
    have hr' : r ∈ s.rows := by
      rcases hr with hr | hr
      · exact hr
      · unfold St.exists_ at hx
        rw [hr] at hx
        cases hx
    have hl := loss_deleteFile e s r.path
    have hrows : (deleteFile e r.path s).2.rows = s.rows := by
      unfold deleteFile
      split
      · split <;> rfl
      · rfl
    generalize deleteFile e r.path s = x at *
    obtain ⟨y, s1⟩ := x
    cases y with
    | error x => cases h
    | ok _ =>
      cases h
      have h1 := size_dropRow s1 r (by rw [hrows]; exact hr')
      have h2 := size_le hl.rows
      simp only at h1 h2
      omega
  · rw [if_neg hx] at h
    cases h
    have := size_le (loss_dropRow e s r.path).rows
    omega

theorem still {e : Env} {U : Path → Prop} {s s' : St} (hc : Cleared s s') (l : Loss e U s s') {r : Row}
    (hr : r ∈ s.rows ∨ s.file r.path = none) : r ∈ s'.rows ∨ s'.file r.path = none := by
  rcases hr with hr | hr
  · by_cases h : r ∈ s'.rows
    · exact .inl h
    · exact .inr (hc r hr h)
  · exact .inr (file_none_of_sublist l.files hr)

theorem freed_deleteAll (e : Env) (hd : Deletable e) (fuel : Nat)
    (ih : ∀ (r : Row) (k : Nat) (s s' : St), (r ∈ s.rows ∨ s.file r.path = none) → deleteEntry e fuel r.path (r.size.getD 0) s = (.ok k, s') → k + s'.size ≤ s.size)
    (rs : List Row) (s s' : St) (k : Nat) (hrs : ∀ r ∈ rs, r ∈ s.rows ∨ s.file r.path = none)
    (h : deleteAll e fuel rs s = (.ok k, s')) : k + s'.size ≤ s.size := by
  induction rs generalizing s s' k with
  | nil =>
    rw [deleteAll_nil] at h
    cases h
    simp
  | cons c rs ihr =>
    rw [deleteAll_cons] at h
    have h1 := ih c
    have l1 := loss_deleteEntry e fuel c.path (c.size.getD 0) s
    have c1 := cleared_deleteEntry e hd fuel c.path (c.size.getD 0) s
    cases hx : deleteEntry e fuel c.path (c.size.getD 0) s with
    | mk r s1 =>
      rw [hx] at h l1 c1
      cases r with
      | error x => cases h
      | ok n =>
        simp only at h
        have h1 := h1 n s s1 (hrs c List.mem_cons_self) hx
        have h2 := ihr s1
        cases hy : deleteAll e fuel rs s1 with
        | mk r s2 =>
          rw [hy] at h
          cases r with
          | error x => cases h
          | ok m =>
            cases h
            have := h2 _ _ (fun r hr => still c1 l1 (hrs r (List.mem_cons_of_mem _ hr))) hy
            omega

/-- What is counted as freed is no more than what the records lose. -/
theorem freed_deleteEntry (e : Env) (hd : Deletable e) (fuel : Nat) (r : Row) (k : Nat) (s s' : St)
    (hr : r ∈ s.rows ∨ s.file r.path = none) (h : deleteEntry e fuel r.path (r.size.getD 0) s = (.ok k, s')) : k + s'.size ≤ s.size := by
  induction fuel generalizing r k s s' with
  | zero =>
    rw [deleteEntry_zero] at h
    cases h
    simp
  | succ fuel ih =>
    rw [deleteEntry_succ] at h
    have h1 := freed_deleteAll e hd fuel ih (s.children r.path) s
    have l1 := loss_all e fuel (s.children r.path) s
    have c1 := cleared_all e hd fuel (s.children r.path) s
    cases hx : deleteAll e fuel (s.children r.path) s with
    | mk y s1 =>
      rw [hx] at h l1 c1
      cases y with
      | error x => cases h
      | ok m =>
        have h1 := h1 s1 m (fun c hc => .inl (List.mem_filter.1 hc).1) hx
        have := freed_deleteOwn e r m k s1 s' (still c1 l1 hr) h
        omega

/-! ### everything attached goes -/

/-- Nothing stays that is attached to a row that went. -/
def Closed (s s' : St) : Prop := ∀ q ∈ s.rows, q ∉ s'.rows → ∀ r ∈ s'.rows, r.parent ≠ some q.path

theorem Closed.refl (s : St) : Closed s s := fun _ h h' => absurd h h'

theorem Closed.trans {e : Env} {U : Path → Prop} {a b c : St} (h : Closed a b) (h' : Closed b c) (l : Loss e U b c) : Closed a c := by
  intro q hq hn r hr
  by_cases hb : q ∈ b.rows
  · exact h' q hb hn r hr
  · exact h q hq hb r (l.rows.subset hr)

theorem closed_deleteAll (e : Env) (fuel : Nat)
    (ih : ∀ (p : Path) (n k : Nat) (s s' : St), (∀ r ∈ s.rows, r.path.length < p.length + fuel) → 0 < fuel → Rooted s →
      deleteEntry e fuel p n s = (.ok k, s') → Closed s s' ∧ ∀ r ∈ s'.rows, r.parent ≠ some p)
    (rs : List Row) (s s' : St) (k : Nat) (hrs : ∀ c ∈ rs, ∀ r ∈ s.rows, r.path.length < c.path.length + fuel) (hpos : rs ≠ [] → 0 < fuel)
    (hroot : Rooted s) (h : deleteAll e fuel rs s = (.ok k, s')) : Closed s s' ∧ ∀ c ∈ rs, ∀ r ∈ s'.rows, r.path ≠ c.path := by
  induction rs generalizing s s' k with
  | nil =>
    rw [deleteAll_nil] at h
    cases h
    exact ⟨.refl s, fun c hc => by cases hc⟩
  | cons c rs ihr =>
    have hp : 0 < fuel := hpos (by simp)
    rw [deleteAll_cons] at h
    have l1 := loss_deleteEntry e fuel c.path (c.size.getD 0) s
    cases hx : deleteEntry e fuel c.path (c.size.getD 0) s with
    | mk r s1 =>
      rw [hx] at h l1
      cases r with
      | error x => cases h
      | ok n =>
        simp only at h
        have h1 := ih c.path (c.size.getD 0) n s s1 (hrs c List.mem_cons_self) hp hroot hx
        have g1 : ∀ r ∈ s1.rows, r.path ≠ c.path := by
          obtain ⟨f, rfl⟩ : ∃ f, fuel = f + 1 := ⟨fuel - 1, by omega⟩
          exact entry_gone e f c.path _ n s s1 hx
        have l2 := loss_all e fuel rs s1
        cases hy : deleteAll e fuel rs s1 with
        | mk r s2 =>
          rw [hy] at h l2
          cases r with
          | error x => cases h
          | ok m =>
            cases h
            have h2 := ihr s1 s' m (fun c' hc' r hr => hrs c' (List.mem_cons_of_mem _ hc') r (l1.rows.subset hr)) (fun _ => hp)
              (fun r hr => hroot r (l1.rows.subset hr)) hy
            refine ⟨h1.1.trans h2.1 l2, fun c' hc' r hr => ?_⟩
            rcases List.mem_cons.1 hc' with rfl | hc'
            · exact g1 r (l2.rows.subset hr)
            · exact h2.2 c' hc' r hr

theorem closed_deleteEntry (e : Env) (fuel : Nat) (p : Path) (n k : Nat) (s s' : St) (hf : ∀ r ∈ s.rows, r.path.length < p.length + fuel)
    (hpos : 0 < fuel) (hroot : Rooted s) (h : deleteEntry e fuel p n s = (.ok k, s')) : Closed s s' ∧ ∀ r ∈ s'.rows, r.parent ≠ some p := by
  induction fuel generalizing p n k s s' with
  | zero => omega
  | succ fuel ih =>
    rw [deleteEntry_succ] at h
    have hc : ∀ c ∈ s.children p, ∀ r ∈ s.rows, r.path.length < c.path.length + fuel := by
      intro c hc r hr
      have hm := List.mem_filter.1 hc
      have h1 := hroot c hm.1 p (of_decide_eq_true hm.2)
      have h2 := hf r hr
      omega
    have hp : s.children p ≠ [] → 0 < fuel := by
      intro hne
      obtain ⟨c, hcm⟩ := List.exists_mem_of_ne_nil _ hne
      have := hc c hcm c (List.mem_filter.1 hcm).1
      omega
    have l1 := loss_all e fuel (s.children p) s
    have h1 := closed_deleteAll e fuel (fun p n k s s' a b c d => ih p n k s s' a b c d) (s.children p) s
    cases hx : deleteAll e fuel (s.children p) s with
    | mk y s1 =>
      rw [hx] at h l1
      cases y with
      | error x => cases h
      | ok m =>
        obtain ⟨h1, h2⟩ := h1 s1 m hc hp hroot hx
        have l2 := loss_deleteOwn e p n m s1
        simp only at h
        rw [h] at l2
        have hno : ∀ r ∈ s1.rows, r.parent ≠ some p := by
          intro r hr hrp
          exact h2 r (List.mem_filter.2 ⟨l1.rows.subset hr, decide_eq_true hrp⟩) r hr rfl
        refine ⟨h1.trans ?_ l2, fun r hr => hno r (l2.rows.subset hr)⟩
        intro q hq hn r hr
        rw [l2.removed q hq hn]
        exact hno r (l2.rows.subset hr)

theorem longest_le (rs : List Row) (r : Row) (h : r ∈ rs) : r.path.length ≤ longest rs := by
  induction rs with
  | nil => cases h
  | cons a rs ih =>
    rw [longest]
    rcases List.mem_cons.1 h with rfl | h
    · omega
    · have := ih h
      omega

theorem depth_bound (s : St) (r : Row) (h : r ∈ s.rows) (p : Path) : r.path.length < p.length + s.depth := by
  have := longest_le s.rows r h
  unfold St.depth
  omega

theorem Unique.eq {s : St} (h : Unique s) {a b : Row} (ha : a ∈ s.rows) (hb : b ∈ s.rows) (hp : a.path = b.path) : a = b := by
  have := List.inj_on_of_nodup_map h ha hb hp
  exact this

/-- What is attached to a path without rows of or below it is gone. -/
theorem under_gone {s s' : St} (hu : Unique s) (hsub : s'.rows.Sublist s.rows) (hc : Closed s s') {p : Path} (hown : ∀ r ∈ s'.rows, r.path ≠ p)
    (hno : ∀ r ∈ s'.rows, r.parent ≠ some p) {q : Path} (hq : Under s.rows p q) : (∀ r ∈ s'.rows, r.path ≠ q) ∧ ∀ r ∈ s'.rows, r.parent ≠ some q := by
  induction hq with
  | self => exact ⟨hown, hno⟩
  | @child q r0 _ hr hp ih =>
    have hn : r0 ∉ s'.rows := fun h => ih.2 r0 h hp
    exact ⟨fun r hr' heq => hn (hu.eq (hsub.subset hr') hr heq ▸ hr'), hc r0 hr hn⟩

end Verif.DiskCache

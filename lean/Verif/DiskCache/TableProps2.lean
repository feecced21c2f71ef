import Verif.DiskCache.TableProps
import Mathlib.Data.List.Induction

/-!
# When trimming stops (C62); records (C64); deletions outside (C65); summaries (C87)
-/

namespace Verif.DiskCache

/-! ### C62: it stops once enough is freed -/

/-- Every record has its file. -/
def Complete (s : St) : Prop := ∀ r ∈ s.rows, s.file r.path ≠ none

theorem sum_filter_eq (rs : List Row) (hu : (rs.map (·.path)).Nodup) (r : Row) (hr : r ∈ rs) :
    ((rs.filter (fun q => q.path != r.path)).map (fun q => q.size.getD 0)).sum + r.size.getD 0 = (rs.map (fun q => q.size.getD 0)).sum := by
  induction rs with
  | nil => cases hr
  | cons a rs ih =>
    simp only [List.map_cons, List.nodup_cons] at hu
    rcases List.mem_cons.1 hr with rfl | hr
    · have : rs.filter (fun q => q.path != r.path) = rs := List.filter_eq_self.2 (fun q hq => by
        have : q.path ≠ r.path := fun h => hu.1 (h ▸ List.mem_map.2 ⟨q, hq, rfl⟩)
        simpa using this)
      simp [this]
      omega
    · have := ih hu.2 hr
      have ha : a.path ≠ r.path := fun h => hu.1 (h ▸ List.mem_map.2 ⟨r, hr, rfl⟩)
      simp [ha]
      omega

theorem file_dropFile_ne (s : St) (p q : Path) (h : q ≠ p) (hq : s.file q ≠ none) : (s.dropFile p).file q ≠ none := by
  intro hn
  apply hq
  rw [file_none_iff] at *
  intro f hf hfq
  exact hn f (List.mem_filter.2 ⟨hf, by rw [hfq]; simpa using h⟩) hfq

theorem exact_deleteOwn (e : Env) (hd : Deletable e) (r : Row) (m k : Nat) (s s' : St) (hu : Unique s) (hc : Complete s)
    (hr : r ∈ s.rows ∨ s.file r.path = none) (h : deleteOwn e r.path (r.size.getD 0) m s = (.ok k, s')) :
    k + s'.size = m + s.size ∧ Complete s' := by
  unfold deleteOwn at h
  by_cases hx : s.exists_ r.path
  · rw [if_pos hx] at h
    have hr' : r ∈ s.rows := by
      rcases hr with hr | hr
      · exact hr
      · unfold St.exists_ at hx
        rw [hr] at hx
        cases hx
    unfold deleteFile at h
    by_cases hin : inCache e r.path
    · rw [if_pos hin, if_neg (by rw [hd]; exact Bool.false_ne_true)] at h
      cases h
      have := sum_filter_eq s.rows hu r hr'
      refine ⟨?_, fun q hq => ?_⟩
      · change m + r.size.getD 0 + ((s.rows.filter (fun q => q.path != r.path)).map (fun q => q.size.getD 0)).sum = m + (s.rows.map (fun q => q.size.getD 0)).sum
        omega
      · have hm := List.mem_filter.1 hq
        exact file_dropFile_ne s r.path q.path (by simpa using hm.2) (hc q hm.1)
    · rw [if_neg hin] at h
      cases h
  · rw [if_neg hx] at h
    cases h
    have hno : ∀ q ∈ s.rows, q.path ≠ r.path := by
      intro q hq hqp
      have := hc q hq
      rw [hqp] at this
      unfold St.exists_ at hx
      exact hx (Option.isSome_iff_ne_none.2 this)
    have : s.dropRow r.path = s := by
      unfold St.dropRow
      rw [List.filter_eq_self.2 (fun q hq => by simpa using hno q hq)]
    rw [this]
    exact ⟨rfl, hc⟩

theorem exact_deleteAll (e : Env) (hd : Deletable e) (fuel : Nat)
    (ih : ∀ (r : Row) (k : Nat) (s s' : St), Unique s → Complete s → (r ∈ s.rows ∨ s.file r.path = none) →
      deleteEntry e fuel r.path (r.size.getD 0) s = (.ok k, s') → k + s'.size = s.size ∧ Complete s')
    (rs : List Row) (s s' : St) (k : Nat) (hu : Unique s) (hc : Complete s) (hrs : ∀ r ∈ rs, r ∈ s.rows ∨ s.file r.path = none)
    (h : deleteAll e fuel rs s = (.ok k, s')) : k + s'.size = s.size ∧ Complete s' := by
  induction rs generalizing s s' k with
  | nil =>
    rw [deleteAll_nil] at h
    cases h
    exact ⟨by simp, hc⟩
  | cons c rs ihr =>
    rw [deleteAll_cons] at h
    have l1 := loss_deleteEntry e fuel c.path (c.size.getD 0) s
    have c1 := cleared_deleteEntry e hd fuel c.path (c.size.getD 0) s
    cases hx : deleteEntry e fuel c.path (c.size.getD 0) s with
    | mk r s1 =>
      rw [hx] at h l1 c1
      cases r with
      | error x => cases h
      | ok n =>
        simp only at h
        have h1 := ih c n s s1 hu hc (hrs c List.mem_cons_self) hx
        have h2 := ihr s1
        cases hy : deleteAll e fuel rs s1 with
        | mk r s2 =>
          rw [hy] at h
          cases r with
          | error x => cases h
          | ok m =>
            cases h
            have h2 := h2 _ _ (l1.unique hu) h1.2 (fun r hr => still c1 l1 (hrs r (List.mem_cons_of_mem _ hr))) hy
            exact ⟨by omega, h2.2⟩

/-- With up-to-date records the amount counted as freed is what the records lose. -/
theorem exact_deleteEntry (e : Env) (hd : Deletable e) (fuel : Nat) (r : Row) (k : Nat) (s s' : St) (hu : Unique s) (hc : Complete s)
    (hr : r ∈ s.rows ∨ s.file r.path = none) (h : deleteEntry e fuel r.path (r.size.getD 0) s = (.ok k, s')) : k + s'.size = s.size ∧ Complete s' := by
  induction fuel generalizing r k s s' with
  | zero =>
    rw [deleteEntry_zero] at h
    cases h
    exact ⟨by simp, hc⟩
  | succ fuel ih =>
    rw [deleteEntry_succ] at h
    have l1 := loss_all e fuel (s.children r.path) s
    have c1 := cleared_all e hd fuel (s.children r.path) s
    have h1 := exact_deleteAll e hd fuel ih (s.children r.path) s
    cases hx : deleteAll e fuel (s.children r.path) s with
    | mk y s1 =>
      rw [hx] at h l1 c1
      cases y with
      | error x => cases h
      | ok m =>
        have h1 := h1 s1 m hu hc (fun c hc => .inl (List.mem_filter.1 hc).1) hx
        have h2 := exact_deleteOwn e hd r m k s1 s' (l1.unique hu) h1.2 (still c1 l1 hr) h
        exact ⟨by omega, h2.2⟩

/-- Deletions from `s` to `s'`: all but those with the last victim `v` freed less than `goal`. -/
def LastNeeded (e : Env) (victims : Row → Prop) (goal : Nat) (s s' : St) : Prop :=
  ∃ mid v, victims v ∧ Loss e (fun _ => True) s mid ∧ Loss e (Under mid.rows v.path) mid s' ∧ 100 * (s.size - mid.size) < goal

theorem trim_last (e : Env) (hd : Deletable e) (goal : Nat) (rs : List Row) (total : Nat) (s : St) (hs : Inside e s) (hu : Unique s) (hc : Complete s)
    (hin : ∀ r ∈ rs, inCache e r.path = true) (hrs : ∀ r ∈ rs, r ∈ s.rows ∨ s.file r.path = none) (hg : 100 * total < goal) :
    ∃ b tot s', trim e goal rs total s = (.ok (b, tot), s') ∧ tot + s'.size = total + s.size ∧ Complete s' ∧ (b = false → 100 * tot < goal) ∧
      (s' = s ∨ ∃ mid v, v ∈ rs ∧ Loss e (fun _ => True) s mid ∧ Loss e (Under mid.rows v.path) mid s' ∧ 100 * (total + (s.size - mid.size)) < goal) := by
  induction rs generalizing total s with
  | nil => exact ⟨false, total, s, rfl, rfl, hc, fun _ => hg, .inl rfl⟩
  | cons c rs ih =>
    rw [trim]
    obtain ⟨n, s1, h1⟩ := ok_deleteEntry e s.depth c.path (c.size.getD 0) s (hin c List.mem_cons_self) hs
    have l1 := loss_deleteEntry e s.depth c.path (c.size.getD 0) s
    have c1 := cleared_deleteEntry e hd s.depth c.path (c.size.getD 0) s
    have f1 := exact_deleteEntry e hd s.depth c n s s1 hu hc (hrs c List.mem_cons_self) h1
    rw [h1] at l1 c1 ⊢
    simp only at l1 c1 ⊢
    by_cases hgg : 100 * (total + n) ≥ goal
    · rw [if_pos hgg]
      exact ⟨true, total + n, s1, rfl, by omega, f1.2, fun h => (by cases h), .inr ⟨s, c, List.mem_cons_self, .refl _ _ _, l1, by omega⟩⟩
    · rw [if_neg hgg]
      obtain ⟨b, tot, s', h2, f2, hc2, hb, hcase⟩ := ih (total + n) s1 (hs.sub l1) (l1.unique hu) f1.2
        (fun r hr => hin r (List.mem_cons_of_mem _ hr)) (fun r hr => still c1 l1 (hrs r (List.mem_cons_of_mem _ hr))) (by omega)
      refine ⟨b, tot, s', h2, by omega, hc2, hb, ?_⟩
      rcases hcase with rfl | ⟨mid, v, hv, lm, lv, hlt⟩
      · exact .inr ⟨s, c, List.mem_cons_self, .refl _ _ _, l1, by omega⟩
      · refine .inr ⟨mid, v, List.mem_cons_of_mem _ hv, (l1.mono (fun _ _ => trivial)).trans lm, lv, ?_⟩
        have := size_le lm.rows
        omega

/-- When records and files agree: trimming stops as soon as enough is freed. Without its last victim it would have freed less than
asked. -/
theorem C62_stops (e : Env) (hd : Deletable e) (t goal : Nat) (s : St) (hs : Inside e s) (hu : Unique s) (hc : Complete s) :
    (decache e t goal false s).2 = s ∨
      LastNeeded e (fun v => v ∈ s.rows ∧ Finished v ∧ ¬Protected s.rows v) goal s (decache e t goal false s).2 := by
  unfold decache
  by_cases hg : goal = 0
  · rw [if_pos hg]
    exact .inl rfl
  · rw [if_neg hg, if_neg Bool.false_ne_true]
    have victim : ∀ v ∈ s.rows, Eligible (latestDate t s) v → v ∈ s.rows ∧ Finished v ∧ ¬Protected s.rows v :=
      fun v hv hel => ⟨hv, (eligible_iff t s v hv).1 hel⟩
    generalize latestDate t s = latest at *
    unfold sweep
    obtain ⟨b1, tot1, s1, h1, f1, hc1, hb1, hcase1⟩ := trim_last e hd goal (firstQuery latest s) 0 s hs hu hc
      (fun r hr => hs r (first_mem.1 hr).1) (fun r hr => .inl (first_mem.1 hr).1) (by omega)
    have l1 := loss_trim e goal (firstQuery latest s) 0 s
    rw [h1] at l1 ⊢
    have case1 : s1 = s ∨ LastNeeded e (fun v => v ∈ s.rows ∧ Finished v ∧ ¬Protected s.rows v) goal s s1 := by
      rcases hcase1 with h | ⟨mid, v, hv, lm, lv, hlt⟩
      · exact .inl h
      · have := first_mem.1 hv
        exact .inr ⟨mid, v, victim v this.1 this.2.1, lm, lv, by omega⟩
    cases b1 with
    | true => exact case1
    | false =>
      simp only at l1 ⊢
      obtain ⟨b2, tot2, s2, h2, f2, hc2, hb2, hcase2⟩ := trim_last e hd goal (secondQuery latest s1) tot1 s1 (hs.sub l1) (l1.unique hu) hc1
        (fun r hr => hs r (l1.rows.subset (second_mem.1 hr).1)) (fun r hr => .inl (second_mem.1 hr).1) (hb1 rfl)
      rw [h2]
      rcases hcase2 with rfl | ⟨mid, v, hv, lm, lv, hlt⟩
      · exact case1
      · have := second_mem.1 hv
        refine .inr ⟨mid, v, victim v (l1.rows.subset this.1) this.2, (l1.mono (fun _ _ => trivial)).trans lm, lv, ?_⟩
        have := size_le lm.rows
        omega

/-- Three finished entries, the oldest accessed last. -/
def three : St := ⟨[row "/c/a" "url" 1 9 (some 10), row "/c/b" "url" 2 2 (some 10), row "/c/d" "url" 3 3 (some 10)],
  [("/c/a".toList, ⟨10, 1⟩), ("/c/b".toList, ⟨10, 2⟩), ("/c/d".toList, ⟨10, 3⟩)]⟩

theorem three_ok : Inside envC three ∧ Unique three ∧ Complete three ∧ ((decache envC 1000 500 false three).2.rows.map (·.created)) = [1, 3] := by
  refine ⟨?_, by unfold Unique; decide +kernel, ?_, by decide +kernel⟩
  · have : ∀ r ∈ three.rows, inCache envC r.path = true := by decide +kernel
    exact this
  · have : ∀ r ∈ three.rows, (three.file r.path).isSome = true := by decide +kernel
    exact fun r hr => Option.isSome_iff_ne_none.1 (this r hr)

/-! ### what an operation does to the rows -/

/-- Rows come from rows, with the same path, creation time and number of accesses (one more if requested), or are created now. -/
def Derived (time : Option Nat) (plus : Path → Nat) (new : Row → Prop) (s s' : St) : Prop :=
  ∀ r' ∈ s'.rows, (∃ r ∈ s.rows, r'.path = r.path ∧ r'.created = r.created ∧ r'.parent = r.parent ∧ r'.accesses = r.accesses + plus r.path) ∨
    (r'.accesses = 1 ∧ time = some r'.created ∧ new r')

/-- Unique, inside, with shorter parents. -/
structure Inv (e : Env) (s : St) : Prop where
  unique : Unique s
  inside : Inside e s
  rooted : Rooted s

theorem Loss.inv {e : Env} {U : Path → Prop} {s s' : St} (l : Loss e U s s') (h : Inv e s) : Inv e s' :=
  ⟨l.unique h.unique, h.inside.sub l, fun r hr => h.rooted r (l.rows.subset hr)⟩

theorem Loss.derived {e : Env} {U : Path → Prop} {s s' : St} (l : Loss e U s s') (time : Option Nat) (new : Row → Prop) :
    Derived time (fun _ => 0) new s s' :=
  fun r hr => .inl ⟨r, l.rows.subset hr, rfl, rfl, rfl, rfl⟩

theorem Derived.trans {time : Option Nat} {new : Row → Prop} {a b c : St} (h : Derived time (fun _ => 0) new a b) (h' : Derived time (fun _ => 0) new b c)
    (hnew : ∀ r r', r'.path = r.path → new r → new r') : Derived time (fun _ => 0) new a c := by
  intro r2 hr2
  rcases h' r2 hr2 with ⟨r1, hr1, h1, h2, hpa, h3⟩ | h
  · rcases h r1 hr1 with ⟨r0, hr0, h4, h5, hpb, h6⟩ | ⟨h4, h5, h6⟩
    · exact .inl ⟨r0, hr0, h1.trans h4, h2.trans h5, hpa.trans hpb, by simp only at *; omega⟩
    · exact .inr ⟨by simp only at *; omega, by rw [h2]; exact h5, hnew r1 r2 h1 h6⟩
  · exact .inr h

theorem Kept.inv {e : Env} {t : Nat} {clean : Bool} {s s' : St} (k : Kept e t clean s s') (h : Inv e s) : Inv e s' :=
  ⟨k.unique h.unique, k.inside h.inside, k.rooted h.rooted⟩

theorem Kept.derived {e : Env} {t : Nat} {clean : Bool} {s s' : St} (k : Kept e t clean s s') :
    Derived (some t) (fun _ => 0) (fun r => direct e r.path = true) s s' := by
  intro r hr
  rcases k.back r hr with ⟨r0, hr0, hs⟩ | ⟨_, h2, h3, h4⟩
  · exact .inl ⟨r0, hr0, hs.path, hs.created, hs.parent, hs.accesses⟩
  · exact .inr ⟨h3, by rw [h2], h4⟩

/-- What an operation can do to the state: `lost` the paths whose files it may delete. -/
structure Effect (e : Env) (time : Option Nat) (plus : Path → Nat) (new : Row → Prop) (lost : Path → Prop) (s s' : St) : Prop where
  inv : Inv e s → Inv e s'
  derived : Derived time plus new s s'
  files : ∀ f ∈ s.files, f ∉ s'.files → inCache e f.1 = true ∧ e.stuck f.1 = false ∧ lost f.1

theorem Loss.effect {e : Env} {U : Path → Prop} {s s' : St} (l : Loss e U s s') (time : Option Nat) (new : Row → Prop) :
    Effect e time (fun _ => 0) new U s s' := ⟨l.inv, l.derived time new, l.gone⟩

theorem Kept.effect {e : Env} {t : Nat} {clean : Bool} {s s' : St} (k : Kept e t clean s s') (lost : Path → Prop) :
    Effect e (some t) (fun _ => 0) (fun r => direct e r.path = true) lost s s' :=
  ⟨k.inv, k.derived, fun _ hf hn => absurd (k.files ▸ hf) hn⟩

theorem Effect.trans {e : Env} {time : Option Nat} {lost : Path → Prop} {a b c : St}
    (h : Effect e time (fun _ => 0) (fun r => direct e r.path = true) lost a b)
    (h' : Effect e time (fun _ => 0) (fun r => direct e r.path = true) lost b c) :
    Effect e time (fun _ => 0) (fun r => direct e r.path = true) lost a c := by
  refine ⟨fun i => h'.inv (h.inv i), h.derived.trans h'.derived (fun r r' hp hd => by rw [hp]; exact hd), fun f hf hn => ?_⟩
  by_cases hb : f ∈ b.files
  · exact h'.files f hb hn
  · exact h.files f hf hb

theorem Effect.mono {e : Env} {time : Option Nat} {plus : Path → Nat} {new : Row → Prop} {U V : Path → Prop} {s s' : St}
    (h : ∀ p, U p → V p) (x : Effect e time plus new U s s') : Effect e time plus new V s s' :=
  ⟨x.inv, x.derived, fun f a b => ⟨(x.files f a b).1, (x.files f a b).2.1, h _ (x.files f a b).2.2⟩⟩

/-- Paths of rows: of the table, or adopted. -/
def Known (e : Env) (s : St) (p : Path) : Prop := (∃ r ∈ s.rows, r.path = p) ∨ direct e p = true

theorem Under.known {rows : List Row} {a p : Path} (h : Under rows a p) : p = a ∨ ∃ r ∈ rows, r.path = p := by
  cases h with
  | self => exact .inl rfl
  | child _ hr _ => exact .inr ⟨_, hr, rfl⟩

theorem decache_effect (e : Env) (t t' goal : Nat) (pg : Bool) (s : St) :
    Effect e (some t) (fun _ => 0) (fun r => direct e r.path = true) (fun p => ∃ r ∈ s.rows, r.path = p) s (decache e t' goal pg s).2 := by
  unfold decache
  by_cases hg : goal = 0
  · rw [if_pos hg]
    exact (Loss.refl e (fun p => ∃ r ∈ s.rows, r.path = p) s).effect _ _
  · rw [if_neg hg]
    refine Loss.effect ((loss_sweep e goal _ s).mono (fun q ⟨c, hc, _, hq⟩ => ?_)) _ _
    rcases hq.known with rfl | h
    · exact ⟨c, hc, rfl⟩
    · exact h

theorem Kept.known {e : Env} {t : Nat} {clean : Bool} {s s' : St} (k : Kept e t clean s s') {p : Path} (h : ∃ r ∈ s'.rows, r.path = p) : Known e s p := by
  obtain ⟨r, hr, rfl⟩ := h
  rcases k.back r hr with ⟨r0, hr0, hs⟩ | ⟨_, _, _, h4⟩
  · exact .inl ⟨r0, hr0, hs.path.symm⟩
  · exact .inr h4

theorem clean_effect (e : Env) (t t' goal : Nat) (clean pg : Bool) (s : St) :
    Effect e (some t) (fun _ => 0) (fun r => direct e r.path = true) (Known e s) s (decache e t' goal pg (housekeeping e t clean s)).2 := by
  have k := housekeeping_kept e t clean s
  exact (k.effect (Known e s)).trans ((decache_effect e t t' goal pg _).mono (fun p hp => k.known hp))

theorem check_effect (e : Env) (t : Nat) (l u : Option Nat) (d : Disk) (s : St) :
    Effect e (some t) (fun _ => 0) (fun r => direct e r.path = true) (Known e s) s (checkSize e t l u d s).2 := by
  have refl : ∀ s : St, Effect e (some t) (fun _ => 0) (fun r => direct e r.path = true) (Known e s) s s := fun s => (Loss.refl e (Known e s) s).effect _ _
  have h1 : Effect e (some t) (fun _ => 0) (fun r => direct e r.path = true) (Known e s) s (checkMax e t l s).2 := by
    unfold checkMax
    cases l with
    | none => exact refl s
    | some m =>
      simp only
      by_cases hs : s.size > m
      · rw [if_pos hs]; exact clean_effect e t t _ false false s
      · rw [if_neg hs]; exact refl s
  unfold checkSize
  generalize checkMax e t l s = x at *
  obtain ⟨r, s1⟩ := x
  cases r with
  | error x => exact h1
  | ok _ =>
    simp only at h1 ⊢
    have hk : ∀ p, Known e s1 p → Known e s p := by
      rintro p (⟨r, hr, rfl⟩ | h)
      · rcases h1.derived r hr with ⟨r0, hr0, hp, _⟩ | ⟨_, _, hd⟩
        · exact .inl ⟨r0, hr0, hp.symm⟩
        · exact .inr hd
      · exact .inr h
    unfold checkUsage
    cases u with
    | none => exact h1
    | some u =>
      simp only
      by_cases hs : d.percent > u
      · rw [if_pos hs]
        exact h1.trans ((clean_effect e t t _ false false s1).mono hk)
      · rw [if_neg hs]; exact h1

theorem touch_path (t : Nat) (p : Path) (r : Row) : (touch t p r).path = r.path ∧ (touch t p r).created = r.created ∧ (touch t p r).parent = r.parent ∧
    (touch t p r).accesses = r.accesses + if p = r.path then 1 else 0 := by
  unfold touch
  by_cases h : r.path = p
  · rw [if_pos h, if_pos h.symm]
    exact ⟨rfl, rfl, rfl, rfl⟩
  · rw [if_neg h, if_neg (fun h' => h h'.symm)]
    exact ⟨rfl, rfl, rfl, rfl⟩

theorem setSize_path (p : Path) (n : Nat) (d : Option Nat) (r : Row) : (setSize p n d r).path = r.path ∧ (setSize p n d r).created = r.created ∧
    (setSize p n d r).parent = r.parent ∧ (setSize p n d r).accesses = r.accesses := by
  unfold setSize
  by_cases h : r.path = p
  · rw [if_pos h]
    exact ⟨rfl, rfl, rfl, rfl⟩
  · rw [if_neg h]
    exact ⟨rfl, rfl, rfl, rfl⟩

theorem inv_map {e : Env} {s : St} (g : Row → Row) (hp : ∀ r, (g r).path = r.path) (hq : ∀ r, (g r).parent = r.parent) (h : Inv e s) :
    Inv e { s with rows := s.rows.map g } := by
  refine ⟨?_, fun r hr => ?_, fun r hr p hpar => ?_⟩
  · unfold Unique
    have : (s.rows.map g).map (·.path) = s.rows.map (·.path) := by
      rw [List.map_map]
      exact List.map_congr_left (fun r _ => hp r)
    rw [this]
    exact h.unique
  · obtain ⟨r0, hr0, rfl⟩ := List.mem_map.1 hr
    rw [hp]
    exact h.inside r0 hr0
  · obtain ⟨r0, hr0, rfl⟩ := List.mem_map.1 hr
    rw [hq] at hpar
    rw [hp]
    exact h.rooted r0 hr0 p hpar

theorem register_effect (e : Env) (t : Nat) (p : Path) (o : List Char) (s : St) (hinside : Inside e s) (lost : Path → Prop) :
    Effect e (some t) (fun q => if p = q then 1 else 0) (fun r => r.path = p ∧ inCache e p = true) lost s (register e t p o none s).2 := by
  by_cases hin : inCache e p
  · by_cases ha : s.rows.any (fun r => r.path = p) = false
    · rw [register_new e t p o none s hin ha]
      have hno := any_path_false.1 ha
      refine ⟨fun h => ⟨?_, fun r hr => ?_, fun r hr q hq => ?_⟩, fun r hr => ?_, fun f hf hn => absurd hf hn⟩
      · unfold Unique
        simp only [List.map_append, List.map_cons, List.map_nil]
        rw [List.nodup_append]
        refine ⟨h.unique, by simp, ?_⟩
        intro a hm b hb
        obtain ⟨r, hr, rfl⟩ := List.mem_map.1 hm
        simp only [List.mem_singleton] at hb
        rw [hb]
        exact hno r hr
      · rcases List.mem_append.1 hr with hr | hr
        · exact h.inside r hr
        · rw [List.mem_singleton.1 hr]; exact hin
      · rcases List.mem_append.1 hr with hr | hr
        · exact h.rooted r hr q hq
        · rw [List.mem_singleton.1 hr] at hq; cases hq
      · rcases List.mem_append.1 hr with hr | hr
        · exact .inl ⟨r, hr, rfl, rfl, rfl, by rw [if_neg (fun h => hno r hr h.symm)]; rfl⟩
        · rw [List.mem_singleton.1 hr]
          exact .inr ⟨rfl, rfl, rfl, hin⟩
    · have : register e t p o none s = (.ok (), { s with rows := s.rows.map (touch t p) }) := by
        unfold register
        rw [if_pos hin, if_pos (by simpa using ha)]
      rw [this]
      refine ⟨inv_map _ (fun r => (touch_path t p r).1) (fun r => (touch_path t p r).2.2.1), fun r hr => ?_, fun f hf hn => absurd hf hn⟩
      obtain ⟨r0, hr0, rfl⟩ := List.mem_map.1 hr
      exact .inl ⟨r0, hr0, touch_path t p r0⟩
  · have : register e t p o none s = (.error .assertion, s) := by
      unfold register
      rw [if_neg hin]
    rw [this]
    refine ⟨id, fun r hr => ?_, fun f hf hn => absurd hf hn⟩
    by_cases hp : p = r.path
    · exact absurd (hp ▸ hinside r hr) hin
    · exact .inl ⟨r, hr, rfl, rfl, rfl, by rw [if_neg hp]; rfl⟩

theorem update_effect (e : Env) (p : Path) (d : Option Nat) (s : St) (lost : Path → Prop) :
    Effect e none (fun _ => 0) (fun _ => False) lost s (updateEntry e p d s).2 := by
  have refl : Effect e none (fun _ => 0) (fun _ => False) lost s s := (Loss.refl e lost s).effect _ _
  unfold updateEntry
  by_cases hin : inCache e p
  · rw [if_pos hin]
    cases s.file p with
    | none => exact refl
    | some f =>
      refine ⟨inv_map _ (fun r => (setSize_path p f.size d r).1) (fun r => (setSize_path p f.size d r).2.2.1), fun r hr => ?_, fun f hf hn => absurd hf hn⟩
      obtain ⟨r0, hr0, rfl⟩ := List.mem_map.1 hr
      exact .inl ⟨r0, hr0, setSize_path p f.size d r0⟩
  · rw [if_neg hin]
    exact refl

theorem match_effect (e : Env) (m : Row → Bool) (s : St) :
    Effect e none (fun _ => 0) (fun _ => False) (fun p => ∃ r ∈ s.rows, r.path = p) s (purgeMatch e m s).2 := by
  unfold purgeMatch
  have l := loss_all e s.depth (s.rows.filter m) s
  have l' : Loss e (fun p => ∃ r ∈ s.rows, r.path = p) s (deleteAll e s.depth (s.rows.filter m) s).2 := l.mono (fun q ⟨c, hc, hq⟩ => by
    rcases hq.known with rfl | h
    · exact ⟨c, (List.mem_filter.1 hc).1, rfl⟩
    · exact h)
  generalize deleteAll e s.depth (s.rows.filter m) s = x at *
  obtain ⟨r, s1⟩ := x
  cases r with
  | error x => exact l'.effect _ _
  | ok _ => exact l'.effect _ _

theorem decacheFile_effect (e : Env) (p : Path) (s : St) :
    Effect e none (fun _ => 0) (fun _ => False) (fun q => q = p ∨ ∃ r ∈ s.rows, r.path = q) s (decacheFile e p s).2 := by
  unfold decacheFile
  have l := (loss_deleteEntry e s.depth p (((s.file p).map (·.size)).getD 0) s).mono (fun q hq => hq.known)
  generalize deleteEntry e s.depth p (((s.file p).map (·.size)).getD 0) s = x at *
  obtain ⟨r, s1⟩ := x
  cases r with
  | error x => exact l.effect _ _
  | ok _ => exact l.effect _ _

/-- The paths an operation names. -/
def Op.names : Op → Path → Prop
  | .register _ q _, p => p = q
  | .decacheFile q, p => p = q
  | _, _ => False

/-- Does the operation stand for changes of the files by others? -/
def Op.isWorld : Op → Prop
  | .world _ => True
  | _ => False

/-- Every operation of the manager. -/
theorem step_effect (e : Env) (s : St) (hin : Inside e s) (op : Op) (hw : ¬op.isWorld) :
    Effect e op.time (fun q => if op.requests q then 1 else 0) (fun r => op.names r.path ∨ direct e r.path = true)
      (fun p => op.names p ∨ Known e s p) s (step e s op) := by
  have widen : ∀ {time : Option Nat} {new new' : Row → Prop} {U V : Path → Prop} {s' : St}, (∀ r, new r → new' r) → (∀ p, U p → V p) →
      Effect e time (fun _ => 0) new U s s' → Effect e time (fun q => if (false : Bool) then 1 else 0) new' V s s' := by
    intro time new new' U V s' h1 h2 x
    refine ⟨x.inv, fun r hr => ?_, fun f a b => ⟨(x.files f a b).1, (x.files f a b).2.1, h2 _ (x.files f a b).2.2⟩⟩
    rcases x.derived r hr with h | ⟨a, b, c⟩
    · exact .inl h
    · exact .inr ⟨a, b, h1 r c⟩
  cases op with
  | register t p o =>
    have x := register_effect e t p o s hin (fun q => q = p ∨ Known e s q)
    refine ⟨x.inv, fun r hr => ?_, x.files⟩
    rcases x.derived r hr with ⟨r0, hr0, h1, h2, h3, h4⟩ | ⟨a, b, c⟩
    · exact .inl ⟨r0, hr0, h1, h2, h3, by simp only [Op.requests, decide_eq_true_eq]; exact h4⟩
    · exact .inr ⟨a, b, .inl c.1⟩
  | update p d => exact widen (fun _ h => h.elim) (fun _ h => h) (update_effect e p d s (fun p => (Op.update p d).names p ∨ Known e s p))
  | check t l u d => exact widen (fun _ h => .inr h) (fun _ h => .inr h) (check_effect e t l u d s)
  | purge t t' => exact widen (fun _ h => .inr h) (fun _ h => .inr h) (clean_effect e t t' _ true true s)
  | purgeMatch m => exact widen (fun _ h => h.elim) (fun _ h => .inr (.inl h)) (match_effect e m s)
  | decacheFile p => exact widen (fun _ h => h.elim) (fun _ h => h.elim .inl (fun h => .inr (.inl h))) (decacheFile_effect e p s)
  | world f => exact absurd trivial hw

theorem inv_step (e : Env) (s : St) (h : Inv e s) (op : Op) : Inv e (step e s op) := by
  by_cases hw : op.isWorld
  · cases op <;> first | exact absurd hw id | exact ⟨h.unique, h.inside, h.rooted⟩
  · exact (step_effect e s h.inside op hw).inv h

theorem run_snoc (e : Env) (h : List Op) (op : Op) : run e (h ++ [op]) = step e (run e h) op := by
  unfold run
  rw [List.foldl_append]
  rfl

theorem inv_run (e : Env) (h : List Op) : Inv e (run e h) := by
  induction h using List.reverseRecOn with
  | nil => exact ⟨by unfold Unique; exact List.nodup_nil, fun r hr => (by cases hr), fun r hr => (by cases hr)⟩
  | append_singleton h op ih =>
    rw [run_snoc]
    exact inv_step e _ ih op

/-! ### C64: records -/

/-- One record per path, after every history. -/
theorem C64_unique (e : Env) (h : List Op) (a b : Row) (ha : a ∈ (run e h).rows) (hb : b ∈ (run e h).rows) (hp : a.path = b.path) : a = b :=
  (inv_run e h).unique.eq ha hb hp

/-- `accesses` is 1 plus the number of requests for the path since an operation at the time of its creation; after that operation the
record has been there all the time. -/
theorem C64_accesses (e : Env) (h : List Op) (r : Row) (hr : r ∈ (run e h).rows) :
    ∃ before op after, h = before ++ op :: after ∧ op.time = some r.created ∧ (op.names r.path ∨ direct e r.path = true) ∧
      (∀ now later, after = now ++ later → ∃ u ∈ (run e (before ++ op :: now)).rows, u.path = r.path ∧ u.created = r.created) ∧
      r.accesses = 1 + (after.filter (Op.requests r.path)).length := by
  induction h using List.reverseRecOn generalizing r with
  | nil => cases hr
  | append_singleton h op ih =>
    have hr' := hr
    rw [run_snoc] at hr
    by_cases hw : op.isWorld
    · have : r ∈ (run e h).rows := by
        cases op <;> first | exact absurd hw id | exact hr
      obtain ⟨b, o, a, h1, h2, h3, h5, h4⟩ := ih r this
      refine ⟨b, o, a ++ [op], by rw [h1]; simp, h2, h3, ?_, ?_⟩
      · intro now later hnl
        rcases List.eq_nil_or_concat' later with rfl | ⟨l, x, rfl⟩
        · refine ⟨r, ?_, rfl, rfl⟩
          rw [List.append_nil] at hnl
          rw [← hnl, show b ++ o :: (a ++ [op]) = h ++ [op] by rw [h1]; simp]
          exact hr'
        · rw [← List.append_assoc] at hnl
          exact h5 now l (List.append_inj_left' hnl rfl)
      · have : op.requests r.path = false := by cases op <;> first | exact absurd hw id | rfl
        rw [List.filter_append, h4]
        simp [this]
    · rcases (step_effect e _ (inv_run e h).inside op hw).derived r hr with ⟨r0, hr0, hp, hc, _, hacc⟩ | ⟨hacc, ht, hnew⟩
      · obtain ⟨b, o, a, h1, h2, h3, h5, h4⟩ := ih r0 hr0
        refine ⟨b, o, a ++ [op], by rw [h1]; simp, by rw [hc]; exact h2, by rw [hp]; exact h3, ?_, ?_⟩
        · intro now later hnl
          rcases List.eq_nil_or_concat' later with rfl | ⟨l, x, rfl⟩
          · refine ⟨r, ?_, rfl, rfl⟩
            rw [List.append_nil] at hnl
            rw [← hnl, show b ++ o :: (a ++ [op]) = h ++ [op] by rw [h1]; simp]
            exact hr'
          · rw [← List.append_assoc] at hnl
            rw [hp, hc]
            exact h5 now l (List.append_inj_left' hnl rfl)
        · rw [hp, List.filter_append, hacc, h4]
          cases hq : op.requests r0.path
          · simp [hq]
          · simp [hq]
            omega
      · refine ⟨h, op, [], rfl, ht, hnew, ?_, by rw [hacc]; simp⟩
        intro now later hnl
        obtain ⟨rfl, rfl⟩ := List.append_eq_nil_iff.1 hnl.symm
        exact ⟨r, hr', rfl, rfl⟩

/-- `cache.size()` is the sum of the sizes that are recorded. -/
theorem C64_size (s : St) : s.size = (s.rows.filterMap (·.size)).sum := by
  unfold St.size
  induction s.rows with
  | nil => rfl
  | cons r rs ih =>
    cases h : r.size with
    | none => simpa [h] using ih
    | some n => simpa [h] using ih

example : ((run envC [.register 1 "/c/a".toList "url".toList, .register 2 "/c/b".toList "url".toList, .register 3 "/c/a".toList "url".toList]).rows.map
    (fun r => (r.path, r.accesses))) = [("/c/a".toList, 2), ("/c/b".toList, 1)] := by decide +kernel

/-! ### C65: nothing outside is deleted -/

/-- Whatever the table contains: an operation of the manager deletes only files whose path starts with the text of the directory. -/
theorem C65_prefix_partial (e : Env) (s : St) (op : Op) (hw : ¬op.isWorld) (f : Path × File) (hf : f ∈ s.files) (hn : f ∉ (step e s op).files) :
    e.dir <+: f.1 := by
  have key : inCache e f.1 = true := by
    cases op with
    | register t p o =>
      exfalso
      apply hn
      have : (register e t p o none s).2.files = s.files := by
        unfold register
        split
        · split <;> rfl
        · rfl
      exact this ▸ hf
    | update p d => exact ((update_effect e p d s (fun _ => True)).files f hf hn).1
    | check t l u d => exact ((check_effect e t l u d s).files f hf hn).1
    | purge t t' => exact ((clean_effect e t t' _ true true s).files f hf hn).1
    | purgeMatch m => exact ((match_effect e m s).files f hf hn).1
    | decacheFile p => exact ((decacheFile_effect e p s).files f hf hn).1
    | world f => exact absurd trivial hw
  exact List.isPrefixOf_iff_prefix.1 key

theorem slash_split {rest a b : Path} (hr : '/' ∉ rest) (h : '/' :: rest ++ ['/'] = a ++ "/../".toList ++ b) : rest = "..".toList := by
  have e : ("/../".toList : Path) = ['/', '.', '.', '/'] := by decide
  rw [e] at h
  cases a with
  | cons x a =>
    exfalso
    simp only [List.cons_append, List.cons.injEq] at h
    have hc := congrArg (List.count '/') h.2
    simp only [List.count_append, List.append_assoc] at hc
    rw [List.count_eq_zero.2 hr] at hc
    simp at hc
    omega
  | nil =>
    simp only [List.nil_append, List.cons_append, List.cons.injEq] at h
    have h2 := h.2
    cases b with
    | nil =>
      have : rest ++ ['/'] = ['.', '.'] ++ ['/'] := h2
      have := List.append_cancel_right this
      rw [this]
      decide
    | cons y b =>
      exfalso
      have hc := congrArg (List.count '/') (show rest ++ ['/'] = ['.', '.', '/'] ++ y :: b from h2)
      have hl : (y :: b).getLast? = some '/' := by
        have := congrArg List.getLast? h2
        rw [List.getLast?_append] at this
        simp at this
        cases hb : b.getLast? with
        | none =>
          have hb' : b = [] := List.getLast?_eq_none_iff.1 hb
          subst hb'
          simpa using this.symm
        | some z =>
          rw [List.getLast?_cons, hb] at this ⊢
          simpa using this.symm
      have hm : '/' ∈ y :: b := List.mem_of_getLast? hl
      have hpos := List.count_pos_iff.2 hm
      rw [List.count_append, List.count_append, List.count_eq_zero.2 hr, show List.count '/' ['/'] = 1 by decide,
        show List.count '/' ['.', '.', '/'] = 1 by decide] at hc
      omega

/-- Names found in the directory are inside it. -/
theorem direct_within {e : Env} {p : Path} (h : direct e p = true) : Within e.dir p := by
  unfold direct at h
  simp only [Bool.and_eq_true, Bool.not_eq_true', bne_iff_ne] at h
  obtain ⟨⟨⟨h1, h2⟩, _⟩, h4⟩ := h
  obtain ⟨rest, rfl⟩ := List.isPrefixOf_iff_prefix.1 h1
  refine ⟨rest, by simp, fun a b hab => ?_⟩
  have hno : '/' ∉ rest := by
    have : (e.dir ++ ['/'] ++ rest).drop (e.dir.length + 1) = rest := by
      have : e.dir.length + 1 = (e.dir ++ ['/']).length := by simp
      rw [this, List.drop_left]
    rw [this] at h2
    simpa using h2
  have := slash_split hno hab
  apply h4
  rw [this]
  have : ("/..".toList : Path) = '/' :: "..".toList := by decide
  rw [this]
  simp

/-- All records are of files inside the directory. -/
def AllWithin (e : Env) (s : St) : Prop := ∀ r ∈ s.rows, Within e.dir r.path

/-- As long as only files inside the directory are registered or given up, as `cache_file` does, only files inside the directory are
recorded, and only such files are deleted. -/
theorem C65_within_partial (e : Env) (h : List Op) (hh : ∀ op ∈ h, ∀ p, op.names p → Within e.dir p) (op : Op) (ho : ∀ p, op.names p → Within e.dir p)
    (hw : ¬op.isWorld) :
    AllWithin e (run e h) ∧ ∀ f ∈ (run e h).files, f ∉ (step e (run e h) op).files → Within e.dir f.1 := by
  have hall : AllWithin e (run e h) := by
    induction h using List.reverseRecOn with
    | nil => exact fun r hr => (by cases hr)
    | append_singleton h op' ih =>
      have ih := ih (fun o ho => hh o (List.mem_append_left _ ho))
      rw [run_snoc]
      by_cases hw' : op'.isWorld
      · cases op' <;> first | exact absurd hw' id | exact ih
      · intro r hr
        rcases (step_effect e _ (inv_run e h).inside op' hw').derived r hr with ⟨r0, hr0, hp, _⟩ | ⟨_, _, hn | hd⟩
        · rw [hp]
          exact ih r0 hr0
        · exact hh op' (List.mem_append_right _ (List.mem_singleton_self _)) _ hn
        · exact direct_within hd
  refine ⟨hall, fun f hf hn => ?_⟩
  obtain ⟨_, _, hx⟩ := (step_effect e _ (inv_run e h).inside op hw).files f hf hn
  rcases hx with hx | ⟨r, hr, hx⟩ | hx
  · exact ho _ hx
  · exact hx ▸ hall r hr
  · exact direct_within hx

example : Within "/c".toList "/c/a".toList := ⟨"a".toList, by decide, fun a b h => by
  have := slash_split (rest := "a".toList) (by decide) h
  exact absurd this (by decide)⟩

/-- The test is on the text: a record of a file next to the directory, or reached through `..`, is taken for one inside, and the file is
deleted. -/
theorem C65_refuted : ∃ p q, ¬Within "/c".toList p ∧ ¬Within "/c".toList q ∧ ∃ s : St, p ∈ s.files.map (·.1) ∧ q ∈ s.files.map (·.1) ∧
    p ∉ (decacheFile envC p s).2.files.map (·.1) ∧ q ∉ (decacheFile envC q s).2.files.map (·.1) := by
  refine ⟨"/cx/f".toList, "/c/../f".toList, ?_, ?_, ⟨[], [("/cx/f".toList, ⟨1, 1⟩), ("/c/../f".toList, ⟨1, 1⟩)]⟩, by decide +kernel, by decide +kernel,
    by decide +kernel, by decide +kernel⟩
  · rintro ⟨rest, h, _⟩
    have : ("/c".toList ++ '/' :: rest)[2]? = some '/' := by
      rw [List.getElem?_append_right (by decide)]
      rfl
    rw [← h] at this
    exact absurd this (by decide)
  · rintro ⟨rest, h, h'⟩
    have h0 : ("/c/../f".toList : Path) = "/c".toList ++ '/' :: "../f".toList := by decide
    rw [h0] at h
    have := List.append_cancel_left h
    simp only [List.cons.injEq, true_and] at this
    exact h' [] "f/".toList (by rw [← this]; decide)

/-! ### C87: summaries -/

/-- `summary_dump_database` gives the number of records and the size of the cache, if every record is finished. -/
theorem C87_summary_partial (s : St) (h : ∀ r ∈ s.rows, Finished r) : summary s = .ok (s.rows.length, s.size) := by
  unfold summary
  rw [if_neg]
  intro ha
  obtain ⟨r, hr, hn⟩ := List.any_eq_true.1 ha
  have := h r hr
  unfold Finished at this
  cases hs : r.size <;> rw [hs] at hn this
  · cases this
  · cases hn

/-- Whenever an entry is unfinished it raises. -/
theorem C87_unfinished_refuted (s : St) (r : Row) (hr : r ∈ s.rows) (h : ¬Finished r) : summary s = .error .type := by
  unfold summary
  rw [if_pos]
  refine List.any_eq_true.2 ⟨r, hr, ?_⟩
  unfold Finished at h
  cases hs : r.size <;> rw [hs] at h
  · rfl
  · exact absurd rfl h

/-- While a download is going on it raises. -/
theorem C87_refuted : summary (run envC [.register 1 "/c/a".toList "url".toList]) = .error .type := by decide +kernel

/-- `C62_stops` -/
example : (decache envC 1000 500 false three).2 = three ∨
    LastNeeded envC (fun v => v ∈ three.rows ∧ Finished v ∧ ¬Protected three.rows v) 500 three (decache envC 1000 500 false three).2 :=
  C62_stops envC (fun _ => rfl) 1000 500 three three_ok.1 three_ok.2.1 three_ok.2.2.1

/-- `C64_unique`, `C64_accesses` -/
def asksTwice : List Op := [.register 1 "/c/a".toList "url".toList, .register 2 "/c/b".toList "url".toList, .register 3 "/c/a".toList "url".toList]

example (a b : Row) (ha : a ∈ (run envC asksTwice).rows) (hb : b ∈ (run envC asksTwice).rows) (hp : a.path = b.path) : a = b ∧
    ∃ before op after, asksTwice = before ++ op :: after ∧ op.time = some a.created ∧ (op.names a.path ∨ direct envC a.path = true) ∧
      (∀ now later, after = now ++ later → ∃ u ∈ (run envC (before ++ op :: now)).rows, u.path = a.path ∧ u.created = a.created) ∧
      a.accesses = 1 + (after.filter (Op.requests a.path)).length :=
  ⟨C64_unique envC asksTwice a b ha hb hp, C64_accesses envC asksTwice a ha⟩

example : ((run envC asksTwice).rows.map (·.created)) = [1, 2] := by decide +kernel

/-- `C65_prefix_partial` -/
example : "/c".toList <+: "/c/b".toList :=
  C65_prefix_partial envC three (.decacheFile "/c/b".toList) (fun h => h) ("/c/b".toList, ⟨10, 2⟩) (by decide +kernel) (by decide +kernel)

/-- `C87_summary_partial` -/
example : summary three = .ok (3, 30) := by
  have h : ∀ r ∈ three.rows, r.size.isSome = true := by decide +kernel
  exact (C87_summary_partial three h).trans (by decide +kernel)

end Verif.DiskCache

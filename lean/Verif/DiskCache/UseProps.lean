import Verif.DiskCache.Use
import Verif.DiskCache.TableProps2

/-!
# C110: a file delivered by the cache can be opened
-/

namespace Verif.DiskCache.Use

/-- No stray file to adopt: every file directly in the directory has a record, or is younger than two minutes. -/
def Tidy (e : Env) (t : Nat) (tb : DiskCache.St) : Prop :=
  ∀ x ∈ tb.files, direct e x.1 = true → (∃ r ∈ tb.rows, r.path = x.1) ∨ t - x.2.mtime < 120

/-- The record of the path is the newest. -/
def Newest (tb : DiskCache.St) (p : Path) : Prop := ∃ r ∈ tb.rows, r.path = p ∧ r.parent = none ∧ ∀ u ∈ tb.rows, u.created ≤ r.created

/-- The file is there. -/
def There (tb : DiskCache.St) (p : Path) : Prop := ∃ x ∈ tb.files, x.1 = p

theorem there_iff (tb : DiskCache.St) (p : Path) : tb.exists_ p = true ↔ There tb p := by
  unfold DiskCache.St.exists_ There
  rw [Option.isSome_iff_ne_none]
  constructor
  · intro h
    by_contra hn
    exact h ((file_none_iff tb p).2 (fun f hf hp => hn ⟨f, hf, hp⟩))
  · rintro ⟨x, hx, hp⟩ h
    exact (file_none_iff tb p).1 h x hx hp

theorem Newest.protected {tb : DiskCache.St} {r : Row} (hr : r ∈ tb.rows) (h : ∀ u ∈ tb.rows, u.created ≤ r.created) : Protected tb.rows r := by
  by_cases hu : ∃ u ∈ tb.rows, ¬Finished u
  · obtain ⟨u, hu, hf⟩ := hu
    exact .inl ⟨u, hu, hf, h u hu⟩
  · exact .inr ⟨fun u hm => by by_contra hf; exact hu ⟨u, hm, hf⟩, h⟩

theorem adopt_tidy {e : Env} {t : Nat} {tb : DiskCache.St} (h : Tidy e t tb) (full : Path) (hd : direct e full = true) (hf : There tb full) :
    adopt e t tb full = tb := by
  unfold adopt
  by_cases ha : tb.rows.any (fun r => r.path = full) = true
  · rw [if_pos ha]
  · rw [if_neg ha]
    have hex := (there_iff tb full).2 hf
    unfold DiskCache.St.exists_ at hex
    cases hfile : tb.file full with
    | none => rw [hfile] at hex; cases hex
    | some f =>
      have hm : (full, f) ∈ tb.files := by
        unfold DiskCache.St.file at hfile
        rw [List.lookup_eq_some_iff] at hfile
        obtain ⟨l1, l2, h1, _⟩ := hfile
        rw [h1]
        simp
      rcases h _ hm hd with ⟨r, hr, hp⟩ | hy
      · exact absurd (List.any_eq_true.2 ⟨r, hr, by simpa using hp⟩) ha
      · exact if_pos hy

theorem housekeeping_tidy {e : Env} {t : Nat} {tb : DiskCache.St} (h : Tidy e t tb) : housekeeping e t false tb = updateCache false tb := by
  have key : ∀ l : List Path, (∀ p ∈ l, direct e p = true ∧ There tb p) → l.foldl (adopt e t) tb = tb := by
    intro l hl
    induction l with
    | nil => rfl
    | cons p l ih =>
      rw [List.foldl_cons, adopt_tidy h p (hl p List.mem_cons_self).1 (hl p List.mem_cons_self).2]
      exact ih (fun q hq => hl q (List.mem_cons_of_mem _ hq))
  unfold housekeeping
  rw [key]
  intro p hp
  obtain ⟨hp, hd⟩ := List.mem_filter.1 hp
  obtain ⟨x, hx, rfl⟩ := List.mem_map.1 hp
  exact ⟨hd, x, hx, rfl⟩

theorem newest_update {tb : DiskCache.St} {p : Path} (h : Newest tb p) : Newest (updateCache false tb) p := by
  obtain ⟨r, hr, hp, hpar, hall⟩ := h
  obtain ⟨r', hr'⟩ := refresh_kept tb r
  have hs := refresh_same hr'
  refine ⟨r', List.mem_filterMap.2 ⟨r, hr, hr'⟩, hs.path.trans hp, hs.parent.trans hpar, fun u hu => ?_⟩
  obtain ⟨u0, hu0, hu1⟩ := List.mem_filterMap.1 hu
  rw [(refresh_same hu1).created, hs.created]
  exact hall u0 hu0

theorem tidy_update {e : Env} {t : Nat} {tb : DiskCache.St} (h : Tidy e t tb) : Tidy e t (updateCache false tb) := by
  intro x hx hd
  rcases h x hx hd with ⟨r, hr, hp⟩ | hy
  · obtain ⟨r', hr'⟩ := refresh_kept tb r
    exact .inl ⟨r', List.mem_filterMap.2 ⟨r, hr, hr'⟩, (refresh_same hr').path.trans hp⟩
  · exact .inr hy

theorem decache_cleared (e : Env) (hd : Deletable e) (t goal : Nat) (s : DiskCache.St) : Cleared s (decache e t goal false s).2 := by
  have htrim : ∀ (rs : List Row) (total : Nat) (s : DiskCache.St), Cleared s (trim e goal rs total s).2 := by
    intro rs
    induction rs with
    | nil => exact fun _ s => .refl s
    | cons c rs ih =>
      intro total s
      rw [trim]
      have h1 := cleared_deleteEntry e hd s.depth c.path (c.size.getD 0) s
      generalize deleteEntry e s.depth c.path (c.size.getD 0) s = x at *
      obtain ⟨r, s1⟩ := x
      cases r with
      | error y => exact h1
      | ok n =>
        dsimp only
        split
        · exact h1
        · exact h1.trans (ih _ s1) (loss_trim e goal rs _ s1)
  unfold decache
  split
  · exact .refl s
  · unfold sweep
    have h1 := htrim (firstQuery (if false = true then t else latestDate t s) s) 0 s
    generalize trim e goal (firstQuery (if false = true then t else latestDate t s) s) 0 s = x at *
    obtain ⟨r, s1⟩ := x
    cases r with
    | error y => exact h1
    | ok b =>
      obtain ⟨b, n⟩ := b
      cases b with
      | true => exact h1
      | false =>
        dsimp only
        have h2 := htrim (secondQuery (if false = true then t else latestDate t s) s1) n s1
        have l2 := loss_trim e goal (secondQuery (if false = true then t else latestDate t s) s1) n s1
        generalize trim e goal (secondQuery (if false = true then t else latestDate t s) s1) n s1 = y at *
        obtain ⟨r, s2⟩ := y
        cases r with
        | error z => exact h1.trans h2 l2
        | ok z => exact h1.trans h2 l2

/-- What a check leaves: the newest record, its file, and a tidy directory. -/
structure Spared (e : Env) (t : Nat) (p : Path) (tb : DiskCache.St) : Prop where
  inv : Inv e tb
  tidy : Tidy e t tb
  newest : Newest tb p
  there : There tb p

theorem spared_decache {e : Env} (hd : Deletable e) {t : Nat} {p : Path} (goal : Nat) {tb : DiskCache.St} (h : Spared e t p tb) :
    Spared e t p (decache e t goal false (housekeeping e t false tb)).2 := by
  rw [housekeeping_tidy h.tidy]
  have hi : Inv e (updateCache false tb) := by
    have := (housekeeping_kept e t false tb).inv h.inv
    rwa [housekeeping_tidy h.tidy] at this
  have ht := tidy_update h.tidy
  have hn := newest_update h.newest
  have hth : There (updateCache false tb) p := h.there
  generalize updateCache false tb = s at *
  have hc := decache_cleared e hd t goal s
  have hl := (decache_effect e t t goal false s)
  obtain ⟨r, hr, hp, hpar, hall⟩ := hn
  obtain ⟨h1, h2⟩ := C60_protected e t goal s hi.unique r hr hpar (Newest.protected hr hall)
  have hsub : ∀ x ∈ (decache e t goal false s).2.files, x ∈ s.files := by
    unfold decache
    split
    · exact fun x hx => hx
    · exact fun x hx => (loss_sweep e goal _ s).files.subset hx
  have hrows : ∀ x ∈ (decache e t goal false s).2.rows, x ∈ s.rows := by
    unfold decache
    split
    · exact fun x hx => hx
    · exact fun x hx => (loss_sweep e goal _ s).rows.subset hx
  refine ⟨hl.inv hi, ?_, ⟨r, h1, hp, hpar, fun u hu => hall u (hrows u hu)⟩, ?_⟩
  · intro x hx hdx
    rcases ht x (hsub x hx) hdx with ⟨q, hq, hqp⟩ | hy
    · by_cases hk : q ∈ (decache e t goal false s).2.rows
      · exact .inl ⟨q, hk, hqp⟩
      · exact absurd hqp.symm ((file_none_iff _ _).1 (hc q hq hk) x hx)
    · exact .inr hy
  · obtain ⟨x, hx, hxp⟩ := hth
    exact ⟨x, h2 x hx (hxp.trans hp.symm), hxp⟩

theorem spared_check {e : Env} (hd : Deletable e) {t : Nat} {p : Path} (l u : Option Nat) (d : Disk) {tb : DiskCache.St} (h : Spared e t p tb) :
    Spared e t p (checkSize e t l u d tb).2 := by
  have h1 : Spared e t p (checkMax e t l tb).2 := by
    unfold checkMax
    cases l with
    | none => exact h
    | some m =>
      dsimp only
      split
      · exact spared_decache hd _ h
      · exact h
  have h2 : ∀ {s : DiskCache.St}, Spared e t p s → Spared e t p (checkUsage e t u d s).2 := by
    intro s h
    unfold checkUsage
    cases u with
    | none => exact h
    | some m =>
      dsimp only
      split
      · exact spared_decache hd _ h
      · exact h
  unfold checkSize
  generalize checkMax e t l tb = x at *
  obtain ⟨r, s1⟩ := x
  cases r with
  | error y => exact h1
  | ok y => exact h2 h1

/-! ## Histories -/

/-- The clock as an action sees it. -/
def Act.time : Act → Option Nat
  | .ask _ t _ _ => some t
  | .again _ t _ => some t
  | .manage t _ _ _ => some t
  | _ => none

/-- The clock does not go back. -/
def Clock : Nat → List Act → Prop
  | _, [] => True
  | now, a :: as => match a.time with
    | some t => now ≤ t ∧ Clock t as
    | none => Clock now as

/-- Whenever the size is checked there are no stray files in the directory. -/
def NoStrays (e : Env) (s : St) : List Act → Prop
  | [] => True
  | a :: as => (∀ t l u d, a = .manage t l u d → Tidy e t s.table) ∧ ∀ s', s.step e a = some s' → NoStrays e s' as

/-- What holds while one thread is at work. -/
structure Good (e : Env) (now i : Nat) (s : St) : Prop where
  inv : Inv e s.table
  old : ∀ u ∈ s.table.rows, u.created ≤ now
  top : ∀ f fs, s.calls i = f :: fs → f.leaf = true → s.pending = 0 ∧
    (f.fresh = true → f.pc ≠ .decache → f.pc ≠ .again → Newest s.table f.path) ∧ (f.pc = .update ∨ f.pc = .finish → There s.table f.path)
  held : ∀ h, s.held i = some h → h.leaf = true → (h.made = true → h.fresh = true) →
    There s.table h.path ∧ (s.pending = 0 ∨ Newest s.table h.path)

theorem calls_set (s : St) (i : Nat) (fs : List Frame) : (s.setCalls i fs).calls i = fs ∧ (s.setCalls i fs).held i = none := by
  simp [St.setCalls]

theorem calls_ret (s : St) (i : Nat) (h : Held) (fs : List Frame) : (s.ret i h fs).calls i = fs ∧ (s.ret i h fs).held i = some h := by
  simp [St.ret]

/-- The thread goes on in its innermost call. -/
theorem good_set {e : Env} {now i : Nat} {s : St} (hi : Inv e s.table) (ho : ∀ u ∈ s.table.rows, u.created ≤ now) (f : Frame) (fs : List Frame)
    (h : f.leaf = true → s.pending = 0 ∧
      (f.fresh = true → f.pc ≠ .decache → f.pc ≠ .again → Newest s.table f.path) ∧ (f.pc = .update ∨ f.pc = .finish → There s.table f.path)) :
    Good e now i (s.setCalls i (f :: fs)) := by
  obtain ⟨h1, h2⟩ := calls_set s i (f :: fs)
  refine ⟨hi, ho, fun g gs hg => ?_, fun x hx => ?_⟩
  · rw [h1] at hg
    cases hg
    exact h
  · rw [h2] at hx
    cases hx

/-- Below the innermost call there are no leaves. -/
def Below : List Frame → Prop
  | [] => True
  | _ :: fs => ∀ f ∈ fs, f.leaf = false

theorem good_pop {e : Env} {now i : Nat} {s : St} (hi : Inv e s.table) (ho : ∀ u ∈ s.table.rows, u.created ≤ now) (fs : List Frame)
    (hb : ∀ f ∈ fs, f.leaf = false) : Good e now i (s.setCalls i fs) := by
  obtain ⟨h1, h2⟩ := calls_set s i fs
  refine ⟨hi, ho, fun g gs hg hl => ?_, fun x hx => ?_⟩
  · rw [h1] at hg
    have := hb g (by rw [hg]; exact List.mem_cons_self)
    rw [hl] at this
    cases this
  · rw [h2] at hx
    cases hx

theorem good_ret {e : Env} {now i : Nat} {s : St} (hi : Inv e s.table) (ho : ∀ u ∈ s.table.rows, u.created ≤ now) (h : Held) (fs : List Frame)
    (hb : ∀ f ∈ fs, f.leaf = false) (hh : h.leaf = true → (h.made = true → h.fresh = true) →
      There s.table h.path ∧ (s.pending = 0 ∨ Newest s.table h.path)) : Good e now i (s.ret i h fs) := by
  obtain ⟨h1, h2⟩ := calls_ret s i h fs
  refine ⟨hi, ho, fun g gs hg hl => ?_, fun x hx => ?_⟩
  · rw [h1] at hg
    have := hb g (by rw [hg]; exact List.mem_cons_self)
    rw [hl] at this
    cases this
  · rw [h2] at hx
    cases hx
    exact hh

/-- A new record is the newest. -/
theorem newest_register {e : Env} {now t : Nat} {p : Path} {o : List Char} {tb : DiskCache.St} (ho : ∀ u ∈ tb.rows, u.created ≤ now) (hn : now ≤ t)
    (hr : hasRow tb p = false) {tb' : DiskCache.St} {x : Unit} (h : register e t p o none tb = (.ok x, tb')) : Newest tb' p := by
  by_cases hin : inCache e p = true
  · rw [register_new e t p o none tb hin hr] at h
    cases h
    refine ⟨⟨p, o, t, t, none, none, 1, none⟩, by simp, rfl, rfl, fun u hu => ?_⟩
    rcases List.mem_append.1 hu with hu | hu
    · exact Nat.le_trans (ho u hu) hn
    · rw [List.mem_singleton.1 hu]
  · unfold register at h
    rw [if_neg hin] at h
    cases h

theorem old_effect {e : Env} {now : Nat} {time : Option Nat} {plus : Path → Nat} {new : Row → Prop} {lost : Path → Prop} {tb tb' : DiskCache.St}
    (x : Effect e time plus new lost tb tb') (ho : ∀ u ∈ tb.rows, u.created ≤ now) (hn : ∀ t, time = some t → now ≤ t) :
    ∀ u ∈ tb'.rows, u.created ≤ time.getD now := by
  intro u hu
  rcases x.derived u hu with ⟨r, hr, _, hc, _⟩ | ⟨_, ht, _⟩
  · rw [hc]
    cases time with
    | none => exact ho r hr
    | some t => exact Nat.le_trans (ho r hr) (hn t rfl)
  · rw [ht]
    exact Nat.le_refl _

theorem newest_setSize {tb : DiskCache.St} {p q : Path} {n : Nat} {d : Option Nat} (h : Newest tb p) :
    Newest { tb with rows := tb.rows.map (setSize q n d) } p := by
  obtain ⟨r, hr, hp, hpar, hall⟩ := h
  obtain ⟨h1, h2, h3, _⟩ := setSize_path q n d r
  refine ⟨setSize q n d r, List.mem_map.2 ⟨r, hr, rfl⟩, h1.trans hp, h3.trans hpar, fun u hu => ?_⟩
  obtain ⟨u0, hu0, rfl⟩ := List.mem_map.1 hu
  rw [(setSize_path q n d u0).2.1, h2]
  exact hall u0 hu0

/-- The clock after an action. -/
def after (now : Nat) (a : Act) : Nat := a.time.getD now

theorem good_step {e : Env} (hd : Deletable e) {now i : Nat} {s s' : St} {a : Act} (h : Good e now i s) (hb : Below (s.calls i))
    (ha : a.thread = some i ∨ a.thread = none) (hc : ∀ t, a.time = some t → now ≤ t) (ht : ∀ t l u d, a = .manage t l u d → Tidy e t s.table)
    (hs : s.step e a = some s') : Good e (after now a) i s' ∧ Below (s'.calls i) := by
  cases a with
  | ask j t p o =>
    have : j = i := by simpa [Act.thread] using ha
    subst this
    simp only [St.step] at hs
    split at hs
    · rename_i hp
      have x := register_effect e t p o s.table h.inv.inside (fun _ => False)
      generalize hr : register e t p o none s.table = y at hs x
      obtain ⟨r, tb⟩ := y
      cases r with
      | error _ => cases hs
      | ok r =>
        cases hs
        refine ⟨good_set (x.inv h.inv) (old_effect x h.old hc) _ _ (fun _ => ⟨hp.1, fun hf _ _ => ?_, fun hf => by rcases hf with hf | hf <;> cases hf⟩), ?_⟩
        · exact newest_register h.old (hc t rfl) (by simpa using hf) hr
        · rw [(calls_set _ _ _).1]
          cases hfs : s.calls j with
          | nil => exact fun f hf => by cases hf
          | cons f fs =>
            rw [hfs] at hb
            intro g hg
            rcases List.mem_cons.1 hg with rfl | hg
            · rfl
            · exact hb g hg
    · cases hs
  | first j force =>
    have : j = i := by simpa [Act.thread] using ha
    subst this
    simp only [St.step] at hs
    cases hfs : s.calls j with
    | nil => rw [hfs] at hs; cases hs
    | cons f fs =>
      rw [hfs] at hs hb
      dsimp only at hs
      split at hs
      · rename_i hp
        cases hs
        refine ⟨good_set h.inv h.old _ _ (fun hl => ?_), by rw [(calls_set _ _ _).1]; exact hb⟩
        obtain ⟨h1, h2, h3⟩ := h.top f fs hfs hl
        refine ⟨h1, fun hf _ _ => h2 hf (by rw [hp]; decide) (by rw [hp]; decide), fun hx => ?_⟩
        dsimp only at hx
        split at hx <;> rcases hx with hx | hx <;> cases hx
      · cases hs
  | decache j =>
    have : j = i := by simpa [Act.thread] using ha
    subst this
    simp only [St.step] at hs
    cases hfs : s.calls j with
    | nil => rw [hfs] at hs; cases hs
    | cons f fs =>
      rw [hfs] at hs hb
      dsimp only at hs
      split at hs
      · rename_i hp
        have x := decacheFile_effect e f.path s.table
        generalize decacheFile e f.path s.table = y at hs x
        obtain ⟨r, tb⟩ := y
        cases r with
        | error _ =>
          cases hs
          refine ⟨good_pop (x.inv h.inv) (old_effect x h.old (fun t ht => by cases ht)) fs hb, ?_⟩
          rw [(calls_set _ _ _).1]
          cases fs with
          | nil => trivial
          | cons g gs => exact fun q hq => hb q (List.mem_cons_of_mem _ hq)
        | ok _ =>
          cases hs
          refine ⟨good_set (x.inv h.inv) (old_effect x h.old (fun t ht => by cases ht)) _ _ (fun _ => ⟨hp.2, fun _ _ hf => absurd rfl hf,
            fun hx => by rcases hx with hx | hx <;> cases hx⟩), by rw [(calls_set _ _ _).1]; exact hb⟩
      · cases hs
  | again j t o =>
    have : j = i := by simpa [Act.thread] using ha
    subst this
    simp only [St.step] at hs
    cases hfs : s.calls j with
    | nil => rw [hfs] at hs; cases hs
    | cons f fs =>
      rw [hfs] at hs hb
      dsimp only at hs
      split at hs
      · rename_i hp
        have x := register_effect e t f.path o s.table h.inv.inside (fun _ => False)
        generalize hr : register e t f.path o none s.table = y at hs x
        obtain ⟨r, tb⟩ := y
        cases r with
        | error _ => cases hs
        | ok r =>
          cases hs
          refine ⟨good_set (x.inv h.inv) (old_effect x h.old hc) _ _ (fun _ => ⟨hp.2, fun hf _ _ => ?_, fun hx => by rcases hx with hx | hx <;> cases hx⟩),
            by rw [(calls_set _ _ _).1]; exact hb⟩
          exact newest_register h.old (hc t rfl) (by simpa using hf) hr
      · cases hs
  | second j =>
    have : j = i := by simpa [Act.thread] using ha
    subst this
    simp only [St.step] at hs
    cases hfs : s.calls j with
    | nil => rw [hfs] at hs; cases hs
    | cons f fs =>
      rw [hfs] at hs hb
      dsimp only at hs
      split at hs
      · rename_i hp
        split at hs
        · rename_i hx
          cases hs
          refine ⟨good_ret h.inv h.old _ fs hb (fun hl _ => ⟨(there_iff _ _).1 hx, .inl (h.top f fs hfs hl).1⟩), ?_⟩
          rw [(calls_ret _ _ _ _).1]
          cases fs with
          | nil => trivial
          | cons g gs => exact fun q hq => hb q (List.mem_cons_of_mem _ hq)
        · cases hs
          refine ⟨good_set h.inv h.old _ _ (fun hl => ?_), by rw [(calls_set _ _ _).1]; exact hb⟩
          obtain ⟨h1, h2, h3⟩ := h.top f fs hfs hl
          exact ⟨h1, fun hf _ _ => h2 hf (by rw [hp]; decide) (by rw [hp]; decide), fun hx => by rcases hx with hx | hx <;> cases hx⟩
      · cases hs
  | lock j =>
    have : j = i := by simpa [Act.thread] using ha
    subst this
    simp only [St.step] at hs
    cases hfs : s.calls j with
    | nil => rw [hfs] at hs; cases hs
    | cons f fs =>
      rw [hfs] at hs hb
      dsimp only at hs
      split at hs
      · rename_i hp
        split at hs
        · rename_i hx
          cases hs
          refine ⟨good_ret h.inv h.old _ fs hb (fun hl _ => ⟨(there_iff _ _).1 hx, .inl (h.top f fs hfs hl).1⟩), ?_⟩
          rw [(calls_ret _ _ _ _).1]
          cases fs with
          | nil => trivial
          | cons g gs => exact fun q hq => hb q (List.mem_cons_of_mem _ hq)
        · cases hs
          refine ⟨good_set (s := { s with locks := f.path :: s.locks }) h.inv h.old _ _ (fun hl => ?_), by rw [(calls_set _ _ _).1]; exact hb⟩
          obtain ⟨h1, h2, h3⟩ := h.top f fs hfs hl
          exact ⟨h1, fun hf _ _ => h2 hf (by rw [hp.1]; decide) (by rw [hp.1]; decide), fun hx => by rcases hx with hx | hx <;> cases hx⟩
      · cases hs
  | make j file =>
    have : j = i := by simpa [Act.thread] using ha
    subst this
    simp only [St.step] at hs
    cases hfs : s.calls j with
    | nil => rw [hfs] at hs; cases hs
    | cons f fs =>
      rw [hfs] at hs hb
      dsimp only at hs
      split at hs
      · rename_i hp
        cases hs
        have hi : Inv e (putFile s.table f.path file) := ⟨h.inv.unique, h.inv.inside, h.inv.rooted⟩
        refine ⟨good_set (s := { s with table := putFile s.table f.path file }) hi h.old _ _ (fun hl => ?_), by rw [(calls_set _ _ _).1]; exact hb⟩
        obtain ⟨h1, h2, h3⟩ := h.top f fs hfs hl
        exact ⟨h1, fun hf _ _ => h2 hf (by rw [hp]; decide) (by rw [hp]; decide), fun _ => ⟨(f.path, file), List.mem_cons_self, rfl⟩⟩
      · cases hs
  | update j d =>
    have : j = i := by simpa [Act.thread] using ha
    subst this
    simp only [St.step] at hs
    cases hfs : s.calls j with
    | nil => rw [hfs] at hs; cases hs
    | cons f fs =>
      rw [hfs] at hs hb
      dsimp only at hs
      split at hs
      · rename_i hp
        have x := update_effect e f.path d s.table (fun _ => False)
        generalize hr : updateEntry e f.path d s.table = y at hs x
        obtain ⟨r, tb⟩ := y
        cases r with
        | error _ =>
          cases hs
          refine ⟨good_pop (s := { s with table := tb, locks := s.locks.erase f.path }) (x.inv h.inv) (old_effect x h.old (fun t ht => by cases ht)) fs hb, ?_⟩
          rw [(calls_set _ _ _).1]
          cases fs with
          | nil => trivial
          | cons g gs => exact fun q hq => hb q (List.mem_cons_of_mem _ hq)
        | ok _ =>
          cases hs
          refine ⟨good_set (x.inv h.inv) (old_effect x h.old (fun t ht => by cases ht)) _ _ (fun hl => ?_), by rw [(calls_set _ _ _).1]; exact hb⟩
          obtain ⟨h1, h2, h3⟩ := h.top f fs hfs hl
          unfold updateEntry at hr
          split at hr
          · split at hr
            · cases hr
            · cases hr
              exact ⟨h1, fun hf _ _ => newest_setSize (h2 hf (by rw [hp.1]; decide) (by rw [hp.1]; decide)), fun _ => h3 (.inl hp.1)⟩
          · cases hr
      · cases hs
  | finish j =>
    have : j = i := by simpa [Act.thread] using ha
    subst this
    simp only [St.step] at hs
    cases hfs : s.calls j with
    | nil => rw [hfs] at hs; cases hs
    | cons f fs =>
      rw [hfs] at hs hb
      dsimp only at hs
      split at hs
      · rename_i hp
        cases hs
        refine ⟨good_ret (s := { s with pending := s.pending + 1, locks := s.locks.erase f.path }) h.inv h.old _ fs hb (fun hl hm => ?_), ?_⟩
        · obtain ⟨h1, h2, h3⟩ := h.top f fs hfs hl
          exact ⟨h3 (.inr hp), .inr (h2 (hm rfl) (by rw [hp]; decide) (by rw [hp]; decide))⟩
        · rw [(calls_ret _ _ _ _).1]
          cases fs with
          | nil => trivial
          | cons g gs => exact fun q hq => hb q (List.mem_cons_of_mem _ hq)
      · cases hs
  | raise j =>
    have : j = i := by simpa [Act.thread] using ha
    subst this
    simp only [St.step] at hs
    cases hfs : s.calls j with
    | nil => rw [hfs] at hs; cases hs
    | cons f fs =>
      rw [hfs] at hs hb
      dsimp only at hs
      split at hs
      · cases hs
        refine ⟨good_pop (s := { s with locks := if f.pc = Pc.make then s.locks.erase f.path else s.locks }) h.inv h.old fs hb, ?_⟩
        rw [(calls_set _ _ _).1]
        cases fs with
        | nil => trivial
        | cons g gs => exact fun q hq => hb q (List.mem_cons_of_mem _ hq)
      · cases hs
  | manage t l u d =>
    simp only [St.step] at hs
    split at hs
    · rename_i hp
      cases hs
      have x := check_effect e t l u d s.table
      refine ⟨⟨x.inv h.inv, old_effect x h.old hc, fun f fs hf hl => ?_, fun y hy hl hm => ?_⟩, hb⟩
      · have := (h.top f fs hf hl).1
        omega
      · obtain ⟨h1, h2⟩ := h.held y hy hl hm
        rcases h2 with h2 | h2
        · omega
        · have := spared_check hd l u d ⟨h.inv, ht t l u d rfl, h2, h1⟩
          exact ⟨this.there, .inr this.newest⟩
    · cases hs

theorem good_run {e : Env} (hd : Deletable e) {i : Nat} : ∀ (h : List Act) (now : Nat) (s s' : St), Good e now i s → Below (s.calls i) →
    (∀ a ∈ h, a.thread = some i ∨ a.thread = none) → Clock now h → NoStrays e s h → s.run e h = some s' → ∃ now', Good e now' i s'
  | [], now, s, s', hg, _, _, _, _, hr => by cases hr; exact ⟨now, hg⟩
  | a :: h, now, s, s', hg, hb, ha, hc, ht, hr => by
    have hr : (s.step e a).bind (fun s => s.run e h) = some s' := hr
    cases hst : s.step e a with
    | none => rw [hst] at hr; cases hr
    | some s1 =>
      rw [hst] at hr
      have hc' : (∀ t, a.time = some t → now ≤ t) ∧ Clock (after now a) h := by
        unfold Clock at hc
        unfold after
        cases hat : a.time with
        | none => rw [hat] at hc; exact ⟨fun t ht => (by cases ht), hc⟩
        | some t => rw [hat] at hc; exact ⟨fun t' ht => (by cases ht; exact hc.1), hc.2⟩
      obtain ⟨h1, h2⟩ := good_step hd hg hb (ha a List.mem_cons_self) hc'.1 ht.1 hst
      exact good_run hd h _ s1 s' h1 h2 (fun b hb => ha b (List.mem_cons_of_mem _ hb)) hc'.2 (ht.2 s1 hst) hr

/-- C110 (part): with one thread at work, on any directory without stray files and with any limits: a path that `cache_file` returned can
be opened until the thread goes on, whatever checks run meanwhile – if the call made no other calls within it and the file was found or made
under a new record. Missing: see the three theorems below. -/
theorem C110_alone_partial (e : Env) (hd : Deletable e) (i now n : Nat) (tb : DiskCache.St) (s : St) (h : List Act) (hi : Inv e tb)
    (ho : ∀ u ∈ tb.rows, u.created ≤ now) (ha : ∀ a ∈ h, a.thread = some i ∨ a.thread = none) (hc : Clock now h)
    (ht : NoStrays e (St.start tb n) h) (hr : (St.start tb n).run e h = some s) (x : Held) (hx : s.held i = some x) (hl : x.leaf = true)
    (hf : x.made = true → x.fresh = true) : s.table.exists_ x.path = true := by
  obtain ⟨now', hg⟩ := good_run hd h now (St.start tb n) s ⟨hi, ho, fun f fs hf => (by cases hf), fun y hy => (by cases hy)⟩ trivial ha hc ht hr
  exact (there_iff _ _).2 (hg.held x hx hl hf).1

/-! ## Any number of threads, nothing to trim -/

/-- The limits are not reached at this check. -/
def Roomy (s : St) : Act → Prop
  | .manage _ l u d => (∀ m, l = some m → s.table.size ≤ m) ∧ ∀ m, u = some m → d.percent ≤ m
  | .decache _ => False
  | _ => True

/-- The limits are never reached, and nobody forces a file to be made again. -/
def AllRoomy (e : Env) (s : St) : List Act → Prop
  | [] => True
  | a :: as => Roomy s a ∧ ∀ s', s.step e a = some s' → AllRoomy e s' as

theorem check_roomy (e : Env) (t : Nat) (l u : Option Nat) (d : Disk) (tb : DiskCache.St) (hl : ∀ m, l = some m → tb.size ≤ m)
    (hu : ∀ m, u = some m → d.percent ≤ m) : (checkSize e t l u d tb).2 = tb := by
  have h1 : checkMax e t l tb = (.ok (), tb) := by
    unfold checkMax
    cases l with
    | none => rfl
    | some m => exact if_neg (Nat.not_lt.2 (hl m rfl))
  have h2 : checkUsage e t u d tb = (.ok (), tb) := by
    unfold checkUsage
    cases u with
    | none => rfl
    | some m => exact if_neg (Nat.not_lt.2 (hu m rfl))
  unfold checkSize
  rw [h1]
  dsimp only
  rw [h2]

/-- What was made or delivered is there. -/
structure Kept (s : St) : Prop where
  calls : ∀ i, ∀ f ∈ s.calls i, f.pc = .update ∨ f.pc = .finish → There s.table f.path
  held : ∀ i h, s.held i = some h → There s.table h.path

theorem kept_set {s : St} {tb : DiskCache.St} (k : Kept s) (hg : ∀ p, There s.table p → There tb p) (n : Nat) (l : List Path) (j : Nat)
    (fs : List Frame) (hf : ∀ f ∈ fs, f.pc = .update ∨ f.pc = .finish → There tb f.path) :
    Kept ({ s with table := tb, pending := n, locks := l }.setCalls j fs) := by
  refine ⟨fun i f hm hp => ?_, fun i h hh => ?_⟩
  · have hm : f ∈ Function.update s.calls j fs i := hm
    rw [Function.update_apply] at hm
    split at hm
    · exact hf f hm hp
    · exact hg _ (k.calls i f hm hp)
  · have hh : Function.update s.held j none i = some h := hh
    rw [Function.update_apply] at hh
    split at hh
    · cases hh
    · exact hg _ (k.held i h hh)

theorem kept_ret {s : St} (k : Kept s) (n : Nat) (l : List Path) (j : Nat) (x : Held) (fs : List Frame) (hx : There s.table x.path)
    (hf : ∀ f ∈ fs, f.pc = .update ∨ f.pc = .finish → There s.table f.path) :
    Kept ({ s with pending := n, locks := l }.ret j x fs) := by
  refine ⟨fun i f hm hp => ?_, fun i h hh => ?_⟩
  · have hm : f ∈ Function.update s.calls j fs i := hm
    rw [Function.update_apply] at hm
    split at hm
    · exact hf f hm hp
    · exact k.calls i f hm hp
  · have hh : Function.update s.held j (some x) i = some h := hh
    rw [Function.update_apply] at hh
    split at hh
    · cases hh; exact hx
    · exact k.held i h hh

theorem register_files (e : Env) (t : Nat) (p : Path) (o : List Char) (par : Option Path) (tb : DiskCache.St) :
    (register e t p o par tb).2.files = tb.files := by
  unfold register
  split
  · split <;> rfl
  · rfl

theorem update_files (e : Env) (p : Path) (d : Option Nat) (tb : DiskCache.St) : (updateEntry e p d tb).2.files = tb.files := by
  unfold updateEntry
  split
  · split <;> rfl
  · rfl

theorem there_files {tb tb' : DiskCache.St} (h : tb'.files = tb.files) (p : Path) (hp : There tb p) : There tb' p := by
  obtain ⟨x, hx, hxp⟩ := hp
  exact ⟨x, h ▸ hx, hxp⟩

theorem kept_step {e : Env} {s s' : St} {a : Act} (k : Kept s) (hr : Roomy s a) (hs : s.step e a = some s') : Kept s' := by
  have tail : ∀ {i : Nat} {f : Frame} {fs : List Frame}, s.calls i = f :: fs → ∀ g ∈ fs, g.pc = .update ∨ g.pc = .finish → There s.table g.path :=
    fun h g hg hp => k.calls _ g (by rw [h]; exact List.mem_cons_of_mem _ hg) hp
  have top : ∀ {i : Nat} {f g : Frame} {fs : List Frame}, s.calls i = f :: fs → ¬(g.pc = .update ∨ g.pc = .finish) →
      ∀ x ∈ g :: fs, x.pc = .update ∨ x.pc = .finish → There s.table x.path := by
    intro i f g fs h hg x hx hp
    rcases List.mem_cons.1 hx with rfl | hx
    · exact absurd hp hg
    · exact tail h x hx hp
  cases a with
  | ask j t p o =>
    simp only [St.step] at hs
    split at hs
    · have hfiles := register_files e t p o none s.table
      generalize register e t p o none s.table = y at hs hfiles
      obtain ⟨r, tb⟩ := y
      cases r with
      | error _ => cases hs
      | ok r =>
        cases hs
        refine kept_set k (there_files hfiles) s.pending s.locks j _ (fun f hf hp => ?_)
        rcases List.mem_cons.1 hf with rfl | hf
        · rcases hp with hp | hp <;> cases hp
        · cases hfs : s.calls j with
          | nil => rw [hfs] at hf; cases hf
          | cons g gs =>
            rw [hfs] at hf
            rcases List.mem_cons.1 hf with rfl | hf
            · exact there_files hfiles _ (k.calls j g (by rw [hfs]; exact List.mem_cons_self) hp)
            · exact there_files hfiles _ (tail hfs f hf hp)
    · cases hs
  | first j force =>
    simp only [St.step] at hs
    cases hfs : s.calls j with
    | nil => rw [hfs] at hs; cases hs
    | cons f fs =>
      rw [hfs] at hs
      dsimp only at hs
      split at hs
      · cases hs
        refine kept_set k (fun _ h => h) s.pending s.locks j _ (top hfs ?_)
        dsimp only
        split <;> decide
      · cases hs
  | decache j => exact absurd hr id
  | again j t o =>
    simp only [St.step] at hs
    cases hfs : s.calls j with
    | nil => rw [hfs] at hs; cases hs
    | cons f fs =>
      rw [hfs] at hs
      dsimp only at hs
      split at hs
      · have hfiles := register_files e t f.path o none s.table
        generalize register e t f.path o none s.table = y at hs hfiles
        obtain ⟨r, tb⟩ := y
        cases r with
        | error _ => cases hs
        | ok r =>
          cases hs
          refine kept_set k (there_files hfiles) s.pending s.locks j _ (fun g hg hp => ?_)
          rcases List.mem_cons.1 hg with rfl | hg
          · rcases hp with hp | hp <;> cases hp
          · exact there_files hfiles _ (tail hfs g hg hp)
      · cases hs
  | second j =>
    simp only [St.step] at hs
    cases hfs : s.calls j with
    | nil => rw [hfs] at hs; cases hs
    | cons f fs =>
      rw [hfs] at hs
      dsimp only at hs
      split at hs
      · split at hs
        · rename_i hx
          cases hs
          exact kept_ret k s.pending s.locks j _ fs ((there_iff _ _).1 hx) (tail hfs)
        · cases hs
          exact kept_set k (fun _ h => h) s.pending s.locks j _ (top hfs (by dsimp only; decide))
      · cases hs
  | lock j =>
    simp only [St.step] at hs
    cases hfs : s.calls j with
    | nil => rw [hfs] at hs; cases hs
    | cons f fs =>
      rw [hfs] at hs
      dsimp only at hs
      split at hs
      · split at hs
        · rename_i hx
          cases hs
          exact kept_ret k s.pending s.locks j _ fs ((there_iff _ _).1 hx) (tail hfs)
        · cases hs
          exact kept_set k (fun _ h => h) s.pending (f.path :: s.locks) j _ (top hfs (by dsimp only; decide))
      · cases hs
  | make j file =>
    simp only [St.step] at hs
    cases hfs : s.calls j with
    | nil => rw [hfs] at hs; cases hs
    | cons f fs =>
      rw [hfs] at hs
      dsimp only at hs
      split at hs
      · cases hs
        have hg : ∀ p, There s.table p → There (putFile s.table f.path file) p := by
          rintro p ⟨x, hx, hp⟩
          by_cases h : x.1 = f.path
          · exact ⟨(f.path, file), List.mem_cons_self, h.symm.trans hp⟩
          · exact ⟨x, List.mem_cons_of_mem _ (List.mem_filter.2 ⟨hx, by simpa using h⟩), hp⟩
        refine kept_set k hg s.pending s.locks j _ (fun g hm hp => ?_)
        rcases List.mem_cons.1 hm with rfl | hm
        · exact ⟨(f.path, file), List.mem_cons_self, rfl⟩
        · exact hg _ (tail hfs g hm hp)
      · cases hs
  | update j d =>
    simp only [St.step] at hs
    cases hfs : s.calls j with
    | nil => rw [hfs] at hs; cases hs
    | cons f fs =>
      rw [hfs] at hs
      dsimp only at hs
      split at hs
      · rename_i hp
        have hfiles := update_files e f.path d s.table
        generalize updateEntry e f.path d s.table = y at hs hfiles
        obtain ⟨r, tb⟩ := y
        cases r with
        | error _ =>
          cases hs
          exact kept_set k (there_files hfiles) s.pending (s.locks.erase f.path) j fs (fun g hg hq => there_files hfiles _ (tail hfs g hg hq))
        | ok _ =>
          cases hs
          refine kept_set k (there_files hfiles) s.pending s.locks j _ (fun g hg hq => ?_)
          rcases List.mem_cons.1 hg with rfl | hg
          · exact there_files hfiles _ (k.calls j f (by rw [hfs]; exact List.mem_cons_self) (.inl hp.1))
          · exact there_files hfiles _ (tail hfs g hg hq)
      · cases hs
  | finish j =>
    simp only [St.step] at hs
    cases hfs : s.calls j with
    | nil => rw [hfs] at hs; cases hs
    | cons f fs =>
      rw [hfs] at hs
      dsimp only at hs
      split at hs
      · rename_i hp
        cases hs
        exact kept_ret k (s.pending + 1) (s.locks.erase f.path) j _ fs (k.calls j f (by rw [hfs]; exact List.mem_cons_self) (.inr hp)) (tail hfs)
      · cases hs
  | raise j =>
    simp only [St.step] at hs
    cases hfs : s.calls j with
    | nil => rw [hfs] at hs; cases hs
    | cons f fs =>
      rw [hfs] at hs
      dsimp only at hs
      split at hs
      · cases hs
        exact kept_set k (fun _ h => h) s.pending _ j fs (tail hfs)
      · cases hs
  | manage t l u d =>
    simp only [St.step] at hs
    split at hs
    · cases hs
      have := check_roomy e t l u d s.table hr.1 hr.2
      refine ⟨fun i f hf hp => ?_, fun i h hh => ?_⟩
      · show There (checkSize e t l u d s.table).2 f.path
        rw [this]
        exact k.calls i f hf hp
      · show There (checkSize e t l u d s.table).2 h.path
        rw [this]
        exact k.held i h hh
    · cases hs

theorem kept_run {e : Env} : ∀ (h : List Act) (s s' : St), Kept s → AllRoomy e s h → s.run e h = some s' → Kept s'
  | [], s, s', k, _, hr => by cases hr; exact k
  | a :: h, s, s', k, ht, hr => by
    have hr : (s.step e a).bind (fun s => s.run e h) = some s' := hr
    cases hst : s.step e a with
    | none => rw [hst] at hr; cases hr
    | some s1 =>
      rw [hst] at hr
      exact kept_run h s1 s' (kept_step k ht.1 hst) (ht.2 s1 hst) hr

/-- C110 (part): any number of threads: while the limits are not reached and nobody forces a file to be made again, every path that was
returned can be opened. -/
theorem C110_roomy_partial (e : Env) (n : Nat) (tb : DiskCache.St) (s : St) (h : List Act) (ht : AllRoomy e (St.start tb n) h)
    (hr : (St.start tb n).run e h = some s) (i : Nat) (x : Held) (hx : s.held i = some x) : s.table.exists_ x.path = true :=
  (there_iff _ _).2 ((kept_run h (St.start tb n) s ⟨fun _ f hf => (by cases hf), fun _ y hy => (by cases hy)⟩ ht hr).held i x hx)

/-! ## Examples and refutations -/

/-- What a thread can open after a history: path and presence. -/
def opens (e : Env) (tb : DiskCache.St) (h : List Act) (i : Nat) : Option (Option (Held × Bool)) :=
  ((St.start tb 0).run e h).map (fun s => (s.held i).map (fun x => (x, s.table.exists_ x.path)))

/-- `cache_file` for a file that is not there, and `create` in between. -/
def fetch (i t : Nat) (p : String) (size : Nat) (within : List Act) : List Act :=
  [.ask i t p.toList "url".toList, .first i false, .second i, .lock i] ++ within ++ [.make i ⟨size, t⟩, .update i none, .finish i]

/-- The same when it is there. -/
def reuse (i t : Nat) (p : String) : List Act := [.ask i t p.toList "url".toList, .first i false, .second i]

def checkAt (t limit : Nat) : Act := .manage t (some limit) none ⟨0, 0⟩

def emptyTb : DiskCache.St := ⟨[], []⟩

/-- The checks of a run are free of stray files: a test. -/
def strayFree (e : Env) (s : St) : List Act → Bool
  | [] => true
  | a :: as =>
    (match a with
      | .manage t _ _ _ => s.table.files.all (fun x => !direct e x.1 || s.table.rows.any (fun r => r.path = x.1) || decide (t - x.2.mtime < 120))
      | _ => true) &&
    match s.step e a with
    | some s' => strayFree e s' as
    | none => true

theorem strayFree_ok (e : Env) : ∀ (h : List Act) (s : St), strayFree e s h = true → NoStrays e s h
  | [], _, _ => trivial
  | a :: h, s, hf => by
    unfold strayFree at hf
    rw [Bool.and_eq_true] at hf
    refine ⟨?_, fun s' hs => ?_⟩
    · rintro t l u d rfl x hx hdx
      have := List.all_eq_true.1 hf.1 x hx
      simp only [hdx, Bool.not_true, Bool.false_or, Bool.or_eq_true, List.any_eq_true, decide_eq_true_eq] at this
      exact this
    · rw [hs] at hf
      exact strayFree_ok e h s' hf.2

/-- Not vacuous: the second download exceeds the limit, the first is trimmed before the path is opened, the second is there. -/
def twoFetches : List Act := fetch 0 1 "/c/a" 10 [] ++ [checkAt 2 15] ++ fetch 0 3 "/c/b" 10 [] ++ [checkAt 4 15]

example : opens envC emptyTb twoFetches 0 = some (some (⟨"/c/b".toList, true, true, true⟩, true)) := by decide +kernel

example : ((St.start emptyTb 0).run envC twoFetches).map (fun s => s.table.exists_ "/c/a".toList) = some false := by decide +kernel

example : ∃ s, (St.start emptyTb 0).run envC twoFetches = some s ∧ s.table.exists_ "/c/b".toList = true := by
  have h : ((St.start emptyTb 0).run envC twoFetches).bind (fun s => s.held 0) = some ⟨"/c/b".toList, true, true, true⟩ := by decide +kernel
  cases hr : (St.start emptyTb 0).run envC twoFetches with
  | none => rw [hr] at h; cases h
  | some s =>
    rw [hr] at h
    exact ⟨s, rfl, C110_alone_partial envC (fun _ => rfl) 0 0 0 emptyTb s twoFetches ⟨List.nodup_nil, fun r hr => (by cases hr), fun r hr => (by cases hr)⟩
      (fun u hu => (by cases hu)) (by decide) (by simp [twoFetches, fetch, checkAt, Clock, Act.time]) (strayFree_ok _ _ _ (by decide +kernel)) hr _ h rfl
      (fun _ => rfl)⟩

/-- The limits of a run are never reached: a test. -/
def roomyRun (e : Env) (s : St) : List Act → Bool
  | [] => true
  | a :: as =>
    (match a with
      | .manage _ l u d => l.all (fun m => decide (s.table.size ≤ m)) && u.all (fun m => decide (d.percent ≤ m))
      | .decache _ => false
      | _ => true) &&
    match s.step e a with
    | some s' => roomyRun e s' as
    | none => true

theorem roomyRun_ok (e : Env) : ∀ (h : List Act) (s : St), roomyRun e s h = true → AllRoomy e s h
  | [], _, _ => trivial
  | a :: h, s, hf => by
    unfold roomyRun at hf
    rw [Bool.and_eq_true] at hf
    refine ⟨?_, fun s' hs => ?_⟩
    · cases a with
      | manage t l u d =>
        have h1 := hf.1
        simp only [Bool.and_eq_true, Option.all_eq_true, decide_eq_true_eq] at h1
        exact h1
      | decache i => exact absurd hf.1 (by simp)
      | _ => trivial
    · rw [hs] at hf
      exact roomyRun_ok e h s' hf.2

/-- Two threads ask for the same file, one makes it while the other waits; another file is made in between; there is room for all. -/
def shared : List Act := [.ask 0 1 "/c/a".toList "url".toList, .first 0 false, .second 0, .lock 0] ++ fetch 1 2 "/c/b" 10 [] ++ [checkAt 3 50] ++
  [.make 0 ⟨10, 4⟩, .update 0 none, .finish 0, checkAt 5 50] ++ reuse 1 6 "/c/a"

/-- `C110_roomy_partial` -/
example : ∃ s, (St.start emptyTb 0).run envC shared = some s ∧ (s.held 1).isSome = true ∧ s.table.exists_ "/c/a".toList = true := by
  have h : ((St.start emptyTb 0).run envC shared).bind (fun s => s.held 1) = some ⟨"/c/a".toList, false, false, true⟩ := by decide +kernel
  cases hr : (St.start emptyTb 0).run envC shared with
  | none => rw [hr] at h; cases h
  | some s =>
    rw [hr] at h
    have h' : s.held 1 = some ⟨"/c/a".toList, false, false, true⟩ := h
    exact ⟨s, rfl, by rw [h']; rfl, C110_roomy_partial envC 0 emptyTb s shared (roomyRun_ok _ _ _ (by decide +kernel)) hr 1 _ h'⟩

/-- C110 refuted, one thread: the index of a remote inventory is made by downloading the packed index within `create`
(backends/db.py:165-186); the record of the packed file is newer. When both exceed the limit, the check that the call itself asked for
removes the index before it is opened. -/
theorem C110_index_refuted : ∃ h : List Act, (∀ a ∈ h, a.thread = some 0 ∨ a.thread = none) ∧
    opens envC emptyTb h 0 = some (some (⟨"/c/index".toList, true, true, false⟩, false)) :=
  ⟨fetch 0 1 "/c/index" 4 (fetch 0 2 "/c/index.gz" 3 [] ++ [checkAt 3 5]) ++ [checkAt 4 5], by decide, by decide +kernel⟩

/-- C110 refuted, one thread: the weights could not be downloaded at first; in the second attempt their record is old, and the check
removes them before they are opened. -/
theorem C110_retry_refuted : ∃ h : List Act, (∀ a ∈ h, a.thread = some 0 ∨ a.thread = none) ∧
    opens envC emptyTb h 0 = some (some (⟨"/c/a".toList, true, false, true⟩, false)) :=
  ⟨[.ask 0 1 "/c/a".toList "url".toList, .first 0 false, .second 0, .lock 0, .raise 0] ++ fetch 0 2 "/c/b" 3 [] ++ [checkAt 3 5] ++
    fetch 0 4 "/c/a" 4 [] ++ [checkAt 5 5], by decide, by decide +kernel⟩

/-- C110 refuted, two threads: weights that were found are removed because another thread downloads. -/
theorem C110_threads_refuted : ∃ h : List Act,
    opens envC emptyTb h 0 = some (some (⟨"/c/a".toList, false, false, true⟩, false)) :=
  ⟨fetch 0 1 "/c/a" 4 [] ++ [checkAt 2 5] ++ reuse 0 3 "/c/a" ++ fetch 1 4 "/c/b" 4 [] ++ [checkAt 5 5], by decide +kernel⟩

end Verif.DiskCache.Use

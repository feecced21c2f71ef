import Verif.Race.Model
import Mathlib.Data.List.Nodup
import Mathlib.Data.List.Infix

/-!
# C96: concurrent regrids find the weights that the inventory has
-/

namespace Verif.Race

/-- The outcome a lookup should have, from the inventory alone: the first entry that matches. -/
def Right {E Q : Type} (e : Env E Q) (t : Nat) : Res E → Prop
  | .found x => ∃ a b, e.entries = a ++ x :: b ∧ e.matches_ (e.query t) x = true ∧ ∀ y ∈ a, e.matches_ (e.query t) y = false
  | .notFound => ∀ y ∈ e.entries, e.matches_ (e.query t) y = false
  | .changed => False

/-- The inventory has no entry for what `t` asks. -/
def Absent {E Q : Type} (e : Env E Q) (t : Nat) : Prop := ∀ y ∈ e.entries, e.matches_ (e.query t) y = false

set_option linter.unusedSectionVars false

section
variable {E Q : Type} [DecidableEq E]

/-- Part of the entries that comes before place `pos` does not match. -/
def Passed (e : Env E Q) (t pos : Nat) : Prop := ∀ i < pos, ∀ x, e.entries[i]? = some x → e.matches_ (e.query t) x = false

theorem right_found {e : Env E Q} {t pos : Nat} {x : E} (h : Passed e t pos) (hx : e.entries[pos]? = some x) (hm : e.matches_ (e.query t) x = true) :
    Right e t (.found x) := by
  obtain ⟨hlt, hx'⟩ := List.getElem?_eq_some_iff.1 hx
  refine ⟨e.entries.take pos, e.entries.drop (pos + 1), ?_, hm, fun y hy => ?_⟩
  · rw [← hx', List.cons_getElem_drop_succ, List.take_append_drop]
  · obtain ⟨i, hi⟩ := List.mem_iff_getElem?.1 hy
    rw [List.getElem?_take] at hi
    split at hi
    · next hlt => exact h i hlt y hi
    · cases hi

theorem Passed.all {e : Env E Q} {t pos : Nat} (h : Passed e t pos) (hx : e.entries.length ≤ pos) : Right e t .notFound := by
  intro y hy
  obtain ⟨i, hi⟩ := List.mem_iff_getElem?.1 hy
  exact h i (by have := (List.getElem?_eq_some_iff.1 hi).1; omega) y hi

theorem Passed.next {e : Env E Q} {t pos : Nat} {x : E} (h : Passed e t pos) (hx : e.entries[pos]? = some x) (hm : e.matches_ (e.query t) x = false) :
    Passed e t (pos + 1) := by
  intro i hi y hy
  by_cases hp : i = pos
  · subst hp
    rw [hx] at hy
    cases hy
    exact hm
  · exact h i (by omega) y hy

theorem insert_take {l obj rest : List E} {x : E} {j : Nat} (hn : l.Nodup) (ho : obj = l.take obj.length) (hj : j ≤ obj.length) (hd : l.drop j = x :: rest) :
    insert x obj = l.take (insert x obj).length ∧ obj.length ≤ (insert x obj).length ∧ j + 1 ≤ (insert x obj).length ∧ l.drop (j + 1) = rest := by
  have hlt : j < l.length := by
    by_contra h
    rw [List.drop_eq_nil_of_le (by omega)] at hd
    cases hd
  have hx : l[j] = x := by
    rw [← List.cons_getElem_drop_succ (h := hlt)] at hd
    exact (List.cons.inj hd).1
  have hr : l.drop (j + 1) = rest := by
    rw [← List.cons_getElem_drop_succ (h := hlt)] at hd
    exact (List.cons.inj hd).2
  unfold insert
  by_cases hm : x ∈ obj
  · rw [if_pos hm]
    refine ⟨ho, le_refl _, ?_, hr⟩
    rw [ho] at hm
    obtain ⟨i, hi⟩ := List.mem_iff_getElem?.1 hm
    rw [List.getElem?_take] at hi
    split at hi
    · next hio =>
      obtain ⟨hil, hie⟩ := List.getElem?_eq_some_iff.1 hi
      have : i = j := (List.Nodup.getElem_inj_iff hn).1 (hie.trans hx.symm)
      omega
    · cases hi
  · rw [if_neg hm]
    have : obj.length = j := by
      by_contra hne
      apply hm
      rw [ho]
      refine List.mem_iff_getElem?.2 ⟨j, ?_⟩
      rw [List.getElem?_take, if_pos (by omega), ← hx]
      exact List.getElem?_eq_getElem hlt
    refine ⟨?_, by simp, by simp; omega, hr⟩
    rw [List.length_append, List.length_singleton, List.take_add_one, ← ho, this, List.getElem?_eq_getElem hlt, hx]
    rfl

/-! ### every schedule: what is found is right -/

/-- What holds of a thread's position, locks or not. -/
def PcOk (e : Env E Q) (s : St E) (t : Nat) : Pc E → Prop
  | .fill _ o rest => o < s.count ∧ (∃ j, rest = e.entries.drop j ∧ j ≤ (s.objs o).length) ∧ s.index.isSome = true
  | .scan _ o pos n => o < s.count ∧ n ≤ (s.objs o).length ∧ pos ≤ n ∧ Passed e t pos
  | .done (.found x) => Right e t (.found x)
  | .path _ => s.index.isSome = true
  | .read _ => s.index.isSome = true
  | _ => True

structure Inv (e : Env E Q) (s : St E) : Prop where
  part : ∀ o, s.objs o = e.entries.take (s.objs o).length
  ptr : ∀ o, s.index = some o → o < s.count
  pcs : ∀ t, PcOk e s t (s.pc t)

theorem PcOk.mono {e : Env E Q} {s s' : St E} {t : Nat} {p : Pc E} (hi : s.index.isSome = true → s'.index.isSome = true) (hc : s.count ≤ s'.count) (ho : ∀ o < s.count, (s.objs o).length ≤ (s'.objs o).length)
    (h : PcOk e s t p) : PcOk e s' t p := by
  cases p with
  | fill c o rest =>
    obtain ⟨h1, ⟨j, h2, h3⟩, h4⟩ := h
    exact ⟨by omega, ⟨j, h2, h3.trans (ho o h1)⟩, hi h4⟩
  | scan st o pos n =>
    obtain ⟨h1, h2, h3, h4⟩ := h
    exact ⟨by omega, h2.trans (ho o h1), h3, h4⟩
  | done r =>
    cases r with
    | found x => exact h
    | _ => trivial
  | path c => exact hi h
  | read st => exact hi h
  | _ => trivial

/-- Only the position of `t` changes, and the rest grows. -/
theorem Inv.grow {e : Env E Q} {s s' : St E} {t : Nat} {p : Pc E} (h : Inv e s) (hpc : s'.pc = Function.update s.pc t p) (hp : PcOk e s' t p)
    (hi : s.index.isSome = true → s'.index.isSome = true) (hc : s.count ≤ s'.count) (ho : ∀ o < s.count, (s.objs o).length ≤ (s'.objs o).length)
    (hpart : ∀ o, s'.objs o = e.entries.take (s'.objs o).length) (hptr : ∀ o, s'.index = some o → o < s'.count) : Inv e s' := by
  refine ⟨hpart, hptr, fun u => ?_⟩
  rw [hpc]
  by_cases hu : u = t
  · subst hu
    rw [Function.update_self]
    exact hp
  · rw [Function.update_of_ne hu]
    exact (h.pcs u).mono hi hc ho

theorem Inv.go {e : Env E Q} {s : St E} {t : Nat} {p : Pc E} (h : Inv e s) (hp : PcOk e s t p) : Inv e (s.go t p) :=
  h.grow rfl (hp.mono id (le_refl _) (fun _ _ => le_refl _)) id (le_refl _) (fun _ _ => le_refl _) h.part h.ptr

theorem Inv.finish {e : Env E Q} {s : St E} {t : Nat} {r : Res E} (l : Bool) (h : Inv e s) (hp : PcOk e s t (.done r)) : Inv e (s.finish l t r) :=
  h.grow rfl (hp.mono id (le_refl _) (fun _ _ => le_refl _)) id (le_refl _) (fun _ _ => le_refl _) h.part h.ptr

theorem inv_missed {e : Env E Q} {s : St E} (t : Nat) (st : Stage) (h : Inv e s) : Inv e (missed e s t st) := by
  cases st with
  | first =>
    show Inv e (if s.checked then s.finish e.locked t .notFound else s.go t .reload)
    split
    · exact h.finish _ trivial
    · exact h.go trivial
  | second => exact h.finish _ trivial

theorem inv_step {e : Env E Q} (hn : e.entries.Nodup) {s s' : St E} (t : Nat) (h : Inv e s) (hs : step e t s = some s') : Inv e s' := by
  have ht := h.pcs t
  unfold step at hs
  cases hpc : s.pc t with
  | idle =>
    rw [hpc] at hs
    simp only at hs
    split at hs
    · split at hs
      · cases hs
        exact h.grow rfl trivial id (le_refl _) (fun _ _ => le_refl _) h.part h.ptr
      · cases hs
    · cases hs
      exact h.go trivial
  | test st =>
    rw [hpc] at hs
    simp only at hs
    split at hs
    · cases hs; exact h.go trivial
    · next hi => cases hs; exact h.go (p := .read st) (Option.isSome_iff_ne_none.2 hi)
  | alloc c =>
    rw [hpc] at hs
    cases hs
    refine h.grow (p := .path c) rfl rfl (fun _ => rfl) (Nat.le_succ _) (fun o ho => ?_) (fun o => ?_) (fun o ho => ?_)
    · simp only
      rw [Function.update_of_ne (by omega)]
    · simp only
      by_cases ho : o = s.count
      · subst ho; simp
      · rw [Function.update_of_ne ho]; exact h.part o
    · cases ho; exact Nat.lt_succ_self _
  | path c =>
    rw [hpc] at hs
    cases hi : s.index with
    | none => rw [hi] at hs; cases hs
    | some o =>
      rw [hi] at hs
      cases hs
      exact h.go ⟨h.ptr o hi, ⟨0, rfl, Nat.zero_le _⟩, by rw [hi]; rfl⟩
  | fill c o rest =>
    rw [hpc] at hs ht
    obtain ⟨h1, ⟨j, h2, h3⟩, h4⟩ := ht
    cases rest with
    | nil =>
      cases hs
      cases c with
      | prop st => exact h.go (p := .read st) h4
      | reload => exact h.go trivial
    | cons x rest =>
      cases hs
      obtain ⟨g1, g2, g3, g4⟩ := insert_take hn (h.part o) h3 h2.symm
      have key : ∀ o', (Function.update s.objs o (insert x (s.objs o)) o') = if o' = o then insert x (s.objs o) else s.objs o' := by
        intro o'
        by_cases ho : o' = o
        · subst ho; simp
        · simp [ho]
      refine h.grow (p := .fill c o rest) rfl ⟨h1, ⟨j + 1, g4.symm, ?_⟩, h4⟩ id (le_refl _) (fun o' _ => ?_) (fun o' => ?_) h.ptr
      · simp only
        rw [key, if_pos rfl]; exact g3
      · simp only
        rw [key]; split
        · next ho => rw [ho]; exact g2
        · exact le_refl _
      · simp only
        rw [key]; split
        · exact g1
        · exact h.part o'
  | read st =>
    rw [hpc] at hs
    cases hi : s.index with
    | none => rw [hi] at hs; cases hs
    | some o =>
      rw [hi] at hs
      cases hs
      exact h.go ⟨h.ptr o hi, le_refl _, Nat.zero_le _, fun i hi => absurd hi (Nat.not_lt_zero _)⟩
  | scan st o pos n =>
    rw [hpc] at hs ht
    obtain ⟨h1, h2, h3, h4⟩ := ht
    cases hs
    unfold scanStep
    split
    · exact h.finish _ trivial
    · next hlen =>
      have hlen : (s.objs o).length = n := by simpa using hlen
      cases hx : (s.objs o)[pos]? with
      | none => exact inv_missed t st h
      | some x =>
        have hx' : e.entries[pos]? = some x := by
          rw [h.part o, List.getElem?_take] at hx
          split at hx
          · exact hx
          · cases hx
        simp only
        split
        · next hm => exact h.finish _ (right_found h4 hx' hm)
        · next hm =>
          have := (List.getElem?_eq_some_iff.1 hx).1
          exact h.go ⟨h1, h2, by omega, h4.next hx' (by simpa using hm)⟩
  | reload =>
    rw [hpc] at hs
    cases hs
    exact h.grow rfl trivial id (le_refl _) (fun _ _ => le_refl _) h.part h.ptr
  | done r => rw [hpc] at hs; cases hs

theorem run_snoc (e : Env E Q) (s : St E) (l : List Nat) (t : Nat) : run e s (l ++ [t]) = (step e t (run e s l)).getD (run e s l) := by
  unfold run
  rw [List.foldl_append]
  rfl

theorem run_inv {e : Env E Q} {P : St E → Prop} (hstep : ∀ s s' t, P s → step e t s = some s' → P s') {s : St E} (h : P s) (l : List Nat) : P (run e s l) := by
  induction l using List.reverseRecOn with
  | nil => exact h
  | append_singleton l t ih =>
    rw [run_snoc]
    cases hs : step e t (run e s l) with
    | none => exact ih
    | some s' => exact hstep _ _ t ih hs

theorem inv_cold (e : Env E Q) : Inv e cold :=
  ⟨fun _ => by simp [cold], fun _ h => (by cases h), fun _ => trivial⟩

theorem inv_warm (e : Env E Q) (c : Bool) : Inv e (warm e c) := by
  refine ⟨fun o => ?_, fun o h => (by cases h; exact Nat.one_pos), fun _ => trivial⟩
  show (if o = 0 then e.entries else []) = _
  by_cases h : o = 0
  · simp [warm, h]
  · simp [warm, h]

/-- An entry that a lookup finds is the one the inventory has for the request, under every schedule and policy, from a new process or a loaded index. -/
theorem C96_found (e : Env E Q) (hn : e.entries.Nodup) (s : St E) (hs : s = cold ∨ ∃ c, s = warm e c) (schedule : List Nat) (t : Nat) (x : E)
    (h : (run e s schedule).pc t = .done (.found x)) : Right e t (.found x) := by
  have : Inv e s := by
    rcases hs with rfl | ⟨c, rfl⟩
    · exact inv_cold e
    · exact inv_warm e c
  have := (run_inv (P := Inv e) (fun s s' t h hs => inv_step hn t h hs) this schedule).pcs t
  rw [h] at this
  exact this

/-! ### policies that keep weights -/

def Full (e : Env E Q) (s : St E) : Prop := ∃ o, s.index = some o ∧ s.objs o = e.entries

/-- Where the holder of the lock can be. -/
def Phase (e : Env E Q) (s : St E) (t : Nat) : Pc E → Prop
  | .idle => False
  | .test .first => s.index = none ∨ Full e s
  | .test .second => Full e s
  | .alloc _ => True
  | .path _ => ∃ o, s.index = some o ∧ s.objs o = []
  | .fill _ o rest => s.index = some o ∧ e.entries = s.objs o ++ rest
  | .read _ => Full e s
  | .scan _ o pos n => s.index = some o ∧ s.objs o = e.entries ∧ n = e.entries.length ∧ Passed e t pos
  | .reload => True
  | .done _ => False

structure LInv (e : Env E Q) (s : St E) : Prop where
  rest : ∀ t, s.lock ≠ some t → s.pc t = .idle ∨ ∃ r, s.pc t = .done r ∧ Right e t r
  free : s.lock = none → s.index = none ∨ Full e s
  held : ∀ t, s.lock = some t → Phase e s t (s.pc t)

theorem LInv.holder {e : Env E Q} {s : St E} (h : LInv e s) {t : Nat} (hi : s.pc t ≠ .idle) (hd : ∀ r, s.pc t ≠ .done r) : s.lock = some t := by
  by_contra hl
  rcases h.rest t hl with h | ⟨r, h, _⟩
  · exact hi h
  · exact hd r h

/-- The holder moves on. -/
theorem LInv.move {e : Env E Q} {s s' : St E} {t : Nat} {p : Pc E} (h : LInv e s) (hl : s.lock = some t) (hpc : s'.pc = Function.update s.pc t p)
    (hl' : s'.lock = s.lock) (hp : Phase e s' t p) : LInv e s' := by
  refine ⟨fun u hu => ?_, fun hf => ?_, fun u hu => ?_⟩
  · have hut : u ≠ t := fun h' => hu (by rw [hl', hl, h'])
    rw [hpc, Function.update_of_ne hut]
    exact h.rest u (by rw [← hl']; exact hu)
  · rw [hl', hl] at hf; cases hf
  · rw [hl', hl] at hu
    cases hu
    rw [hpc, Function.update_self]
    exact hp

/-- The holder ends. -/
theorem LInv.finish {e : Env E Q} {s : St E} {t : Nat} {r : Res E} (h : LInv e s) (hl : s.lock = some t) (hf : Full e s) (hr : Right e t r) :
    LInv e (s.finish true t r) := by
  refine ⟨fun u _ => ?_, fun _ => .inr hf, fun u hu => (by cases hu)⟩
  show Function.update s.pc t (.done r) u = .idle ∨ ∃ r', Function.update s.pc t (.done r) u = .done r' ∧ _
  by_cases hut : u = t
  · subst hut
    rw [Function.update_self]
    exact .inr ⟨r, rfl, hr⟩
  · rw [Function.update_of_ne hut]
    exact h.rest u (fun h' => hut (by rw [hl] at h'; cases h'; rfl))

theorem linv_step {e : Env E Q} (hlock : e.locked = true) (hn : e.entries.Nodup) {s s' : St E} (t : Nat) (h : LInv e s) (hs : step e t s = some s') : LInv e s' := by
  unfold step at hs
  cases hpc : s.pc t with
  | idle =>
    rw [hpc] at hs
    simp only at hs
    rw [if_pos hlock] at hs
    cases hl : s.lock with
    | some u => rw [hl] at hs; cases hs
    | none =>
      rw [hl] at hs
      cases hs
      refine ⟨fun u hu => ?_, fun hf => (by cases hf), fun u hu => ?_⟩
      · have hut : u ≠ t := fun h' => hu (by rw [h'])
        show Function.update s.pc t _ u = .idle ∨ ∃ r', Function.update s.pc t _ u = .done r' ∧ _
        rw [Function.update_of_ne hut]
        exact h.rest u (by rw [hl]; exact fun h => (by cases h))
      · have : t = u := Option.some.inj hu
        subst this
        show Phase e _ t (Function.update s.pc t _ t)
        rw [Function.update_self]
        exact h.free hl
  | done r => rw [hpc] at hs; cases hs
  | test st =>
    have hl := h.holder (t := t) (by rw [hpc]; exact fun h => (by cases h)) (by rw [hpc]; exact fun r h => (by cases h))
    have hp := h.held t hl
    rw [hpc] at hs hp
    simp only at hs
    split at hs
    · cases hs
      exact h.move hl rfl rfl trivial
    · next hi =>
      cases hs
      refine h.move (p := .read st) hl rfl rfl ?_
      cases st with
      | first => exact hp.elim (fun h => absurd h hi) id
      | second => exact hp
  | alloc c =>
    have hl := h.holder (t := t) (by rw [hpc]; exact fun h => (by cases h)) (by rw [hpc]; exact fun r h => (by cases h))
    rw [hpc] at hs
    cases hs
    exact h.move (p := .path c) hl rfl rfl ⟨s.count, rfl, by simp⟩
  | path c =>
    have hl := h.holder (t := t) (by rw [hpc]; exact fun h => (by cases h)) (by rw [hpc]; exact fun r h => (by cases h))
    have hp := h.held t hl
    rw [hpc] at hs hp
    obtain ⟨o, h1, h2⟩ := hp
    rw [h1] at hs
    cases hs
    exact h.move (p := .fill c o e.entries) hl rfl rfl ⟨h1, by show e.entries = s.objs o ++ _; rw [h2]; rfl⟩
  | fill c o rest =>
    have hl := h.holder (t := t) (by rw [hpc]; exact fun h => (by cases h)) (by rw [hpc]; exact fun r h => (by cases h))
    have hp := h.held t hl
    rw [hpc] at hs hp
    obtain ⟨h1, h2⟩ := hp
    cases rest with
    | nil =>
      cases hs
      have hf : Full e s := ⟨o, h1, by rw [h2]; simp⟩
      cases c with
      | prop st => exact h.move (p := .read st) hl rfl rfl hf
      | reload => exact h.move (p := .test .second) hl rfl rfl hf
    | cons x rest =>
      cases hs
      refine h.move (p := .fill c o rest) hl rfl rfl ⟨h1, ?_⟩
      show e.entries = Function.update s.objs o _ o ++ rest
      rw [Function.update_self]
      have : x ∉ s.objs o := by
        intro hm
        rw [h2, List.nodup_append] at hn
        exact hn.2.2 x hm x (by simp) rfl
      unfold insert
      rw [if_neg this, h2]
      simp
  | read st =>
    have hl := h.holder (t := t) (by rw [hpc]; exact fun h => (by cases h)) (by rw [hpc]; exact fun r h => (by cases h))
    have hp := h.held t hl
    rw [hpc] at hs hp
    obtain ⟨o, h1, h2⟩ := hp
    rw [h1] at hs
    cases hs
    exact h.move (p := .scan st o 0 (s.objs o).length) hl rfl rfl ⟨h1, h2, by rw [h2], fun i hi => absurd hi (Nat.not_lt_zero _)⟩
  | scan st o pos n =>
    have hl := h.holder (t := t) (by rw [hpc]; exact fun h => (by cases h)) (by rw [hpc]; exact fun r h => (by cases h))
    have hp := h.held t hl
    rw [hpc] at hs hp
    obtain ⟨h1, h2, h3, h4⟩ := hp
    have hf : Full e s := ⟨o, h1, h2⟩
    cases hs
    unfold scanStep
    rw [if_neg (by rw [h2, h3]; simp), h2, hlock]
    cases hx : e.entries[pos]? with
    | none =>
      have hr : Right e t .notFound := h4.all (by rw [List.getElem?_eq_none_iff] at hx; exact hx)
      simp only
      cases st with
      | first =>
        show LInv e (if s.checked then s.finish e.locked t .notFound else s.go t .reload)
        split
        · rw [hlock]; exact h.finish hl hf hr
        · exact h.move (p := .reload) hl rfl rfl trivial
      | second =>
        show LInv e (s.finish e.locked t .notFound)
        rw [hlock]; exact h.finish hl hf hr
    | some x =>
      simp only
      split
      · next hm => exact h.finish hl hf (right_found h4 hx hm)
      · next hm => exact h.move (p := .scan st o (pos + 1) n) hl rfl rfl ⟨h1, h2, h3, h4.next hx (by simpa using hm)⟩
  | reload =>
    have hl := h.holder (t := t) (by rw [hpc]; exact fun h => (by cases h)) (by rw [hpc]; exact fun r h => (by cases h))
    rw [hpc] at hs
    cases hs
    exact h.move (p := .alloc .reload) hl rfl rfl trivial

/-- With a policy that keeps weights, every lookup ends as it should, whatever the others do. -/
theorem C96_locked_partial (e : Env E Q) (hlock : e.locked = true) (hn : e.entries.Nodup) (s : St E) (hs : s = cold ∨ ∃ c, s = warm e c)
    (schedule : List Nat) (t : Nat) (r : Res E) (h : (run e s schedule).pc t = .done r) : Right e t r := by
  have hi : LInv e s := by
    rcases hs with rfl | ⟨c, rfl⟩
    · exact ⟨fun _ _ => .inl rfl, fun _ => .inl rfl, fun _ h => (by cases h)⟩
    · exact ⟨fun _ _ => .inl rfl, fun _ => .inr ⟨0, rfl, by simp [warm]⟩, fun _ h => (by cases h)⟩
  have x := run_inv (P := LInv e) (fun s s' t h hs => linv_step hlock hn t h hs) hi schedule
  generalize run e s schedule = z at *
  by_cases hl : z.lock = some t
  · have := x.held t hl
    rw [h] at this
    exact this.elim
  · rcases x.rest t hl with h' | ⟨r', h', hr⟩
    · rw [h] at h'; cases h'
    · rw [h] at h'
      cases h'
      exact hr

/-! ### policy `off`, index loaded, nobody asks for anything else -/

/-- Where threads can be. -/
def Calm (e : Env E Q) (t : Nat) : Pc E → Prop
  | .idle => True
  | .test .first => True
  | .read .first => True
  | .scan .first o pos n => o = 0 ∧ n = e.entries.length ∧ Passed e t pos
  | .done r => Right e t r
  | _ => False

structure WInv (e : Env E Q) (s : St E) : Prop where
  index : s.index = some 0
  obj : s.objs 0 = e.entries
  pcs : ∀ t, Calm e t (s.pc t)

theorem WInv.move {e : Env E Q} {s s' : St E} {t : Nat} {p : Pc E} (h : WInv e s) (hpc : s'.pc = Function.update s.pc t p) (hi : s'.index = s.index)
    (ho : s'.objs = s.objs) (hp : Calm e t p) : WInv e s' := by
  refine ⟨hi ▸ h.index, ho ▸ h.obj, fun u => ?_⟩
  rw [hpc]
  by_cases hu : u = t
  · subst hu; rw [Function.update_self]; exact hp
  · rw [Function.update_of_ne hu]; exact h.pcs u

theorem winv_step {e : Env E Q} (hq : ∀ t, ¬Absent e t) {s s' : St E} (t : Nat) (h : WInv e s) (hs : step e t s = some s') : WInv e s' := by
  have hp := h.pcs t
  unfold step at hs
  cases hpc : s.pc t with
  | idle =>
    rw [hpc] at hs
    simp only at hs
    split at hs
    · split at hs
      · cases hs; exact h.move rfl rfl rfl trivial
      · cases hs
    · cases hs; exact h.move rfl rfl rfl trivial
  | test st =>
    rw [hpc] at hs hp
    simp only at hs
    rw [if_neg (by rw [h.index]; exact fun h => (by cases h))] at hs
    cases hs
    cases st with
    | first => exact h.move (p := .read .first) rfl rfl rfl trivial
    | second => exact hp.elim
  | read st =>
    rw [hpc] at hs hp
    rw [h.index] at hs
    cases hs
    cases st with
    | first => exact h.move (p := .scan .first 0 0 (s.objs 0).length) rfl rfl rfl ⟨rfl, by rw [h.obj], fun i hi => absurd hi (Nat.not_lt_zero _)⟩
    | second => exact hp.elim
  | scan st o pos n =>
    rw [hpc] at hs hp
    cases st with
    | second => exact hp.elim
    | first =>
      obtain ⟨rfl, h3, h4⟩ := hp
      cases hs
      unfold scanStep
      rw [if_neg (by rw [h.obj, h3]; simp), h.obj]
      cases hx : e.entries[pos]? with
      | none => exact absurd (h4.all (by rw [List.getElem?_eq_none_iff] at hx; exact hx)) (hq t)
      | some x =>
        simp only
        split
        · next hm => exact h.move (p := .done (.found x)) rfl rfl rfl (right_found h4 hx hm)
        · next hm => exact h.move (p := .scan .first 0 (pos + 1) n) rfl rfl rfl ⟨rfl, h3, h4.next hx (by simpa using hm)⟩
  | done r => rw [hpc] at hs; cases hs
  | alloc c => rw [hpc] at hp; exact hp.elim
  | path c => rw [hpc] at hp; exact hp.elim
  | fill c o rest => rw [hpc] at hp; exact hp.elim
  | reload => rw [hpc] at hp; exact hp.elim

/-- Under every policy: once the index is loaded, and while all lookups are for weights the inventory has, each ends as it should. -/
theorem C96_warm_partial (e : Env E Q) (c : Bool) (hq : ∀ t, ¬Absent e t) (schedule : List Nat) (t : Nat) (r : Res E)
    (h : (run e (warm e c) schedule).pc t = .done r) : Right e t r := by
  have hi : WInv e (warm e c) := ⟨rfl, by simp [warm], fun _ => trivial⟩
  have := (run_inv (P := WInv e) (fun s s' t h hs => winv_step hq t h hs) hi schedule).pcs t
  rw [h] at this
  exact this

/-! ### lookups end -/

/-- A bound on the moves a thread has left. -/
def left (n : Nat) : Pc E → Nat
  | .done _ => 0
  | .scan .second _ pos _ => 1 + (n - pos)
  | .read .second => n + 2
  | .fill (.prop .second) _ rest => n + 3 + rest.length
  | .path (.prop .second) => 2 * n + 4
  | .alloc (.prop .second) => 2 * n + 5
  | .test .second => 2 * n + 6
  | .fill .reload _ rest => 2 * n + 7 + rest.length
  | .path .reload => 3 * n + 8
  | .alloc .reload => 3 * n + 9
  | .reload => 3 * n + 10
  | .scan .first _ pos _ => 3 * n + 11 + (n - pos)
  | .read .first => 4 * n + 12
  | .fill (.prop .first) _ rest => 4 * n + 13 + rest.length
  | .path (.prop .first) => 5 * n + 14
  | .alloc (.prop .first) => 5 * n + 15
  | .test .first => 5 * n + 16
  | .idle => 5 * n + 17

theorem step_left {e : Env E Q} {s s' : St E} (t : Nat) (h : Inv e s) (hs : step e t s = some s') :
    left e.entries.length (s'.pc t) < left e.entries.length (s.pc t) := by
  have ht := h.pcs t
  unfold step at hs
  cases hpc : s.pc t with
  | idle =>
    rw [hpc] at hs
    simp only at hs
    split at hs
    · split at hs
      · cases hs; simp [St.go, left]
      · cases hs
    · cases hs; simp [St.go, left]
  | test st =>
    rw [hpc] at hs
    simp only at hs
    split at hs <;> (cases hs; cases st <;> simp [St.go, left] <;> omega)
  | alloc c =>
    rw [hpc] at hs
    cases hs
    rcases c with (_ | _) | _ <;> simp [St.go, left]
  | path c =>
    rw [hpc] at hs
    cases hi : s.index with
    | none => rw [hi] at hs; cases hs
    | some o =>
      rw [hi] at hs
      cases hs
      rcases c with (_ | _) | _ <;> simp [St.go, left] <;> omega
  | fill c o rest =>
    rw [hpc] at hs
    cases rest with
    | nil =>
      cases hs
      rcases c with (_ | _) | _ <;> simp [St.go, left, Ctx.next]
    | cons x rest =>
      cases hs
      rcases c with (_ | _) | _ <;> simp [St.go, left]
  | read st =>
    rw [hpc] at hs
    cases hi : s.index with
    | none => rw [hi] at hs; cases hs
    | some o =>
      rw [hi] at hs
      cases hs
      cases st <;> simp [St.go, left] <;> omega
  | scan st o pos n =>
    rw [hpc] at hs ht
    obtain ⟨h1, h2, h3, h4⟩ := ht
    cases hs
    unfold scanStep
    split
    · cases st <;> simp [St.finish, left] <;> omega
    · next hlen =>
      cases hx : (s.objs o)[pos]? with
      | none =>
        cases st with
        | second => simp [missed, St.finish, left]; omega
        | first =>
          show left _ ((if s.checked then s.finish e.locked t .notFound else s.go t .reload).pc t) < _
          split <;> simp [St.finish, St.go, left] <;> omega
      | some x =>
        have hx' : pos < e.entries.length := by
          rw [h.part o, List.getElem?_take] at hx
          split at hx
          · exact (List.getElem?_eq_some_iff.1 hx).1
          · cases hx
        simp only
        split <;> cases st <;> simp [St.finish, St.go, left] <;> omega
  | reload =>
    rw [hpc] at hs
    cases hs
    simp [St.go, left]
  | done r => rw [hpc] at hs; cases hs

/-- Only the lock makes a thread wait. -/
theorem step_some {e : Env E Q} {s : St E} (t : Nat) (h : Inv e s) (hd : ∀ r, s.pc t ≠ .done r) (hl : e.locked = true → s.pc t = .idle → s.lock = none) :
    ∃ s', step e t s = some s' := by
  have ht := h.pcs t
  unfold step
  cases hpc : s.pc t with
  | idle =>
    simp only
    by_cases he : e.locked = true
    · rw [if_pos he, hl he hpc]; exact ⟨_, rfl⟩
    · rw [if_neg he]; exact ⟨_, rfl⟩
  | test st => simp only; split <;> exact ⟨_, rfl⟩
  | alloc c => exact ⟨_, rfl⟩
  | path c =>
    rw [hpc] at ht
    obtain ⟨o, ho⟩ := Option.isSome_iff_exists.1 ht
    rw [ho]; exact ⟨_, rfl⟩
  | fill c o rest => cases rest <;> exact ⟨_, rfl⟩
  | read st =>
    rw [hpc] at ht
    obtain ⟨o, ho⟩ := Option.isSome_iff_exists.1 ht
    rw [ho]; exact ⟨_, rfl⟩
  | scan st o pos n => exact ⟨_, rfl⟩
  | reload => exact ⟨_, rfl⟩
  | done r => exact absurd hpc (hd r)

theorem step_lock {e : Env E Q} (he : e.locked = true) {s s' : St E} (t : Nat) (hs : step e t s = some s') (h : s.lock = none ∨ s.lock = some t) :
    s'.lock = none ∨ s'.lock = some t := by
  unfold step at hs
  cases hpc : s.pc t with
  | idle =>
    rw [hpc] at hs
    simp only at hs
    rw [if_pos he] at hs
    split at hs
    · cases hs; exact .inr rfl
    · cases hs
  | test st =>
    rw [hpc] at hs
    simp only at hs
    split at hs <;> (cases hs; exact h)
  | alloc c => rw [hpc] at hs; cases hs; exact h
  | path c =>
    rw [hpc] at hs
    cases hi : s.index with
    | none => rw [hi] at hs; cases hs
    | some o => rw [hi] at hs; cases hs; exact h
  | fill c o rest =>
    rw [hpc] at hs
    cases rest <;> (cases hs; exact h)
  | read st =>
    rw [hpc] at hs
    cases hi : s.index with
    | none => rw [hi] at hs; cases hs
    | some o => rw [hi] at hs; cases hs; exact h
  | scan st o pos n =>
    rw [hpc] at hs
    cases hs
    unfold scanStep
    rw [he]
    split
    · exact .inl rfl
    · split
      · cases st with
        | second => exact .inl (by simp [missed, St.finish, he])
        | first =>
          show (if s.checked then s.finish e.locked t .notFound else s.go t .reload).lock = none ∨ (if s.checked then s.finish e.locked t .notFound else s.go t .reload).lock = some t
          rw [he]
          split
          · exact .inl rfl
          · exact h
      · split
        · exact .inl rfl
        · exact h
  | reload => rw [hpc] at hs; cases hs; exact h
  | done r => rw [hpc] at hs; cases hs

theorem run_done {e : Env E Q} (s : St E) (t : Nat) {r : Res E} (h : s.pc t = .done r) (k : Nat) : run e s (List.replicate k t) = s := by
  induction k with
  | zero => rfl
  | succ k ih =>
    have : step e t s = none := by unfold step; rw [h]
    show run e ((step e t s).getD s) (List.replicate k t) = s
    rw [this]
    exact ih

theorem solo {e : Env E Q} (hn : e.entries.Nodup) (t k : Nat) (s : St E) (h : Inv e s) (hk : left e.entries.length (s.pc t) ≤ k)
    (hl : e.locked = true → s.lock = none ∨ s.lock = some t) (hi : e.locked = true → s.lock = some t → s.pc t ≠ .idle) (hli : e.locked = true → LInv e s) :
    (∃ r, (run e s (List.replicate k t)).pc t = .done r) ∧
      (e.locked = true → (run e s (List.replicate k t)).lock = none ∨ (run e s (List.replicate k t)).lock = some t) := by
  induction k generalizing s with
  | zero =>
    refine ⟨?_, hl⟩
    cases hpc : s.pc t with
    | done r => exact ⟨r, hpc⟩
    | scan st => rw [hpc] at hk; cases st <;> simp [left] at hk
    | read st => rw [hpc] at hk; cases st <;> simp [left] at hk
    | fill c => rw [hpc] at hk; rcases c with (_ | _) | _ <;> simp [left] at hk
    | path c => rw [hpc] at hk; rcases c with (_ | _) | _ <;> simp [left] at hk
    | alloc c => rw [hpc] at hk; rcases c with (_ | _) | _ <;> simp [left] at hk
    | test st => rw [hpc] at hk; cases st <;> simp [left] at hk
    | idle => rw [hpc] at hk; simp [left] at hk
    | reload => rw [hpc] at hk; simp [left] at hk
  | succ k ih =>
    by_cases hd : ∃ r, s.pc t = .done r
    · obtain ⟨r, hr⟩ := hd
      rw [run_done s t hr]
      exact ⟨⟨r, hr⟩, hl⟩
    · obtain ⟨s', hs⟩ := step_some t h (fun r hr => hd ⟨r, hr⟩)
        (fun he hidle => (hl he).elim id (fun hh => absurd hidle (hi he hh)))
      have : run e s (List.replicate (k + 1) t) = run e s' (List.replicate k t) := by
        show run e ((step e t s).getD s) (List.replicate k t) = _
        rw [hs]; rfl
      rw [this]
      have hli' : e.locked = true → LInv e s' := fun he => linv_step he hn t (hli he) hs
      refine ih s' (inv_step hn t h hs) (by have := step_left t h hs; omega) (fun he => step_lock he t hs (hl he)) (fun he hh hidle => ?_) hli'
      have := (hli' he).held t hh
      rw [hidle] at this
      exact this

/-- No lookup hangs: in every reachable state, `5 n + 17` moves of the holder of the lock, if any, and as many of a thread end its lookup (`n` entries). -/
theorem C96_ends (e : Env E Q) (hn : e.entries.Nodup) (s : St E) (hs : s = cold ∨ ∃ c, s = warm e c) (schedule : List Nat) (t : Nat) :
    ∃ holder r, (run e (run e s schedule) (List.replicate (5 * e.entries.length + 17) holder ++ List.replicate (5 * e.entries.length + 17) t)).pc t = .done r := by
  have hinv : Inv e (run e s schedule) := by
    have : Inv e s := by
      rcases hs with rfl | ⟨c, rfl⟩
      · exact inv_cold e
      · exact inv_warm e c
    exact run_inv (P := Inv e) (fun s s' t h hs => inv_step hn t h hs) this schedule
  have hlin : e.locked = true → LInv e (run e s schedule) := by
    intro he
    have hi : LInv e s := by
      rcases hs with rfl | ⟨c, rfl⟩
      · exact ⟨fun _ _ => .inl rfl, fun _ => .inl rfl, fun _ h => (by cases h)⟩
      · exact ⟨fun _ _ => .inl rfl, fun _ => .inr ⟨0, rfl, by simp [warm]⟩, fun _ h => (by cases h)⟩
    exact run_inv (P := LInv e) (fun s s' t h hs => linv_step he hn t h hs) hi schedule
  generalize run e s schedule = z at *
  have bound : ∀ (z : St E) (u : Nat), Inv e z → left e.entries.length (z.pc u) ≤ 5 * e.entries.length + 17 := by
    intro z u hz
    have hu := hz.pcs u
    cases hpc : z.pc u with
    | done r => simp [left]
    | scan st => cases st <;> simp [left] <;> omega
    | read st => cases st <;> simp [left] <;> omega
    | fill c o rest =>
      rw [hpc] at hu
      obtain ⟨_, ⟨j, h2, _⟩, _⟩ := hu
      have : rest.length ≤ e.entries.length := by rw [h2, List.length_drop]; omega
      rcases c with (_ | _) | _ <;> simp [left] <;> omega
    | path c => rcases c with (_ | _) | _ <;> simp [left] <;> omega
    | alloc c => rcases c with (_ | _) | _ <;> simp [left] <;> omega
    | test st => cases st <;> simp [left]; omega
    | idle => simp [left]
    | reload => simp [left]; omega
  have app : ∀ (z : St E) (a b : List Nat), run e z (a ++ b) = run e (run e z a) b := fun z a b => by unfold run; rw [List.foldl_append]
  have held_idle : ∀ (z : St E) (u : Nat), (e.locked = true → LInv e z) → e.locked = true → z.lock = some u → z.pc u ≠ .idle := by
    intro z u hz he hl hidle
    have := (hz he).held u hl
    rw [hidle] at this
    exact this
  by_cases he : e.locked = true
  · cases hlk : z.lock with
    | none =>
      obtain ⟨⟨r, hr⟩, _⟩ := solo hn t _ z hinv (bound z t hinv) (fun _ => .inl hlk) (held_idle z t hlin) hlin
      refine ⟨t, r, ?_⟩
      rw [app, run_done _ t hr]
      exact hr
    | some u =>
      obtain ⟨⟨r, hr⟩, h2⟩ := solo hn u _ z hinv (bound z u hinv) (fun _ => .inr hlk) (held_idle z u hlin) hlin
      have hinv' := run_inv (P := Inv e) (fun s s' t h hs => inv_step hn t h hs) hinv (List.replicate (5 * e.entries.length + 17) u)
      have hlin' : e.locked = true → LInv e (run e z (List.replicate (5 * e.entries.length + 17) u)) :=
        fun he => run_inv (P := LInv e) (fun s s' t h hs => linv_step he hn t h hs) (hlin he) _
      have hfree : (run e z (List.replicate (5 * e.entries.length + 17) u)).lock = none := by
        rcases h2 he with h | h
        · exact h
        · have := (hlin' he).held u h
          rw [hr] at this
          exact this.elim
      obtain ⟨⟨r', hr'⟩, _⟩ := solo hn t _ _ hinv' (bound _ t hinv') (fun _ => .inl hfree) (held_idle _ t hlin') hlin'
      exact ⟨u, r', by rw [app]; exact hr'⟩
  · obtain ⟨⟨r, hr⟩, _⟩ := solo hn t _ z hinv (bound z t hinv) (fun h => absurd h he) (fun h => absurd h he) hlin
    refine ⟨t, r, ?_⟩
    rw [app, run_done _ t hr]
    exact hr

end

/-! ### policy `off`: lookups that fail though the inventory has the weights -/

/-- Two entries; every thread asks for the second, but thread 9 for one that is not there. -/
def two (marks : Bool) : Env Nat Nat := ⟨[1, 2], fun q e => q == e, fun t => if t = 9 then 7 else 2, false, marks⟩

theorem two_wrong (m : Bool) (t : Nat) (ht : t ≠ 9) : ¬Right (two m) t .notFound := by
  intro h
  have := h 2 (by simp [two])
  simp [two, ht] at this

/-- New process, remote inventory: of two threads one sees the other's empty index and reports missing weights. -/
theorem C96_refuted : ∃ schedule, (run (two true) cold schedule).pc 0 = .done .notFound ∧ ¬Right (two true) 0 .notFound :=
  ⟨[0, 0, 0, 1, 1, 1, 1, 0, 1, 1, 0, 0, 0, 0, 0], by decide +kernel, two_wrong _ _ (by decide)⟩

/-- New process: one thread iterates while the other one loads. -/
theorem C96_iteration_refuted : ∃ schedule, (run (two false) cold schedule).pc 1 = .done .changed :=
  ⟨[0, 0, 0, 0, 0, 1, 1, 1, 0, 1], by decide +kernel⟩

/-- The index is loaded; a lookup of missing weights (thread 9) makes another one fail that asks for weights that are there. -/
theorem C96_missing_refuted (marks : Bool) : ∃ schedule, (run (two marks) (warm (two marks) false) schedule).pc 1 = .done .changed :=
  ⟨[9, 9, 9, 9, 9, 9, 9, 9, 9, 1, 1, 1, 9, 1], by cases marks <;> decide +kernel⟩

/-! ### the hypotheses can be met, with lookups that end -/

/-- `C96_found`: without a lock, from a new process, a thread that did find it. -/
example : Right (two false) 0 (.found 2) :=
  C96_found (two false) (by decide) cold (.inl rfl) [0, 0, 0, 0, 0, 1, 1, 1, 0, 1, 0, 0, 0, 0, 0] 0 2 (by decide +kernel)

/-- `C96_locked_partial`: three threads under a lock. -/
example : Right { two true with locked := true } 1 (.found 2) :=
  C96_locked_partial { two true with locked := true } rfl (by decide) cold (.inl rfl) [0, 1, 0, 9, 0, 0, 0, 0, 0, 0, 0, 0, 1, 1, 1, 1, 1] 1 _
    (by decide +kernel)

/-- `C96_warm_partial`: two threads in turn, all weights there. -/
example : Right { two false with query := fun _ => 2 } 1 (.found 2) :=
  C96_warm_partial { two false with query := fun _ => 2 } false (fun t h => (by have := h 2 (by simp [two]); simp [two] at this))
    [0, 1, 0, 1, 0, 1, 0, 1, 0, 1] 1 _ (by decide +kernel)

/-- `C96_ends`: after two threads have begun, each can come to an end. -/
example (t : Nat) : ∃ holder r, (run (two true) (run (two true) cold [0, 0, 0, 1]) (List.replicate (5 * (two true).entries.length + 17) holder ++
      List.replicate (5 * (two true).entries.length + 17) t)).pc t = .done r :=
  C96_ends (two true) (by decide) cold (.inl rfl) [0, 0, 0, 1] t

end Verif.Race

import Verif.DiskCache.Locks

/-!
# The locks of the caches cannot deadlock
-/

namespace Verif.DiskCache.Locks

/-- The order in which locks are taken. -/
def Lk.rank : Lk → Nat
  | .memory _ => 1
  | .settings => 2
  | .file _ => 3
  | .policy _ => 4
  | .manager _ => 5

theorem rank_le (l : Lk) : l.rank ≤ 5 := by cases l <;> simp [Lk.rank]

/-- Locks are taken in order, jobs are quiet. -/
inductive Above : Nat → Stmt → Prop where
  | work (r : Nat) : Above r .work
  | call (r p : Nat) {j : Stmt} (hj : Quiet j) : Above r (.call p j)
  | post (r p : Nat) {j : Stmt} (hj : Quiet j) : Above r (.post p j)
  | seq {r : Nat} {a b : Stmt} (ha : Above r a) (hb : Above r b) : Above r (.seq a b)
  | within {r : Nat} {l : Lk} {a : Stmt} (hl : r < l.rank) (ha : Above l.rank a) : Above r (.within l a)

theorem Above.mono {r r' : Nat} {a : Stmt} (h : Above r a) (hr : r' ≤ r) : Above r' a := by
  induction h with
  | work => exact .work _
  | call _ p hj => exact .call _ p hj
  | post _ p hj => exact .post _ p hj
  | seq _ _ iha ihb => exact .seq (iha hr) (ihb hr)
  | within hl ha _ => exact .within (Nat.lt_of_le_of_lt hr hl) ha

theorem MakePolicy.above {p : Nat} {a : Stmt} (h : MakePolicy p Quiet a) : Above 4 a := by
  cases h with
  | plain => exact .work _
  | managed hj => exact .within (by simp [Lk.rank]) (.seq (.work _) (.call _ _ hj))

theorem GetPolicy.above {p : Nat} {a : Stmt} (h : GetPolicy p Quiet a) : Above 3 a := by
  cases h with
  | mk h => exact .within (by simp [Lk.rank]) h.above

theorem CallManager.above {p : Nat} {a : Stmt} (h : CallManager p Quiet a) : Above 3 a := by
  cases h with
  | unmanaged h => exact h.above
  | call h hj => exact .seq h.above (.within (by simp [Lk.rank]) (.call _ _ hj))
  | forget h hj => exact .seq h.above (.within (by simp [Lk.rank]) (.post _ _ hj))

theorem ConfigChanged.above {p : Nat} {a : Stmt} (h : ConfigChanged p Quiet a) : Above 3 a := by
  cases h with
  | outdated ha hb => exact .seq ha.above (.within (by simp [Lk.rank]) hb.above)
  | unchanged ha hb => exact .seq ha.above hb.above
  | updated ha hb hc => exact .seq ha.above (.seq hb.above hc.above)
  | told ha hb hc hj => exact .seq ha.above (.seq hb.above (.seq hc.above (.within (by simp [Lk.rank]) (.call _ _ hj))))

theorem Calls.above {p : Nat} {a : Stmt} (h : Calls p Quiet a) : Above 3 a := by
  induction h with
  | nothing => exact .work _
  | policy ha _ ih => exact .seq ha.above ih
  | manager ha _ ih => exact .seq ha.above ih

theorem CacheFile.above {p : Nat} {a : Stmt} (h : CacheFile p Quiet a) : Above 2 a := by
  cases h with
  | found ha => exact ha.above.mono (by simp [Lk.rank])
  | created path ha hb => exact .seq (ha.above.mono (by simp [Lk.rank])) (.within (by simp [Lk.rank]) (.seq (.work _) hb.above))

theorem CacheFiles.above {p : Nat} {a : Stmt} (h : CacheFiles p Quiet a) : Above 2 a := by
  induction h with
  | nothing => exact .work _
  | next ha _ ih => exact .seq ha.above ih

theorem Uses.above {p : Nat} {a : Stmt} (h : Uses p Quiet a) : Above 0 a := by
  induction h with
  | nothing => exact .work _
  | lookup ha _ ih => exact .seq (.within (by simp [Lk.rank]) (ha.above.mono (by simp [Lk.rank]))) ih
  | files ha _ ih => exact .seq (ha.above.mono (by simp [Lk.rank])) ih
  | calls ha _ ih => exact .seq (ha.above.mono (by simp [Lk.rank])) ih
  | config ha _ ih => exact .seq (.within (by simp [Lk.rank]) (.work _)) (.seq (.within (by simp [Lk.rank]) (.work _)) (.seq (ha.above.mono (by simp [Lk.rank])) ih))

/-! ## Machine invariant -/

/-- What a thread still has to do, given the locks it holds. -/
def Ordered (H : Lk → Prop) : List Instr → Prop
  | [] => ∀ l, ¬H l
  | .work :: r => Ordered H r
  | .acq l :: r => (∀ m, H m → m.rank < l.rank) ∧ Ordered (fun m => H m ∨ m = l) r
  | .rel l :: r => H l ∧ Ordered (fun m => H m ∧ m ≠ l) r
  | .enq _ j _ :: r => Quiet j ∧ Ordered H r
  | .await _ :: r => Ordered H r

theorem Ordered.congr {H H' : Lk → Prop} (h : ∀ l, H l ↔ H' l) {r : List Instr} (ho : Ordered H r) : Ordered H' r := by
  have : H = H' := funext fun l => propext (h l)
  rw [← this]; exact ho

theorem ordered_code {r : Nat} {a : Stmt} (h : Above r a) : ∀ (H : Lk → Prop) (rest : List Instr), (∀ l, H l → l.rank ≤ r) → Ordered H rest →
    Ordered H (a.code ++ rest) := by
  induction h with
  | work => intro H rest _ ho; exact ho
  | call r p hj => intro H rest _ ho; exact ⟨hj, ho⟩
  | post r p hj => intro H rest _ ho; exact ⟨hj, ho⟩
  | seq _ _ iha ihb =>
    intro H rest hr ho
    show Ordered H ((_ ++ _) ++ rest)
    rw [List.append_assoc]
    exact iha H _ hr (ihb H rest hr ho)
  | @within r l a hl _ ih =>
    intro H rest hr ho
    have hlt : ∀ m, H m → m.rank < l.rank := fun m hm => Nat.lt_of_le_of_lt (hr m hm) hl
    refine ⟨hlt, ?_⟩
    show Ordered _ ((a.code ++ [Instr.rel l]) ++ rest)
    rw [List.append_assoc]
    refine ih _ _ ?_ ?_
    · rintro m (hm | hm)
      · exact Nat.le_of_lt (hlt m hm)
      · exact Nat.le_of_eq (congrArg Lk.rank hm)
    · refine ⟨.inr rfl, ho.congr ?_⟩
      intro m
      constructor
      · intro hm
        exact ⟨.inl hm, fun e => Nat.lt_irrefl _ (e ▸ hlt m hm)⟩
      · rintro ⟨hm | hm, hne⟩
        · exact hm
        · exact absurd hm hne

/-- Instructions of a quiet job. -/
def Idle (r : List Instr) : Prop := ∀ i ∈ r, i = .work

theorem idle_code {j : Stmt} (h : Quiet j) : Idle j.code := by
  induction h with
  | work => intro i hi; exact List.mem_singleton.1 hi
  | seq _ _ iha ihb =>
    intro i hi
    rcases List.mem_append.1 hi with h | h
    · exact iha i h
    · exact ihb i h

structure Orderly (s : Net) : Prop where
  ordered : ∀ t, Ordered (fun l => s.owner l = some (.thread t)) (s.threads t)
  free : ∀ l p, s.owner l ≠ some (.manager p)
  queued : ∀ p, ∀ x ∈ s.queue p, Idle x.2
  running : ∀ p x, s.current p = some x → Idle x.2
  known : ∀ t k, Instr.await k ∈ s.threads t → k ∈ s.done ∨ ∃ p, (∃ x ∈ s.queue p, x.1 = k) ∨ ∃ x, s.current p = some x ∧ x.1 = k

theorem no_await (a : Stmt) (k : Nat) : Instr.await k ∉ a.code := by
  induction a with
  | work => simp [Stmt.code]
  | call p j _ => simp [Stmt.code]
  | post p j _ => simp [Stmt.code]
  | seq a b iha ihb => simp [Stmt.code, iha, ihb]
  | within l a ih => simp [Stmt.code, ih]

theorem orderly_init (progs : Nat → Stmt) (h : ∀ t, Above 0 (progs t)) : Orderly (Net.init progs) := by
  refine ⟨?_, fun l p => (by simp [Net.init]), fun p x hx => (by cases hx), fun p x hx => (by cases hx), fun t k hk => absurd hk (no_await _ k)⟩
  intro t
  have := ordered_code (h t) (fun l => (Net.init progs).owner l = some (.thread t)) [] (fun l hl => by cases hl) (fun l hl => by cases hl)
  rw [List.append_nil] at this
  exact this

/-- The rest of what holds is not touched when a thread moves on without changing anything else. -/
theorem Orderly.step {s s' : Net} (g : Orderly s) (w : Who) (h : s.step w = some s') : Orderly s' := by
  cases w with
  | thread t =>
    unfold Net.step at h
    simp only at h
    cases ht : s.threads t with
    | nil => rw [ht] at h; cases h
    | cons i r =>
      rw [ht] at h
      have ho := g.ordered t
      rw [ht] at ho
      have hkn : ∀ k, Instr.await k ∈ r → k ∈ s.done ∨ ∃ p, (∃ x ∈ s.queue p, x.1 = k) ∨ ∃ x, s.current p = some x ∧ x.1 = k :=
        fun k hk => g.known t k (by rw [ht]; exact List.mem_cons_of_mem _ hk)
      -- a step that changes neither the queues nor, for other threads, the locks
      have same : ∀ (own : Lk → Option Who), (∀ l p, own l ≠ some (.manager p)) → Ordered (fun l => own l = some (.thread t)) r →
          (∀ u, u ≠ t → ∀ l, s.owner l = some (.thread u) ↔ own l = some (.thread u)) →
          Orderly { s with owner := own, threads := Function.update s.threads t r } := by
        intro own hfree hord hoth
        refine ⟨?_, hfree, g.queued, g.running, ?_⟩
        · intro u
          show Ordered (fun l => own l = some (.thread u)) (Function.update s.threads t r u)
          by_cases e : u = t
          · subst e; rw [Function.update_self]; exact hord
          · rw [Function.update_of_ne e]
            exact (g.ordered u).congr (hoth u e)
        · intro u k hk
          replace hk : Instr.await k ∈ Function.update s.threads t r u := hk
          by_cases e : u = t
          · subst e; rw [Function.update_self] at hk; exact hkn k hk
          · rw [Function.update_of_ne e] at hk; exact g.known u k hk
      cases i with
      | work =>
        simp only [Net.exec, Option.map_some, Option.some.injEq] at h
        subst h
        exact same s.owner g.free ho (fun _ _ _ => Iff.rfl)
      | await k =>
        simp only [Net.exec] at h
        split at h
        · simp only [Option.map_some, Option.some.injEq] at h
          subst h
          exact same s.owner g.free ho (fun _ _ _ => Iff.rfl)
        · cases h
      | acq l =>
        simp only [Net.exec] at h
        split at h
        · rename_i hl
          have hl : s.owner l = none := Option.isNone_iff_eq_none.1 hl
          simp only [Option.map_some, Option.some.injEq] at h
          subst h
          refine same (Function.update s.owner l (some (.thread t))) ?_ ?_ ?_
          · intro m p
            by_cases e : m = l
            · rw [e, Function.update_self]; simp
            · rw [Function.update_of_ne e]; exact g.free m p
          · refine ho.2.congr ?_
            intro m
            by_cases e : m = l
            · rw [e, Function.update_self]; simp
            · rw [Function.update_of_ne e]; simp [e]
          · intro u hu m
            by_cases e : m = l
            · rw [e, Function.update_self, hl]
              simp only [reduceCtorEq, Option.some.injEq, Who.thread.injEq, false_iff]
              exact fun e' => hu e'.symm
            · rw [Function.update_of_ne e]
        · cases h
      | rel l =>
        simp only [Net.exec, Option.map_some, Option.some.injEq] at h
        subst h
        refine same (Function.update s.owner l none) ?_ ?_ ?_
        · intro m p
          by_cases e : m = l
          · rw [e, Function.update_self]; simp
          · rw [Function.update_of_ne e]; exact g.free m p
        · refine ho.2.congr ?_
          intro m
          by_cases e : m = l
          · rw [e, Function.update_self]; simp
          · rw [Function.update_of_ne e]; simp [e]
        · intro u hu m
          by_cases e : m = l
          · have : s.owner l = some (.thread t) := ho.1
            rw [e, Function.update_self, this]
            simp only [Option.some.injEq, Who.thread.injEq, reduceCtorEq, iff_false]
            exact fun e' => hu e'.symm
          · rw [Function.update_of_ne e]
      | enq p j wait =>
        simp only [Net.exec, Option.map_some, Option.some.injEq] at h
        subst h
        have hmem : ∀ q k, (∃ x ∈ s.queue q, x.1 = k) → ∃ x ∈ Function.update s.queue p (s.queue p ++ [(s.next, j.code)]) q, x.1 = k := by
          rintro q k ⟨x, hx, e⟩
          refine ⟨x, ?_, e⟩
          by_cases eq : q = p
          · subst eq; rw [Function.update_self]; exact List.mem_append_left _ hx
          · rw [Function.update_of_ne eq]; exact hx
        have hkn' : ∀ k, (k ∈ s.done ∨ ∃ p, (∃ x ∈ s.queue p, x.1 = k) ∨ ∃ x, s.current p = some x ∧ x.1 = k) →
            k ∈ s.done ∨ ∃ q, (∃ x ∈ Function.update s.queue p (s.queue p ++ [(s.next, j.code)]) q, x.1 = k) ∨ ∃ x, s.current q = some x ∧ x.1 = k := by
          rintro k (h | ⟨q, h | h⟩)
          · exact .inl h
          · exact .inr ⟨q, .inl (hmem q k h)⟩
          · exact .inr ⟨q, .inr h⟩
        refine ⟨?_, g.free, ?_, g.running, ?_⟩
        · intro u
          show Ordered (fun l => s.owner l = some (.thread u)) (Function.update s.threads t _ u)
          by_cases e : u = t
          · subst e; rw [Function.update_self]
            cases wait with
            | true => exact ho.2
            | false => exact ho.2
          · rw [Function.update_of_ne e]; exact g.ordered u
        · intro q x hx
          replace hx : x ∈ Function.update s.queue p (s.queue p ++ [(s.next, j.code)]) q := hx
          by_cases eq : q = p
          · subst eq
            rw [Function.update_self] at hx
            rcases List.mem_append.1 hx with h | h
            · exact g.queued q x h
            · rw [List.mem_singleton.1 h]
              exact idle_code ho.1
          · rw [Function.update_of_ne eq] at hx
            exact g.queued q x hx
        · intro u k hk
          replace hk : Instr.await k ∈ Function.update s.threads t (if wait then .await s.next :: r else r) u := hk
          show k ∈ s.done ∨ ∃ q, (∃ x ∈ Function.update s.queue p (s.queue p ++ [(s.next, j.code)]) q, x.1 = k) ∨ ∃ x, s.current q = some x ∧ x.1 = k
          by_cases e : u = t
          · subst e
            rw [Function.update_self] at hk
            cases wait with
            | true =>
              rcases List.mem_cons.1 hk with h | h
              · cases h
                refine .inr ⟨p, .inl ⟨(s.next, j.code), ?_, rfl⟩⟩
                rw [Function.update_self]
                exact List.mem_append_right _ (List.mem_singleton.2 rfl)
              · exact hkn' k (hkn k h)
            | false => exact hkn' k (hkn k hk)
          · rw [Function.update_of_ne e] at hk
            exact hkn' k (g.known u k hk)
  | manager p =>
    unfold Net.step at h
    simp only at h
    cases hc : s.current p with
    | none =>
      rw [hc] at h
      cases hq : s.queue p with
      | nil => rw [hq] at h; cases h
      | cons x q =>
        rw [hq] at h
        cases h
        refine ⟨g.ordered, g.free, ?_, ?_, ?_⟩
        · intro p' y hy
          replace hy : y ∈ Function.update s.queue p q p' := hy
          by_cases e : p' = p
          · subst e
            rw [Function.update_self] at hy
            exact g.queued p' y (by rw [hq]; exact List.mem_cons_of_mem _ hy)
          · rw [Function.update_of_ne e] at hy
            exact g.queued p' y hy
        · intro p' y hy
          replace hy : Function.update s.current p (some x) p' = some y := hy
          by_cases e : p' = p
          · subst e
            rw [Function.update_self] at hy
            cases hy
            exact g.queued p' x (by rw [hq]; exact List.mem_cons_self)
          · rw [Function.update_of_ne e] at hy
            exact g.running p' y hy
        · intro t k hk
          show k ∈ s.done ∨ ∃ p', (∃ y ∈ Function.update s.queue p q p', y.1 = k) ∨ ∃ y, Function.update s.current p (some x) p' = some y ∧ y.1 = k
          rcases g.known t k hk with h | ⟨p', ⟨y, hy, ey⟩ | ⟨y, hy, ey⟩⟩
          · exact .inl h
          · by_cases e : p' = p
            · subst e
              rw [hq] at hy
              rcases List.mem_cons.1 hy with h | h
              · exact .inr ⟨p', .inr ⟨x, by rw [Function.update_self], h ▸ ey⟩⟩
              · exact .inr ⟨p', .inl ⟨y, by rw [Function.update_self]; exact h, ey⟩⟩
            · exact .inr ⟨p', .inl ⟨y, by rw [Function.update_of_ne e]; exact hy, ey⟩⟩
          · by_cases e : p' = p
            · subst e; rw [hc] at hy; cases hy
            · exact .inr ⟨p', .inr ⟨y, by rw [Function.update_of_ne e]; exact hy, ey⟩⟩
    | some x =>
      rw [hc] at h
      obtain ⟨k, ops⟩ := x
      cases ops with
      | nil =>
        cases h
        refine ⟨g.ordered, g.free, g.queued, ?_, ?_⟩
        · intro p' y hy
          replace hy : Function.update s.current p none p' = some y := hy
          by_cases e : p' = p
          · subst e; rw [Function.update_self] at hy; cases hy
          · rw [Function.update_of_ne e] at hy; exact g.running p' y hy
        · intro t k' hk
          show k' ∈ k :: s.done ∨ ∃ p', (∃ y ∈ s.queue p', y.1 = k') ∨ ∃ y, Function.update s.current p none p' = some y ∧ y.1 = k'
          rcases g.known t k' hk with h | ⟨p', h | ⟨y, hy, ey⟩⟩
          · exact .inl (List.mem_cons_of_mem _ h)
          · exact .inr ⟨p', .inl h⟩
          · by_cases e : p' = p
            · subst e
              rw [hc] at hy
              cases hy
              exact .inl (ey ▸ List.mem_cons_self)
            · exact .inr ⟨p', .inr ⟨y, by rw [Function.update_of_ne e]; exact hy, ey⟩⟩
      | cons i r =>
        have hidle := g.running p _ hc
        have hi : i = .work := hidle i List.mem_cons_self
        subst hi
        simp only [Net.exec, Option.map_some, Option.some.injEq] at h
        subst h
        refine ⟨g.ordered, g.free, g.queued, ?_, ?_⟩
        · intro p' y hy
          replace hy : Function.update s.current p (some (k, r)) p' = some y := hy
          by_cases e : p' = p
          · subst e
            rw [Function.update_self] at hy
            cases hy
            exact fun j hj => hidle j (List.mem_cons_of_mem _ hj)
          · rw [Function.update_of_ne e] at hy; exact g.running p' y hy
        · intro t k' hk
          show k' ∈ s.done ∨ ∃ p', (∃ y ∈ s.queue p', y.1 = k') ∨ ∃ y, Function.update s.current p (some (k, r)) p' = some y ∧ y.1 = k'
          rcases g.known t k' hk with h | ⟨p', h | ⟨y, hy, ey⟩⟩
          · exact .inl h
          · exact .inr ⟨p', .inl h⟩
          · by_cases e : p' = p
            · subst e
              rw [hc] at hy
              cases hy
              exact .inr ⟨p', .inr ⟨(k, r), by rw [Function.update_self], ey⟩⟩
            · exact .inr ⟨p', .inr ⟨y, by rw [Function.update_of_ne e]; exact hy, ey⟩⟩

theorem Orderly.run {s : Net} (g : Orderly s) (h : List Who) : Orderly (s.run h) := by
  induction h generalizing s with
  | nil => exact g
  | cons w h ih =>
    show Orderly (((s.step w).getD s).run h)
    cases hs : s.step w with
    | none => exact ih g
    | some s' => exact ih (g.step w hs)

/-- If no manager can do anything, a thread that cannot continue waits for a lock that another thread holds. -/
theorem Orderly.blocked {s : Net} (g : Orderly s) (hm : ∀ p, s.step (.manager p) = none) (t : Nat) (hne : s.threads t ≠ [])
    (hb : s.step (.thread t) = none) : ∃ l r u, s.threads t = .acq l :: r ∧ s.owner l = some (.thread u) := by
  cases ht : s.threads t with
  | nil => exact absurd ht hne
  | cons i r =>
    unfold Net.step at hb
    simp only at hb
    rw [ht] at hb
    cases i with
    | work => simp [Net.exec] at hb
    | rel l => simp [Net.exec] at hb
    | enq p j w => simp [Net.exec] at hb
    | acq l =>
      cases ho : s.owner l with
      | none => simp [Net.exec, ho] at hb
      | some w =>
        cases w with
        | thread u => exact ⟨l, r, u, rfl, ho⟩
        | manager p => exact absurd ho (g.free l p)
    | await k =>
      exfalso
      have hnd : k ∉ s.done := by
        intro hd
        simp [Net.exec, hd] at hb
      rcases g.known t k (by rw [ht]; exact List.mem_cons_self) with h | ⟨p, h⟩
      · exact hnd h
      · have hp := hm p
        unfold Net.step at hp
        simp only at hp
        cases hc : s.current p with
        | none =>
          rw [hc] at hp
          rcases h with ⟨x, hx, _⟩ | ⟨x, hx, _⟩
          · cases hq : s.queue p with
            | nil => rw [hq] at hx; cases hx
            | cons y q => rw [hq] at hp; cases hp
          · rw [hc] at hx; cases hx
        | some x =>
          obtain ⟨k', ops⟩ := x
          rw [hc] at hp
          cases ops with
          | nil => cases hp
          | cons i r' =>
            have : i = .work := g.running p _ hc i List.mem_cons_self
            subst this
            simp [Net.exec] at hp

theorem Orderly.progress {s : Net} (g : Orderly s) (t : Nat) (hne : s.threads t ≠ []) : ∃ w, (s.step w).isSome = true := by
  by_contra hno
  have hall : ∀ w, s.step w = none := by
    intro w
    cases h : s.step w with
    | none => rfl
    | some s' => exact absurd ⟨w, by rw [h]; rfl⟩ hno
  -- a thread waiting for a lock of rank `6 - n` or more
  have key : ∀ n t l r, s.threads t = .acq l :: r → 6 ≤ l.rank + n → False := by
    intro n
    induction n with
    | zero => intro t l r _ hr; have := rank_le l; omega
    | succ n ih =>
      intro t l r ht hr
      obtain ⟨l', r', u, h1, h2⟩ := g.blocked (fun p => hall _) t (by rw [ht]; simp) (hall _)
      rw [ht] at h1
      cases h1
      have hu : s.threads u ≠ [] := by
        intro h0
        have := g.ordered u
        rw [h0] at this
        exact this l h2
      obtain ⟨l'', r'', v, h3, h4⟩ := g.blocked (fun p => hall _) u hu (hall _)
      have hou := g.ordered u
      rw [h3] at hou
      have := hou.1 l h2
      exact ih u l'' r'' h3 (by omega)
  obtain ⟨l, r, u, h1, _⟩ := g.blocked (fun p => hall _) t hne (hall _)
  exact key 6 t l r h1 (by omega)

/-- C69 (`_partial`: no request runs code that calls the cache): whatever the threads of any processes do with the caches and the
configuration, and however they are scheduled, as long as a thread has something left to do, somebody can take a step. -/
theorem C69_no_deadlock_partial (progs : Nat → Stmt) (hp : ∀ t, ∃ p, Uses p Quiet (progs t)) (h : List Who) (t : Nat)
    (hne : ((Net.init progs).run h).threads t ≠ []) : ∃ w, (((Net.init progs).run h).step w).isSome = true :=
  ((orderly_init progs (fun t => by obtain ⟨p, h⟩ := hp t; exact h.above)).run h).progress t hne

/-! ## Everybody finishes -/

/-- How many steps are left, counting those of requests still to be made. -/
def Stmt.cost : Stmt → Nat
  | .work => 1
  | .call _ j => j.cost + 4
  | .post _ j => j.cost + 3
  | .seq a b => a.cost + b.cost
  | .within _ a => a.cost + 2

def Instr.cost : Instr → Nat
  | .enq _ j true => j.cost + 4
  | .enq _ j false => j.cost + 3
  | _ => 1

def costs (r : List Instr) : Nat := (r.map Instr.cost).sum

theorem costs_append (a b : List Instr) : costs (a ++ b) = costs a + costs b := by simp [costs]

theorem costs_cons (i : Instr) (r : List Instr) : costs (i :: r) = i.cost + costs r := by simp [costs]

theorem costs_code (a : Stmt) : costs a.code = a.cost := by
  induction a with
  | work => rfl
  | call p j _ => rfl
  | post p j _ => rfl
  | seq a b iha ihb =>
    show costs (a.code ++ b.code) = _
    rw [costs_append, iha, ihb]; rfl
  | within l a ih =>
    show costs (.acq l :: (a.code ++ [.rel l])) = _
    rw [costs_cons, costs_append, ih]
    simp [costs, Instr.cost, Stmt.cost]; omega

/-- Steps left of the request being served. -/
def served : Option (Nat × List Instr) → Nat
  | none => 0
  | some x => costs x.2 + 1

/-- Steps left on the manager of a process. -/
def Net.backlog (s : Net) (p : Nat) : Nat :=
  ((s.queue p).map (fun x => costs x.2 + 2)).sum + served (s.current p)

/-- Steps left altogether, for threads and processes with numbers below `n`. -/
def Net.left (s : Net) (n : Nat) : Nat := ((List.range n).map (fun t => costs (s.threads t))).sum + ((List.range n).map s.backlog).sum

/-- Only threads below `n` are used, and only managers below `n`. -/
structure Bounded (n : Nat) (s : Net) : Prop where
  threads : ∀ t, n ≤ t → s.threads t = []
  managers : ∀ p, n ≤ p → s.queue p = [] ∧ s.current p = none
  calls : ∀ t p j w, Instr.enq p j w ∈ s.threads t → p < n

theorem sum_update (n k : Nat) (hk : k < n) (f g : Nat → Nat) (h : ∀ i, i ≠ k → f i = g i) :
    ((List.range n).map f).sum + g k = ((List.range n).map g).sum + f k := by
  induction n with
  | zero => omega
  | succ n ih =>
    rw [List.range_succ, List.map_append, List.map_append, List.sum_append, List.sum_append]
    simp only [List.map_cons, List.map_nil, List.sum_cons, List.sum_nil, Nat.add_zero]
    by_cases e : k = n
    · subst e
      have : (List.range k).map f = (List.range k).map g := by
        apply List.map_congr_left
        intro i hi
        exact h i (by have := List.mem_range.1 hi; omega)
      rw [this]; omega
    · have := ih (by omega)
      rw [h n (fun e' => e e'.symm)]
      omega

theorem sum_same (n : Nat) (f g : Nat → Nat) (h : ∀ i, f i = g i) : ((List.range n).map f).sum = ((List.range n).map g).sum := by
  have : f = g := funext h
  rw [this]

/-- Every step that is taken reduces the work left. -/
theorem left_step {n : Nat} {s s' : Net} (g : Orderly s) (b : Bounded n s) (w : Who) (h : s.step w = some s') : Bounded n s' ∧ s'.left n < s.left n := by
  cases w with
  | thread t =>
    unfold Net.step at h
    simp only at h
    cases ht : s.threads t with
    | nil => rw [ht] at h; cases h
    | cons i r =>
      rw [ht] at h
      have htn : t < n := by
        by_contra hn
        rw [b.threads t (by omega)] at ht; cases ht
      have hcalls : ∀ p j w, Instr.enq p j w ∈ r → p < n := fun p j w hm => b.calls t p j w (by rw [ht]; exact List.mem_cons_of_mem _ hm)
      have simple : ∀ own, i.cost = 1 → Bounded n { s with owner := own, threads := Function.update s.threads t r } ∧
          Net.left { s with owner := own, threads := Function.update s.threads t r } n < s.left n := by
        intro own hi
        refine ⟨⟨?_, b.managers, ?_⟩, ?_⟩
        · intro u hu
          show Function.update s.threads t r u = []
          rw [Function.update_of_ne (by omega)]
          exact b.threads u hu
        · intro u p j w hm
          replace hm : Instr.enq p j w ∈ Function.update s.threads t r u := hm
          by_cases e : u = t
          · subst e; rw [Function.update_self] at hm; exact hcalls p j w hm
          · rw [Function.update_of_ne e] at hm; exact b.calls u p j w hm
        · have := sum_update n t htn (fun u => costs (Function.update s.threads t r u)) (fun u => costs (s.threads u)) (fun u hu => by
            rw [Function.update_of_ne hu])
          simp only [Function.update_self] at this
          rw [ht, costs_cons, hi] at this
          show ((List.range n).map (fun u => costs (Function.update s.threads t r u))).sum + ((List.range n).map s.backlog).sum < _
          unfold Net.left
          omega
      cases i with
      | work =>
        simp only [Net.exec, Option.map_some, Option.some.injEq] at h
        subst h
        exact simple s.owner rfl
      | await k =>
        simp only [Net.exec] at h
        split at h
        · simp only [Option.map_some, Option.some.injEq] at h
          subst h
          exact simple s.owner rfl
        · cases h
      | acq l =>
        simp only [Net.exec] at h
        split at h
        · simp only [Option.map_some, Option.some.injEq] at h
          subst h
          exact simple _ rfl
        · cases h
      | rel l =>
        simp only [Net.exec, Option.map_some, Option.some.injEq] at h
        subst h
        exact simple _ rfl
      | enq p j wait =>
        simp only [Net.exec, Option.map_some, Option.some.injEq] at h
        subst h
        have hp : p < n := b.calls t p j wait (by rw [ht]; exact List.mem_cons_self)
        refine ⟨⟨?_, ?_, ?_⟩, ?_⟩
        · intro u hu
          show Function.update s.threads t _ u = []
          rw [Function.update_of_ne (by omega)]
          exact b.threads u hu
        · intro q hq
          refine ⟨?_, (b.managers q hq).2⟩
          show Function.update s.queue p _ q = []
          rw [Function.update_of_ne (by omega)]
          exact (b.managers q hq).1
        · intro u p' j' w' hm
          replace hm : Instr.enq p' j' w' ∈ Function.update s.threads t (if wait then .await s.next :: r else r) u := hm
          by_cases e : u = t
          · subst e
            rw [Function.update_self] at hm
            cases wait with
            | true =>
              rcases List.mem_cons.1 hm with h | h
              · cases h
              · exact hcalls p' j' w' h
            | false => exact hcalls p' j' w' hm
          · rw [Function.update_of_ne e] at hm; exact b.calls u p' j' w' hm
        · have h1 := sum_update n t htn (fun u => costs (Function.update s.threads t (if wait then .await s.next :: r else r) u)) (fun u => costs (s.threads u))
            (fun u hu => by rw [Function.update_of_ne hu])
          have h2 := sum_update n p hp
            (fun q => ((Function.update s.queue p (s.queue p ++ [(s.next, j.code)]) q).map (fun x => costs x.2 + 2)).sum +
              served (s.current q)) s.backlog (fun q hq => by
              rw [Function.update_of_ne hq]; rfl)
          simp only [Function.update_self] at h1 h2
          rw [ht, costs_cons] at h1
          have h3 : ((s.queue p ++ [(s.next, j.code)]).map (fun x => costs x.2 + 2)).sum = ((s.queue p).map (fun x => costs x.2 + 2)).sum + (j.cost + 2) := by
            rw [List.map_append, List.sum_append]
            simp [costs_code]
          rw [h3] at h2
          have h4 : s.backlog p = ((s.queue p).map (fun x => costs x.2 + 2)).sum + served (s.current p) := rfl
          have h5 : costs (if wait then .await s.next :: r else r) + j.cost + 3 = (Instr.enq p j wait).cost + costs r := by
            cases wait with
            | true =>
              show costs (.await s.next :: r) + _ + _ = _
              rw [costs_cons]
              simp only [Instr.cost]; omega
            | false =>
              show costs r + _ + _ = _
              simp only [Instr.cost]; omega
          show ((List.range n).map (fun u => costs (Function.update s.threads t (if wait then .await s.next :: r else r) u))).sum +
            ((List.range n).map (fun q => ((Function.update s.queue p (s.queue p ++ [(s.next, j.code)]) q).map (fun x => costs x.2 + 2)).sum +
              served (s.current q))).sum < _
          unfold Net.left
          omega
  | manager p =>
    unfold Net.step at h
    simp only at h
    cases hc : s.current p with
    | none =>
      rw [hc] at h
      cases hq : s.queue p with
      | nil => rw [hq] at h; cases h
      | cons x q =>
        rw [hq] at h
        cases h
        have hpn : p < n := by
          by_contra hn
          rw [(b.managers p (by omega)).1] at hq; cases hq
        refine ⟨⟨b.threads, ?_, b.calls⟩, ?_⟩
        · intro p' hp'
          have e : p' ≠ p := by omega
          show Function.update s.queue p q p' = [] ∧ Function.update s.current p (some x) p' = none
          rw [Function.update_of_ne e, Function.update_of_ne e]
          exact b.managers p' hp'
        · have h2 := sum_update n p hpn (Net.backlog { s with current := Function.update s.current p (some x), queue := Function.update s.queue p q }) s.backlog
            (fun i hi => by
              unfold Net.backlog
              show ((Function.update s.queue p q i).map _).sum + served (Function.update s.current p (some x) i) = _
              rw [Function.update_of_ne hi, Function.update_of_ne hi])
          have h3 : s.backlog p = costs x.2 + 2 + (q.map (fun x => costs x.2 + 2)).sum := by
            unfold Net.backlog
            rw [hq, hc]; simp [served]
          have h4 : Net.backlog { s with current := Function.update s.current p (some x), queue := Function.update s.queue p q } p =
              (q.map (fun x => costs x.2 + 2)).sum + (costs x.2 + 1) := by
            unfold Net.backlog
            show ((Function.update s.queue p q p).map _).sum + served (Function.update s.current p (some x) p) = _
            rw [Function.update_self, Function.update_self]; rfl
          unfold Net.left
          show ((List.range n).map (fun t => costs (s.threads t))).sum + _ < _
          omega
    | some x =>
      rw [hc] at h
      obtain ⟨k, ops⟩ := x
      have hpn : p < n := by
        by_contra hn
        rw [(b.managers p (by omega)).2] at hc; cases hc
      have key : ∀ c d, served c + 1 ≤ costs ops + 1 →
          Bounded n { s with current := Function.update s.current p c, done := d } ∧
          Net.left { s with current := Function.update s.current p c, done := d } n < s.left n := by
        intro c d hcost
        refine ⟨⟨b.threads, ?_, b.calls⟩, ?_⟩
        · intro p' hp'
          refine ⟨(b.managers p' hp').1, ?_⟩
          show Function.update s.current p _ p' = none
          rw [Function.update_of_ne (by omega)]
          exact (b.managers p' hp').2
        · have h2 := sum_update n p hpn (Net.backlog { s with current := Function.update s.current p c, done := d }) s.backlog
            (fun i hi => by
              unfold Net.backlog
              show ((s.queue i).map _).sum + served (Function.update s.current p c i) = _
              rw [Function.update_of_ne hi])
          have h3 : s.backlog p = ((s.queue p).map (fun x => costs x.2 + 2)).sum + (costs ops + 1) := by
            unfold Net.backlog
            rw [hc]; rfl
          have h4 : Net.backlog { s with current := Function.update s.current p c, done := d } p =
              ((s.queue p).map (fun x => costs x.2 + 2)).sum + served c := by
            unfold Net.backlog
            show _ + served (Function.update s.current p c p) = _
            rw [Function.update_self]
          unfold Net.left
          show ((List.range n).map (fun t => costs (s.threads t))).sum + _ < _
          omega
      cases ops with
      | nil =>
        cases h
        exact key none (k :: s.done) (by simp [served])
      | cons i r =>
        have hi : i = .work := g.running p _ hc i List.mem_cons_self
        subst hi
        simp only [Net.exec, Option.map_some, Option.some.injEq] at h
        subst h
        exact key (some (k, r)) s.done (by rw [costs_cons]; simp only [Instr.cost, served]; omega)

/-- Executions in which every step is taken. -/
def Moves (s : Net) : List Who → Prop
  | [] => True
  | w :: h => ∃ s', s.step w = some s' ∧ Moves s' h

theorem moves_bound {n : Nat} (h : List Who) : ∀ {s : Net}, Orderly s → Bounded n s → Moves s h → h.length ≤ s.left n := by
  induction h with
  | nil => intros; exact Nat.zero_le _
  | cons w h ih =>
    intro s g b hm
    obtain ⟨s', h1, h2⟩ := hm
    obtain ⟨b', hlt⟩ := left_step g b w h1
    have := ih (g.step w h1) b' h2
    show h.length + 1 ≤ _
    omega

theorem bounded_run {n : Nat} (h : List Who) : ∀ {s : Net}, Orderly s → Bounded n s → Bounded n (s.run h) := by
  induction h with
  | nil => intro s _ b; exact b
  | cons w h ih =>
    intro s g b
    show Bounded n (((s.step w).getD s).run h)
    cases hs : s.step w with
    | none => exact ih g b
    | some s' => exact ih (g.step w hs) (left_step g b w hs).1

/-- Requests are made to managers below `n`. -/
def Stmt.callsBelow (n : Nat) : Stmt → Prop
  | .work => True
  | .call p _ => p < n
  | .post p _ => p < n
  | .seq a b => a.callsBelow n ∧ b.callsBelow n
  | .within _ a => a.callsBelow n

theorem callsBelow_code {n : Nat} {a : Stmt} (h : a.callsBelow n) (p : Nat) (j : Stmt) (w : Bool) (hm : Instr.enq p j w ∈ a.code) : p < n := by
  induction a with
  | work => simp [Stmt.code] at hm
  | call p' j' _ => simp [Stmt.code] at hm; rw [hm.1]; exact h
  | post p' j' _ => simp [Stmt.code] at hm; rw [hm.1]; exact h
  | seq a b iha ihb =>
    rcases List.mem_append.1 hm with h' | h'
    · exact iha h.1 h'
    · exact ihb h.2 h'
  | within l a ih =>
    simp [Stmt.code] at hm
    exact ih h hm

/-- `n` threads start, the others have nothing to do. -/
def Net.start (n : Nat) (progs : Nat → Stmt) : Net := { Net.init progs with threads := fun t => if t < n then (progs t).code else [] }

theorem orderly_start (n : Nat) (progs : Nat → Stmt) (h : ∀ t, Above 0 (progs t)) : Orderly (Net.start n progs) := by
  have g := orderly_init progs h
  refine ⟨?_, g.free, g.queued, g.running, ?_⟩
  · intro t
    show Ordered _ (if t < n then (progs t).code else [])
    by_cases ht : t < n
    · rw [if_pos ht]; exact g.ordered t
    · rw [if_neg ht]; exact fun l hl => (by cases hl)
  · intro t k hk
    replace hk : Instr.await k ∈ (if t < n then (progs t).code else []) := hk
    by_cases ht : t < n
    · rw [if_pos ht] at hk; exact absurd hk (no_await _ k)
    · rw [if_neg ht] at hk; cases hk

theorem bounded_start (n : Nat) (progs : Nat → Stmt) (h : ∀ t, (progs t).callsBelow n) : Bounded n (Net.start n progs) := by
  refine ⟨fun t ht => if_neg (by omega), fun p _ => ⟨rfl, rfl⟩, ?_⟩
  intro t p j w hm
  replace hm : Instr.enq p j w ∈ (if t < n then (progs t).code else []) := hm
  by_cases ht : t < n
  · rw [if_pos ht] at hm; exact callsBelow_code (h t) p j w hm
  · rw [if_neg ht] at hm; cases hm

/-- C69: with finitely many threads and processes nobody waits for ever — after any schedule there are at most so many steps left to
take, and when no more step can be taken all threads are through. -/
theorem C69_finishes_partial (n : Nat) (progs : Nat → Stmt) (hp : ∀ t, ∃ p, Uses p Quiet (progs t)) (hn : ∀ t, (progs t).callsBelow n) (h : List Who) :
    ∃ bound, ∀ h', Moves ((Net.start n progs).run h) h' → h'.length ≤ bound ∧
      ((∀ w, (((Net.start n progs).run h).run h').step w = none) → ∀ t, (((Net.start n progs).run h).run h').threads t = []) := by
  have g := (orderly_start n progs (fun t => by obtain ⟨p, h⟩ := hp t; exact h.above))
  have g' := g.run h
  have b' := bounded_run h g (bounded_start n progs hn)
  refine ⟨((Net.start n progs).run h).left n, fun h' hm => ⟨moves_bound h' g' b' hm, fun hstop t => ?_⟩⟩
  by_contra hne
  obtain ⟨w, hw⟩ := (g'.run h').progress t hne
  rw [hstop w] at hw
  cases hw

/-! ## A request that runs code which calls the cache -/

/-- `cache.size()` with a policy in place. -/
def sizeCall : Stmt := .seq (.within (.policy 0) .work) (.within (.manager 0) (.call 0 .work))

/-- `cache.purge(matcher=…)` with a matcher that calls `cache.size()`. -/
def purgeCall : Stmt := .seq (.within (.policy 0) .work) (.within (.manager 0) (.call 0 sizeCall))

example : Uses 0 Quiet (.seq (.seq sizeCall .work) .work) := by
  refine .calls (.manager (.call (.mk .plain) .work) .nothing) .nothing

/-- Not vacuous: a lookup of weights which downloads a file, followed by a configuration change that makes a new policy. -/
example : ∃ a, Uses 0 Quiet a ∧ a.callsBelow 1 ∧ 20 < a.code.length := by
  have hm : MakePolicy 0 Quiet (.within (.manager 0) (.seq .work (.call 0 .work))) := .managed .work
  have hs : CallManager 0 Quiet sizeCall := .call (.mk .plain) .work
  refine ⟨_, .lookup (.next (.created 3 (.manager hs .nothing) (.manager hs .nothing)) .nothing)
    (.config (.outdated (.mk .plain) hm) .nothing), ?_, ?_⟩
  · simp [Stmt.callsBelow, sizeCall]
  · simp [Stmt.code, sizeCall]

/-- `C69_no_deadlock_partial`, `C69_finishes_partial`: any number of threads that call `cache.size()`, interrupted anywhere. -/
example (n : Nat) (hn : 0 < n) (h : List Who) (t : Nat) (hne : ((Net.init (fun _ => .seq (.seq sizeCall .work) .work)).run h).threads t ≠ []) :
    (∃ w, (((Net.init (fun _ => .seq (.seq sizeCall .work) .work)).run h).step w).isSome = true) ∧
    ∃ bound, ∀ h', Moves ((Net.start n (fun _ => .seq (.seq sizeCall .work) .work)).run h) h' → h'.length ≤ bound := by
  have hu : ∀ _ : Nat, ∃ p, Uses p Quiet (.seq (.seq sizeCall .work) .work) :=
    fun _ => ⟨0, .calls (.manager (.call (.mk .plain) .work) .nothing) .nothing⟩
  refine ⟨C69_no_deadlock_partial _ hu h t hne, ?_⟩
  obtain ⟨bound, hb⟩ := C69_finishes_partial n _ hu (fun _ => by simp [Stmt.callsBelow, sizeCall, hn]) h
  exact ⟨bound, fun h' hm => (hb h' hm).1⟩

example : ((Net.init (fun _ => .seq (.seq sizeCall .work) .work)).run [.thread 0, .thread 1]).threads 1 ≠ [] := by decide +kernel

/-- C69 refuted: `cache.purge(matcher=f)` waits for ever when `f` calls the cache — the matcher runs in the manager thread, the lock of
the manager is held by the caller that waits for it. -/
theorem C69_refuted : ∃ (progs : Nat → Stmt) (h : List Who), (∀ t, Uses 0 (fun _ => True) (progs t)) ∧
    ∀ h', (((Net.start 1 progs).run h).run h').threads 0 ≠ [] := by
  refine ⟨fun _ => .seq (.seq purgeCall .work) .work, List.replicate 5 (.thread 0) ++ List.replicate 4 (.manager 0), ?_, ?_⟩
  · intro t
    exact .calls (.manager (.call (.mk .plain) trivial) .nothing) .nothing
  · intro h'
    have key : ∀ s : Net, (∃ k r r', s.threads 0 = .await k :: r ∧ k ∉ s.done ∧ s.current 0 = some (k, .acq (.manager 0) :: r')) →
        (s.owner (.manager 0)).isNone = false → (∀ t, t ≠ 0 → s.threads t = []) → (∀ p, p ≠ 0 → s.queue p = [] ∧ s.current p = none) →
        ∀ h', (s.run h').threads 0 ≠ [] := by
      intro s hs ho hth hmg h'
      have hstep : ∀ w, s.step w = none := by
        obtain ⟨k, r, r', h1, h2, h3⟩ := hs
        intro w
        cases w with
        | thread t =>
          unfold Net.step
          simp only
          by_cases e : t = 0
          · subst e
            rw [h1]
            simp [Net.exec, h2]
          · rw [hth t e]
        | manager p =>
          unfold Net.step
          simp only
          by_cases e : p = 0
          · subst e
            rw [h3]
            simp [Net.exec, ho]
          · rw [(hmg p e).2, (hmg p e).1]
      have hrun : ∀ h', s.run h' = s := by
        intro h'
        induction h' with
        | nil => rfl
        | cons w h' ih =>
          show ((s.step w).getD s).run h' = s
          rw [hstep w]
          exact ih
      rw [hrun]
      obtain ⟨k, r, r', h1, _⟩ := hs
      rw [h1]; simp
    refine key _ ⟨0, [.rel (.manager 0), .work, .work], [.enq 0 .work true, .rel (.manager 0)], ?_, ?_, ?_⟩ ?_ ?_ ?_ h'
    · rfl
    · decide
    · rfl
    · rfl
    · intro t ht
      simp [Net.run, Net.step, Net.start, Net.init, Net.exec, Stmt.code, purgeCall, sizeCall, List.replicate, Function.update, ht]
    · intro p hp
      simp [Net.run, Net.step, Net.start, Net.init, Net.exec, Stmt.code, purgeCall, sizeCall, List.replicate, Function.update, hp]

end Verif.DiskCache.Locks

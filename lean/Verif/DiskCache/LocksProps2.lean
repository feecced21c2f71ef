import Verif.DiskCache.LocksProps

/-!
# What the locks and the answers of the manager are good for (C146)
-/

namespace Verif.DiskCache.Locks

/-! ## Specification -/

/-- What is left to do begins within `with l`: the next thing about `l` is to release it. -/
def Within (l : Lk) : List Instr → Prop
  | [] => False
  | .acq m :: r => m ≠ l ∧ Within l r
  | .rel m :: r => m = l ∨ Within l r
  | _ :: r => Within l r

/-- A request that is still in the queue of a manager, or being carried out. -/
def Pending (s : Net) (k : Nat) : Prop := ∃ p, (∃ x ∈ s.queue p, x.1 = k) ∨ ∃ x, s.current p = some x ∧ x.1 = k

/-- What somebody has left to do. -/
def Net.left_of (s : Net) : Who → List Instr
  | .thread t => s.threads t
  | .manager p => ((s.current p).map Prod.snd).getD []

/-! ## Locks -/

/-- `with` blocks are properly nested; `K` are the open ones. -/
def Nested : List Lk → List Instr → Prop
  | K, [] => K = []
  | K, .acq l :: r => Nested (l :: K) r
  | K, .rel l :: r => ∃ K', K = l :: K' ∧ Nested K' r
  | K, .work :: r => Nested K r
  | K, .enq _ _ _ :: r => Nested K r
  | K, .await _ :: r => Nested K r

theorem nested_code (a : Stmt) (K : List Lk) (r : List Instr) (h : Nested K r) : Nested K (a.code ++ r) := by
  induction a generalizing K r with
  | work => exact h
  | call p j _ => exact h
  | post p j _ => exact h
  | seq a b iha ihb =>
    show Nested K ((a.code ++ b.code) ++ r)
    rw [List.append_assoc]
    exact iha K _ (ihb K r h)
  | within l a ih =>
    show Nested (l :: K) ((a.code ++ [Instr.rel l]) ++ r)
    rw [List.append_assoc]
    exact ih (l :: K) _ ⟨K, rfl, h⟩

theorem nested_code' (a : Stmt) : Nested [] a.code := by
  have := nested_code a [] [] rfl
  rwa [List.append_nil] at this

theorem within_open {K : List Lk} {r : List Instr} (h : Nested K r) {l : Lk} (hw : Within l r) : l ∈ K := by
  induction r generalizing K with
  | nil => exact hw.elim
  | cons i r ih =>
    cases i with
    | work => exact ih h hw
    | enq p j w => exact ih h hw
    | await k => exact ih h hw
    | acq m =>
      rcases List.mem_cons.1 (ih h hw.2) with e | h'
      · exact absurd e.symm hw.1
      · exact h'
    | rel m =>
      obtain ⟨K', rfl, h'⟩ := h
      rcases hw with rfl | hw
      · exact List.mem_cons_self
      · exact List.mem_cons_of_mem _ (ih h' hw)

/-- Open blocks are owned. -/
def Owns (s : Net) (w : Who) (r : List Instr) : Prop := ∃ K, Nested K r ∧ K.Nodup ∧ ∀ l ∈ K, s.owner l = some w

structure Exclusive (s : Net) : Prop where
  owns : ∀ w, Owns s w (s.left_of w)
  queued : ∀ p, ∀ x ∈ s.queue p, Nested [] x.2

/-- An instruction: what is left is owned, and the others own what they had. -/
theorem exec_owns {s s' : Net} {w : Who} {i : Instr} {r r' : List Instr} (h : s.exec w i r = some (s', r')) (ho : Owns s w (i :: r)) :
    Owns s' w r' ∧ ∀ w' r'', w' ≠ w → Owns s w' r'' → Owns s' w' r'' := by
  obtain ⟨K, h1, h2, h3⟩ := ho
  cases i with
  | work => cases h; exact ⟨⟨K, h1, h2, h3⟩, fun _ _ _ h => h⟩
  | await k =>
    simp only [Net.exec] at h
    split at h
    · cases h; exact ⟨⟨K, h1, h2, h3⟩, fun _ _ _ h => h⟩
    · cases h
  | enq p j wait =>
    cases h
    refine ⟨⟨K, ?_, h2, h3⟩, fun _ _ _ h => h⟩
    cases wait <;> exact h1
  | acq l =>
    simp only [Net.exec] at h
    split at h
    · rename_i hl
      have hl : s.owner l = none := Option.isNone_iff_eq_none.1 hl
      cases h
      refine ⟨⟨l :: K, h1, List.nodup_cons.2 ⟨fun hm => (by rw [h3 l hm] at hl; cases hl), h2⟩, ?_⟩, ?_⟩
      · intro m hm
        show Function.update s.owner l (some w) m = some w
        rcases List.mem_cons.1 hm with rfl | hm'
        · rw [Function.update_self]
        · have hne : m ≠ l := fun e => by rw [← e, h3 m hm'] at hl; cases hl
          rw [Function.update_of_ne hne]; exact h3 m hm'
      · rintro w' r'' - ⟨K', a1, a2, a3⟩
        refine ⟨K', a1, a2, fun m hm => ?_⟩
        show Function.update s.owner l (some w) m = some w'
        rw [Function.update_of_ne (by rintro rfl; rw [a3 m hm] at hl; cases hl)]; exact a3 m hm
    · cases h
  | rel l =>
    cases h
    obtain ⟨K', rfl, h1⟩ := h1
    obtain ⟨hn, h2⟩ := List.nodup_cons.1 h2
    refine ⟨⟨K', h1, h2, fun m hm => ?_⟩, ?_⟩
    · show Function.update s.owner l none m = some w
      rw [Function.update_of_ne (by rintro rfl; exact hn hm)]; exact h3 m (List.mem_cons_of_mem _ hm)
    · rintro w' r'' hne ⟨K'', a1, a2, a3⟩
      refine ⟨K'', a1, a2, fun m hm => ?_⟩
      show Function.update s.owner l none m = some w'
      rw [Function.update_of_ne ?_]
      · exact a3 m hm
      · rintro rfl
        have := h3 m List.mem_cons_self
        rw [a3 m hm] at this
        exact hne (Option.some.inj this)

theorem exec_queue {s s' : Net} {w : Who} {i : Instr} {r r' : List Instr} (h : s.exec w i r = some (s', r')) (hq : ∀ p, ∀ x ∈ s.queue p, Nested [] x.2) :
    s'.current = s.current ∧ s'.threads = s.threads ∧ ∀ p, ∀ x ∈ s'.queue p, Nested [] x.2 := by
  cases i with
  | work => cases h; exact ⟨rfl, rfl, hq⟩
  | await k =>
    simp only [Net.exec] at h
    split at h
    · cases h; exact ⟨rfl, rfl, hq⟩
    · cases h
  | acq l =>
    simp only [Net.exec] at h
    split at h
    · cases h; exact ⟨rfl, rfl, hq⟩
    · cases h
  | rel l => cases h; exact ⟨rfl, rfl, hq⟩
  | enq p j wait =>
    cases h
    refine ⟨rfl, rfl, fun q x hx => ?_⟩
    replace hx : x ∈ Function.update s.queue p (s.queue p ++ [(s.next, j.code)]) q := hx
    by_cases e : q = p
    · subst e
      rw [Function.update_self] at hx
      rcases List.mem_append.1 hx with h | h
      · exact hq q x h
      · rw [List.mem_singleton.1 h]; exact nested_code' j
    · rw [Function.update_of_ne e] at hx; exact hq q x hx

theorem Exclusive.step {s s' : Net} (g : Exclusive s) {w : Who} (h : s.step w = some s') : Exclusive s' := by
  cases w with
  | thread t =>
    unfold Net.step at h
    simp only at h
    cases ht : s.threads t with
    | nil => rw [ht] at h; cases h
    | cons i r =>
      rw [ht] at h
      obtain ⟨⟨u, r'⟩, h1, h2⟩ := Option.map_eq_some_iff.1 h
      subst h2
      have ho := g.owns (.thread t)
      rw [show s.left_of (.thread t) = i :: r from ht] at ho
      obtain ⟨a1, a2⟩ := exec_owns h1 ho
      obtain ⟨b1, b2, b3⟩ := exec_queue h1 g.queued
      refine ⟨fun w' => ?_, b3⟩
      cases w' with
      | thread t' =>
        show Owns u (.thread t') (Function.update u.threads t r' t')
        by_cases e : t' = t
        · subst e; rw [Function.update_self]; exact a1
        · rw [Function.update_of_ne e, b2]
          exact a2 _ _ (by intro h; cases h; exact e rfl) (g.owns (.thread t'))
      | manager p =>
        show Owns u (.manager p) (((u.current p).map Prod.snd).getD [])
        rw [b1]
        exact a2 _ _ (by intro h; cases h) (g.owns (.manager p))
  | manager p =>
    unfold Net.step at h
    simp only at h
    have ho := g.owns (.manager p)
    cases hc : s.current p with
    | none =>
      rw [hc] at h
      cases hq : s.queue p with
      | nil => rw [hq] at h; cases h
      | cons x q =>
        rw [hq] at h
        cases h
        refine ⟨fun w' => ?_, fun p' y hy => ?_⟩
        · cases w' with
          | thread t => exact g.owns (.thread t)
          | manager p' =>
            show Owns _ (.manager p') (((Function.update s.current p (some x) p').map Prod.snd).getD [])
            by_cases e : p' = p
            · subst e
              rw [Function.update_self]
              exact ⟨[], g.queued p' x (by rw [hq]; exact List.mem_cons_self), List.nodup_nil, fun l hl => by cases hl⟩
            · rw [Function.update_of_ne e]; exact g.owns (.manager p')
        · replace hy : y ∈ Function.update s.queue p q p' := hy
          by_cases e : p' = p
          · subst e
            rw [Function.update_self] at hy
            exact g.queued p' y (by rw [hq]; exact List.mem_cons_of_mem _ hy)
          · rw [Function.update_of_ne e] at hy; exact g.queued p' y hy
    | some x =>
      obtain ⟨k, ops⟩ := x
      rw [hc] at h
      rw [show s.left_of (.manager p) = ops by show ((s.current p).map Prod.snd).getD [] = ops; rw [hc]; rfl] at ho
      cases ops with
      | nil =>
        cases h
        refine ⟨fun w' => ?_, g.queued⟩
        cases w' with
        | thread t => exact g.owns (.thread t)
        | manager p' =>
          show Owns _ (.manager p') (((Function.update s.current p none p').map Prod.snd).getD [])
          by_cases e : p' = p
          · subst e; rw [Function.update_self]; exact ⟨[], rfl, List.nodup_nil, fun l hl => by cases hl⟩
          · rw [Function.update_of_ne e]; exact g.owns (.manager p')
      | cons i r =>
        simp only at h
        obtain ⟨⟨u, r'⟩, h1, h2⟩ := Option.map_eq_some_iff.1 h
        subst h2
        obtain ⟨a1, a2⟩ := exec_owns h1 ho
        obtain ⟨b1, b2, b3⟩ := exec_queue h1 g.queued
        refine ⟨fun w' => ?_, b3⟩
        cases w' with
        | thread t =>
          show Owns u (.thread t) (u.threads t)
          rw [b2]
          exact a2 _ _ (by intro h; cases h) (g.owns (.thread t))
        | manager p' =>
          show Owns u (.manager p') (((Function.update u.current p (some (k, r')) p').map Prod.snd).getD [])
          by_cases e : p' = p
          · subst e; rw [Function.update_self]; exact a1
          · rw [Function.update_of_ne e, b1]
            exact a2 _ _ (by intro h; cases h; exact e rfl) (g.owns (.manager p'))

theorem exclusive_run (progs : Nat → Stmt) (h : List Who) : Exclusive ((Net.init progs).run h) := by
  have : ∀ s, Exclusive s → Exclusive (s.run h) := by
    induction h with
    | nil => exact fun s g => g
    | cons w h ih =>
      intro s g
      show Exclusive (((s.step w).getD s).run h)
      cases hs : s.step w with
      | none => exact ih s g
      | some s' => exact ih s' (g.step hs)
  refine this _ ⟨fun w => ?_, fun p x hx => by cases hx⟩
  cases w with
  | thread t => exact ⟨[], nested_code' _, List.nodup_nil, fun l hl => by cases hl⟩
  | manager p => exact ⟨[], rfl, List.nodup_nil, fun l hl => by cases hl⟩

/-- C146: whatever the programs of the threads and of the requests are, and whatever the schedule: no two of them are ever within the same lock. -/
theorem C146_exclusive (progs : Nat → Stmt) (h : List Who) (l : Lk) (w w' : Who) (hw : Within l (((Net.init progs).run h).left_of w))
    (hw' : Within l (((Net.init progs).run h).left_of w')) : w = w' := by
  have g := exclusive_run progs h
  obtain ⟨K, a1, -, a3⟩ := g.owns w
  obtain ⟨K', b1, -, b3⟩ := g.owns w'
  have h1 := a3 l (within_open a1 hw)
  have h2 := b3 l (within_open b1 hw')
  rw [h1] at h2
  exact Option.some.inj h2

/-! ## Requests -/

/-- The requests a manager has, the one being carried out first. -/
def Net.line (s : Net) (p : Nat) : List Nat := ((s.current p).toList ++ s.queue p).map Prod.fst

theorem pending_iff (s : Net) (k : Nat) : Pending s k ↔ ∃ p, k ∈ s.line p := by
  unfold Pending Net.line
  refine exists_congr fun p => ?_
  constructor
  · rintro (⟨x, hx, rfl⟩ | ⟨x, hx, rfl⟩)
    · exact List.mem_map.2 ⟨x, List.mem_append_right _ hx, rfl⟩
    · exact List.mem_map.2 ⟨x, List.mem_append_left _ (by rw [hx]; simp), rfl⟩
  · intro hk
    obtain ⟨x, hx, rfl⟩ := List.mem_map.1 hk
    rcases List.mem_append.1 hx with h | h
    · exact .inr ⟨x, by simpa using h, rfl⟩
    · exact .inl ⟨x, h, rfl⟩

structure Tickets (s : Net) : Prop where
  once : ∀ p, (s.line p).Nodup
  apart : ∀ p p' k, k ∈ s.line p → k ∈ s.line p' → p = p'
  old : ∀ p k, k ∈ s.line p → k < s.next
  done_old : ∀ k ∈ s.done, k < s.next
  finished : ∀ k ∈ s.done, ∀ p, k ∉ s.line p

/-- An instruction leaves the requests as they are, or adds one. -/
inductive Told (s s' : Net) : Prop where
  | same (hl : ∀ p, s'.line p = s.line p) (hd : s'.done = s.done) (hn : s'.next = s.next)
  | asked (p : Nat) (hl : s'.line p = s.line p ++ [s.next]) (ho : ∀ q, q ≠ p → s'.line q = s.line q) (hd : s'.done = s.done) (hn : s'.next = s.next + 1)
  | answered (p k : Nat) (hl : s.line p = k :: s'.line p) (ho : ∀ q, q ≠ p → s'.line q = s.line q) (hd : s'.done = k :: s.done) (hn : s'.next = s.next)

theorem Tickets.told {s s' : Net} (g : Tickets s) (h : Told s s') : Tickets s' := by
  cases h with
  | same hl hd hn =>
    refine ⟨fun p => ?_, fun p p' k => ?_, fun p k => ?_, fun k => ?_, fun k hk p => ?_⟩
    · rw [hl]; exact g.once p
    · rw [hl, hl]; exact g.apart p p' k
    · rw [hl, hn]; exact g.old p k
    · rw [hd, hn]; exact g.done_old k
    · rw [hd] at hk; rw [hl]; exact g.finished k hk p
  | asked p hl ho hd hn =>
    have mem : ∀ q k, k ∈ s'.line q ↔ k ∈ s.line q ∨ (q = p ∧ k = s.next) := by
      intro q k
      by_cases e : q = p
      · subst e; rw [hl]; simp
      · rw [ho q e]; simp [e]
    refine ⟨fun q => ?_, fun q q' k h1 h2 => ?_, fun q k h1 => ?_, fun k => ?_, fun k hk q => ?_⟩
    · by_cases e : q = p
      · subst e
        rw [hl]
        refine List.nodup_append.2 ⟨g.once q, by simp, ?_⟩
        intro k h1 k' h2 e
        have h3 : k' = s.next := by simpa using h2
        subst h3
        subst e
        exact absurd (g.old q _ h1) (Nat.lt_irrefl _)
      · rw [ho q e]; exact g.once q
    · rcases (mem q k).1 h1 with h1 | ⟨rfl, rfl⟩ <;> rcases (mem q' _).1 h2 with h2 | ⟨rfl, h2⟩
      · exact g.apart q q' k h1 h2
      · subst h2; exact absurd (g.old q _ h1) (Nat.lt_irrefl _)
      · exact absurd (g.old q' _ h2) (Nat.lt_irrefl _)
      · rfl
    · rw [hn]
      rcases (mem q k).1 h1 with h1 | ⟨-, rfl⟩
      · exact Nat.lt_succ_of_lt (g.old q k h1)
      · exact Nat.lt_succ_self _
    · rw [hd, hn]; exact fun hk => Nat.lt_succ_of_lt (g.done_old k hk)
    · rw [hd] at hk
      intro h1
      rcases (mem q k).1 h1 with h1 | ⟨-, rfl⟩
      · exact g.finished k hk q h1
      · exact Nat.lt_irrefl _ (g.done_old _ hk)
  | answered p k hl ho hd hn =>
    have sub : ∀ q j, j ∈ s'.line q → j ∈ s.line q := by
      intro q j hj
      by_cases e : q = p
      · subst e; rw [hl]; exact List.mem_cons_of_mem _ hj
      · rw [← ho q e]; exact hj
    have hk : k ∈ s.line p := by rw [hl]; exact List.mem_cons_self
    refine ⟨fun q => ?_, fun q q' j h1 h2 => g.apart q q' j (sub q j h1) (sub q' j h2), fun q j h1 => by rw [hn]; exact g.old q j (sub q j h1), fun j hj => ?_,
      fun j hj q h1 => ?_⟩
    · by_cases e : q = p
      · subst e
        have := g.once q
        rw [hl] at this
        exact (List.nodup_cons.1 this).2
      · rw [ho q e]; exact g.once q
    · rw [hd] at hj
      rw [hn]
      rcases List.mem_cons.1 hj with rfl | hj
      · exact g.old p _ hk
      · exact g.done_old j hj
    · rw [hd] at hj
      rcases List.mem_cons.1 hj with rfl | hj
      · have hq := g.apart q p j (sub q j h1) hk
        subst hq
        have := g.once q
        rw [hl] at this
        exact (List.nodup_cons.1 this).1 h1
      · exact g.finished j hj q (sub q j h1)

theorem exec_told {s s' : Net} {w : Who} {i : Instr} {r r' : List Instr} (h : s.exec w i r = some (s', r')) :
    s'.current = s.current ∧ s'.done = s.done ∧ s'.threads = s.threads ∧ ((s'.queue = s.queue ∧ s'.next = s.next) ∨
      ∃ p j wait, i = .enq p j wait ∧ s'.queue = Function.update s.queue p (s.queue p ++ [(s.next, j.code)]) ∧ s'.next = s.next + 1 ∧
        r' = if wait then .await s.next :: r else r) := by
  cases i with
  | work => cases h; exact ⟨rfl, rfl, rfl, .inl ⟨rfl, rfl⟩⟩
  | acq l =>
    simp only [Net.exec] at h
    split at h
    · cases h; exact ⟨rfl, rfl, rfl, .inl ⟨rfl, rfl⟩⟩
    · cases h
  | rel l => cases h; exact ⟨rfl, rfl, rfl, .inl ⟨rfl, rfl⟩⟩
  | enq p j wait => cases h; exact ⟨rfl, rfl, rfl, .inr ⟨p, j, wait, rfl, rfl, rfl, rfl⟩⟩
  | await k =>
    simp only [Net.exec] at h
    split at h
    · cases h; exact ⟨rfl, rfl, rfl, .inl ⟨rfl, rfl⟩⟩
    · cases h

/-- The lines after an instruction, when the request being carried out (if any) is still the same one. -/
theorem told_of_exec {s t s' : Net} {w : Who} {i : Instr} {r r' : List Instr} (h : s.exec w i r = some (t, r'))
    (hc : ∀ p, (s'.current p).map Prod.fst = (t.current p).map Prod.fst) (hq : s'.queue = t.queue) (hd : s'.done = t.done) (hn : s'.next = t.next) : Told s s' := by
  obtain ⟨h1, h2, -, h3⟩ := exec_told h
  have line : ∀ p, s'.line p = ((s.current p).map Prod.fst).toList ++ (t.queue p).map Prod.fst := by
    intro p
    unfold Net.line
    rw [List.map_append, hq, ← h1, ← hc p]
    congr 1
    cases s'.current p <;> rfl
  have line' : ∀ p, s.line p = ((s.current p).map Prod.fst).toList ++ (s.queue p).map Prod.fst := by
    intro p
    unfold Net.line
    rw [List.map_append]
    congr 1
    cases s.current p <;> rfl
  rcases h3 with ⟨h3, h4⟩ | ⟨p, j, wait, -, h3, h4, -⟩
  · exact .same (fun p => by rw [line, line', h3]) (hd.trans h2) (hn.trans h4)
  · refine .asked p ?_ (fun q hqp => ?_) (hd.trans h2) (hn.trans h4)
    · rw [line, line', h3]; simp
    · rw [line, line', h3, Function.update_of_ne hqp]

theorem step_told {s s' : Net} {w : Who} (h : s.step w = some s') : Told s s' := by
  cases w with
  | thread t =>
    unfold Net.step at h
    simp only at h
    cases ht : s.threads t with
    | nil => rw [ht] at h; cases h
    | cons i r =>
      rw [ht] at h
      obtain ⟨⟨u, r'⟩, h1, h2⟩ := Option.map_eq_some_iff.1 h
      subst h2
      exact told_of_exec h1 (fun _ => rfl) rfl rfl rfl
  | manager p =>
    unfold Net.step at h
    simp only at h
    cases hc : s.current p with
    | none =>
      rw [hc] at h
      cases hq : s.queue p with
      | nil => rw [hq] at h; cases h
      | cons x q =>
        rw [hq] at h
        cases h
        refine .same (fun p' => ?_) rfl rfl
        unfold Net.line
        by_cases e : p' = p
        · subst e; simp [hc, hq]
        · simp [Function.update_of_ne e]
    | some x =>
      obtain ⟨k, ops⟩ := x
      rw [hc] at h
      cases ops with
      | nil =>
        cases h
        refine .answered p k ?_ (fun q e => ?_) rfl rfl
        · unfold Net.line; simp [hc]
        · unfold Net.line; simp [Function.update_of_ne e]
      | cons i r =>
        simp only at h
        obtain ⟨⟨u, r'⟩, h1, h2⟩ := Option.map_eq_some_iff.1 h
        subst h2
        refine told_of_exec h1 (fun p' => ?_) rfl rfl rfl
        have hcur := (exec_told h1).1
        show (Function.update u.current p (some (k, r')) p').map Prod.fst = _
        by_cases e : p' = p
        · subst e; rw [Function.update_self, hcur, hc]; rfl
        · rw [Function.update_of_ne e]

theorem tickets_init (progs : Nat → Stmt) : Tickets (Net.init progs) :=
  ⟨fun p => by simp [Net.line, Net.init], fun p p' k h => by simp [Net.line, Net.init] at h, fun p k h => by simp [Net.line, Net.init] at h,
    fun k h => by simp [Net.init] at h, fun k h => by simp [Net.init] at h⟩

theorem Tickets.run {s : Net} (g : Tickets s) (h : List Who) : Tickets (s.run h) := by
  induction h generalizing s with
  | nil => exact g
  | cons w h ih =>
    show Tickets (((s.step w).getD s).run h)
    cases hs : s.step w with
    | none => exact ih g
    | some s' => exact ih (g.told (step_told hs))

theorem told_done {s s' : Net} (h : Told s s') {k : Nat} (hk : k ∈ s.done) : k ∈ s'.done := by
  cases h with
  | same hl hd hn => rw [hd]; exact hk
  | asked p hl ho hd hn => rw [hd]; exact hk
  | answered p k' hl ho hd hn => rw [hd]; exact List.mem_cons_of_mem _ hk

/-- A step of somebody else leaves what a thread has to do; its own step from `await` needs the answer. -/
theorem step_await {s s' : Net} {w : Who} (h : s.step w = some s') {t k : Nat} {r : List Instr} (ht : s.threads t = .await k :: r) :
    s'.threads t = .await k :: r ∨ k ∈ s'.done := by
  have hd := fun hk => told_done (step_told h) (k := k) hk
  cases w with
  | thread u =>
    unfold Net.step at h
    simp only at h
    by_cases e : t = u
    · subst e
      rw [ht] at h
      simp only [Net.exec] at h
      split at h
      · rename_i hk
        exact .inr (hd hk)
      · cases h
    · cases hu : s.threads u with
      | nil => rw [hu] at h; cases h
      | cons i r' =>
        rw [hu] at h
        obtain ⟨⟨v, r''⟩, h1, h2⟩ := Option.map_eq_some_iff.1 h
        subst h2
        refine .inl ?_
        show Function.update v.threads u r'' t = _
        rw [Function.update_of_ne e, (exec_told h1).2.2.1]; exact ht
  | manager p =>
    unfold Net.step at h
    simp only at h
    refine .inl ?_
    split at h
    · cases h; exact ht
    · obtain ⟨⟨v, r''⟩, h1, h2⟩ := Option.map_eq_some_iff.1 h
      subst h2
      show v.threads t = _
      rw [(exec_told h1).2.2.1]; exact ht
    · split at h
      · cases h
      · cases h; exact ht

theorem await_run {s : Net} {t k : Nat} {r : List Instr} (ht : s.threads t = .await k :: r ∨ k ∈ s.done) (h : List Who) :
    (s.run h).threads t = .await k :: r ∨ k ∈ (s.run h).done := by
  induction h generalizing s with
  | nil => exact ht
  | cons w h ih =>
    show (((s.step w).getD s).run h).threads t = _ ∨ k ∈ (((s.step w).getD s).run h).done
    cases hs : s.step w with
    | none => exact ih ht
    | some s' =>
      refine ih ?_
      rcases ht with ht | hk
      · exact step_await hs ht
      · exact .inr (told_done (step_told hs) hk)

theorem locks_run_append (s : Net) (h h' : List Who) : s.run (h ++ h') = (s.run h).run h' := by
  induction h generalizing s with
  | nil => rfl
  | cons w h ih => exact ih _

/-- C146: a call of the manager comes back with the answer to its own request, whatever the threads are and the schedule is: the request is
put at the end of the queue, and as long as it is waiting or being carried out the caller stays where it is. -/
theorem C146_answered (progs : Nat → Stmt) (h : List Who) (t p : Nat) (j : Stmt) (r : List Instr)
    (ht : ((Net.init progs).run h).threads t = (Stmt.call p j).code ++ r) :
    ∃ k i, ((Net.init progs).run (h ++ [.thread t])).queue p = ((Net.init progs).run h).queue p ++ [(k, j.code)] ∧
      ((Net.init progs).run (h ++ [.thread t])).threads t = i :: r ∧
      ∀ h', Pending ((Net.init progs).run (h ++ .thread t :: h')) k → ((Net.init progs).run (h ++ .thread t :: h')).threads t = i :: r := by
  generalize hs : (Net.init progs).run h = s at ht
  have hstep : s.step (.thread t) = some { s with
      queue := Function.update s.queue p (s.queue p ++ [(s.next, j.code)]), next := s.next + 1,
      threads := Function.update s.threads t (.await s.next :: r) } := by
    unfold Net.step
    simp only
    rw [ht]
    rfl
  have h1 : (Net.init progs).run (h ++ [.thread t]) = { s with
      queue := Function.update s.queue p (s.queue p ++ [(s.next, j.code)]), next := s.next + 1,
      threads := Function.update s.threads t (.await s.next :: r) } := by
    rw [locks_run_append, hs]
    show (s.step (.thread t)).getD s = _
    rw [hstep]; rfl
  refine ⟨s.next, .await s.next, ?_, ?_, fun h' hp => ?_⟩
  · rw [h1]; simp
  · rw [h1]; simp
  · have e : h ++ .thread t :: h' = (h ++ [.thread t]) ++ h' := by simp
    have g := (tickets_init progs).run (h ++ .thread t :: h')
    rw [e, locks_run_append] at hp g ⊢
    rcases await_run (s := (Net.init progs).run (h ++ [.thread t])) (t := t) (k := s.next) (r := r) (.inl (by rw [h1]; simp)) h' with h2 | h2
    · exact h2
    · obtain ⟨q, hq⟩ := (pending_iff _ _).1 hp
      exact absurd hq (g.finished _ h2 q)

/-! ## The hypotheses can be met -/

/-- `C146_exclusive`: a purge whose matcher calls the cache, and a thread that calls `cache.size()`: the first one is within the lock of the manager
while its request is being carried out; so nobody else is. -/
example : Within (.manager 0) (((Net.init (fun _ => .seq purgeCall .work)).run (List.replicate 5 (.thread 0) ++ [.manager 0])).left_of (.thread 0)) ∧
    ∀ w, Within (.manager 0) (((Net.init (fun _ => .seq purgeCall .work)).run (List.replicate 5 (.thread 0) ++ [.manager 0])).left_of w) → .thread 0 = w := by
  have : Within (.manager 0) (((Net.init (fun _ => .seq purgeCall .work)).run (List.replicate 5 (.thread 0) ++ [.manager 0])).left_of (.thread 0)) := by
    show Within (.manager 0) [.await 0, .rel (.manager 0), .work]
    exact .inl rfl
  exact ⟨this, fun w hw => C146_exclusive _ _ _ _ w this hw⟩

/-- `C146_answered`: two threads of two processes ask; the second one waits on while its request is in the queue, even when the first one has its
answer. -/
example : ∃ k i, ((Net.init (fun t => .call t .work)).run [.thread 0, .manager 0, .manager 0, .manager 0, .thread 1]).queue 1 = [(k, [.work])] ∧
    ∀ h', Pending ((Net.init (fun t => .call t .work)).run ([.thread 0, .manager 0, .manager 0, .manager 0] ++ .thread 1 :: h')) k →
      ((Net.init (fun t => .call t .work)).run ([.thread 0, .manager 0, .manager 0, .manager 0] ++ .thread 1 :: h')).threads 1 = [i] := by
  obtain ⟨k, i, h1, -, h3⟩ := C146_answered (fun t => .call t .work) [.thread 0, .manager 0, .manager 0, .manager 0] 1 1 .work [] rfl
  exact ⟨k, i, h1, h3⟩

end Verif.DiskCache.Locks

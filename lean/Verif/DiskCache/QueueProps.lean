import Verif.DiskCache.Queue

/-!
# Requests to the manager are served once and in order
-/

namespace Verif.DiskCache.Queue

variable {σ : Type}

theorem submitted_append (h : List (QAct σ)) (a : List (QAct σ)) : submitted (h ++ a) = submitted h ++ submitted a := by
  induction h with
  | nil => rfl
  | cons x h ih => cases x <;> simp [submitted, ih]

/-- `k` requests have been executed. -/
structure Serving (s : σ) (rs : List (Req σ)) (m : Mgr σ) (k : Nat) : Prop where
  bound : k ≤ rs.length
  state : m.st = after s (rs.take k)
  waiting : m.current.toList ++ m.queue = ((List.range rs.length).zip rs).drop k
  next : m.next = rs.length
  alive : m.alive = true
  done : ∀ i, m.result i = if i < k then (rs[i]?).bind (fun r => (r (after s (rs.take i))).1.seen) else none

theorem Serving.submit {s : σ} {rs : List (Req σ)} {m : Mgr σ} {k : Nat} (h : Serving s rs m k) (r : Req σ) : Serving s (rs ++ [r]) (m.enqueue r) k := by
  have hk := h.bound
  refine ⟨?_, ?_, ?_, ?_, h.alive, ?_⟩
  · rw [List.length_append]; exact Nat.le_add_right_of_le hk
  · rw [List.take_append_of_le_length hk]; exact h.state
  · show m.current.toList ++ (m.queue ++ [(m.next, r)]) = _
    rw [← List.append_assoc, h.waiting, h.next, List.length_append, List.length_singleton, List.range_succ,
      List.zip_append (by rw [List.length_range]), List.drop_append_of_le_length]
    · rfl
    · simp; exact hk
  · show m.next + 1 = _
    rw [h.next, List.length_append]; rfl
  · intro i
    rw [show (m.enqueue r).result i = m.result i from rfl, h.done i]
    by_cases hi : i < k
    · rw [if_pos hi, if_pos hi, List.getElem?_append_left (by omega), List.take_append_of_le_length (by omega)]
    · rw [if_neg hi, if_neg hi]

theorem Serving.pop {s : σ} {rs : List (Req σ)} {m : Mgr σ} {k : Nat} (h : Serving s rs m k) : Serving s rs m.pop k := by
  unfold Mgr.pop
  by_cases hc : m.current = none
  · rw [if_pos (by rw [h.alive, hc]; rfl)]
    split
    · exact h
    · rename_i x q hq
      refine ⟨h.bound, h.state, ?_, h.next, h.alive, h.done⟩
      have := h.waiting
      rw [hc, hq] at this
      exact this
  · rw [if_neg]
    · exact h
    · intro hh
      rw [Bool.and_eq_true] at hh
      exact hc (Option.isNone_iff_eq_none.1 hh.2)

theorem after_snoc (s : σ) (rs : List (Req σ)) (r : Req σ) : after s (rs ++ [r]) = (r (after s rs)).2 := by
  unfold after; rw [List.foldl_append]; rfl

theorem Serving.execute {s : σ} {rs : List (Req σ)} {m : Mgr σ} {k : Nat} (h : Serving s rs m k) (hc : ∀ r ∈ rs, Civil r) :
    ∃ k', Serving s rs m.execute k' := by
  unfold Mgr.execute
  cases hcur : m.current with
  | none => exact ⟨k, h⟩
  | some x =>
    obtain ⟨i, r⟩ := x
    have hw := h.waiting
    rw [hcur] at hw
    have hlen : k < rs.length := by
      by_contra hn
      rw [List.drop_eq_nil_of_le (by simp; omega)] at hw
      cases hw
    have hkz : k < ((List.range rs.length).zip rs).length := by simp; exact hlen
    rw [List.drop_eq_getElem_cons hkz] at hw
    have hhead := (List.cons.inj hw).1
    have htail := (List.cons.inj hw).2
    rw [List.getElem_zip] at hhead
    have hi : i = k := by
      have := congrArg Prod.fst hhead
      simpa using this
    have hr : r = rs[k] := congrArg Prod.snd hhead
    subst hi
    have hst := h.state
    have htk : rs.take (i + 1) = rs.take i ++ [r] := by
      rw [List.take_succ_eq_append_getElem hlen, hr]
    have hget : rs[i]? = some r := by rw [List.getElem?_eq_getElem hlen, hr]
    have hfresh : m.ready.lookup i = none := by
      have := h.done i
      rw [if_neg (Nat.lt_irrefl i)] at this
      unfold Mgr.result at this
      simpa using this
    have key : ∀ o : Obj, (match o with | .exc n => Answer.raised n | .plain n => Answer.returned (.plain n)) = ((r m.st).1.seen).getD (.raised 0) →
        (r m.st).1.seen.isSome = true →
        Serving s rs { m with st := (r m.st).2, current := none, ready := (i, o) :: m.ready } (i + 1) := by
      intro o ho hsome
      refine ⟨hlen, ?_, htail, h.next, h.alive, ?_⟩
      · show (r m.st).2 = _
        rw [htk, after_snoc, ← hst]
      · intro j
        unfold Mgr.result
        show Option.map _ (List.lookup j ((i, o) :: m.ready)) = _
        by_cases hj : j = i
        · subst hj
          rw [if_pos (Nat.lt_succ_self j), List.lookup_cons_self, hget]
          show some _ = (r (after s (rs.take j))).1.seen
          rw [← hst]
          obtain ⟨a, ha⟩ := Option.isSome_iff_exists.1 hsome
          rw [ha] at ho ⊢
          exact congrArg some ho
        · have := h.done j
          unfold Mgr.result at this
          rw [List.lookup_cons, show (j == i) = false from beq_false_of_ne hj]
          show Option.map _ (List.lookup j m.ready) = _
          rw [this]
          by_cases hlt : j < i
          · rw [if_pos hlt, if_pos (by omega)]
          · rw [if_neg hlt, if_neg (by omega)]
    refine ⟨i + 1, ?_⟩
    show Serving s rs (m.finish i (r m.st)) (i + 1)
    unfold Mgr.finish
    rcases hc r (hr ▸ List.getElem_mem hlen) m.st with ⟨n, hn⟩ | ⟨n, hn⟩
    · have := key (.plain n) (by rw [hn]; rfl) (by rw [hn]; rfl)
      rw [hn]
      exact this
    · have := key (.exc n) (by rw [hn]; rfl) (by rw [hn]; rfl)
      rw [hn]
      exact this

theorem serving_init (s : σ) : Serving s [] (Mgr.init s) 0 :=
  ⟨Nat.le_refl _, rfl, rfl, rfl, rfl, fun i => by rw [if_neg (Nat.not_lt_zero i)]; rfl⟩

theorem serving_run (s : σ) (h : List (QAct σ)) (hc : ∀ r ∈ submitted h, Civil r) : ∃ k, Serving s (submitted h) ((Mgr.init s).run h) k := by
  induction h using List.reverseRecOn with
  | nil => exact ⟨0, serving_init s⟩
  | append_singleton h a ih =>
    rw [submitted_append] at hc ⊢
    obtain ⟨k, ih⟩ := ih (fun r hr => hc r (List.mem_append_left _ hr))
    have hrun : (Mgr.init s).run (h ++ [a]) = ((Mgr.init s).run h).act a := by
      unfold Mgr.run; rw [List.foldl_append]; rfl
    rw [hrun]
    cases a with
    | submit r => exact ⟨k, ih.submit r⟩
    | pop => 
      rw [show submitted [QAct.pop] = ([] : List (Req σ)) from rfl, List.append_nil]
      exact ⟨k, ih.pop⟩
    | execute =>
      rw [show submitted [QAct.execute] = ([] : List (Req σ)) from rfl, List.append_nil] at hc ⊢
      exact ih.execute hc

/-- C66 (`_partial`: requests that neither end the thread nor return exception objects): after any history of submissions and manager
steps, exactly the first `k` requests have been executed, in the order of submission and each on the state the previous one left; their
callers see what their own request returned or raised, and the callers of the others are still waiting. -/
theorem C66_in_order_partial (s : σ) (h : List (QAct σ)) (hc : ∀ r ∈ submitted h, Civil r) :
    ∃ k ≤ (submitted h).length, ((Mgr.init s).run h).st = after s ((submitted h).take k) ∧
      ∀ i, ((Mgr.init s).run h).result i =
        if i < k then ((submitted h)[i]?).bind (fun r => (r (after s ((submitted h).take i))).1.seen) else none := by
  obtain ⟨k, hk⟩ := serving_run s h hc
  exact ⟨k, hk.bound, hk.state, hk.done⟩

/-- The manager thread alone. -/
def managerSteps : Nat → List (QAct σ)
  | 0 => []
  | n + 1 => .pop :: .execute :: managerSteps n

theorem submitted_manager (n : Nat) : submitted (managerSteps (σ := σ) n) = [] := by
  induction n with
  | zero => rfl
  | succ n ih => exact ih

theorem Serving.round {s : σ} {rs : List (Req σ)} {m : Mgr σ} {k : Nat} (h : Serving s rs m k) (hc : ∀ r ∈ rs, Civil r) (hk : k < rs.length) :
    ∃ k', k < k' ∧ Serving s rs (m.pop.execute) k' := by
  have hp := h.pop
  have hcur : m.pop.current.isSome = true := by
    have hw := h.waiting
    unfold Mgr.pop
    cases hcur : m.current with
    | some x => rw [if_neg (by simp), hcur]; rfl
    | none =>
      rw [if_pos (by rw [h.alive]; rfl)]
      rw [hcur] at hw
      cases hq : m.queue with
      | nil =>
        rw [hq] at hw
        have : ((List.range rs.length).zip rs).drop k ≠ [] := by
          rw [Ne, List.drop_eq_nil_iff]
          simp; exact hk
        exact absurd hw.symm this
      | cons x q => rfl
  obtain ⟨k', hk'⟩ := hp.execute hc
  refine ⟨k', ?_, hk'⟩
  -- the length of what waits went down
  have h1 := congrArg List.length hp.waiting
  have h2 := congrArg List.length hk'.waiting
  have h3 : m.pop.execute.current = none ∧ m.pop.execute.queue = m.pop.queue := by
    unfold Mgr.execute
    cases hx : m.pop.current with
    | none => rw [hx] at hcur; cases hcur
    | some x =>
      obtain ⟨i, r⟩ := x
      show (m.pop.finish i (r m.pop.st)).current = none ∧ (m.pop.finish i (r m.pop.st)).queue = m.pop.queue
      unfold Mgr.finish
      split <;> exact ⟨rfl, rfl⟩
  rw [h3.1, h3.2] at h2
  obtain ⟨x, hx⟩ := Option.isSome_iff_exists.1 hcur
  rw [hx] at h1
  simp at h1 h2
  omega

theorem serving_rounds {s : σ} {rs : List (Req σ)} (hc : ∀ r ∈ rs, Civil r) : ∀ (n : Nat) (m : Mgr σ) (k : Nat), Serving s rs m k → rs.length ≤ k + n →
    Serving s rs (m.run (managerSteps n)) rs.length := by
  intro n
  induction n with
  | zero =>
    intro m k h hn
    have : k = rs.length := Nat.le_antisymm h.bound hn
    rw [← this]
    exact h
  | succ n ih =>
    intro m k h hn
    show Serving s rs ((m.pop.execute).run (managerSteps n)) rs.length
    by_cases hk : k < rs.length
    · obtain ⟨k', h1, h2⟩ := h.round hc hk
      exact ih _ k' h2 (by omega)
    · obtain ⟨k', h2⟩ := h.pop.execute hc
      refine ih _ k' h2 ?_
      have e : k = rs.length := by have := h.bound; omega
      have h3 := h.pop.waiting
      rw [e, List.drop_eq_nil_of_le (by simp)] at h3
      have h4 : m.pop.current = none := by
        cases hx : m.pop.current with
        | none => rfl
        | some x => rw [hx] at h3; cases h3
      have h5 : m.pop.execute = m.pop := by unfold Mgr.execute; rw [h4]
      have h6 := h2.waiting
      rw [h5, h3] at h6
      have := congrArg List.length h6
      simp at this
      omega

/-- C66: nobody waits for ever — once the manager thread has had as many rounds as there are requests, every caller has the outcome of
its own request. -/
theorem C66_served_partial (s : σ) (h : List (QAct σ)) (hc : ∀ r ∈ submitted h, Civil r) (i : Nat) (r : Req σ) (hi : (submitted h)[i]? = some r) :
    ((Mgr.init s).run (h ++ managerSteps (submitted h).length)).result i = (r (after s ((submitted h).take i))).1.seen := by
  obtain ⟨k, hk⟩ := serving_run s h hc
  have := (serving_rounds hc (submitted h).length _ k hk (Nat.le_add_left _ _)).done i
  have hlt : i < (submitted h).length := (List.getElem?_eq_some_iff.1 hi).1
  rw [if_pos hlt, hi] at this
  unfold Mgr.run at this ⊢
  rw [List.foldl_append]
  exact this

/-- Adds 1 to the state and returns the old one; refuses at 2. -/
def bump : Req Nat := fun s => if s = 2 then (.raise 7, s) else (.ret (.plain s), s + 1)

theorem bump_civil : (∀ r ∈ submitted [.submit bump, .submit bump, .pop, .execute, .submit bump, .submit bump], Civil r) ∧
    ((Mgr.init 1).run ([.submit bump, .submit bump, .pop, .execute, .submit bump, .submit bump] ++ managerSteps 4)).result 0 = some (.returned (.plain 1)) ∧
    ((Mgr.init 1).run ([.submit bump, .submit bump, .pop, .execute, .submit bump, .submit bump] ++ managerSteps 4)).result 1 = some (.raised 7) := by
  refine ⟨?_, by decide +kernel, by decide +kernel⟩
  have : Civil bump := by
    intro s
    unfold bump
    by_cases h : s = 2
    · rw [if_pos h]; exact .inr ⟨7, rfl⟩
    · rw [if_neg h]; exact .inl ⟨s, rfl⟩
  intro r hr
  simp [submitted] at hr
  rw [hr]
  exact this

/-- `C66_in_order_partial`, `C66_served_partial` -/
example : (∃ k ≤ 4, ((Mgr.init 1).run [.submit bump, .submit bump, .pop, .execute, .submit bump, .submit bump]).st = after 1 ([bump, bump, bump, bump].take k)) ∧
    ((Mgr.init 1).run ([.submit bump, .submit bump, .pop, .execute, .submit bump, .submit bump] ++ managerSteps 4)).result 3 =
      (bump (after 1 [bump, bump, bump])).1.seen := by
  obtain ⟨k, h1, h2, _⟩ := C66_in_order_partial 1 [.submit bump, .submit bump, .pop, .execute, .submit bump, .submit bump] bump_civil.1
  exact ⟨⟨k, h1, h2⟩, C66_served_partial 1 [.submit bump, .submit bump, .pop, .execute, .submit bump, .submit bump] bump_civil.1 3 bump rfl⟩

/-- A dead manager stays dead and serves nobody. -/
theorem dead_run (m : Mgr σ) (hd : m.alive = false) (hcur : m.current = none) (h : List (QAct σ)) :
    (m.run h).alive = false ∧ (m.run h).current = none ∧ (m.run h).ready = m.ready := by
  induction h generalizing m with
  | nil => exact ⟨hd, hcur, rfl⟩
  | cons a h ih =>
    show (Mgr.run (m.act a) h).alive = false ∧ (Mgr.run (m.act a) h).current = none ∧ (Mgr.run (m.act a) h).ready = m.ready
    cases a with
    | submit r => exact ih (m.enqueue r) hd hcur
    | pop =>
      have : m.act .pop = m := by
        show m.pop = m
        unfold Mgr.pop
        rw [if_neg (by rw [hd]; simp)]
      rw [this]; exact ih m hd hcur
    | execute =>
      have : m.act .execute = m := by
        show m.execute = m
        unfold Mgr.execute
        rw [hcur]
      rw [this]; exact ih m hd hcur

/-- C66 refuted: a request that ends the thread — `cache.purge(matcher=…)` with a matcher that calls `sys.exit()` — is never answered,
and neither is any later request, whatever happens. -/
theorem C66_refuted : ∃ r : Req Nat, ∀ h : List (QAct Nat), ∀ i, ((Mgr.init 0).run ([.submit r, .pop, .execute] ++ h)).result i = none := by
  refine ⟨fun s => (.exit, s), fun h i => ?_⟩
  have := dead_run ((Mgr.init 0).run [.submit (fun s => (.exit, s)), .pop, .execute]) rfl rfl h
  unfold Mgr.result
  rw [show (Mgr.init 0).run ([.submit (fun s => (.exit, s)), .pop, .execute] ++ h) = ((Mgr.init 0).run [.submit (fun s => (.exit, s)), .pop, .execute]).run h by
    unfold Mgr.run; rw [List.foldl_append], this.2.2]
  rfl

/-- Why exception objects are excluded: one returned as a value would be raised (no request of the cache returns one). -/
theorem exception_object_raised : ∃ r : Req Nat, (r 0).1.seen = some (.returned (.exc 1)) ∧
    ((Mgr.init 0).run [.submit r, .pop, .execute]).result 0 = some (.raised 1) :=
  ⟨fun s => (.ret (.exc 1), s), rfl, rfl⟩

end Verif.DiskCache.Queue

import Verif.DiskCache.QueueProps

/-!
# C66, exactly: requests of any kind

`C66_in_order_partial` excludes requests that end the thread and requests that return exception objects. Here: all requests.
-/

namespace Verif.DiskCache.Queue

variable {σ : Type}

/-! ## Specification -/

/-- What the caller gets: exception objects are raised, also those that were returned. -/
def Reply.got : Reply → Option Answer
  | .ret (.plain n) => some (.returned (.plain n))
  | .ret (.exc n) => some (.raised n)
  | .raise n => some (.raised n)
  | .exit => none

/-- How many requests are taken from the queue before the thread ends: all, or those up to the first that ends it. -/
def lifetime (s : σ) : List (Req σ) → Nat
  | [] => 0
  | r :: rs => if (r s).1 = .exit then 1 else lifetime (r s).2 rs + 1

/-! ## Proof -/

/-- The first `k` requests have been executed, none of the first `k` but perhaps the last ended the thread. -/
structure Served (s : σ) (rs : List (Req σ)) (m : Mgr σ) (k : Nat) : Prop where
  bound : k ≤ lifetime s rs
  state : m.st = after s (rs.take k)
  next : m.next = rs.length
  done : ∀ i, m.result i = if i < k then (rs[i]?).bind (fun r => (r (after s (rs.take i))).1.got) else none
  waiting : m.current.toList ++ m.queue = ((List.range rs.length).zip rs).drop k
  alive : m.alive = true ∧ (∀ i < k, ∀ r, rs[i]? = some r → (r (after s (rs.take i))).1 ≠ .exit) ∨
    m.alive = false ∧ m.current = none ∧ ∃ j, k = j + 1 ∧ ∃ r, rs[j]? = some r ∧ (r (after s (rs.take j))).1 = .exit

theorem lifetime_le (s : σ) (rs : List (Req σ)) : lifetime s rs ≤ rs.length := by
  induction rs generalizing s with
  | nil => exact Nat.le_refl _
  | cons r rs ih =>
    unfold lifetime
    split
    · simp
    · have := ih (r s).2
      simp; exact this

theorem lifetime_append (s : σ) (rs : List (Req σ)) (r : Req σ) : lifetime s rs ≤ lifetime s (rs ++ [r]) := by
  induction rs generalizing s with
  | nil => exact Nat.zero_le _
  | cons a rs ih =>
    rw [List.cons_append]
    unfold lifetime
    split
    · exact Nat.le_refl _
    · exact Nat.succ_le_succ (ih _)

/-- If none of the first `k` requests ends the thread, request `k` is taken too. -/
theorem lifetime_gt {s : σ} {rs : List (Req σ)} {k : Nat} (hk : k < rs.length)
    (h : ∀ i < k, ∀ r, rs[i]? = some r → (r (after s (rs.take i))).1 ≠ .exit) : k < lifetime s rs := by
  induction rs generalizing s k with
  | nil => simp at hk
  | cons a rs ih =>
    unfold lifetime
    cases k with
    | zero => split <;> omega
    | succ k =>
      have h0 : (a s).1 ≠ .exit := h 0 (by omega) a rfl
      rw [if_neg h0]
      exact Nat.succ_lt_succ (ih (by simpa using hk) (fun i hi r hr => h (i + 1) (by omega) r hr))

/-- The request that ends the thread is the last one taken. -/
theorem lifetime_eq {s : σ} {rs : List (Req σ)} {j : Nat} {r : Req σ} (hr : rs[j]? = some r) (he : (r (after s (rs.take j))).1 = .exit) :
    lifetime s rs ≤ j + 1 := by
  induction rs generalizing s j with
  | nil => simp at hr
  | cons a rs ih =>
    unfold lifetime
    split
    · omega
    · rename_i h0
      cases j with
      | zero =>
        cases hr
        exact absurd he h0
      | succ j => exact Nat.succ_le_succ (ih (s := (a s).2) hr he)

theorem served_init (s : σ) : Served s [] (Mgr.init s) 0 :=
  ⟨Nat.le_refl _, rfl, rfl, fun i => by rw [if_neg (Nat.not_lt_zero i)]; rfl, rfl, .inl ⟨rfl, fun i hi => absurd hi (Nat.not_lt_zero i)⟩⟩

theorem Served.submit {s : σ} {rs : List (Req σ)} {m : Mgr σ} {k : Nat} (h : Served s rs m k) (r : Req σ) : Served s (rs ++ [r]) (m.enqueue r) k := by
  have hk : k ≤ rs.length := Nat.le_trans h.bound (lifetime_le s rs)
  have hget : ∀ i < k, (rs ++ [r])[i]? = rs[i]? := fun i hi => List.getElem?_append_left (by omega)
  have htake : ∀ i ≤ k, (rs ++ [r]).take i = rs.take i := fun i hi => List.take_append_of_le_length (by omega)
  refine ⟨Nat.le_trans h.bound (lifetime_append s rs r), ?_, ?_, ?_, ?_, ?_⟩
  · rw [htake k (Nat.le_refl _)]; exact h.state
  · show m.next + 1 = _
    rw [h.next, List.length_append]; rfl
  · intro i
    rw [show (m.enqueue r).result i = m.result i from rfl, h.done i]
    by_cases hi : i < k
    · rw [if_pos hi, if_pos hi, hget i hi, htake i (by omega)]
    · rw [if_neg hi, if_neg hi]
  · show m.current.toList ++ (m.queue ++ [(m.next, r)]) = _
    rw [← List.append_assoc, h.waiting, h.next, List.length_append, List.length_singleton, List.range_succ,
      List.zip_append (by rw [List.length_range]), List.drop_append_of_le_length]
    · rfl
    · simp; exact hk
  · rcases h.alive with ⟨h1, h2⟩ | ⟨h1, h2, j, h3, q, h4, h5⟩
    · left
      refine ⟨h1, fun i hi q hq => ?_⟩
      rw [hget i hi] at hq
      rw [htake i (by omega)]
      exact h2 i hi q hq
    · right
      exact ⟨h1, h2, j, h3, q, by rw [hget j (by omega)]; exact h4, by rw [htake j (by omega)]; exact h5⟩

theorem Served.pop {s : σ} {rs : List (Req σ)} {m : Mgr σ} {k : Nat} (h : Served s rs m k) : Served s rs m.pop k := by
  unfold Mgr.pop
  split
  · rename_i hp
    rw [Bool.and_eq_true] at hp
    have hc : m.current = none := Option.isNone_iff_eq_none.1 hp.2
    split
    · exact h
    · rename_i x q hq
      have hw := h.waiting
      rw [hc, hq] at hw
      refine ⟨h.bound, h.state, h.next, h.done, hw, ?_⟩
      rcases h.alive with h1 | ⟨h1, _⟩
      · exact .inl h1
      · rw [h1] at hp; exact absurd hp.1 (by simp)
  · exact h

theorem Served.execute {s : σ} {rs : List (Req σ)} {m : Mgr σ} {k : Nat} (h : Served s rs m k) :
    ∃ k', Served s rs m.execute k' ∧ (m.current.isSome = true → k' = k + 1) ∧ k ≤ k' := by
  unfold Mgr.execute
  cases hcur : m.current with
  | none => exact ⟨k, h, fun h => (by cases h), Nat.le_refl _⟩
  | some x =>
    obtain ⟨i, r⟩ := x
    have hw := h.waiting
    rw [hcur] at hw
    have hlen : k < rs.length := by
      by_contra hn
      rw [List.drop_eq_nil_of_le (by simp; omega)] at hw
      cases hw
    have hkz : k < ((List.range rs.length).zip rs).length := by simp; exact hlen
    rw [List.drop_eq_getElem_cons hkz] at hw
    have hhead := (List.cons.inj hw).1
    have htail := (List.cons.inj hw).2
    rw [List.getElem_zip] at hhead
    have hi : i = k := by
      have := congrArg Prod.fst hhead
      simpa using this
    have hr : r = rs[k] := congrArg Prod.snd hhead
    subst hi
    have hst := h.state
    have htk : rs.take (i + 1) = rs.take i ++ [r] := by
      rw [List.take_succ_eq_append_getElem hlen, hr]
    have hget : rs[i]? = some r := by rw [List.getElem?_eq_getElem hlen, hr]
    have hlive : m.alive = true ∧ ∀ j < i, ∀ q, rs[j]? = some q → (q (after s (rs.take j))).1 ≠ .exit := by
      rcases h.alive with h1 | ⟨_, h2, _⟩
      · exact h1
      · rw [hcur] at h2; cases h2
    have hnot : m.ready.lookup i = none := by
      have := h.done i
      rw [if_neg (Nat.lt_irrefl i)] at this
      unfold Mgr.result at this
      simpa using this
    have hold : ∀ j, j ≠ i → (if j < i + 1 then (rs[j]?).bind (fun r => (r (after s (rs.take j))).1.got) else none) = m.result j := by
      intro j hj
      rw [h.done j]
      by_cases hlt : j < i
      · rw [if_pos hlt, if_pos (by omega)]
      · rw [if_neg hlt, if_neg (by omega)]
    have hnew : (if i < i + 1 then (rs[i]?).bind (fun r => (r (after s (rs.take i))).1.got) else none) = (r m.st).1.got := by
      rw [if_pos (Nat.lt_succ_self i), hget, hst]
      rfl
    have hb : i + 1 ≤ lifetime s rs := lifetime_gt hlen hlive.2
    have hstate : (r m.st).2 = after s (rs.take (i + 1)) := by rw [htk, after_snoc, ← hst]
    have key : ∀ o : Obj, (r m.st).1 ≠ .exit → some (match o with | .exc n => Answer.raised n | .plain n => Answer.returned (.plain n)) = (r m.st).1.got →
        Served s rs { m with st := (r m.st).2, current := none, ready := (i, o) :: m.ready } (i + 1) := by
      intro o hne ho
      refine ⟨hb, hstate, h.next, ?_, htail, .inl ⟨hlive.1, ?_⟩⟩
      · intro j
        by_cases hj : j = i
        · subst hj
          rw [hnew, ← ho]
          unfold Mgr.result
          show Option.map _ (List.lookup j ((j, o) :: m.ready)) = _
          rw [List.lookup_cons_self]
          rfl
        · rw [hold j hj]
          unfold Mgr.result
          show Option.map _ (List.lookup j ((i, o) :: m.ready)) = _
          rw [List.lookup_cons, show (j == i) = false from beq_false_of_ne hj]
      · intro j hj q hq
        by_cases hji : j = i
        · subst hji
          rw [hget] at hq; cases hq
          rw [← hst]; exact hne
        · exact hlive.2 j (by omega) q hq
    refine ⟨i + 1, ?_, fun _ => rfl, Nat.le_succ i⟩
    show Served s rs (m.finish i (r m.st)) (i + 1)
    unfold Mgr.finish
    cases hx : (r m.st).1 with
    | ret o =>
      refine key o (by rw [hx]; exact fun h => (by cases h)) ?_
      rw [hx]
      cases o <;> rfl
    | raise n => exact key (.exc n) (by rw [hx]; exact fun h => (by cases h)) (by rw [hx]; rfl)
    | exit =>
      refine ⟨hb, hstate, h.next, ?_, htail, .inr ⟨rfl, rfl, i, rfl, r, hget, by rw [← hst]; exact hx⟩⟩
      intro j
      by_cases hj : j = i
      · subst hj
        rw [hnew, hx]
        unfold Mgr.result
        show Option.map _ (List.lookup j m.ready) = _
        rw [hnot]
        rfl
      · rw [hold j hj]
        rfl

theorem served_run (s : σ) (h : List (QAct σ)) : ∃ k, Served s (submitted h) ((Mgr.init s).run h) k := by
  induction h using List.reverseRecOn with
  | nil => exact ⟨0, served_init s⟩
  | append_singleton h a ih =>
    rw [submitted_append]
    obtain ⟨k, ih⟩ := ih
    have hrun : (Mgr.init s).run (h ++ [a]) = ((Mgr.init s).run h).act a := by
      unfold Mgr.run; rw [List.foldl_append]; rfl
    rw [hrun]
    cases a with
    | submit r => exact ⟨k, ih.submit r⟩
    | pop =>
      rw [show submitted [QAct.pop] = ([] : List (Req σ)) from rfl, List.append_nil]
      exact ⟨k, ih.pop⟩
    | execute =>
      rw [show submitted [QAct.execute] = ([] : List (Req σ)) from rfl, List.append_nil]
      obtain ⟨k', hk', _⟩ := ih.execute
      exact ⟨k', hk'⟩

theorem Served.round {s : σ} {rs : List (Req σ)} {m : Mgr σ} {k : Nat} (h : Served s rs m k) :
    ∃ k', Served s rs (m.pop.execute) k' ∧ (k' = k + 1 ∨ k' = lifetime s rs) := by
  have hp := h.pop
  by_cases hk : k = lifetime s rs
  · obtain ⟨k', hk', _, hle⟩ := hp.execute
    exact ⟨k', hk', .inr (by have := hk'.bound; omega)⟩
  · have hlt : k < lifetime s rs := Nat.lt_of_le_of_ne h.bound hk
    have hlen : k < rs.length := Nat.lt_of_lt_of_le hlt (lifetime_le s rs)
    have hal : m.alive = true := by
      rcases h.alive with ⟨h1, _⟩ | ⟨_, _, j, rfl, r, hr, he⟩
      · exact h1
      · have := lifetime_eq hr he
        omega
    have hcur : m.pop.current.isSome = true := by
      have hw := h.waiting
      unfold Mgr.pop
      cases hcur : m.current with
      | some x => rw [if_neg (by simp), hcur]; rfl
      | none =>
        rw [if_pos (by rw [hal]; rfl)]
        rw [hcur] at hw
        cases hq : m.queue with
        | nil =>
          rw [hq] at hw
          have : ((List.range rs.length).zip rs).drop k ≠ [] := by
            rw [Ne, List.drop_eq_nil_iff]
            simp; exact hlen
          exact absurd hw.symm this
        | cons x q => rfl
    obtain ⟨k', hk', h1, _⟩ := hp.execute
    exact ⟨k', hk', .inl (h1 hcur)⟩

theorem served_rounds {s : σ} {rs : List (Req σ)} : ∀ (n : Nat) (m : Mgr σ) (k : Nat), Served s rs m k → lifetime s rs ≤ k + n →
    Served s rs (m.run (managerSteps n)) (lifetime s rs) := by
  intro n
  induction n with
  | zero =>
    intro m k h hn
    have : k = lifetime s rs := Nat.le_antisymm h.bound hn
    rw [← this]
    exact h
  | succ n ih =>
    intro m k h hn
    show Served s rs ((m.pop.execute).run (managerSteps n)) (lifetime s rs)
    obtain ⟨k', h1, h2⟩ := h.round
    refine ih _ k' h1 ?_
    omega

/-- C66, exactly: after any history and as many rounds of the manager thread as there are requests, the requests up to the first that ends the thread
have been executed, in the order of submission; the caller of each of them that did not end the thread has the outcome of its own request
(exception objects that were returned are raised), the caller of the one that did and all later ones wait, … -/
theorem C66_exact (s : σ) (h : List (QAct σ)) (i : Nat) :
    ((Mgr.init s).run (h ++ managerSteps (submitted h).length)).st = after s ((submitted h).take (lifetime s (submitted h))) ∧
    ((Mgr.init s).run (h ++ managerSteps (submitted h).length)).result i =
      if i < lifetime s (submitted h) then ((submitted h)[i]?).bind (fun r => (r (after s ((submitted h).take i))).1.got) else none := by
  obtain ⟨k, hk⟩ := served_run s h
  have := served_rounds (submitted h).length _ k hk (Nat.le_trans (lifetime_le _ _) (Nat.le_add_left _ _))
  rw [show (Mgr.init s).run (h ++ managerSteps (submitted h).length) = ((Mgr.init s).run h).run (managerSteps (submitted h).length) by
    unfold Mgr.run; rw [List.foldl_append]]
  exact ⟨this.state, this.done i⟩

/-- … and that for ever: in every history the results are among these, and requests after the one that ended the thread are never answered. -/
theorem C66_never (s : σ) (h h' : List (QAct σ)) (j i : Nat) (r : Req σ) (hr : (submitted h)[j]? = some r)
    (he : (r (after s ((submitted h).take j))).1 = .exit) (hi : j ≤ i) : ((Mgr.init s).run (h ++ h')).result i = none := by
  obtain ⟨k, hk⟩ := served_run s (h ++ h')
  rw [hk.done i]
  split
  · rename_i hik
    have hj : j < (submitted h).length := (List.getElem?_eq_some_iff.1 hr).1
    have hget : (submitted (h ++ h'))[j]? = some r := by
      rw [submitted_append, List.getElem?_append_left hj]; exact hr
    have htake : (submitted (h ++ h')).take j = (submitted h).take j := by
      rw [submitted_append, List.take_append_of_le_length (by omega)]
    have := lifetime_eq hget (by rw [htake]; exact he)
    have := hk.bound
    have : i = j := by omega
    subst this
    rw [hget, htake]
    show (r _).1.got = none
    rw [he]
    rfl
  · rfl

/-- Two requests, one whose matcher calls `sys.exit()`, and one more. -/
def last : List (QAct Nat) := [.submit bump, .submit bump, .submit (fun s => (.exit, s + 10)), .submit bump]

example : (((Mgr.init 1).run (last ++ managerSteps 4)).st = 12) ∧ ((Mgr.init 1).run (last ++ managerSteps 4)).result 1 = some (.raised 7) ∧
    ∀ h', ((Mgr.init 1).run (last ++ h')).result 3 = none :=
  ⟨(C66_exact 1 last 0).1, (C66_exact 1 last 1).2, fun h' => C66_never 1 last h' 2 3 _ rfl rfl (by decide)⟩

end Verif.DiskCache.Queue

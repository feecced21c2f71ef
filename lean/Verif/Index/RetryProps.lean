import Verif.Index.Props2

/-!
# C81: a lookup that failed on the network, repeated

Every state of the session in which a lookup fails with a network error, and exactly when repeating it once the network is back
gives what it would have given with the network up from the start.
-/

namespace Verif.Index
open Verif.GridSpec

variable {E : Env}

/-- Both grids of the request are gridspecs. -/
def ValidReq (E : Env) (r : Req) : Prop := ∃ gi go, fromDict E.P r.input = .ok gi ∧ fromDict E.P r.output = .ok go

/-- What the published index answers. -/
def remoteAnswer (r : Req) (s : Db E) : Except SErr (Option Entry) :=
  match load E.P s.w.remote with
  | .error e => .error (.spec e)
  | .ok ix =>
    match find E.P E.order ix r.input r.output (methodAlias r.method) with
    | .error e => .error (.spec e)
    | .ok v => .ok v

/-- The cached copy is known by its checksum, the published checksum can be fetched, and they differ. -/
def StaleKnown (s : Db E) : Prop :=
  s.w.managed = true ∧ s.w.shaUp = true ∧ ∃ f sha, s.w.cached = some (f, some sha) ∧ sha ≠ s.w.remoteSha

/-- The network is back. -/
def up (s : Db E) : Db E := step (.network true true) s

/-- The second part of `find_entry`, db.py:494-498. -/
def second (r : Req) (s : Db E) : Except SErr (Option Entry) × Db E :=
  match reload .compare s with
  | (some e, s) => (.error e, s)
  | (none, s) =>
    match loadIndex s with
    | (some e, s) => (.error e, s)
    | (none, s) => (lookIn r s, s)

theorem valid_nil (r : Req) (h : ValidReq E r) : find E.P E.order [] r.input r.output (methodAlias r.method) = .ok none := by
  obtain ⟨gi, go, h1, h2⟩ := h
  exact (find_ok ..).2 ⟨gi, go, h1, h2, rfl⟩

theorem second_there (r : Req) (s s' : Db E) (p : IndexPath) (f : IndexFile) (h : getIndex .compare s = (.ok p, s'))
    (hr : s'.w.read p = some f) : (second r s).1 =
      match load E.P f with
      | .error e => .error (.spec e)
      | .ok ix =>
        match find E.P E.order ix r.input r.output (methodAlias r.method) with
        | .error e => .error (.spec e)
        | .ok v => .ok v := by
  unfold second reload
  rw [h]
  simp only
  rw [loadIndex_there { s' with path := some p } p f rfl hr]
  cases load E.P f with
  | error e => rfl
  | ok ix =>
    simp only [lookIn, Option.getD_some]
    cases find E.P E.order ix r.input r.output (methodAlias r.method) <;> rfl

/-- With the network up and the copy in the cache out of the way, the second part answers for the published index. -/
theorem second_fetch (r : Req) (s : Db E) (hu : s.w.indexUp = true)
    (h : s.w.managed = true → s.w.cached = none ∨ (∃ f, s.w.cached = some (f, none)) ∨
      (s.w.shaUp = true ∧ ∃ f sha, s.w.cached = some (f, some sha) ∧ sha ≠ s.w.remoteSha)) :
    (second r s).1 = remoteAnswer r s := by
  by_cases hm : s.w.managed = true
  · rcases h hm with hc | ⟨f, hc⟩ | ⟨hs, f, sha, hc, hne⟩
    · have hg : ∃ s', getIndex .compare s = (.ok .cache, s') ∧ s'.w.read .cache = some s.w.remote := by
        unfold getIndex
        rw [if_pos hm, hc]
        simp only [createCached, hc, fetchIndex, hu, if_true]
        exact ⟨_, rfl, rfl⟩
      obtain ⟨s', h1, h2⟩ := hg
      exact second_there r s s' _ _ h1 h2
    · have hg : ∃ s', getIndex .compare s = (.ok .cache, s') ∧ s'.w.read .cache = some s.w.remote := by
        unfold getIndex
        rw [if_pos hm, hc]
        simp only [forceOf, createCached, fetchIndex, hu, if_true]
        exact ⟨_, rfl, rfl⟩
      obtain ⟨s', h1, h2⟩ := hg
      exact second_there r s s' _ _ h1 h2
    · have hg : ∃ s', getIndex .compare s = (.ok .cache, s') ∧ s'.w.read .cache = some s.w.remote := by
        unfold getIndex
        rw [if_pos hm, hc]
        simp only [forceOf, remoteSha, hs, if_true, ne_eq, hne, not_false_eq_true, decide_true, createCached, fetchIndex, hu]
        exact ⟨_, rfl, rfl⟩
      obtain ⟨s', h1, h2⟩ := hg
      exact second_there r s s' _ _ h1 h2
  · have hg : ∃ p s', getIndex .compare s = (.ok p, s') ∧ s'.w.read p = some s.w.remote := by
      unfold getIndex
      rw [if_neg hm]
      simp only [fetchIndex, hu, if_true]
      exact ⟨_, _, rfl, by simp [World.read]⟩
    obtain ⟨p, s', h1, h2⟩ := hg
    exact second_there r s s' _ _ h1 h2

/-- With the network up, the second part answers for the cached copy if it has the published checksum, else for the published
index. -/
theorem second_compare (r : Req) (s : Db E) (hm : s.w.managed = true) (hs : s.w.shaUp = true) (hu : s.w.indexUp = true)
    (f : IndexFile) (sha : E.Sha) (hc : s.w.cached = some (f, some sha)) :
    (second r s).1 = remoteAnswer r { s with w := { s.w with remote := if sha = s.w.remoteSha then f else s.w.remote } } := by
  by_cases heq : sha = s.w.remoteSha
  · have hg : ∃ s', getIndex .compare s = (.ok .cache, s') ∧ s'.w.read .cache = some f := by
      unfold getIndex
      rw [if_pos hm, hc]
      simp only [forceOf, remoteSha, hs, if_true, ne_eq, heq, not_true_eq_false, decide_false, createCached, hc]
      exact ⟨_, rfl, by simp [World.read, hc]⟩
    obtain ⟨s', h1, h2⟩ := hg
    rw [second_there r s s' _ _ h1 h2, if_pos heq]
    rfl
  · rw [second_fetch r s hu (fun _ => Or.inr (Or.inr ⟨hs, f, sha, hc, heq⟩)), if_neg heq]

/-- How the second part fails on the network. -/
theorem second_network (r : Req) (s : Db E) (h : (second r s).1 = .error .network) :
    (StaleKnown s ∧ s.w.indexUp = false ∧
      (second r s).2 = { s with w := { s.w with log := s.w.log ++ [Access.sha] ++ [Access.index], cached := none }, checked := true }) ∨
    (¬ StaleKnown s ∧ ((s.w.managed = true ∧ (∃ f sha, s.w.cached = some (f, some sha)) ∧
        (second r s).2 = { s with w := { s.w with log := s.w.log ++ [Access.sha] } }) ∨
      ((s.w.managed = true → s.w.cached = none ∨ ∃ f, s.w.cached = some (f, none)) ∧
        (second r s).2 = { s with w := { s.w with log := s.w.log ++ [Access.index], cached := if s.w.managed then none else s.w.cached } }))) := by
  have key : ∀ p s' f, getIndex .compare s = (.ok p, s') → s'.w.read p = some f → False := by
    intro p s' f h1 h2
    rw [second_there r s s' p f h1 h2] at h
    cases hl : load E.P f with
    | error e => rw [hl] at h; simp at h
    | ok ix =>
      rw [hl] at h
      simp only at h
      cases hf : find E.P E.order ix r.input r.output (methodAlias r.method) <;> rw [hf] at h <;> simp at h
  have fail : ∀ e s', getIndex .compare s = (.error e, s') → (second r s).2 = s' := by
    intro e s' h1
    unfold second reload
    rw [h1]
  by_cases hm : s.w.managed = true
  · cases hc : s.w.cached with
    | none =>
      right
      refine ⟨fun hk => ?_, Or.inr ⟨fun _ => Or.inl rfl, ?_⟩⟩
      · obtain ⟨_, _, f, sha, h3, _⟩ := hk; rw [hc] at h3; cases h3
      · cases hu : s.w.indexUp with
        | true =>
          exfalso
          have hg : ∃ s', getIndex .compare s = (.ok .cache, s') ∧ s'.w.read .cache = some s.w.remote := by
            unfold getIndex
            rw [if_pos hm, hc]
            simp only [createCached, hc, fetchIndex, hu, if_true]
            exact ⟨_, rfl, rfl⟩
          obtain ⟨s', h1, h2⟩ := hg
          exact key _ _ _ h1 h2
        | false =>
          have hg : getIndex .compare s = (.error .network, { s with w := { s.w with log := s.w.log ++ [Access.index] } }) := by
            unfold getIndex
            rw [if_pos hm, hc]
            simp only [createCached, hc, fetchIndex, hu, Bool.false_eq_true, if_false]
          rw [fail _ _ hg, if_pos hm]
          rw [← hc]
    | some x =>
      obtain ⟨f, o⟩ := x
      cases o with
      | none =>
        right
        refine ⟨fun hk => ?_, Or.inr ⟨fun _ => Or.inr ⟨f, rfl⟩, ?_⟩⟩
        · obtain ⟨_, _, f', sha, h3, _⟩ := hk; rw [hc] at h3; cases h3
        · cases hu : s.w.indexUp with
          | true =>
            exfalso
            have hg : ∃ s', getIndex .compare s = (.ok .cache, s') ∧ s'.w.read .cache = some s.w.remote := by
              unfold getIndex
              rw [if_pos hm, hc]
              simp only [forceOf, createCached, fetchIndex, hu, if_true]
              exact ⟨_, rfl, rfl⟩
            obtain ⟨s', h1, h2⟩ := hg
            exact key _ _ _ h1 h2
          | false =>
            have hg : getIndex .compare s = (.error .network, { s with w := { s.w with log := s.w.log ++ [Access.index], cached := none } }) := by
              unfold getIndex
              rw [if_pos hm, hc]
              simp only [forceOf, createCached, fetchIndex, hu, Bool.false_eq_true, if_false]
            rw [fail _ _ hg, if_pos hm]
      | some sha =>
        cases hs : s.w.shaUp with
        | false =>
          right
          refine ⟨fun hk => ?_, Or.inl ⟨hm, ⟨f, sha, rfl⟩, ?_⟩⟩
          · have := hk.2.1; rw [hs] at this; cases this
          · have hg : getIndex .compare s = (.error .network, { s with w := { s.w with log := s.w.log ++ [Access.sha] } }) := by
              unfold getIndex
              rw [if_pos hm, hc]
              simp only [forceOf, remoteSha, hs, Bool.false_eq_true, if_false]
            rw [fail _ _ hg]
        | true =>
          by_cases hne : sha ≠ s.w.remoteSha
          · cases hu : s.w.indexUp with
            | true =>
              exfalso
              have hg : ∃ s', getIndex .compare s = (.ok .cache, s') ∧ s'.w.read .cache = some s.w.remote := by
                unfold getIndex
                rw [if_pos hm, hc]
                simp only [forceOf, remoteSha, hs, if_true, ne_eq, hne, not_false_eq_true, decide_true, createCached, fetchIndex, hu]
                exact ⟨_, rfl, rfl⟩
              obtain ⟨s', h1, h2⟩ := hg
              exact key _ _ _ h1 h2
            | false =>
              left
              have hg : getIndex .compare s = (.error .network, { s with w := { s.w with log := s.w.log ++ [Access.sha] ++ [Access.index], cached := none }, checked := true }) := by
                unfold getIndex
                rw [if_pos hm, hc]
                simp only [forceOf, remoteSha, hs, if_true, ne_eq, hne, not_false_eq_true, decide_true, createCached, fetchIndex, hu,
                  Bool.false_eq_true, if_false]
              exact ⟨⟨hm, hs, f, sha, hc, hne⟩, rfl, fail _ _ hg⟩
          · exfalso
            have heq : sha = s.w.remoteSha := not_not.1 hne
            have hg : ∃ s', getIndex .compare s = (.ok .cache, s') ∧ s'.w.read .cache = some f := by
              unfold getIndex
              rw [if_pos hm, hc]
              simp only [forceOf, remoteSha, hs, if_true, ne_eq, heq, not_true_eq_false, decide_false, createCached, hc]
              exact ⟨_, rfl, by simp [World.read, hc]⟩
            obtain ⟨s', h1, h2⟩ := hg
            exact key _ _ _ h1 h2
  · right
    refine ⟨fun hk => hm hk.1, Or.inr ⟨fun h => absurd h hm, ?_⟩⟩
    cases hu : s.w.indexUp with
    | true =>
      exfalso
      have hg : ∃ p s', getIndex .compare s = (.ok p, s') ∧ s'.w.read p = some s.w.remote := by
        unfold getIndex
        rw [if_neg hm]
        simp only [fetchIndex, hu, if_true]
        exact ⟨_, _, rfl, by simp [World.read]⟩
      obtain ⟨p, s', h1, h2⟩ := hg
      exact key _ _ _ h1 h2
    | false =>
      have hg : getIndex .compare s = (.error .network, { s with w := { s.w with log := s.w.log ++ [Access.index] } }) := by
        unfold getIndex
        rw [if_neg hm]
        simp only [fetchIndex, hu, Bool.false_eq_true, if_false]
      rw [fail _ _ hg, if_neg hm]

/-- Loading fails on the network only where there is no file: nothing but the empty index and the attempt is left of it. -/
theorem unloaded (s : Db E) (h : (loadIndex s).1 = some .network) :
    (s.w.managed = true → s.w.cached = none) ∧ s.w.indexUp = false ∧
    (∀ b, (s.path.bind (fun p => (World.read { s.w with indexUp := true, shaUp := b } p).map (fun _ => p))) = none) ∧
    (loadIndex s).2 = { s with w := { s.w with log := s.w.log ++ [Access.index] }, index := some [] } := by
  have hread : ∀ b p, World.read { s.w with indexUp := true, shaUp := b } p = s.w.read p := by
    intro b p; cases p <;> rfl
  simp only [hread]
  unfold loadIndex indexPath at h ⊢
  cases hb : s.path.bind (fun p => (s.w.read p).map (fun _ => p)) with
  | some p =>
    exfalso
    simp only [hb] at h
    cases hr : s.w.read p with
    | none => simp only [hr] at h; cases h
    | some f =>
      simp only [hr] at h
      cases hl : load E.P f <;> simp [hl] at h
  | none =>
    simp only [hb] at h ⊢
    unfold getIndex at h ⊢
    by_cases hm : s.w.managed = true
    · simp only [hm, if_true] at h ⊢
      cases hc : s.w.cached with
      | none =>
        simp only [hc, createCached, fetchIndex] at h ⊢
        cases hu : s.w.indexUp with
        | true =>
          exfalso
          simp only [hu, if_true, World.read, Option.map_some] at h
          cases hl : load E.P s.w.remote <;> simp [hl] at h
        | false =>
          simp only [Bool.false_eq_true, if_false]
          exact ⟨fun _ => trivial, trivial, fun _ => trivial, by rw [hm]⟩
      | some x =>
        exfalso
        obtain ⟨f, o⟩ := x
        simp only [hc, forceOf, createCached, World.read, Option.map_some] at h
        cases hl : load E.P f <;> simp [hl] at h
    · simp only [hm, if_false, fetchIndex] at h ⊢
      cases hu : s.w.indexUp with
      | true =>
        exfalso
        simp only [hu, if_true, World.read] at h
        cases hl : load E.P s.w.remote <;> simp [hl] at h
      | false =>
        simp only [Bool.false_eq_true, if_false]
        exact ⟨fun h => absurd h (by decide), trivial, fun _ => trivial, trivial⟩

/-- Loading that succeeds does the same once the network is back. -/
theorem loaded_up (s s1 : Db E) (h : loadIndex s = (none, s1)) :
    loadIndex (up s) = (none, up s1) ∧ s1.checked = s.checked ∧ (∃ ix, s1.index = some ix) ∧
    (s1.w = s.w ∨ (s.w.indexUp = true ∧ s1.w.indexUp = true ∧ (s.w.managed = true → s.w.cached = none))) := by
  unfold loadIndex indexPath at h ⊢
  have hread : ∀ p, (up s).w.read p = s.w.read p := by intro p; cases p <;> rfl
  have hup : (up s).path = s.path := rfl
  have hi : ({ up s with index := some [] } : Db E).w.read = (up s).w.read := rfl
  cases hb : s.path.bind (fun p => (s.w.read p).map (fun _ => p)) with
  | some p =>
    have hb' : (up s).path.bind (fun p => ((up s).w.read p).map (fun _ => p)) = some p := by rw [hup]; simp only [hread, hb]
    simp only [hb] at h
    simp only [hb']
    cases hr : s.w.read p with
    | none => simp only [hr] at h; cases h
    | some f =>
      simp only [hr] at h
      simp only [hread, hr]
      cases hl : load E.P f with
      | error e => simp [hl] at h
      | ok ix =>
        simp only [hl, Prod.mk.injEq, true_and] at h
        subst h
        exact ⟨rfl, rfl, ⟨ix, rfl⟩, Or.inl rfl⟩
  | none =>
    have hb' : (up s).path.bind (fun p => ((up s).w.read p).map (fun _ => p)) = none := by rw [hup]; simp only [hread, hb]
    simp only [hb] at h
    simp only [hb']
    unfold getIndex at h ⊢
    have hm' : (up s).w.managed = s.w.managed := rfl
    have hc' : (up s).w.cached = s.w.cached := rfl
    have hu' : (up s).w.indexUp = true := rfl
    by_cases hm : s.w.managed = true
    · simp only [hm, hm', if_true] at h ⊢
      cases hc : s.w.cached with
      | none =>
        simp only [hc, createCached, fetchIndex] at h
        simp only [hc', hc, createCached, fetchIndex, hu', if_true]
        cases hu : s.w.indexUp with
        | false => simp [hu] at h
        | true =>
          simp only [hu, if_true, World.read, Option.map_some] at h
          simp only [World.read, Option.map_some]
          have hrem : (up s).w.remote = s.w.remote := rfl
          rw [hrem]
          cases hl : load E.P s.w.remote with
          | error e => simp [hl] at h
          | ok ix =>
            simp only [hl, Prod.mk.injEq, true_and] at h
            subst h
            exact ⟨rfl, rfl, ⟨ix, rfl⟩, Or.inr ⟨trivial, rfl, fun _ => trivial⟩⟩
      | some x =>
        obtain ⟨f, o⟩ := x
        simp only [hc, forceOf, createCached, World.read, Option.map_some] at h
        simp only [hc', hc, forceOf, createCached, World.read, Option.map_some]
        cases hl : load E.P f with
        | error e => simp [hl] at h
        | ok ix =>
          simp only [hl, Prod.mk.injEq, true_and] at h
          subst h
          exact ⟨rfl, rfl, ⟨ix, rfl⟩, Or.inl rfl⟩
    · simp only [hm', if_neg hm, fetchIndex] at h ⊢
      simp only [hu', if_true]
      cases hu : s.w.indexUp with
      | false => simp [hu] at h
      | true =>
        simp only [hu, if_true, World.read] at h
        simp only [World.read]
        have hrem : (up s).w.remote = s.w.remote := rfl
        rw [hrem]
        cases hl : load E.P s.w.remote with
        | error e => simp [hl] at h
        | ok ix =>
          rw [hl] at h
          simp only [Prod.mk.injEq, true_and] at h
          subst h
          refine ⟨?_, rfl, ⟨ix, rfl⟩, Or.inr ⟨trivial, rfl, fun h => absurd h hm⟩⟩
          simp only [if_true, hl]
          rfl

theorem missed (r : Req) (s : Db E) (ix : Index) (hi : s.index = some ix)
    (hf : find E.P E.order ix r.input r.output (methodAlias r.method) = .ok none) :
    findEntry r s = if s.checked = true then (.ok none, s) else second r s := by
  by_cases hk : s.checked = true
  · rw [if_pos hk]
    have hlk : lookIn r s = .ok none := by unfold lookIn; rw [hi]; simp [hf]
    unfold findEntry ensureIndex
    rw [hi]
    simp only [hlk, hk, if_true]
  · rw [if_neg hk]
    exact misses_unfold r s ⟨ix, hi, hf⟩ (by simpa using hk)

theorem notSpec_network (x : Except Err (Option Entry)) (h : (match x with | .error e => .error (.spec e) | .ok v => .ok v : Except SErr (Option Entry)) = .error .network) :
    False := by
  cases x <;> simp at h

/-- A lookup that fails on the network although an index is in memory: it found nothing there. -/
theorem network_memory (r : Req) (s : Db E) (ix : Index) (hi : s.index = some ix) (h : (findEntry r s).1 = .error .network) :
    find E.P E.order ix r.input r.output (methodAlias r.method) = .ok none ∧ s.checked = false ∧ findEntry r s = second r s := by
  cases hf : find E.P E.order ix r.input r.output (methodAlias r.method) with
  | error e =>
    have hlk : lookIn r s = .error (.spec e) := by unfold lookIn; rw [hi]; simp [hf]
    unfold findEntry ensureIndex at h
    rw [hi] at h
    simp [hlk] at h
  | ok v =>
    cases v with
    | some e =>
      have hlk : lookIn r s = .ok (some e) := by unfold lookIn; rw [hi]; simp [hf]
      unfold findEntry ensureIndex at h
      rw [hi] at h
      simp [hlk] at h
    | none =>
      have := missed r s ix hi hf
      by_cases hk : s.checked = true
      · rw [this, if_pos hk] at h; cases h
      · rw [if_neg hk] at this
        exact ⟨rfl, by simpa using hk, this⟩

/-- Repeating with an index in memory. -/
theorem again_memory (r : Req) (s : Db E) (ix : Index) (hi : s.index = some ix) (h : (findEntry r s).1 = .error .network) :
    (StaleKnown s → (findEntry r (up (findEntry r s).2)).1 = .ok none ∧ (findEntry r (up s)).1 = remoteAnswer r s) ∧
    (¬ StaleKnown s → (findEntry r (up (findEntry r s).2)).1 = (findEntry r (up s)).1) := by
  obtain ⟨hf, hk, hx⟩ := network_memory r s ix hi h
  have hup : findEntry r (up s) = second r (up s) := by
    rw [missed r (up s) ix hi hf, if_neg (by show ¬ s.checked = true; simp [hk])]
  rw [hx] at h ⊢
  obtain ⟨t, ht⟩ : ∃ t, t = (second r s).2 := ⟨_, rfl⟩
  rw [← ht]
  rcases second_network r s h with ⟨hS, hu, h2⟩ | ⟨hS, h2⟩
  · rw [← ht] at h2
    have hti : (up t).index = some ix := by rw [h2]; exact hi
    have htk : (up t).checked = true := by rw [h2]; rfl
    refine ⟨fun _ => ⟨?_, ?_⟩, fun hn => absurd hS hn⟩
    · rw [missed r (up t) ix hti hf, if_pos htk]
    · rw [hup, second_fetch r (up s) rfl]
      · rfl
      · intro _
        obtain ⟨_, _, f, sha, h3, h4⟩ := hS
        exact Or.inr (Or.inr ⟨rfl, f, sha, h3, h4⟩)
  · refine ⟨fun hn => absurd hn hS, fun _ => ?_⟩
    rw [hup]
    rw [← ht] at h2
    have hti : (up t).index = some ix := by rcases h2 with ⟨_, _, h2⟩ | ⟨_, h2⟩ <;> rw [h2] <;> exact hi
    have htk : (up t).checked = false := by rcases h2 with ⟨_, _, h2⟩ | ⟨_, h2⟩ <;> rw [h2] <;> exact hk
    rw [missed r (up t) ix hti hf, if_neg (by simp [htk])]
    rcases h2 with ⟨hm, ⟨f, sha, hc⟩, h2⟩ | ⟨hc, h2⟩
    · rw [second_compare r (up s) hm rfl rfl f sha hc]
      rw [second_compare r (up t) (by rw [h2]; exact hm) rfl rfl f sha (by rw [h2]; exact hc)]
      rw [h2]
      rfl
    · rw [second_fetch r (up t) rfl, second_fetch r (up s) rfl]
      · rw [h2]; rfl
      · intro hm
        rcases hc hm with h | ⟨f, h⟩
        · exact Or.inl h
        · exact Or.inr (Or.inl ⟨f, h⟩)
      · intro hm
        left
        rw [h2] at hm ⊢
        show (if s.w.managed then none else s.w.cached) = none
        rw [if_pos (by exact hm)]

/-- The lookup fails in the first load of the session's index. -/
theorem network_first (r : Req) (s : Db E) (hi : s.index = none) (h : (loadIndex s).1 = some .network) :
    findEntry r s = (.error .network, (loadIndex s).2) := by
  unfold findEntry ensureIndex
  rw [hi]
  simp only
  generalize loadIndex s = x at h
  obtain ⟨a, b⟩ := x
  simp only at h
  subst h
  rfl

theorem first_then (r : Req) (s s1 : Db E) (hi : s.index = none) (h : loadIndex s = (none, s1)) : findEntry r s = findEntry r s1 := by
  have hx : ∃ ix, s1.index = some ix := (loaded_up s s1 h).2.2.1
  obtain ⟨ix, hx⟩ := hx
  unfold findEntry ensureIndex
  rw [hi, hx]
  simp only [h]

/-- With the network up and no file, the first lookup of a session answers for the published index. -/
theorem first_up (r : Req) (s : Db E) (hi : s.index = none) (h : (loadIndex s).1 = some .network) :
    (findEntry r (up s)).1 = remoteAnswer r s := by
  obtain ⟨hc, _, hb, _⟩ := unloaded s h
  have hb' : (up s).path.bind (fun p => ((up s).w.read p).map (fun _ => p)) = none := hb true
  -- the file that is fetched
  have hg : ∃ p t, getIndex .no { up s with index := some [] } = (.ok p, t) ∧ t.w.read p = some s.w.remote ∧ t.w.remote = s.w.remote ∧
      t.w.indexUp = true ∧ t.w.shaUp = true ∧ (t.w.managed = true → ∃ sha, t.w.cached = some (s.w.remote, some sha)) := by
    unfold getIndex
    have hm' : (up s).w.managed = s.w.managed := rfl
    by_cases hm : s.w.managed = true
    · have hc' : (up s).w.cached = none := hc hm
      simp only [hm', hm, if_true, hc', createCached, fetchIndex, show (up s).w.indexUp = true from rfl]
      exact ⟨_, _, rfl, rfl, rfl, rfl, rfl, fun _ => ⟨_, rfl⟩⟩
    · simp only [hm', if_neg hm, fetchIndex, show (up s).w.indexUp = true from rfl, if_true]
      exact ⟨_, _, rfl, by simp only [World.read, if_true]; rfl, rfl, rfl, rfl, fun h => absurd h hm⟩
  obtain ⟨p, t, h1, h2, h3, h4, h5, h6⟩ := hg
  have hl : loadIndex (up s) = match load E.P s.w.remote with
      | .error e => (some (.spec e), { t with path := some p })
      | .ok ix => (none, { t with path := some p, index := some ix }) := by
    unfold loadIndex indexPath
    simp only [hb', h1, h2]
    cases load E.P s.w.remote <;> rfl
  have hi' : (up s).index = none := hi
  unfold remoteAnswer
  cases hld : load E.P s.w.remote with
  | error e =>
    rw [hld] at hl
    unfold findEntry ensureIndex
    rw [hi']
    simp only [hl]
  | ok ix =>
    rw [hld] at hl
    simp only at hl ⊢
    rw [first_then r _ _ hi' hl]
    obtain ⟨u, hu⟩ : ∃ u, u = ({ t with path := some p, index := some ix } : Db E) := ⟨_, rfl⟩
    rw [← hu]
    have hui : u.index = some ix := by rw [hu]
    cases hf : find E.P E.order ix r.input r.output (methodAlias r.method) with
    | error e =>
      have hlk : lookIn r u = .error (.spec e) := by unfold lookIn; rw [hui]; simp [hf]
      unfold findEntry ensureIndex
      rw [hui]
      simp only [hlk]
    | ok v =>
      cases v with
      | some e =>
        have hlk : lookIn r u = .ok (some e) := by unfold lookIn; rw [hui]; simp [hf]
        unfold findEntry ensureIndex
        rw [hui]
        simp only [hlk]
      | none =>
        rw [missed r u ix hui hf]
        by_cases hk : u.checked = true
        · rw [if_pos hk]
        · rw [if_neg hk]
          have hrem : ∀ w : Db E, w.w.remote = s.w.remote → remoteAnswer r w = .ok none := by
            intro w hw
            unfold remoteAnswer
            rw [hw, hld]
            simp only [hf]
          by_cases hm : t.w.managed = true
          · obtain ⟨sha, h6⟩ := h6 hm
            rw [second_compare r u (by rw [hu]; exact hm) (by rw [hu]; exact h5) (by rw [hu]; exact h4) s.w.remote sha (by rw [hu]; exact h6)]
            apply hrem
            show (if sha = u.w.remoteSha then s.w.remote else u.w.remote) = s.w.remote
            rw [hu]
            show (if _ then s.w.remote else t.w.remote) = s.w.remote
            rw [h3, ite_self]
          · rw [second_fetch r u (by rw [hu]; exact h4) (fun h => absurd (by rw [hu] at h; exact h) hm)]
            apply hrem
            rw [hu]; exact h3

/-- When a lookup that failed on the network is repeated with the network back: it gives what it would have given with the network
up from the start, except in two kinds of states, where it finds nothing whatever the published index has:
the session had taken the cached copy for compared before (`checked`: a reload that failed after the checksum was there), or the
failed lookup itself got the checksum, dropped the old copy and could not get the new one. -/
theorem C81_exact (r : Req) (hr : ValidReq E r) (s : Db E) (h : (findEntry r s).1 = .error .network) :
    ((s.checked = true ∨ StaleKnown s) →
      (findEntry r (step (.network true true) (findEntry r s).2)).1 = .ok none ∧
      (findEntry r (step (.network true true) s)).1 = remoteAnswer r s) ∧
    (s.checked = false → ¬ StaleKnown s →
      (findEntry r (step (.network true true) (findEntry r s).2)).1 = (findEntry r (step (.network true true) s)).1) := by
  show ((s.checked = true ∨ StaleKnown s) → (findEntry r (up (findEntry r s).2)).1 = .ok none ∧ (findEntry r (up s)).1 = remoteAnswer r s) ∧
    (s.checked = false → ¬ StaleKnown s → (findEntry r (up (findEntry r s).2)).1 = (findEntry r (up s)).1)
  cases hi : s.index with
  | some ix =>
    obtain ⟨hf, hk, hx⟩ := network_memory r s ix hi h
    obtain ⟨a, b⟩ := again_memory r s ix hi h
    exact ⟨fun hc => a (hc.resolve_left (by simp [hk])), fun _ => b⟩
  | none =>
    obtain ⟨o, s1, hl⟩ : ∃ o s1, loadIndex s = (o, s1) := ⟨_, _, rfl⟩
    cases o with
    | none =>
      obtain ⟨hlu, hck, ⟨ix, hx⟩, hw⟩ := loaded_up s s1 hl
      have e1 := first_then r s s1 hi hl
      have e2 : findEntry r (up s) = findEntry r (up s1) := first_then r (up s) (up s1) hi hlu
      rw [e1] at h ⊢
      rw [e2]
      obtain ⟨hf, hk, hx'⟩ := network_memory r s1 ix hx h
      obtain ⟨a, b⟩ := again_memory r s1 ix hx h
      rcases hw with hw | ⟨hu, hu1, hc⟩
      · have hS : StaleKnown s1 ↔ StaleKnown s := by unfold StaleKnown; rw [hw]
        have hR : remoteAnswer r s1 = remoteAnswer r s := by unfold remoteAnswer; rw [hw]
        rw [hS, hR] at a
        rw [hS] at b
        exact ⟨fun hc => a (hc.resolve_left (by rw [← hck, hk]; simp)), fun _ => b⟩
      · have hS : ¬ StaleKnown s := by
          rintro ⟨hm, _, f, sha, h3, _⟩
          rw [hc hm] at h3; cases h3
        refine ⟨fun hc => absurd (hc.resolve_left (by rw [← hck, hk]; simp)) hS, fun _ _ => b ?_⟩
        intro hS1
        rw [hx'] at h
        rcases second_network r s1 h with ⟨_, h4, _⟩ | ⟨h4, _⟩
        · rw [hu1] at h4; cases h4
        · exact h4 hS1
    | some e =>
      have hne : e = .network := by
        unfold findEntry ensureIndex at h
        rw [hi] at h
        simp only [hl] at h
        cases h; rfl
      subst hne
      have hl1 : (loadIndex s).1 = some .network := by rw [hl]
      obtain ⟨hc, hu, _, hs1⟩ := unloaded s hl1
      have hS : ¬ StaleKnown s := by
        rintro ⟨hm, _, f, sha, h3, _⟩
        rw [hc hm] at h3; cases h3
      rw [network_first r s hi hl1, first_up r s hi hl1]
      obtain ⟨t, ht⟩ : ∃ t, t = (loadIndex s).2 := ⟨_, rfl⟩
      simp only
      rw [← ht] at hs1 ⊢
      have hti : (up t).index = some [] := by rw [hs1]; rfl
      rw [missed r (up t) [] hti (valid_nil r hr)]
      have htk : (up t).checked = s.checked := by rw [hs1]; rfl
      rw [htk]
      refine ⟨fun hk => ?_, fun hk _ => ?_⟩
      · rw [if_pos (hk.resolve_right hS)]
        exact ⟨rfl, trivial⟩
      · rw [if_neg (by simp [hk]), second_fetch r (up t) rfl]
        · rw [hs1]; rfl
        · intro hm
          left
          rw [hs1] at hm ⊢
          exact hc hm

/-! ### Sessions -/

theorem orca_valid (P : Py) (order : List String) : ValidReq (countEnv P order) ask := by
  obtain ⟨gi, go, h1, h2, _⟩ := (find_ok ..).1 (orca_find P order [] none)
  exact ⟨gi, go, h1, h2⟩

/-- The old copy is dropped and the new one cannot be fetched: no entry is found, where the published index has one. -/
example (P : Py) (order : List String) (ho : Enumerates order) :
    (findEntry ask (step (.network true true) (findEntry ask (stale P order true false)).2)).1 = .ok none ∧
    remoteAnswer ask (stale P order true false) = .ok (some (entryOf "a" (some (.int 1)))) := by
  have h0 := (C81_refuted ask ask (stale P order true false) rfl rfl rfl rfl emptyFile (0 : Nat) rfl (show (0 : Nat) ≠ 2 by decide)
    (ask_misses P order _ _) (ask_misses P order _ _)).1
  have h := (C81_exact ask (orca_valid P order) (stale P order true false) h0).1
    (Or.inr ⟨rfl, rfl, emptyFile, (0 : Nat), rfl, show (0 : Nat) ≠ 2 by decide⟩)
  exact ⟨h.1, by rw [← h.2]; exact session_finds P order ho⟩

/-- The checksum could not be fetched: the repeated lookup finds the entry. -/
example (P : Py) (order : List String) (ho : Enumerates order) :
    (findEntry ask (step (.network true true) (findEntry ask (stale P order false true)).2)).1 = .ok (some (entryOf "a" (some (.int 1)))) := by
  have h0 : (findEntry ask (stale P order false true)).1 = .error .network := by
    rw [C81_checksum_partial ask _ rfl rfl rfl emptyFile (0 : Nat) rfl (ask_misses P order _ _)]
  rw [(C81_exact ask (orca_valid P order) (stale P order false true) h0).2 rfl (fun h => by cases h.2.1)]
  exact session_finds P order ho

/-- A new session on a cached index that is old, the index not reachable. -/
def fresh (P : Py) (order : List String) : Db (countEnv P order) := { stale P order true false with index := none }

/-- A forced reload that fails on the index, then a lookup that fails, leave a session that finds nothing. -/
example (P : Py) (order : List String) :
    (findEntry ask (step .refresh (fresh P order))).1 = .error .network ∧
    (findEntry ask (step (.network true true) (findEntry ask (step .refresh (fresh P order))).2)).1 = .ok none := by
  have h0 : (findEntry ask (step .refresh (fresh P order))).1 = .error .network := rfl
  exact ⟨h0, ((C81_exact ask (orca_valid P order) _ h0).1 (Or.inl rfl)).1⟩

end Verif.Index

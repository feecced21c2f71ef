import Verif.Index.Session

/-! # C41, C43–C45, C81: sessions -/

namespace Verif.Index
open Verif.GridSpec
variable {E : Env}

/-! ### C41: aliases -/

/-- The documented names of one method. -/
def SameMethod (a b : List Char) : Prop :=
  a = b ∨ (a ∈ ["nn".toList, "nearest-neighbor".toList, "nearest-neighbour".toList] ∧
    b ∈ ["nn".toList, "nearest-neighbor".toList, "nearest-neighbour".toList])

/-- Whichever name is used, a lookup has the same outcome and effect, in every state. -/
theorem C41_alias (i o : Dict) (m m' : List Char) (h : SameMethod m m') (s : Db E) :
    findEntry ⟨i, o, m⟩ s = findEntry ⟨i, o, m'⟩ s := by
  have ha : methodAlias m = methodAlias m' := by
    rcases h with rfl | ⟨h, h'⟩
    · rfl
    · simp only [List.mem_cons, List.not_mem_nil, or_false] at h h'
      rcases h with rfl | rfl | rfl <;> rcases h' with rfl | rfl | rfl <;> decide
  have hl : ∀ s : Db E, lookIn ⟨i, o, m⟩ s = lookIn ⟨i, o, m'⟩ s := by
    intro s; unfold lookIn; simp only [ha]
  unfold findEntry
  simp only [hl]

theorem look_hit (r : Req) (s : Db E) (e : Entry) (h : lookIn r s = .ok (some e)) :
    find E.P E.order (s.index.getD []) r.input r.output (methodAlias r.method) = .ok (some e) := by
  unfold lookIn at h
  split at h
  · rename_i x hx; cases h; exact hx
  · cases h

theorem findEntry_hit (r : Req) (s s' : Db E) (e : Entry) (h : findEntry r s = (.ok (some e), s')) : lookIn r s' = .ok (some e) := by
  unfold findEntry at h
  generalize ensureIndex s = x at h
  obtain ⟨er, s1⟩ := x
  cases er with
  | some er => simp at h
  | none =>
    simp only at h
    cases hl : lookIn r s1 with
    | error er => rw [hl] at h; simp at h
    | ok v =>
      rw [hl] at h
      cases v with
      | some e' =>
        simp only [Prod.mk.injEq, Except.ok.injEq, Option.some.injEq] at h
        obtain ⟨rfl, rfl⟩ := h
        exact hl
      | none =>
        simp only at h
        split at h
        · simp at h
        · generalize reload .compare s1 = y at h
          obtain ⟨er, s2⟩ := y
          cases er with
          | some er => simp at h
          | none =>
            simp only at h
            generalize loadIndex s2 = z at h
            obtain ⟨er, s3⟩ := z
            cases er with
            | some er => simp at h
            | none =>
              simp only [Prod.mk.injEq] at h
              obtain ⟨h1, rfl⟩ := h
              exact h1

/-- No other name is rewritten: what is found has the method asked for, up to those names. -/
theorem C41_only_those (r : Req) (s s' : Db E) (e : Entry) (h : findEntry r s = (.ok (some e), s')) :
    ∃ m, MethodIs e.raw m ∧ SameMethod r.method m := by
  have h1 := look_hit r s' e (findEntry_hit r s s' e h)
  obtain ⟨gi, go, _, _, hs⟩ := (find_ok ..).1 h1
  obtain ⟨_, _, _, _, hh, _⟩ := (search_some ..).1 hs
  refine ⟨_, hh.1, ?_⟩
  unfold methodAlias
  split
  · rename_i hc; right; simp only [List.mem_cons, List.not_mem_nil, or_false]; exact ⟨by rcases hc with h | h <;> simp [h], by simp⟩
  · left; rfl

/-! ### C43: remote access -/

/-- Found in the index in memory: no access, nothing changes. -/
theorem C43_hit (r : Req) (s : Db E) (ix : Index) (e : Entry) (hi : s.index = some ix)
    (h : find E.P E.order ix r.input r.output (methodAlias r.method) = .ok (some e)) : findEntry r s = (.ok (some e), s) := by
  have hl : lookIn r s = .ok (some e) := by unfold lookIn; rw [hi]; simp [h]
  unfold findEntry ensureIndex
  rw [hi]
  simp only [hl]

/-- Once the remote has been checked no lookup, found or not, changes anything or accesses anything. -/
theorem C43_after_check (r : Req) (s : Db E) (hc : s.checked = true) (hi : s.index.isSome = true) :
    (findEntry r s).2 = s := by
  obtain ⟨ix, hi⟩ := Option.isSome_iff_exists.1 hi
  unfold findEntry ensureIndex
  rw [hi]
  simp only
  cases lookIn r s with
  | error e => rfl
  | ok v =>
    cases v with
    | some e => rfl
    | none => simp [hc]

/-- ... for the rest of the session, whatever is published, evicted or reconfigured meanwhile. -/
theorem C43_rest_of_session (ops : List (Op E)) (s : Db E) (hc : s.checked = true) (hi : s.index.isSome = true)
    (hr : ∀ o ∈ ops, o ≠ .refresh) : (runOps ops s).w.log = s.w.log ∧ (runOps ops s).index = s.index := by
  unfold runOps
  suffices ∀ (ops : List (Op E)) (s : Db E), s.checked = true → s.index.isSome = true → (∀ o ∈ ops, o ≠ .refresh) →
      (ops.foldl (fun s o => step o s) s).w.log = s.w.log ∧ (ops.foldl (fun s o => step o s) s).index = s.index by
    exact this ops s hc hi hr
  intro ops
  induction ops with
  | nil => intros; exact ⟨rfl, rfl⟩
  | cons o ops ih =>
    intro s hc hi hr
    rw [List.foldl_cons]
    have hstep : (step o s).w.log = s.w.log ∧ (step o s).index = s.index ∧ (step o s).checked = s.checked := by
      cases o with
      | lookup r => rw [step, C43_after_check r s hc hi]; exact ⟨rfl, rfl, rfl⟩
      | refresh => exact absurd rfl (hr _ (by simp))
      | publish => exact ⟨rfl, rfl, rfl⟩
      | network => exact ⟨rfl, rfl, rfl⟩
      | evict => exact ⟨rfl, rfl, rfl⟩
      | policy => exact ⟨rfl, rfl, rfl⟩
    obtain ⟨h1, h2⟩ := ih (step o s) (by rw [hstep.2.2]; exact hc) (by rw [hstep.2.1]; exact hi) (fun o ho => hr o (by simp [ho]))
    exact ⟨h1.trans hstep.1, h2.trans hstep.2.1⟩

/-! How the steps of a reload act, with everything reachable and the disk cache on. -/

/-- Everything can be reached, the cache is on, and cache entries have their checksum. -/
structure Fine (s : Db E) : Prop where
  managed : s.w.managed = true
  shaUp : s.w.shaUp = true
  indexUp : s.w.indexUp = true
  owner : ∀ f o, s.w.cached = some (f, o) → o.isSome = true

/-- The state after downloading the index to the cache. -/
def downloaded (s : Db E) : Db E :=
  { s with w := { s.w with log := s.w.log ++ [Access.index], cached := some (s.w.remote, some (E.shaOf s.w.remote)) } }

/-- The state after fetching the checksum. -/
def compared (s : Db E) : Db E := { s with w := { s.w with log := s.w.log ++ [Access.sha] }, checked := true }

theorem createCached_fine (s : Db E) (h : s.w.indexUp = true) :
    createCached s = (.ok .cache, if s.w.cached.isSome then s else downloaded s) := by
  unfold createCached
  cases hc : s.w.cached with
  | some c => simp
  | none =>
    simp only [fetchIndex, if_pos h]
    rfl

theorem getIndex_no (s : Db E) (h : Fine s) : getIndex .no s = (.ok .cache, if s.w.cached.isSome then s else downloaded s) := by
  unfold getIndex
  rw [if_pos h.managed]
  cases hc : s.w.cached with
  | none => simp only; rw [createCached_fine s h.indexUp, hc]
  | some c => simp only [forceOf]; rw [createCached_fine s h.indexUp, hc]

/-- The outcome of a comparing reload. -/
theorem getIndex_compare (s : Db E) (h : Fine s) :
    (s.w.cached = none ∧ getIndex .compare s = (.ok .cache, downloaded s)) ∨
    (∃ f sha, s.w.cached = some (f, some sha) ∧
      getIndex .compare s = (.ok .cache, if sha = s.w.remoteSha then compared s else downloaded (compared s))) := by
  unfold getIndex
  rw [if_pos h.managed]
  cases hc : s.w.cached with
  | none => left; refine ⟨rfl, ?_⟩; simp only; rw [createCached_fine s h.indexUp, hc]; simp
  | some c =>
    right
    obtain ⟨f, o⟩ := c
    obtain ⟨sha, rfl⟩ := Option.isSome_iff_exists.1 (h.owner f o hc)
    refine ⟨f, sha, rfl, ?_⟩
    simp only [forceOf, remoteSha, if_pos h.shaUp]
    by_cases he : sha = s.w.remoteSha
    · simp only [he, ne_eq, not_true, decide_false, if_true]
      rw [createCached_fine _ (by exact h.indexUp)]
      simp [hc, compared]
    · simp only [he, ne_eq, not_false_eq_true, decide_true, if_false]
      rw [createCached_fine _ (by exact h.indexUp)]
      simp only [Option.isSome_none, Bool.false_eq_true, if_false]
      rfl

/-- Loading when the file is where `_index_path` says. -/
theorem loadIndex_there (s : Db E) (p : IndexPath) (f : IndexFile) (hp : s.path = some p) (hr : s.w.read p = some f) :
    loadIndex s = match load E.P f with
      | .error e => (some (.spec e), { s with index := some [] })
      | .ok ix => (none, { s with index := some ix }) := by
  unfold loadIndex indexPath
  simp only [hp, Option.bind_some, hr, Option.map_some]
  cases load E.P f <;> rfl

/-- Loading only changes the index in memory, after making sure that the file is there. -/
theorem loadIndex_shape (s : Db E) (h : Fine s) : ∃ ix, (loadIndex s).2.index = some ix ∧
    ((loadIndex s).2.w = s.w ∨ (s.w.cached = none ∧ (loadIndex s).2.w = (downloaded s).w)) ∧ (loadIndex s).2.checked = s.checked := by
  have hF : Fine ({ s with index := some [] } : Db E) := ⟨h.managed, h.shaUp, h.indexUp, h.owner⟩
  unfold loadIndex indexPath
  cases hb : (({ s with index := some [] } : Db E).path.bind fun p => (({ s with index := some [] } : Db E).w.read p).map fun _ => p) with
  | some p =>
    simp only
    split
    · exact ⟨_, rfl, Or.inl rfl, rfl⟩
    · split
      · exact ⟨_, rfl, Or.inl rfl, rfl⟩
      · exact ⟨_, rfl, Or.inl rfl, rfl⟩
  | none =>
    simp only [getIndex_no _ hF]
    cases hc : s.w.cached with
    | some c =>
      simp only [Option.isSome_some, if_true]
      split
      · exact ⟨_, rfl, Or.inl rfl, rfl⟩
      · split
        · exact ⟨_, rfl, Or.inl rfl, rfl⟩
        · exact ⟨_, rfl, Or.inl rfl, rfl⟩
    | none =>
      simp only [Option.isSome_none, Bool.false_eq_true, if_false]
      split
      · exact ⟨_, rfl, Or.inr ⟨trivial, rfl⟩, rfl⟩
      · split
        · exact ⟨_, rfl, Or.inr ⟨trivial, rfl⟩, rfl⟩
        · exact ⟨_, rfl, Or.inr ⟨trivial, rfl⟩, rfl⟩

/-- Accesses so far, bounded by how far the session is. -/
structure Few (s : Db E) : Prop where
  fine : Fine s
  checked : s.checked = true → s.index.isSome = true
  sha : s.w.log.count .sha ≤ if s.checked then 1 else 0
  index : s.w.log.count .index ≤ if s.checked then 2 else if s.w.cached.isSome then 1 else 0

theorem few_load (s : Db E) (h : Few s) (hc : s.checked = false) : Few (loadIndex s).2 ∧ (loadIndex s).2.index.isSome = true ∧
    (loadIndex s).2.checked = false := by
  obtain ⟨ix, h1, h2, h3⟩ := loadIndex_shape s h.fine
  have hs := h.sha; have hi := h.index
  rw [hc] at hs hi h3
  simp only [Bool.false_eq_true, if_false] at hs hi
  refine ⟨?_, by rw [h1]; rfl, h3⟩
  rcases h2 with h2 | ⟨hn, h2⟩
  · refine ⟨⟨?_, ?_, ?_, ?_⟩, ?_, ?_, ?_⟩
    · rw [h2]; exact h.fine.managed
    · rw [h2]; exact h.fine.shaUp
    · rw [h2]; exact h.fine.indexUp
    · rw [h2]; exact h.fine.owner
    · intro _; rw [h1]; rfl
    · rw [h2, h3]; simpa using hs
    · rw [h2, h3]; simpa using hi
  · rw [hn] at hi
    simp only [Option.isSome_none, Bool.false_eq_true, if_false] at hi
    refine ⟨⟨?_, ?_, ?_, ?_⟩, ?_, ?_, ?_⟩
    · rw [h2]; exact h.fine.managed
    · rw [h2]; exact h.fine.shaUp
    · rw [h2]; exact h.fine.indexUp
    · rw [h2]; intro f o ho; simp only [downloaded, Option.some.injEq, Prod.mk.injEq] at ho; rw [← ho.2]; rfl
    · intro _; rw [h1]; rfl
    · rw [h2, h3]; simp only [downloaded, List.count_append]; simpa using hs
    · rw [h2, h3]; simp only [downloaded, List.count_append]; simp; omega

theorem few_reload (s : Db E) (h : Few s) (hc : s.checked = false) (hx : s.index.isSome = true) :
    ∃ s', reload .compare s = (none, s') ∧ Few s' ∧ s'.path = some .cache ∧ s'.w.cached.isSome = true := by
  have hs := h.sha; have hi := h.index
  rw [hc] at hs hi
  simp only [Bool.false_eq_true, if_false] at hs hi
  unfold reload
  rcases getIndex_compare s h.fine with ⟨hn, hg⟩ | ⟨f, sha, hn, hg⟩
  · rw [hg]
    refine ⟨_, rfl, ?_, rfl, rfl⟩
    rw [hn] at hi
    simp only [Option.isSome_none, Bool.false_eq_true, if_false] at hi
    refine ⟨⟨h.fine.managed, h.fine.shaUp, h.fine.indexUp, ?_⟩, fun _ => hx, ?_, ?_⟩
    · intro f o ho; simp only [downloaded, Option.some.injEq, Prod.mk.injEq] at ho; rw [← ho.2]; rfl
    · simp only [downloaded, List.count_append, hc]; simpa using hs
    · simp only [downloaded, List.count_append, hc]; simp; omega
  · rw [hg]
    have hi' : s.w.log.count .index ≤ 1 := by rw [hn] at hi; simpa using hi
    by_cases he : sha = s.w.remoteSha
    · simp only [he, if_true]
      refine ⟨_, rfl, ?_, rfl, by simp [compared, hn]⟩
      refine ⟨⟨h.fine.managed, h.fine.shaUp, h.fine.indexUp, h.fine.owner⟩, fun _ => hx, ?_, ?_⟩
      · simp only [compared, List.count_append]; simp; simpa using hs
      · simp only [compared, List.count_append]; simp; omega
    · simp only [he, if_false]
      refine ⟨_, rfl, ?_, rfl, rfl⟩
      refine ⟨⟨h.fine.managed, h.fine.shaUp, h.fine.indexUp, ?_⟩, fun _ => hx, ?_, ?_⟩
      · intro f o ho; simp only [downloaded, Option.some.injEq, Prod.mk.injEq] at ho; rw [← ho.2]; rfl
      · simp only [downloaded, compared, List.count_append]; simp; simpa using hs
      · simp only [downloaded, compared, List.count_append]; simp; omega

theorem few_index (s : Db E) (ix : Index) (h : Few s) : Few ({ s with index := some ix } : Db E) :=
  ⟨⟨h.fine.managed, h.fine.shaUp, h.fine.indexUp, h.fine.owner⟩, fun _ => rfl, h.sha, h.index⟩

theorem few_lookup (r : Req) (s : Db E) (h : Few s) : Few (findEntry r s).2 := by
  cases hc : s.checked with
  | true => rw [C43_after_check r s hc (h.checked hc)]; exact h
  | false =>
    have hens : Few (ensureIndex s).2 ∧ (ensureIndex s).2.index.isSome = true ∧ (ensureIndex s).2.checked = false := by
      unfold ensureIndex
      cases hi : s.index with
      | some ix => exact ⟨h, by simp only; rw [hi]; rfl, hc⟩
      | none => exact few_load s h hc
    unfold findEntry
    generalize ensureIndex s = x at *
    obtain ⟨er, s1⟩ := x
    simp only at hens
    obtain ⟨hF, hI, hC⟩ := hens
    cases er with
    | some er => exact hF
    | none =>
      simp only
      cases lookIn r s1 with
      | error er => exact hF
      | ok v =>
        cases v with
        | some e => exact hF
        | none =>
          simp only [hC, Bool.false_eq_true, if_false]
          obtain ⟨s2, h1, h2, h3, h4⟩ := few_reload s1 hF hC hI
          rw [h1]
          simp only
          obtain ⟨c, hc2⟩ := Option.isSome_iff_exists.1 h4
          have hl := loadIndex_there s2 .cache c.1 h3 (by simp [World.read, hc2])
          rw [hl]
          cases load E.P c.1 with
          | error er => exact few_index s2 _ h2
          | ok ix => exact few_index s2 _ h2

/-- A new session with the cache on, everything reachable: however many lookups are made, whatever is published meanwhile, the
checksum is fetched at most once and the index at most twice. -/
theorem C43_bound (ops : List (Op E)) (s : Db E) (hf : Fine s) (h1 : s.checked = false) (h2 : s.w.log = [])
    (ho : ∀ o ∈ ops, (∃ r, o = .lookup r) ∨ ∃ f sha, o = .publish f sha) :
    (runOps ops s).w.log.count .sha ≤ 1 ∧ (runOps ops s).w.log.count .index ≤ 2 := by
  have key : ∀ (ops : List (Op E)) (s : Db E), Few s → (∀ o ∈ ops, (∃ r, o = .lookup r) ∨ ∃ f sha, o = .publish f sha) →
      Few (ops.foldl (fun s o => step o s) s) := by
    intro ops
    induction ops with
    | nil => intro s h _; exact h
    | cons o ops ih =>
      intro s h ho
      rw [List.foldl_cons]
      apply ih _ _ (fun o h => ho o (by simp [h]))
      rcases ho o (by simp) with ⟨r, rfl⟩ | ⟨f, sha, rfl⟩
      · exact few_lookup r s h
      · exact ⟨⟨h.fine.managed, h.fine.shaUp, h.fine.indexUp, h.fine.owner⟩, h.checked, h.sha, h.index⟩
  have := key ops s ⟨hf, by simp [h1], by simp [h2], by simp [h2]⟩ ho
  have a := this.sha; have b := this.index
  unfold runOps
  constructor
  · split at a <;> omega
  · split at b
    · exact b
    · split at b <;> omega

/-- With the cache policy "off" there is no such bound: every lookup that finds nothing downloads the index again. -/
theorem C43_off_every_miss (r : Req) (s : Db E) (ix : Index) (hm : s.w.managed = false) (hu : s.w.indexUp = true)
    (hc : s.checked = false) (hi : s.index = some ix) (hn : find E.P E.order ix r.input r.output (methodAlias r.method) = .ok none) :
    (findEntry r s).2.w.log = s.w.log ++ [Access.index] ∧ (findEntry r s).2.checked = false ∧
      (findEntry r s).2.w.managed = false := by
  have hl : lookIn r s = .ok none := by unfold lookIn; rw [hi]; simp [hn]
  unfold findEntry ensureIndex
  rw [hi]
  simp only [hl, hc, Bool.false_eq_true, if_false]
  unfold reload getIndex
  rw [hm]
  simp only [Bool.false_eq_true, if_false, fetchIndex, hu, if_true]
  rw [loadIndex_there _ (.tmp s.w.nextTmp) s.w.remote rfl (by simp [World.read])]
  cases load E.P s.w.remote with
  | error e => exact ⟨rfl, hc, hm⟩
  | ok ix => exact ⟨rfl, hc, hm⟩

/-! ### C44: a reload brings the remote index -/

/-- Cache entries have the checksum of their content. -/
def Coherent (s : Db E) : Prop := ∀ f sha, s.w.cached = some (f, some sha) → sha = E.shaOf f

/-- The texts at hand do not collide. -/
def NoCollision (s : Db E) : Prop := ∀ f o, s.w.cached = some (f, o) → E.shaOf f = E.shaOf s.w.remote → f = s.w.remote

theorem createCached_read (s : Db E) (p : IndexPath) (s' : Db E) (h : createCached s = (.ok p, s')) :
    p = .cache ∧ s'.w.read .cache = some ((s.w.cached.map Prod.fst).getD s.w.remote) ∧ s'.w.remote = s.w.remote := by
  unfold createCached at h
  cases hc : s.w.cached with
  | some c =>
    rw [hc] at h
    simp only [Prod.mk.injEq, Except.ok.injEq] at h
    obtain ⟨rfl, rfl⟩ := h
    exact ⟨rfl, by simp [World.read, hc], rfl⟩
  | none =>
    rw [hc] at h
    unfold fetchIndex at h
    simp only at h
    split at h
    · rename_i er s1 he
      cases h
    · rename_i f s1 he
      split at he
      · cases he
        simp only [Prod.mk.injEq, Except.ok.injEq] at h
        obtain ⟨rfl, rfl⟩ := h
        exact ⟨rfl, by simp [World.read], rfl⟩
      · cases he

/-- Whatever the state of the cache, cached copy absent, stale or current: after a successful reload the file in use has the
content of the remote index. -/
theorem C44_file (f : Force) (hf : f ≠ .no) (s s' : Db E) (hc : Coherent s) (hn : NoCollision s) (hr : s.w.remoteSha = E.shaOf s.w.remote)
    (h : reload f s = (none, s')) : ∃ p, s'.path = some p ∧ s'.w.read p = some s.w.remote ∧ s'.w.remote = s.w.remote := by
  unfold reload at h
  generalize hg : getIndex f s = x at h
  obtain ⟨er, s1⟩ := x
  cases er with
  | error er => simp at h
  | ok p =>
    simp only [Prod.mk.injEq, true_and] at h
    subst h
    refine ⟨p, rfl, ?_⟩
    unfold getIndex at hg
    split at hg
    · cases hcd : s.w.cached with
      | none =>
        rw [hcd] at hg
        obtain ⟨rfl, h2, h3⟩ := createCached_read s p s1 hg
        rw [hcd] at h2
        exact ⟨h2, h3⟩
      | some c =>
        obtain ⟨cf, o⟩ := c
        rw [hcd] at hg
        simp only at hg
        have hfalse : ∀ s2 : Db E, forceOf f o s = (.ok false, s2) → cf = s.w.remote ∧ s2.w.cached = some (cf, o) ∧ s2.w.remote = s.w.remote := by
          intro s2 h2
          unfold forceOf at h2
          cases f with
          | no => exact absurd rfl hf
          | compare =>
            cases o with
            | none => simp at h2
            | some sha =>
              unfold remoteSha at h2
              simp only at h2
              split at h2
              · cases h2
              · rename_i r s3 he
                split at he
                · cases he
                  simp only [Prod.mk.injEq, Except.ok.injEq, decide_eq_false_iff_not, ne_eq, not_not] at h2
                  obtain ⟨h5, rfl⟩ := h2
                  have := hc cf sha hcd
                  refine ⟨hn cf _ hcd (by rw [← this, h5, ← hr]), hcd, rfl⟩
                · cases he
          | force =>
            unfold remoteSha at h2
            simp only at h2
            split at h2 <;> simp at h2
        have htrue : ∀ b (s2 : Db E), forceOf f o s = (.ok b, s2) → s2.w.remote = s.w.remote := by
          intro b s2 h2
          unfold forceOf at h2
          cases f with
          | no => exact absurd rfl hf
          | compare =>
            cases o with
            | none => cases h2; rfl
            | some sha =>
              unfold remoteSha at h2
              simp only at h2
              split at h2
              · cases h2
              · rename_i r s3 he
                split at he
                · cases he; cases h2; rfl
                · cases he
          | force =>
            unfold remoteSha at h2
            simp only at h2
            split at h2
            · cases h2
            · rename_i r s3 he
              split at he
              · cases he; cases h2; rfl
              · cases he
        generalize hfo : forceOf f o s = y at hg hfalse htrue
        obtain ⟨b, s2⟩ := y
        cases b with
        | error er => simp at hg
        | ok b =>
          have hrem := htrue b s2 rfl
          cases b with
          | true =>
            simp only at hg
            obtain ⟨rfl, h2, h3⟩ := createCached_read _ p s1 hg
            simp only [Option.map_none, Option.getD_none] at h2 h3
            rw [hrem] at h2 h3
            exact ⟨h2, h3⟩
          | false =>
            simp only at hg
            obtain ⟨h4, h5, _⟩ := hfalse s2 rfl
            obtain ⟨rfl, h2, h3⟩ := createCached_read s2 p s1 hg
            rw [h5] at h2
            simp only [Option.map_some, Option.getD_some] at h2
            rw [h4] at h2
            exact ⟨h2, h3.trans hrem⟩
    · unfold fetchIndex at hg
      simp only at hg
      split at hg
      · cases hg
      · rename_i c s2 he
        split at he
        · cases he
          simp only [Prod.mk.injEq, Except.ok.injEq] at hg
          obtain ⟨rfl, rfl⟩ := hg
          exact ⟨by simp [World.read], rfl⟩
        · cases he

/-- ... and loading takes exactly that index. -/
theorem C44_loaded (f : Force) (hf : f ≠ .no) (s s' : Db E) (hc : Coherent s) (hn : NoCollision s) (hr : s.w.remoteSha = E.shaOf s.w.remote)
    (h : reload f s = (none, s')) (ix : Index) (hl : load E.P s.w.remote = .ok ix) :
    (loadIndex s').1 = none ∧ (loadIndex s').2.index = some ix := by
  obtain ⟨p, h1, h2, _⟩ := C44_file f hf s s' hc hn hr h
  rw [loadIndex_there s' p _ h1 h2, hl]
  exact ⟨rfl, rfl⟩

/-- A lookup that finds nothing, in a session that has not checked yet, answers for the current remote index. -/
theorem C44_first_miss (r : Req) (s s' : Db E) (v : Option Entry) (old ix : Index) (hc : Coherent s) (hn : NoCollision s)
    (hr : s.w.remoteSha = E.shaOf s.w.remote) (hk : s.checked = false) (hi : s.index = some old)
    (hl : load E.P s.w.remote = .ok ix) (h : findEntry r s = (.ok v, s'))
    (hmiss : find E.P E.order old r.input r.output (methodAlias r.method) = .ok none) :
    find E.P E.order ix r.input r.output (methodAlias r.method) = .ok v := by
  have hlk : lookIn r s = .ok none := by unfold lookIn; rw [hi]; simp [hmiss]
  unfold findEntry ensureIndex at h
  rw [hi] at h
  simp only [hlk, hk, Bool.false_eq_true, if_false] at h
  generalize hrel : reload .compare s = y at h
  obtain ⟨er, s2⟩ := y
  cases er with
  | some er => simp at h
  | none =>
    obtain ⟨a, b⟩ := C44_loaded .compare (by simp) s s2 hc hn hr hrel ix hl
    simp only at h
    generalize loadIndex s2 = z at h a b
    obtain ⟨er, s3⟩ := z
    simp only at a b
    subst a
    simp only [Prod.mk.injEq] at h
    obtain ⟨h1, rfl⟩ := h
    unfold lookIn at h1
    rw [b] at h1
    simp only [Option.getD_some] at h1
    split at h1
    · rename_i e he; cases h1; exact he
    · cases h1

/-- An up-to-date copy is not downloaded again. -/
theorem C44_no_download (s s' : Db E) (hm : s.w.managed = true) (f : IndexFile) (hcd : s.w.cached = some (f, some (E.shaOf f)))
    (hr : s.w.remoteSha = E.shaOf f) (h : reload .compare s = (none, s')) :
    s'.w.log = s.w.log ++ [Access.sha] ∧ s'.w.cached = s.w.cached := by
  unfold reload getIndex at h
  rw [hm, if_pos rfl, hcd] at h
  simp only [forceOf, remoteSha] at h
  cases hu : s.w.shaUp with
  | false => simp [hu] at h
  | true =>
    simp only [hu, if_true, hr, ne_eq, not_true, decide_false, createCached, hcd] at h
    simp only [Prod.mk.injEq, true_and] at h
    subst h
    exact ⟨rfl, hcd.symm ▸ rfl⟩

/-- The hypothesis on checksums always holds: every state reachable in a session with a coherent cache has it. -/
theorem C44_coherent (ops : List (Op E)) (s : Db E) (h : Coherent s) : Coherent (runOps ops s) := by
  have hcreate : ∀ s : Db E, Coherent s → Coherent (createCached s).2 := by
    intro s h
    unfold createCached
    cases hc : s.w.cached with
    | some c => exact h
    | none =>
      simp only [fetchIndex]
      cases s.w.indexUp with
      | false => intro f sha hf; simp only [Bool.false_eq_true, if_false] at hf; exact h f sha hf
      | true =>
        intro f sha hf
        simp only [if_true, Option.some.injEq, Prod.mk.injEq] at hf
        obtain ⟨rfl, rfl⟩ := hf
        rfl
  have hforce : ∀ f o (s : Db E), Coherent s → Coherent (forceOf f o s).2 := by
    intro f o s h
    unfold forceOf
    cases f with
    | no => exact h
    | compare =>
      cases o with
      | none => exact h
      | some sha => simp only [remoteSha]; cases s.w.shaUp <;> exact h
    | force => simp only [remoteSha]; cases s.w.shaUp <;> exact h
  have hget : ∀ f (s : Db E), Coherent s → Coherent (getIndex f s).2 := by
    intro f s h
    unfold getIndex
    split
    · cases hc : s.w.cached with
      | none => exact hcreate s h
      | some c =>
        obtain ⟨cf, o⟩ := c
        simp only
        have := hforce f o s h
        generalize forceOf f o s = y at *
        obtain ⟨b, s2⟩ := y
        cases b with
        | error e => exact this
        | ok b =>
          cases b with
          | true => exact hcreate _ (by intro f sha hf; cases hf)
          | false => exact hcreate _ this
    · simp only [fetchIndex]
      cases s.w.indexUp <;> exact h
  have hreload : ∀ f (s : Db E), Coherent s → Coherent (reload f s).2 := by
    intro f s h
    unfold reload
    have := hget f s h
    generalize getIndex f s = y at *
    obtain ⟨b, s2⟩ := y
    cases b <;> exact this
  have hload : ∀ (s : Db E), Coherent s → Coherent (loadIndex s).2 := by
    intro s h
    have h' : Coherent ({ s with index := some [] } : Db E) := h
    unfold loadIndex
    have hp : Coherent (indexPath ({ s with index := some [] } : Db E)).2 := by
      unfold indexPath
      split
      · exact h'
      · have := hget .no _ h'
        generalize getIndex .no ({ s with index := some [] } : Db E) = y at *
        obtain ⟨b, s2⟩ := y
        cases b <;> exact this
    generalize indexPath ({ s with index := some [] } : Db E) = y at *
    obtain ⟨b, s2⟩ := y
    cases b with
    | error e => exact hp
    | ok p =>
      simp only
      split
      · exact hp
      · split
        · exact hp
        · exact hp
  have hfind : ∀ r (s : Db E), Coherent s → Coherent (findEntry r s).2 := by
    intro r s h
    unfold findEntry
    have he : Coherent (ensureIndex s).2 := by
      unfold ensureIndex
      split
      · exact h
      · exact hload s h
    generalize ensureIndex s = y at *
    obtain ⟨b, s1⟩ := y
    cases b with
    | some e => exact he
    | none =>
      simp only
      split
      · exact he
      · exact he
      · split
        · exact he
        · have := hreload .compare s1 he
          generalize reload .compare s1 = y at *
          obtain ⟨b, s2⟩ := y
          cases b with
          | some e => exact this
          | none =>
            simp only
            have := hload s2 this
            generalize loadIndex s2 = y at *
            obtain ⟨b, s2⟩ := y
            cases b <;> exact this
  have hstep : ∀ o (s : Db E), Coherent s → Coherent (step o s) := by
    intro o s h
    cases o with
    | lookup r => exact hfind r s h
    | refresh =>
      unfold step
      have := hreload .force s h
      generalize reload .force s = y at *
      obtain ⟨b, s2⟩ := y
      cases b with
      | some e => exact this
      | none => exact hload s2 this
    | publish f sha => exact h
    | network a b => exact h
    | evict => intro f sha hf; cases hf
    | policy b => exact h
  unfold runOps
  induction ops generalizing s with
  | nil => exact h
  | cons o ops ih => rw [List.foldl_cons]; exact ih _ (hstep o s h)

/-! ### C45: local inventories -/

/-- Whatever the session did before (any index in memory, however stale): when the index file on disk has an entry for the
request, the lookup finds one for it. -/
theorem C45_found (P : Py) (order : List String) (r : Req) (s : LocalDb) (f : IndexFile) (ix : Index) (e : Entry) (hf : s.file = some f)
    (hl : load P f = .ok ix) (h : find P order ix r.input r.output (methodAlias r.method) = .ok (some e))
    (hm : ∀ old er, s.index = some old → find P order old r.input r.output (methodAlias r.method) ≠ .error er) :
    ∃ e', (localFind P order r s).1 = .ok (some e') ∧ (e' = e ∨ ∃ old, s.index = some old ∧
      find P order old r.input r.output (methodAlias r.method) = .ok (some e')) := by
  have hload : ∀ j, localLoad P { s with index := j } = (none, { s with index := some ix }) := by
    intro j; unfold localLoad; simp only [hf, hl]
  have hlook : localLook P order r { s with index := some ix } = .ok (some e) := by
    unfold localLook; simp only [Option.getD_some, h]
  unfold localFind localEnsure
  cases hi : s.index with
  | none =>
    have h1 := hload s.index
    have h2 : ({ s with index := s.index } : LocalDb) = s := rfl
    rw [h2] at h1
    simp only [h1, hlook]
    exact ⟨e, rfl, Or.inl rfl⟩
  | some old =>
    simp only
    cases hq : find P order old r.input r.output (methodAlias r.method) with
    | error er => exact absurd hq (hm old er hi)
    | ok v =>
      have h3 : localLook P order r s = .ok v := by unfold localLook; simp only [hi, Option.getD_some, hq]
      rw [h3]
      cases v with
      | some e' => exact ⟨e', rfl, Or.inr ⟨old, rfl, hq⟩⟩
      | none =>
        have h1 := hload s.index
        have h2 : ({ s with index := s.index } : LocalDb) = s := rfl
        rw [h2] at h1
        simp only [h1, hlook]
        exact ⟨e, rfl, Or.inl rfl⟩

/-- When the index in memory has no entry for the request the answer is that of the file now on disk, entry or no entry. -/
theorem C45_current (P : Py) (order : List String) (r : Req) (s : LocalDb) (f : IndexFile) (ix old : Index) (v : Option Entry)
    (hf : s.file = some f) (hl : load P f = .ok ix) (hi : s.index = some old)
    (hm : find P order old r.input r.output (methodAlias r.method) = .ok none)
    (h : find P order ix r.input r.output (methodAlias r.method) = .ok v) :
    localFind P order r s = (.ok v, { s with index := some ix }) := by
  have h1 : localLoad P s = (none, { s with index := some ix }) := by unfold localLoad; simp only [hf, hl]
  have h3 : localLook P order r s = .ok none := by unfold localLook; simp only [hi, Option.getD_some, hm]
  have hlook : localLook P order r { s with index := some ix } = .ok v := by
    unfold localLook; simp only [Option.getD_some, h]
  unfold localFind localEnsure
  simp only [hi, h3, h1, hlook]

/-- Lookups leave the file alone. -/
theorem C45_reads_only (P : Py) (order : List String) (r : Req) (s : LocalDb) : (localFind P order r s).2.file = s.file := by
  have hl : ∀ s : LocalDb, (localLoad P s).2.file = s.file := by
    intro s; unfold localLoad; simp only
    split
    · rfl
    · split <;> rfl
  unfold localFind
  have h0 : (localEnsure P s).2.file = s.file := by
    unfold localEnsure
    cases s.index with
    | none => exact hl s
    | some _ => rfl
  generalize localEnsure P s = y at h0
  obtain ⟨b, s1⟩ := y
  cases b with
  | some e => exact h0
  | none =>
    simp only
    split
    · exact h0
    · exact h0
    · have := hl s1
      generalize localLoad P s1 = z at this
      obtain ⟨c, s2⟩ := z
      cases c with
      | some e => exact this.trans h0
      | none => exact this.trans h0

/-! ### C81: network failures -/

/-- The lookup finds nothing in the index in memory. -/
def Misses (r : Req) (s : Db E) : Prop :=
  ∃ ix, s.index = some ix ∧ find E.P E.order ix r.input r.output (methodAlias r.method) = .ok none

theorem misses_unfold (r : Req) (s : Db E) (h : Misses r s) (hk : s.checked = false) : findEntry r s =
    match reload .compare s with
    | (some e, s) => (.error e, s)
    | (none, s) =>
      match loadIndex s with
      | (some e, s) => (.error e, s)
      | (none, s) => (lookIn r s, s) := by
  obtain ⟨ix, hi, hf⟩ := h
  have hlk : lookIn r s = .ok none := by unfold lookIn; rw [hi]; simp [hf]
  unfold findEntry ensureIndex
  rw [hi]
  simp only [hlk, hk, Bool.false_eq_true, if_false]
  generalize reload .compare s = x
  obtain ⟨a, b⟩ := x
  cases a with
  | some e => rfl
  | none =>
    simp only
    generalize loadIndex b = y
    obtain ⟨c, d⟩ := y
    cases c <;> rfl

/-- The checksum cannot be fetched: the lookup fails, and nothing but the attempt is left of it (index in memory, cached copy,
flag, path), so that the same lookup later does what it would have done the first time. -/
theorem C81_checksum_partial (r : Req) (s : Db E) (hm : s.w.managed = true) (hd : s.w.shaUp = false) (hk : s.checked = false)
    (f : IndexFile) (sha : E.Sha) (hc : s.w.cached = some (f, some sha)) (h : Misses r s) :
    findEntry r s = (.error .network, { s with w := { s.w with log := s.w.log ++ [Access.sha] } }) := by
  rw [misses_unfold r s h hk]
  have hg : getIndex .compare s = (.error .network, { s with w := { s.w with log := s.w.log ++ [Access.sha] } }) := by
    unfold getIndex
    rw [if_pos hm, hc]
    simp only [forceOf, remoteSha, hd, Bool.false_eq_true, if_false]
  unfold reload
  rw [hg]

/-- There is no cached copy and the index cannot be fetched: the lookup fails, and the same lookup later, with the network back,
answers for the remote index. -/
theorem C81_first_download_partial (r : Req) (s : Db E) (hm : s.w.managed = true) (hd : s.w.indexUp = false) (hk : s.checked = false)
    (hc : s.w.cached = none) (hi : s.index = none) (hp : s.path = none) (ix : Index)
    (hl : load E.P s.w.remote = .ok ix) (v : Option Entry)
    (hv : find E.P E.order ix r.input r.output (methodAlias r.method) = .ok v) :
    (findEntry r s).1 = .error .network ∧
    (findEntry r (step (.network true true) (findEntry r s).2)).1 = .ok v := by
  have hload : loadIndex s = (some .network, { s with w := { s.w with log := s.w.log ++ [Access.index] }, index := some [] }) := by
    unfold loadIndex indexPath
    simp only [hp, Option.bind_none]
    unfold getIndex
    simp only [if_pos hm]
    simp only [hc, createCached, fetchIndex, hd, Bool.false_eq_true, if_false]
  have h1 : findEntry r s = (.error .network, { s with w := { s.w with log := s.w.log ++ [Access.index] }, index := some [] }) := by
    unfold findEntry ensureIndex
    rw [hi]
    simp only [hload]
  rw [h1]
  refine ⟨rfl, ?_⟩
  have hnil : find E.P E.order [] r.input r.output (methodAlias r.method) = .ok none := by
    obtain ⟨gi, go, h2, h3, h4⟩ := find_ok E.P E.order ix r.input r.output _ v |>.1 hv
    exact (find_ok E.P E.order [] r.input r.output _ none).2 ⟨gi, go, h2, h3, rfl⟩
  simp only [step]
  rw [misses_unfold r _ ⟨[], rfl, hnil⟩ (by exact hk)]
  unfold reload getIndex
  rw [if_pos (by exact hm)]
  simp only [hc, createCached, fetchIndex, if_true]
  rw [loadIndex_there _ .cache s.w.remote rfl (by simp [World.read])]
  simp only [hl, lookIn, Option.getD_some, hv]

/-- The checksum is fetched and tells that the cached copy is old, but the new index cannot be fetched: the lookup fails, the
cached copy is gone, and every later lookup of the session that misses in memory finds nothing, without any access, although
the network is back and whatever the remote index has. -/
theorem C81_refuted (r r' : Req) (s : Db E) (hm : s.w.managed = true) (hs : s.w.shaUp = true) (hd : s.w.indexUp = false)
    (hk : s.checked = false) (f : IndexFile) (sha : E.Sha) (hc : s.w.cached = some (f, some sha)) (hne : sha ≠ s.w.remoteSha)
    (h : Misses r s) (h' : Misses r' s) :
    (findEntry r s).1 = .error .network ∧ (findEntry r s).2.w.cached = none ∧
    findEntry r' (step (.network true true) (findEntry r s).2) = (.ok none, step (.network true true) (findEntry r s).2) := by
  have h1 : findEntry r s = (.error .network, { s with w := { s.w with log := s.w.log ++ [Access.sha] ++ [Access.index], cached := none }, checked := true }) := by
    rw [misses_unfold r s h hk]
    unfold reload getIndex
    rw [if_pos hm, hc]
    simp only [forceOf, remoteSha, if_pos hs, ne_eq, hne, not_false_eq_true, decide_true, createCached, fetchIndex, hd,
      Bool.false_eq_true, if_false]
  rw [h1]
  refine ⟨rfl, rfl, ?_⟩
  obtain ⟨ix, hi, hf⟩ := h'
  simp only [step]
  unfold findEntry ensureIndex
  simp only [hi]
  simp only [lookIn, Option.getD_some, hf, if_true]

/-! ### A session -/

/-- An index without entries. -/
def emptyFile : IndexFile := ⟨some VERSION, some []⟩

/-- Checksum: the number of entries. -/
def countEnv (P : Py) (order : List String) : Env where
  P := P
  order := order
  Sha := Nat
  shaOf := fun f => (f.matrix.getD []).length

/-- The inventory with two entries has just been published; the cache has the empty one. -/
def stale (P : Py) (order : List String) (shaUp indexUp : Bool) : Db (countEnv P order) where
  w := { remote := twoFile, remoteSha := (2 : Nat), shaUp := shaUp, indexUp := indexUp, cached := some (emptyFile, some (0 : Nat)),
         managed := true, tmp := fun _ => none, nextTmp := 0, log := [] }
  path := none
  checked := false
  index := some []

def ask : Req := ⟨orca none, orca none, "linear".toList⟩

theorem ask_misses (P : Py) (order : List String) (a b : Bool) : Misses ask (stale P order a b) :=
  ⟨[], rfl, orca_find P order [] none⟩

theorem ask_finds (P : Py) (order : List String) (ho : Enumerates order) :
    find P order twoIndex (orca none) (orca none) "linear".toList = .ok (some (entryOf "a" (some (.int 1)))) := by
  have hd3 : shapesDiffer (orcaSpec (some (.int 1))).d (orcaSpec none).d = false := by rw [orca_shapes]
  rw [orca_find]
  simp only [twoIndex, search, linear_match P order ho, hd3]
  rfl

/-- With the network up the published entry is found ... -/
theorem session_finds (P : Py) (order : List String) (ho : Enumerates order) :
    (findEntry ask (stale P order true true)).1 = .ok (some (entryOf "a" (some (.int 1)))) := by
  rw [misses_unfold _ _ (ask_misses P order true true) rfl]
  have hg : reload .compare (stale P order true true) = (none, { downloaded (compared (stale P order true true)) with path := some .cache }) := rfl
  rw [hg]
  simp only
  rw [loadIndex_there _ .cache twoFile rfl rfl]
  have : load (countEnv P order).P twoFile = .ok twoIndex := two_load P
  rw [this]
  simp only [lookIn, Option.getD_some]
  have : find (countEnv P order).P (countEnv P order).order twoIndex ask.input ask.output (methodAlias ask.method) = .ok (some (entryOf "a" (some (.int 1)))) :=
    ask_finds P order ho
  rw [this]

/-- ... but not, ever, in a session where the download failed once after the checksum was fetched. -/
example (P : Py) (order : List String) (ho : Enumerates order) :
    (findEntry ask (stale P order true true)).1 = .ok (some (entryOf "a" (some (.int 1)))) ∧
    (findEntry ask (stale P order true false)).1 = .error .network ∧
    (findEntry ask (step (.network true true) (findEntry ask (stale P order true false)).2)).1 = .ok none := by
  have h := C81_refuted ask ask (stale P order true false) rfl rfl rfl rfl emptyFile (0 : Nat) rfl (show (0 : Nat) ≠ 2 by decide) (ask_misses P order _ _) (ask_misses P order _ _)
  exact ⟨session_finds P order ho, h.1, by rw [h.2.2]⟩
example (P : Py) (order : List String) : (findEntry ask (stale P order false true)).1 = .error .network := by
  rw [C81_checksum_partial ask _ rfl rfl rfl emptyFile (0 : Nat) rfl (ask_misses P order _ _)]
theorem stale_fine (P : Py) (order : List String) : Coherent (stale P order true true) ∧ NoCollision (stale P order true true) ∧
    Fine (stale P order true true) := by
  refine ⟨?_, ?_, rfl, rfl, rfl, ?_⟩
  · intro f sha h; cases h; rfl
  · intro f o h h2; cases h; exact absurd (show (0 : Nat) = 2 from h2) (by decide)
  · intro f o h; cases h; rfl
example (P : Py) (order : List String) (ho : Enumerates order) :
    (localFind P order ask ⟨some twoFile, some []⟩).1 = .ok (some (entryOf "a" (some (.int 1)))) := by
  rw [C45_current P order ask ⟨some twoFile, some []⟩ twoFile twoIndex [] _ rfl (two_load P) rfl (orca_find P order [] none) (ask_finds P order ho)]

/-- After the new inventory was fetched. -/
def current (P : Py) (order : List String) : Db (countEnv P order) :=
  { downloaded (compared (stale P order true true)) with path := some .cache, index := some twoIndex }

theorem session_current (P : Py) (order : List String) (ho : Enumerates order) :
    findEntry ask (stale P order true true) = (.ok (some (entryOf "a" (some (.int 1)))), current P order) := by
  rw [misses_unfold _ _ (ask_misses P order true true) rfl]
  have hg : reload .compare (stale P order true true) = (none, { downloaded (compared (stale P order true true)) with path := some .cache }) := rfl
  rw [hg]
  simp only
  rw [loadIndex_there _ .cache twoFile rfl rfl]
  have : load (countEnv P order).P twoFile = .ok twoIndex := two_load P
  rw [this]
  simp only [lookIn, Option.getD_some]
  have : find (countEnv P order).P (countEnv P order).order twoIndex ask.input ask.output (methodAlias ask.method) = .ok (some (entryOf "a" (some (.int 1)))) :=
    ask_finds P order ho
  rw [this]
  rfl

/-- `C41_alias`, `C41_only_those` -/
example (P : Py) (order : List String) (ho : Enumerates order) (s : Db (countEnv P order)) :
    findEntry ⟨orca none, orca none, "nn".toList⟩ s = findEntry ⟨orca none, orca none, "nearest-neighbor".toList⟩ s ∧
    ∃ m, MethodIs (rawOf (some (.int 1))) m ∧ SameMethod "linear".toList m :=
  ⟨C41_alias _ _ _ _ (.inr ⟨by simp, by simp⟩) s, C41_only_those ask _ _ _ (session_current P order ho)⟩

/-- `C43_hit`, `C43_after_check`, `C43_rest_of_session` in the session that follows. -/
example (P : Py) (order : List String) (ho : Enumerates order) (r : Req) :
    findEntry ask (current P order) = (.ok (some (entryOf "a" (some (.int 1)))), current P order) ∧
    (findEntry r (current P order)).2 = current P order ∧
    (runOps [.lookup ask, .publish emptyFile (0 : Nat), .network false false, .lookup r] (current P order)).w.log = [.sha, .index] :=
  ⟨C43_hit ask (current P order) twoIndex _ rfl (ask_finds P order ho), C43_after_check r (current P order) rfl rfl,
    (C43_rest_of_session [.lookup ask, .publish emptyFile (0 : Nat), .network false false, .lookup r] (current P order) rfl rfl (by simp)).1⟩

def busy (P : Py) (order : List String) (r r' : Req) (f : IndexFile) (n : Nat) : List (Op (countEnv P order)) :=
  [.lookup r, .publish f n, .lookup ask, .lookup r']

theorem busy_ops (P : Py) (order : List String) (r r' : Req) (f : IndexFile) (n : Nat) :
    ∀ o ∈ busy P order r r' f n, (∃ r, o = .lookup r) ∨ ∃ f sha, o = .publish f sha := by
  intro o h
  simp only [busy, List.mem_cons, List.not_mem_nil, or_false] at h
  rcases h with rfl | rfl | rfl | rfl
  exacts [.inl ⟨_, rfl⟩, .inr ⟨_, _, rfl⟩, .inl ⟨_, rfl⟩, .inl ⟨_, rfl⟩]

/-- `C43_bound` -/
example (P : Py) (order : List String) (r r' : Req) (f : IndexFile) (n : Nat) :
    (runOps (busy P order r r' f n) (stale P order true true)).w.log.count .sha ≤ 1 :=
  (C43_bound (busy P order r r' f n) (stale P order true true) (stale_fine P order).2.2 rfl rfl (busy_ops P order r r' f n)).1

/-- `C43_off_every_miss` -/
example (P : Py) (order : List String) :
    (findEntry ask (step (.policy false) (stale P order true true))).2.w.log = [Access.index] :=
  (C43_off_every_miss ask (step (.policy false) (stale P order true true)) [] rfl rfl rfl rfl (orca_find P order [] none)).1

/-- `C44_file`, `C44_loaded`, `C44_first_miss`, `C44_coherent` -/
example (P : Py) (order : List String) (ho : Enumerates order) (f : IndexFile) (n : Nat) :
    (∃ p, ({ downloaded (compared (stale P order true true)) with path := some .cache } : Db (countEnv P order)).path = some p ∧
      ({ downloaded (compared (stale P order true true)) with path := some .cache } : Db (countEnv P order)).w.read p = some twoFile ∧
      ({ downloaded (compared (stale P order true true)) with path := some .cache } : Db (countEnv P order)).w.remote = twoFile) ∧
    (loadIndex ({ downloaded (compared (stale P order true true)) with path := some .cache } : Db (countEnv P order))).2.index = some twoIndex ∧
    find P order twoIndex (orca none) (orca none) "linear".toList = .ok (some (entryOf "a" (some (.int 1)))) ∧
    Coherent (runOps [.lookup ask, .publish f n, .refresh] (stale P order true true)) :=
  ⟨C44_file .compare (by simp) (stale P order true true) _ (stale_fine P order).1 (stale_fine P order).2.1 rfl rfl,
    (C44_loaded .compare (by simp) (stale P order true true) _ (stale_fine P order).1 (stale_fine P order).2.1 rfl rfl twoIndex (two_load P)).2,
    C44_first_miss ask (stale P order true true) _ _ [] twoIndex (stale_fine P order).1 (stale_fine P order).2.1 rfl rfl rfl (two_load P)
      (session_current P order ho) (orca_find P order [] none),
    C44_coherent _ _ (stale_fine P order).1⟩

/-- `C44_no_download`: the cached file is the published one. -/
example (P : Py) (order : List String) :
    (reload .compare ({ current P order with checked := false } : Db (countEnv P order))).2.w.log = [.sha, .index, .sha] :=
  (C44_no_download ({ current P order with checked := false } : Db (countEnv P order)) _ rfl twoFile rfl rfl rfl).1

/-- `C45_found` -/
example (P : Py) (order : List String) (ho : Enumerates order) :
    ∃ e', (localFind P order ask ⟨some twoFile, none⟩).1 = .ok (some e') ∧ (e' = entryOf "a" (some (.int 1)) ∨ ∃ old, none = some old ∧
      find P order old (orca none) (orca none) "linear".toList = .ok (some e')) :=
  C45_found P order ask ⟨some twoFile, none⟩ twoFile twoIndex _ rfl (two_load P) (ask_finds P order ho) (by rintro _ _ h; cases h)

/-- `C81_first_download_partial`: nothing in the cache, the network down for the first lookup. -/
example (P : Py) (order : List String) (ho : Enumerates order) :
    (findEntry ask (step (.network true true)
      (findEntry ask (step .evict ({ stale P order true false with index := none } : Db (countEnv P order)))).2)).1 =
      .ok (some (entryOf "a" (some (.int 1)))) :=
  (C81_first_download_partial ask (step .evict ({ stale P order true false with index := none } : Db (countEnv P order))) rfl rfl rfl rfl rfl rfl
    twoIndex (two_load P) _ (ask_finds P order ho)).2

end Verif.Index

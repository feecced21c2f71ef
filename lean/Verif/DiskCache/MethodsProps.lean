import Verif.DiskCache.PolicyProps

/-!
# C162: the methods of the cache object work on the cache in force, and on nothing when there is none

`size()`, `entries()`, `summary_dump_database()`, `check_size()`, `purge()`: docs/guide/misc/caching.rst, "Cache methods"; "Does not work when the
`cache-policy` is off" in their documentation.
-/

namespace Verif.DiskCache.Policy
open Verif.Config

/-! ## Model -/

/-- Where the manager's database is: `os.path.join(self._policy.directory(), CACHE_DB)` — caching.py:136-146, 705-706, 740-741. -/
def managerDir (s : CacheSt) : Option Dir :=
  match s.manager with
  | some (some q) =>
    match q.kind with
    | .user => some (.at q.path)
    | .temporary => q.dir
    | .off => none
  | _ => none

/-- `_call_manager` — caching.py:799-809: `f` is the method of the manager, which works on what is in one directory (files and database);
without a database the manager's `with self.connection` raises. The caller waits for the result (`forget` is for `check_size` only, whose
result is thrown away). -/
def callManager {X R : Type} (expand : List Char → List Char) (v : View) (broken : Bool) (f : X → Except Fail R × X) (s : CacheSt) (w : Dir → X) :
    Except Fail (Option R) × CacheSt × (Dir → X) :=
  match getPolicy expand v broken s with
  | (.error e, s') => (.error e, s', w)
  | (.ok _, s') =>
    match s'.policy with
    | none => (.error .attribute, s', w)
    | some p =>
      if p.kind.managed && s'.manager.isSome then
        match managerDir s' with
        | none => (.error .attribute, s', w)
        | some d => ((f (w d)).1.map some, s', fun d' => if d' = d then (f (w d)).2 else w d')
      else (.ok none, s', w)

/-! ## Specification -/

/-- Something that happens: an event of the cache, or a method call. -/
inductive Happening (X R : Type) where
  | event (e : CacheEv)
  | call (v : View) (broken : Bool) (f : X → Except Fail R × X)

/-- What it does to the cache and to the directories. -/
def Happening.apply {X R : Type} (expand : List Char → List Char) (st : CacheSt × (Dir → X)) : Happening X R → CacheSt × (Dir → X)
  | .event e => (cacheStep expand st.1 e, st.2)
  | .call v b f => (callManager expand v b f st.1 st.2).2

def runAll {X R : Type} (expand : List Char → List Char) (st : CacheSt × (Dir → X)) (h : List (Happening X R)) : CacheSt × (Dir → X) :=
  h.foldl (Happening.apply expand) st

/-! ## Proofs -/

/-- The manager has the directory of the active policy. -/
def Agrees (s : CacheSt) : Prop :=
  ∀ p, s.policy = some p → p.kind.managed = true → ∃ q, s.manager = some (some q) ∧ q.kind = p.kind ∧ q.path = p.path ∧ q.dir = p.dir

theorem agrees_make {expand : List Char → List Char} {v : View} {b : Bool} {s : CacheSt} (h : Agrees s) : Agrees (makePolicy expand v b s).2 := by
  cases hs : s.policy with
  | some p => rw [makePolicy_some hs]; exact h
  | none =>
    rcases makePolicy_none (expand := expand) (v := v) (b := b) hs with ⟨e, he⟩ | ⟨p, o, hf, hp, _, hm, _⟩
    · rw [he]; exact h
    · intro q hq hk
      rw [hp] at hq; cases hq
      exact ⟨p, hm hk, rfl, rfl, rfl⟩

theorem agrees_refresh {expand : List Char → List Char} {v : View} {b : Bool} {p : Policy} {s : CacheSt} (h : Agrees s)
    (hp : s.policy = some p) : Agrees (refresh expand v b p s).2 := by
  rcases refresh_cases expand v b p s with ⟨e, he⟩ | ⟨_, he⟩ | ⟨_, hpol, _, hman⟩
  · rw [he]; exact h
  · rw [he]; exact agrees_make (fun p h => (by cases h))
  · intro q hq hk
    rw [hpol] at hq; cases hq
    obtain ⟨m, hm, e1, e2, e3⟩ := h p hp hk
    rcases hman with ⟨e, _, _, h1⟩ | ⟨c, _, ⟨_, h1, _⟩ | ⟨_, ⟨h0, _⟩ | h1⟩⟩
    · exact ⟨m, h1.trans hm, e1, e2, e3⟩
    · exact ⟨m, h1.trans hm, e1, e2, e3⟩
    · rw [hm] at h0; cases h0
    · exact ⟨_, h1, rfl, rfl, rfl⟩

theorem agrees_step {expand : List Char → List Char} {s : CacheSt} (h : Agrees s) (hc : Cached expand s) (e : CacheEv) :
    Agrees (cacheStep expand s e) := by
  cases e with
  | changed v b =>
    show Agrees (configChanged expand v b s).2
    rcases configChanged_cases expand v b s with ⟨e, he⟩ | ⟨e, he⟩ | ⟨p, _, hp, he⟩
    · rw [he]; exact h
    · rw [he]; exact agrees_make h
    · rw [he]; exact agrees_refresh (agrees_make h) hp
  | used v b => exact agrees_make h
  | directory v b =>
    show Agrees (cacheDirectory expand v b s).2
    rcases cacheDirectory_cases expand v b s with ⟨e, he⟩ | ⟨p, d, p', o', hp, hd, he⟩
    · rw [he]; exact agrees_make h
    · rw [he]
      intro q hq hk
      cases hq
      rcases directory_made ((cached_make hc).made p hp) hd with ⟨_, _, e⟩ | ⟨_, _, e⟩ | ⟨hk', e, _⟩
      · subst e; exact agrees_make h _ hp hk
      · subst e; exact agrees_make h _ hp hk
      · subst e
        replace hk : p.kind.managed = true := hk
        rw [hk'] at hk; cases hk

/-- A method call leaves the state as the property `policy` does. -/
theorem call_state {X R : Type} (expand : List Char → List Char) (v : View) (b : Bool) (f : X → Except Fail R × X) (s : CacheSt) (w : Dir → X) :
    (callManager expand v b f s w).2.1 = (makePolicy expand v b s).2 := by
  unfold callManager getPolicy
  generalize makePolicy expand v b s = m
  obtain ⟨m1, m2⟩ := m
  cases m1 with
  | error e => rfl
  | ok _ =>
    simp only
    split
    · rfl
    · split
      · split <;> rfl
      · rfl

theorem all_good {X R : Type} {expand : List Char → List Char} (h : List (Happening X R)) : ∀ {st : CacheSt × (Dir → X)}, Agrees st.1 → Cached expand st.1 →
    Agrees (runAll expand st h).1 ∧ Cached expand (runAll expand st h).1 := by
  induction h with
  | nil => intro st ha hc; exact ⟨ha, hc⟩
  | cons e h ih =>
    intro st ha hc
    show Agrees (runAll expand (e.apply expand st) h).1 ∧ Cached expand (runAll expand (e.apply expand st) h).1
    cases e with
    | event e => exact ih (agrees_step ha hc e) (cached_step hc e)
    | call v b f =>
      have : (Happening.apply expand st (.call v b f)).1 = (makePolicy expand v b st.1).2 := call_state expand v b f st.1 st.2
      exact ih (by rw [this]; exact agrees_make ha) (by rw [this]; exact cached_make hc)

/-- The call with a managed policy in force. -/
theorem call_managed {X R : Type} {expand : List Char → List Char} {v : View} {b : Bool} {s : CacheSt} {p : Policy} (ha : Agrees s) (hc : Cached expand s)
    (hp : s.policy = some p) (hk : p.kind.managed = true) (v' : View) (b' : Bool) (f : X → Except Fail R × X) (w : Dir → X) :
    ∃ d, cacheDirectory expand v b s = (.ok d, s) ∧
      callManager expand v' b' f s w = ((f (w d)).1.map some, s, fun d' => if d' = d then (f (w d)).2 else w d') := by
  obtain ⟨q, hq, e1, e2, e3⟩ := ha p hp hk
  have hm := hc.made p hp
  obtain ⟨d, hd, hd'⟩ : ∃ d, p.directory expand s.os = .ok (d, p, s.os) ∧ managerDir s = some d := by
    unfold Policy.directory managerDir
    rw [hq]
    simp only [e1, e2, e3]
    cases hkk : p.kind with
    | user => exact ⟨_, rfl, rfl⟩
    | temporary =>
      obtain ⟨x, root, n, _, _, h3⟩ := hm.temporary hkk
      rw [h3]
      exact ⟨_, rfl, rfl⟩
    | off => rw [hkk] at hk; cases hk
  refine ⟨d, ?_, ?_⟩
  · unfold cacheDirectory getPolicy
    rw [makePolicy_some hp]
    simp only [hp, hd]
    rw [← hp]
  · unfold callManager getPolicy
    rw [makePolicy_some hp]
    simp only [hp, hk, hq, Option.isSome_some, Bool.and_self, if_true, hd']

/-! ## The claims -/

/-- C162: after any history of configuration changes, uses and calls (also with failures), and a change to a policy other than "off" that the cache
has taken, a method works on what is in `cache.directory()`, gives its result (or its exception), and touches no other directory. -/
theorem C162_here {X R : Type} (expand : List Char → List Char) (o : Os) (w0 : Dir → X) (h : List (Happening X R)) (v : View) (b : Bool) (st : CacheSt × (Dir → X))
    (hst : st = runAll expand (CacheSt.init o, w0) h) (hok : (configChanged expand v b st.1).1 = .ok ()) (hv : v "cache-policy" ≠ .ok (.str "off".toList))
    (f : X → Except Fail R × X) :
    ∃ d, Promised expand v d ∧ (cacheDirectory expand v b (configChanged expand v b st.1).2).1 = .ok d ∧
      (callManager expand v b f (configChanged expand v b st.1).2 st.2).1 = (f (st.2 d)).1.map some ∧
      (callManager expand v b f (configChanged expand v b st.1).2 st.2).2.2 d = (f (st.2 d)).2 ∧
      ∀ d', d' ≠ d → (callManager expand v b f (configChanged expand v b st.1).2 st.2).2.2 d' = st.2 d' := by
  obtain ⟨ha, hc⟩ : Agrees st.1 ∧ Cached expand st.1 := by
    rw [hst]; exact all_good h (fun p h => (by cases h)) (cached_init expand o)
  obtain ⟨p, h1, h2, h3⟩ := follows_changed hc hok
  have hk : p.kind.managed = true := by
    cases hkk : p.kind with
    | user => rfl
    | temporary => rfl
    | off => rw [h2, hkk] at hv; exact absurd rfl hv
  obtain ⟨d, hd, hpr⟩ := (h3 hk).2.2 b
  obtain ⟨d1, e1, e2⟩ := call_managed (v := v) (b := b) (agrees_step ha hc (.changed v b)) (cached_step hc (.changed v b)) h1 hk v b f st.2
  have e1' : cacheDirectory expand v b (configChanged expand v b st.1).2 = (.ok d1, (configChanged expand v b st.1).2) := e1
  have e2' : callManager expand v b f (configChanged expand v b st.1).2 st.2 = _ := e2
  rw [hd] at e1'
  cases e1'
  refine ⟨d, hpr, by rw [hd], by rw [e2'], by rw [e2']; simp, fun d' hne => by rw [e2']; simp [hne]⟩

/-- C162: when the cache has taken the policy "off", a method returns None and nothing is touched, not even in the directory that was in use before. -/
theorem C162_off {X R : Type} (expand : List Char → List Char) (o : Os) (w0 : Dir → X) (h : List (Happening X R)) (v : View) (b : Bool) (st : CacheSt × (Dir → X))
    (hst : st = runAll expand (CacheSt.init o, w0) h) (hok : (configChanged expand v b st.1).1 = .ok ()) (hv : v "cache-policy" = .ok (.str "off".toList))
    (f : X → Except Fail R × X) :
    callManager expand v b f (configChanged expand v b st.1).2 st.2 = (.ok none, (configChanged expand v b st.1).2, st.2) := by
  have hc : Cached expand st.1 := by rw [hst]; exact (all_good h (fun p h => (by cases h)) (cached_init expand o)).2
  obtain ⟨p, h1, h2, _⟩ := follows_changed hc hok
  have hk : p.kind.managed = false := by
    rw [hv] at h2
    cases hkk : p.kind with
    | off => rfl
    | user => rw [hkk] at h2; exact absurd h2 (by decide)
    | temporary => rw [hkk] at h2; exact absurd h2 (by decide)
  unfold callManager getPolicy
  rw [makePolicy_some h1]
  simp [h1, hk]

/-- C162: None is the answer of policy off only; a policy that cannot be made is an error, not an empty cache. -/
theorem C162_none {X R : Type} (expand : List Char → List Char) (o : Os) (w0 : Dir → X) (h : List (Happening X R)) (v : View) (b : Bool) (st : CacheSt × (Dir → X))
    (hst : st = runAll expand (CacheSt.init o, w0) h) (f : X → Except Fail R × X) (hn : (callManager expand v b f st.1 st.2).1 = .ok none) :
    ∃ p, (callManager expand v b f st.1 st.2).2.1.policy = some p ∧ p.kind = .off := by
  obtain ⟨ha, _⟩ : Agrees st.1 ∧ Cached expand st.1 := by
    rw [hst]; exact all_good h (fun p h => (by cases h)) (cached_init expand o)
  have ha' := agrees_make (expand := expand) (v := v) (b := b) ha
  unfold callManager getPolicy at hn ⊢
  cases hm : makePolicy expand v b st.1 with
  | mk m1 m2 =>
    rw [hm] at ha' hn
    cases m1 with
    | error e => cases hn
    | ok _ =>
      simp only at hn ⊢
      cases hp : m2.policy with
      | none => rw [hp] at hn; cases hn
      | some p =>
        rw [hp] at hn
        simp only at hn ⊢
        cases hk : p.kind.managed with
        | true =>
          obtain ⟨q, hq, _⟩ := ha' p hp hk
          rw [hk, hq] at hn
          simp only [Option.isSome_some, Bool.and_self, if_true] at hn
          cases hd : managerDir m2 with
          | none => rw [hd] at hn; cases hn
          | some d =>
            rw [hd] at hn
            simp only at hn
            cases hf : (f (st.2 d)).1 with
            | error e => rw [hf] at hn; cases hn
            | ok r => rw [hf] at hn; cases hn
        | false =>
          simp only [Bool.false_and, Bool.false_eq_true, if_false]
          refine ⟨p, hp, ?_⟩
          cases hkk : p.kind with
          | off => rfl
          | user => rw [hkk] at hk; cases hk
          | temporary => rw [hkk] at hk; cases hk

/-- C162: at any moment of any history, whatever failed before and whatever the configuration says now: a call changes at most the directory
that `cache.directory()` gives at that moment, and nothing when that raises. -/
theorem C162_elsewhere {X R : Type} (expand : List Char → List Char) (o : Os) (w0 : Dir → X) (h : List (Happening X R)) (v : View) (b : Bool) (st : CacheSt × (Dir → X))
    (hst : st = runAll expand (CacheSt.init o, w0) h) (f : X → Except Fail R × X) (d : Dir) (hd : (cacheDirectory expand v b st.1).1 ≠ .ok d) :
    (callManager expand v b f st.1 st.2).2.2 d = st.2 d := by
  obtain ⟨ha, hc⟩ : Agrees st.1 ∧ Cached expand st.1 := by
    rw [hst]; exact all_good h (fun p h => (by cases h)) (cached_init expand o)
  have ha' := agrees_make (expand := expand) (v := v) (b := b) ha
  have hc' := cached_make (expand := expand) (v := v) (b := b) hc
  cases hm : makePolicy expand v b st.1 with
  | mk m1 m2 =>
    rw [hm] at ha' hc'
    cases m1 with
    | error e => unfold callManager getPolicy; rw [hm]
    | ok _ =>
      cases hp : m2.policy with
      | none => unfold callManager getPolicy; rw [hm]; simp only [hp]
      | some p =>
        cases hk : p.kind.managed with
        | false => unfold callManager getPolicy; rw [hm]; simp [hp, hk]
        | true =>
          obtain ⟨d1, e1, e2⟩ := call_managed (v := v) (b := b) ha' hc' hp hk v b f st.2
          have c1 : cacheDirectory expand v b st.1 = cacheDirectory expand v b m2 := by
            unfold cacheDirectory getPolicy; rw [hm, makePolicy_some hp]
          have c2 : callManager expand v b f st.1 st.2 = callManager expand v b f m2 st.2 := by
            unfold callManager getPolicy; rw [hm, makePolicy_some hp]
          rw [c1, e1] at hd
          rw [c2, e2]
          simp only
          rw [if_neg]
          intro e; subst e; exact hd rfl

/-! ## Examples -/

/-- Directories with a number of files each; `purge` empties one and says how many there were. -/
def purged (x : Nat) : Except Fail Nat × Nat := (.ok x, 0)

/-- Cache policy "user" with the directory `/u`, a call of `purge` (of a program that ends with an exception), then "temporary" below `/r`. -/
def earlier : List (Happening Nat Nat) :=
  [.event (.used (viewOf "user" "/u" .none (.ok .none) (.ok (.int 5)) .none) false),
   .call (viewOf "user" "/u" .none (.ok .none) (.ok (.int 5)) .none) false (fun x => (.error .manager, x + 1)),
   .event (.changed (viewOf "temporary" "/u" (.str "/r".toList) (.ok .none) (.ok (.int 5)) .none) true)]

/-- Back to "user": the files of `/u` are deleted. -/
example : ∃ d, Promised id (viewOf "user" "/u" .none (.ok .none) (.ok (.int 5)) .none) d ∧
    (callManager id (viewOf "user" "/u" .none (.ok .none) (.ok (.int 5)) .none) false purged
      (configChanged id (viewOf "user" "/u" .none (.ok .none) (.ok (.int 5)) .none) false (runAll id (CacheSt.init bareOs, fun _ => 7) earlier).1).2
      (runAll id (CacheSt.init bareOs, fun _ => 7) earlier).2).2.2 d = 0 := by
  obtain ⟨d, h1, _, _, h4, _⟩ := C162_here id bareOs (fun _ => 7) earlier (viewOf "user" "/u" .none (.ok .none) (.ok (.int 5)) .none) false _ rfl
    (by decide +kernel) (by decide +kernel) purged
  exact ⟨d, h1, h4⟩

/-- Then "off": nothing is deleted. -/
example : callManager id (viewOf "off" "/u" .none (.ok .none) (.ok (.int 5)) .none) false purged
      (configChanged id (viewOf "off" "/u" .none (.ok .none) (.ok (.int 5)) .none) false (runAll id (CacheSt.init bareOs, fun _ => 7) earlier).1).2
      (runAll id (CacheSt.init bareOs, fun _ => 7) earlier).2 =
    (.ok none, (configChanged id (viewOf "off" "/u" .none (.ok .none) (.ok (.int 5)) .none) false (runAll id (CacheSt.init bareOs, fun _ => 7) earlier).1).2,
      (runAll id (CacheSt.init bareOs, fun _ => 7) earlier).2) :=
  C162_off id bareOs (fun _ => 7) earlier (viewOf "off" "/u" .none (.ok .none) (.ok (.int 5)) .none) false _ rfl (by decide +kernel) (by decide +kernel) purged

/-- `C162_none`: at the start, with "off". -/
example : ∃ p, (callManager id (viewOf "off" "/u" .none (.ok .none) (.ok (.int 5)) .none) false purged (CacheSt.init bareOs) (fun _ => 7)).2.1.policy = some p ∧
    p.kind = .off :=
  C162_none id bareOs (fun _ => 7) [] (viewOf "off" "/u" .none (.ok .none) (.ok (.int 5)) .none) false _ rfl purged (by decide +kernel)

/-- While "temporary" is in force `/u` is left alone. -/
example : (callManager id (viewOf "temporary" "/u" (.str "/r".toList) (.ok .none) (.ok (.int 5)) .none) false purged
      (runAll id (CacheSt.init bareOs, fun _ => 7) earlier).1 (runAll id (CacheSt.init bareOs, fun _ => 7) earlier).2).2.2 (.at "/u".toList) =
    (runAll id (CacheSt.init bareOs, fun _ => 7) earlier).2 (.at "/u".toList) :=
  C162_elsewhere id bareOs (fun _ => 7) earlier (viewOf "temporary" "/u" (.str "/r".toList) (.ok .none) (.ok (.int 5)) .none) false _ rfl purged
    (.at "/u".toList) (by decide +kernel)

end Verif.DiskCache.Policy

import Verif.DiskCache.PolicyProps

/-!
# C91, exactly: when the manager falls in step again

`C91_refuted` has a manager that lost its step because an option could not be read half way through `update`. Here: what a change of the
configuration that returns makes of it.
-/

namespace Verif.DiskCache.Policy
open Verif.Config

/-- An option reads differently from what the policy remembers of it. -/
def News (p : Policy) (v : View) : Prop := ∃ k ∈ CACHE_KEYS, ∃ x, v k = .ok x ∧ pyEq ((p.snap k).getD .none) x = false

theorem anyDiffers_true {sn : Snap} {v : View} {ks : List String} (h : anyDiffers sn v ks = .ok true) :
    ∃ k ∈ ks, ∃ x, v k = .ok x ∧ pyEq ((sn k).getD .none) x = false := by
  induction ks with
  | nil => cases h
  | cons a ks ih =>
    unfold anyDiffers differs at h
    cases hv : v a with
    | error e => rw [hv] at h; cases h
    | ok x =>
      rw [hv] at h
      cases hq : pyEq ((sn a).getD .none) x with
      | false => exact ⟨a, List.mem_cons_self, x, hv, hq⟩
      | true =>
        simp only [hq, Bool.not_true] at h
        obtain ⟨k, hk, y, hy⟩ := ih h
        exact ⟨k, List.mem_cons_of_mem _ hk, y, hy⟩

/-- C91, exactly: after a change of the configuration that returned, the manager works with the directory and the limits of the active policy iff it
did before or one of the options of the cache reads differently from what the policy remembers. -/
theorem C91_exact (expand : List Char → List Char) (o : Os) (h : List CacheEv) (v : View) (b : Bool) (p : Policy)
    (hp : (cacheRun expand (CacheSt.init o) h).policy = some p) (hok : (configChanged expand v b (cacheRun expand (CacheSt.init o) h)).1 = .ok ()) :
    InStep (configChanged expand v b (cacheRun expand (CacheSt.init o) h)).2 ↔ InStep (cacheRun expand (CacheSt.init o) h) ∨ News p v := by
  have hc := cached_run h (cached_init expand o)
  generalize cacheRun expand (CacheSt.init o) h = s at *
  have hre : configChanged expand v b s = refresh expand v b p s := by
    rcases configChanged_cases expand v b s with ⟨e, he⟩ | ⟨e, he⟩ | ⟨q, _, hq, he⟩
    · rw [he] at hok; cases hok
    · rw [he] at hok; cases hok
    · rw [makePolicy_some hp] at hq he
      simp only at hq he
      rw [hp] at hq; cases hq
      exact he
  rw [hre] at hok ⊢
  rw [inStep_iff, inStep_iff]
  rcases refresh_cases expand v b p s with ⟨e, he⟩ | ⟨ho, he⟩ | ⟨ho, hpol, _, hman⟩
  · rw [he] at hok; cases hok
  · refine ⟨fun _ => ?_, fun _ => by rw [he]; exact inStep_make (fun p h => (by cases h))⟩
    cases hk : p.kind.managed with
    | false =>
      left
      intro q hq hm
      rw [hp] at hq; cases hq
      rw [hk] at hm; cases hm
    | true =>
      right
      obtain ⟨k, hkk, x, hx⟩ := anyDiffers_true ho
      refine ⟨k, ?_, x, hx⟩
      cases hkd : p.kind with
      | off => rw [hkd] at hk; cases hk
      | temporary =>
        rw [hkd] at hkk
        simp only [Kind'.outdatedKeys, List.mem_cons, List.not_mem_nil, or_false] at hkk
        rcases hkk with rfl | rfl <;> simp [CACHE_KEYS]
      | user =>
        rw [hkd] at hkk
        simp only [Kind'.outdatedKeys, List.mem_cons, List.not_mem_nil, or_false] at hkk
        rcases hkk with rfl | rfl <;> simp [CACHE_KEYS]
  · rcases hman with ⟨e, _, he, _⟩ | ⟨c, hc', hman⟩
    · rw [he] at hok; cases hok
    · have hread : Readable v := by
        intro k hk
        by_contra hn
        have : ∀ (ks : List String) (c : Bool) (sn : Snap) (r : Bool), k ∈ ks → (updateL p.kind v ks c sn).1 = .ok r → False := by
          intro ks
          induction ks with
          | nil => intro _ _ _ hk; cases hk
          | cons a ks ih =>
            intro c sn r hk hr
            unfold updateL at hr
            cases hv : v a with
            | error e => rw [hv] at hr; cases hr
            | ok x =>
              rw [hv] at hr
              rcases List.mem_cons.1 hk with rfl | hk
              · exact hn ⟨x, hv⟩
              · exact ih _ _ r hk hr
        exact this _ _ _ _ hk hc'
      constructor
      · intro hi
        rcases hman with ⟨h0, h1, _⟩ | ⟨h0, _⟩
        · -- nothing new: the manager was not told
          cases hk : p.kind.managed with
          | false =>
            left
            intro q hq hm
            rw [hp] at hq; cases hq
            rw [hk] at hm; cases hm
          | true =>
            left
            intro q hq _
            rw [hp] at hq; cases hq
            have hcf : c = false := by rw [hk, Bool.and_true] at h0; exact h0
            obtain ⟨m, hm, hsame⟩ := hi _ hpol hk
            refine ⟨m, h1 ▸ hm, ?_⟩
            obtain ⟨h2, h3⟩ := updateL_ok CACHE_KEYS hc'
            have h3 := (h3 (by simp [CACHE_KEYS]) hcf).2
            have hlim : ∀ k ∈ CACHE_KEYS, k ∉ p.kind.outdatedKeys →
                pyEq ((p.snap k).getD .none) (((updateL p.kind v CACHE_KEYS false p.snap).2 k).getD .none) = true := by
              intro k hkk hko
              obtain ⟨x, hx, hs⟩ := h2 k hkk hko
              obtain ⟨y, hy, he⟩ := h3 k hkk
              rw [hx] at hy; cases hy
              rw [hs]
              exact he
            have hne : p.kind ≠ .off := by intro e; rw [e] at hk; cases hk
            have hsz := hsame.size
            have hus := hsame.usage
            refine ⟨hsame.kind, hsame.path, hsame.dir, pyEq_trans ?_ hsz, pyEq_trans ?_ hus⟩
            · unfold Policy.maxSize
              simp only
              rw [if_neg hne, if_neg hne]
              exact hlim _ (by simp [CACHE_KEYS]) (by cases p.kind <;> simp [Kind'.outdatedKeys])
            · unfold Policy.maxUsage
              simp only
              rw [if_neg hne, if_neg hne]
              exact hlim _ (by simp [CACHE_KEYS]) (by cases p.kind <;> simp [Kind'.outdatedKeys])
        · right
          have hct : c = true := by rw [Bool.and_eq_true] at h0; exact h0.1
          by_contra hn
          have hall : ∀ k ∈ CACHE_KEYS, ∃ x, v k = .ok x ∧ pyEq ((p.snap k).getD .none) x = true := by
            intro k hk
            obtain ⟨x, hx⟩ := hread k hk
            refine ⟨x, hx, ?_⟩
            by_contra hq
            exact hn ⟨k, hk, x, hx, by simpa using hq⟩
          have hsame : ∀ (ks : List String) (sn : Snap), ks.Nodup → (∀ k ∈ ks, ∃ x, v k = .ok x ∧ pyEq ((sn k).getD .none) x = true) →
              (updateL p.kind v ks false sn).1 = .ok false := by
            intro ks
            induction ks with
            | nil => intro _ _ _; rfl
            | cons a ks ih =>
              intro sn hnd hall
              obtain ⟨hna, hnd⟩ := List.nodup_cons.1 hnd
              obtain ⟨x, hx, he⟩ := hall a List.mem_cons_self
              unfold updateL
              rw [hx]
              simp only
              rw [he]
              refine ih _ hnd ?_
              intro k hk
              obtain ⟨y, hy, hy'⟩ := hall k (List.mem_cons_of_mem _ hk)
              refine ⟨y, hy, ?_⟩
              have hka : k ≠ a := fun e => hna (e ▸ hk)
              split
              · exact hy'
              · simp only [if_neg hka]; exact hy'
          have := hsame CACHE_KEYS p.snap (by simp [CACHE_KEYS]) hall
          rw [hc'] at this
          cases this
          cases hct
      · rintro (hi | ⟨k, hk, x, hx, hq⟩)
        · exact inStep_refresh hi hp hread
        · intro q hqq hm
          rw [hpol] at hqq; cases hqq
          have hm : p.kind.managed = true := hm
          rcases hman with ⟨h0, _, _⟩ | ⟨_, ⟨h0, _⟩ | h1⟩
          · have hcf : c = false := by rw [hm, Bool.and_true] at h0; exact h0
            obtain ⟨_, h3⟩ := updateL_ok CACHE_KEYS hc'
            obtain ⟨y, hy, he⟩ := (h3 (by simp [CACHE_KEYS]) hcf).2 k hk
            rw [hx] at hy; cases hy
            rw [he] at hq; cases hq
          · obtain ⟨m, hmm⟩ := hc.manager p hp hm
            rw [h0] at hmm; cases hmm
          · exact ⟨_, h1, samePolicy_refl _⟩

/-- The history of `C91_refuted`: the manager keeps the limit it has after the same values are read again, and takes the next ones. -/
def lost : List CacheEv := [.used (viewOf "user" "/u" .none (.ok .none) (.ok (.int 5)) .none) false,
  .changed (viewOf "user" "/u" .none (.ok (.int 50)) (.error .value) .none) false]

example : ∃ p, (cacheRun id (CacheSt.init bareOs) lost).policy = some p ∧
    (configChanged id (viewOf "user" "/u" .none (.ok (.int 60)) (.ok (.int 5)) .none) false (cacheRun id (CacheSt.init bareOs) lost)).1 = .ok () ∧
    InStep (configChanged id (viewOf "user" "/u" .none (.ok (.int 60)) (.ok (.int 5)) .none) false (cacheRun id (CacheSt.init bareOs) lost)).2 := by
  have h1 : (cacheRun id (CacheSt.init bareOs) lost).policy.isSome = true := by decide +kernel
  obtain ⟨p, hp⟩ := Option.isSome_iff_exists.1 h1
  have hok : (configChanged id (viewOf "user" "/u" .none (.ok (.int 60)) (.ok (.int 5)) .none) false (cacheRun id (CacheSt.init bareOs) lost)).1 = .ok () := by
    decide +kernel
  refine ⟨p, hp, hok, (C91_exact id bareOs lost _ false p hp hok).2 (.inr ⟨"maximum-cache-disk-usage", by simp [CACHE_KEYS], .int 60, by decide +kernel, ?_⟩)⟩
  have : (cacheRun id (CacheSt.init bareOs) lost).policy.all (fun p => !pyEq ((p.snap "maximum-cache-disk-usage").getD .none) (.int 60)) = true := by decide +kernel
  rw [hp] at this
  simpa using this

end Verif.DiskCache.Policy

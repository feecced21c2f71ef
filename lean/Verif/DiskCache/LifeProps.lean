import Verif.DiskCache.Life
import Verif.DiskCache.PolicyProps

/-!
# Properties of temporary directories

C114 temporary directories exist as long as the policy they belong to.
-/

namespace Verif.DiskCache.Policy
open Verif.Config

/-! ## New names -/

theorem ensure_next {o o' : Os} {p : List Char} (h : o.ensure p = .ok o') : o'.next = o.next := by
  unfold Os.ensure at h
  split at h
  · cases h; rfl
  · split at h
    · cases h
    · cases h; rfl

theorem temp_next {o o' : Os} {root : Option (List Char)} {d : Dir} (h : o.temp root = .ok (d, o')) :
    d = .fresh root o.next ∧ o'.next = o.next + 1 := by
  unfold Os.temp at h
  cases root with
  | none =>
    simp only at h
    split at h
    · cases h
    · cases h; exact ⟨rfl, rfl⟩
  | some r =>
    simp only at h
    split at h
    · cases h
    · split at h
      · cases h
      · rename_i o1 ho
        split at h
        · cases h
        · cases h
          have := ensure_next ho
          exact ⟨by rw [this], by simp only [this]⟩

/-- A new policy has no directory of its own, or a new one. -/
theorem fromConfig_next {expand : List Char → List Char} {v : View} {o o' : Os} {p : Policy} (h : fromConfig expand v o = .ok (p, o')) :
    (p.dir = none ∧ o'.next = o.next) ∨ ∃ root, p.dir = some (.fresh root o.next) ∧ o'.next = o.next + 1 := by
  unfold fromConfig at h
  split at h
  · cases h
  · split at h
    · cases h
    · rename_i k hk
      unfold construct at h
      split at h
      · split at h
        · cases h
        · cases h; exact .inl ⟨rfl, rfl⟩
      · split at h
        · cases h
        · obtain ⟨_, _, hd, _, he⟩ := userInit_ok h
          exact .inl ⟨hd, ensure_next he⟩
      · split at h
        · cases h
        · unfold tmpInit at h
          split at h
          · cases h
          · rename_i p1 o1 hu
            obtain ⟨_, _, _, _, he⟩ := userInit_ok hu
            have := ensure_next he
            split at h
            · cases h
            · rename_i root _
              split at h
              · cases h
              · rename_i d o2 ht
                cases h
                obtain ⟨h1, h2⟩ := temp_next ht
                exact .inr ⟨root, by rw [h1, this], by rw [h2, this]⟩

/-- `directory()` keeps the directory a policy has, and otherwise makes a new one for policy `off`. -/
theorem directory_next {expand : List Char → List Char} {p p' : Policy} {o o' : Os} {d : Dir} (h : p.directory expand o = .ok (d, p', o')) :
    (¬ (p.kind = .off ∧ p.dir = none) ∧ p' = p ∧ o' = o ∧ (p.kind ≠ .user → p.dir = some d)) ∨
    (p.kind = .off ∧ p.dir = none ∧ p' = { p with dir := some d } ∧ ∃ root, d = .fresh root o.next ∧ o'.next = o.next + 1) := by
  unfold Policy.directory at h
  cases hk : p.kind with
  | user => rw [hk] at h; cases h; exact .inl ⟨fun e => (by cases e.1), rfl, rfl, fun e => absurd rfl e⟩
  | temporary =>
    rw [hk] at h
    cases hd : p.dir with
    | none => rw [hd] at h; cases h
    | some x => rw [hd] at h; cases h; exact .inl ⟨fun e => (by cases e.1), rfl, rfl, fun _ => rfl⟩
  | off =>
    rw [hk] at h
    cases hd : p.dir with
    | some x => rw [hd] at h; cases h; exact .inl ⟨fun e => (by cases e.2), rfl, rfl, fun _ => rfl⟩
    | none =>
      rw [hd] at h
      simp only at h
      split at h
      · cases h
      · rename_i root _
        split at h
        · cases h
        · rename_i d1 o1 ht
          cases h
          obtain ⟨h1, h2⟩ := temp_next ht
          exact .inr ⟨rfl, rfl, rfl, root, h1, h2⟩

/-! ## Invariant -/

structure LifeOk (l : Life) : Prop where
  sync : l.cur = none ↔ l.cache.policy = none
  own : ∀ i p d, l.cur = some i → l.cache.policy = some p → ((i, d) ∈ l.dirs ↔ p.dir = some d)
  needed : ∀ x ∈ l.dirs, l.cur = some x.1 ∨ x.1 ∈ l.held
  curOld : ∀ i, l.cur = some i → i < l.next
  heldOld : ∀ i ∈ l.held, i < l.next
  named : ∀ x ∈ l.dirs, ∃ root n, x.2 = .fresh root n ∧ n < l.cache.os.next
  owners : (l.dirs.map Prod.fst).Nodup
  names : (l.dirs.map Prod.snd).Nodup

theorem lifeOk_init (o : Os) : LifeOk (Life.init o) := by
  refine ⟨⟨fun _ => rfl, fun _ => rfl⟩, ?_, ?_, ?_, ?_, ?_, List.nodup_nil, List.nodup_nil⟩
  all_goals first | (intro a b c h; cases h) | (intro a h; cases h)

theorem LifeOk.old {l : Life} (h : LifeOk l) {x : Nat × Dir} (hx : x ∈ l.dirs) : x.1 < l.next := by
  rcases h.needed x hx with e | e
  · exact h.curOld _ e
  · exact h.heldOld _ e

theorem mem_collect {l : Life} {x : Nat × Dir} : x ∈ l.collect.dirs ↔ x ∈ l.dirs ∧ (l.cur = some x.1 ∨ x.1 ∈ l.held) := by
  simp [Life.collect, List.mem_filter]

/-- An object is let go: what is left over is destroyed. -/
theorem lifeOk_release {l : Life} (h : LifeOk l) (n : Nat) : LifeOk ({ l with held := l.held.erase n } : Life).collect where
  sync := h.sync
  own := by
    intro i p d hi hp
    rw [mem_collect]
    refine ⟨fun hx => (h.own i p d hi hp).1 hx.1, fun hx => ⟨(h.own i p d hi hp).2 hx, .inl hi⟩⟩
  needed := fun x hx => (mem_collect.1 hx).2
  curOld := h.curOld
  heldOld := fun i hi => h.heldOld i (List.mem_of_mem_erase hi)
  named := fun x hx => h.named x (mem_collect.1 hx).1
  owners := (h.owners.sublist ((List.filter_sublist).map _))
  names := (h.names.sublist ((List.filter_sublist).map _))

theorem lifeOk_drop {l : Life} (h : LifeOk l) : LifeOk (lifeDrop l) where
  sync := ⟨fun _ => rfl, fun _ => rfl⟩
  own := by intro i p d hi; cases hi
  needed := fun x hx => (mem_collect.1 hx).2
  curOld := by intro i hi; cases hi
  heldOld := h.heldOld
  named := fun x hx => h.named x (mem_collect.1 hx).1
  owners := (h.owners.sublist ((List.filter_sublist).map _))
  names := (h.names.sublist ((List.filter_sublist).map _))

theorem lifeOk_keep {l : Life} (h : LifeOk l) {i : Nat} (hi : l.cur = some i) : LifeOk { l with held := i :: l.held } where
  sync := h.sync
  own := h.own
  needed := fun x hx => (h.needed x hx).imp id (List.mem_cons_of_mem _)
  curOld := h.curOld
  heldOld := by
    intro j hj
    rcases List.mem_cons.1 hj with rfl | hj
    · exact h.curOld _ hi
    · exact h.heldOld j hj
  named := h.named
  owners := h.owners
  names := h.names

theorem nodup_map_inj {α β : Type} {f : α → β} {l : List α} (h : (l.map f).Nodup) {x y : α} (hx : x ∈ l) (hy : y ∈ l) (e : f x = f y) : x = y := by
  induction l with
  | nil => cases hx
  | cons a l ih =>
    rw [List.map_cons, List.nodup_cons] at h
    rcases List.mem_cons.1 hx with rfl | hx'
    · rcases List.mem_cons.1 hy with rfl | hy'
      · rfl
      · exact absurd (e ▸ List.mem_map_of_mem hy') h.1
    · rcases List.mem_cons.1 hy with rfl | hy'
      · exact absurd (e ▸ List.mem_map_of_mem hx') h.1
      · exact ih h.2 hx' hy'

theorem nodup_add {α : Type} {l : List α} {a : α} (h : l.Nodup) (ha : a ∉ l) : (l ++ [a]).Nodup := by
  rw [List.nodup_append]
  refine ⟨h, by simp, ?_⟩
  intro x hx y hy e
  rw [List.mem_singleton] at hy
  subst hy; subst e
  exact ha hx

theorem lifeMake_cache (expand : List Char → List Char) (v : View) (b : Bool) (l : Life) :
    (lifeMake expand v b l).cache = (makePolicy expand v b l.cache).2 := by
  unfold lifeMake
  cases hp : l.cache.policy with
  | some p => rw [makePolicy_some hp]
  | none =>
    simp only
    split <;> rfl

/-- A new object, with or without a new directory. -/
theorem lifeOk_add {l : Life} (h : LifeOk l) (hc : l.cur = none) {s : CacheSt} {p : Policy} (hp : s.policy = some p)
    (hn : (p.dir = none ∧ s.os.next = l.cache.os.next) ∨ ∃ root, p.dir = some (.fresh root l.cache.os.next) ∧ s.os.next = l.cache.os.next + 1) :
    LifeOk { l with cache := s, cur := some l.next, next := l.next + 1, dirs := l.dirs ++ (p.dir.toList.map (fun d => (l.next, d))) } := by
  have hle : l.cache.os.next ≤ s.os.next := by rcases hn with ⟨_, e⟩ | ⟨_, _, e⟩ <;> omega
  have hnew : ∀ x ∈ l.dirs, x.1 ≠ l.next := fun x hx e => absurd (h.old hx) (by omega)
  have hnotin : l.next ∉ l.dirs.map Prod.fst := by
    intro hm
    obtain ⟨x, hx, e⟩ := List.mem_map.1 hm
    exact hnew x hx e
  refine ⟨⟨fun e => (by cases e), fun e => (by rw [show s.policy = none from e] at hp; cases hp)⟩, ?_, ?_, ?_, ?_, ?_, ?_, ?_⟩
  · intro i q d hi hq
    have e : i = l.next := (Option.some.inj hi).symm
    subst e
    rw [show s.policy = some q from hq] at hp
    cases hp
    simp only [List.mem_append, List.mem_map, Option.mem_toList, Prod.mk.injEq, true_and, exists_eq_right]
    refine ⟨fun hx => ?_, fun hx => .inr hx⟩
    rcases hx with hx | hx
    · exact absurd rfl (hnew _ hx)
    · exact hx
  · intro x hx
    rcases List.mem_append.1 hx with hx | hx
    · rcases h.needed x hx with e | e
      · rw [hc] at e; cases e
      · exact .inr e
    · obtain ⟨d, _, e⟩ := List.mem_map.1 hx
      subst e
      exact .inl rfl
  · intro i hi
    cases hi
    exact Nat.lt_succ_self _
  · intro i hi
    exact Nat.lt_succ_of_lt (h.heldOld i hi)
  · intro x hx
    rcases List.mem_append.1 hx with hx | hx
    · obtain ⟨root, n, e, hl⟩ := h.named x hx
      exact ⟨root, n, e, lt_of_lt_of_le hl hle⟩
    · obtain ⟨d, hd, e⟩ := List.mem_map.1 hx
      subst e
      rcases hn with ⟨e, _⟩ | ⟨root, e, e'⟩
      · rw [e] at hd; cases hd
      · rw [e] at hd
        simp only [Option.toList_some, List.mem_singleton] at hd
        exact ⟨root, _, hd, by rw [show s.os.next = _ from e']; exact Nat.lt_succ_self _⟩
  · rcases hn with ⟨e, _⟩ | ⟨root, e, e'⟩
    · rw [e]; simpa using h.owners
    · rw [e]
      simp only [Option.toList_some, List.map_cons, List.map_nil, List.map_append]
      exact nodup_add h.owners hnotin
  · rcases hn with ⟨e, _⟩ | ⟨root, e, e'⟩
    · rw [e]; simpa using h.names
    · rw [e]
      simp only [Option.toList_some, List.map_cons, List.map_nil, List.map_append]
      refine nodup_add h.names ?_
      intro hm
      obtain ⟨x, hx, ex⟩ := List.mem_map.1 hm
      obtain ⟨root', n, en, hl⟩ := h.named x hx
      rw [en] at ex
      cases ex
      omega

theorem lifeOk_make {expand : List Char → List Char} {v : View} {b : Bool} {l : Life} (h : LifeOk l) : LifeOk (lifeMake expand v b l) := by
  unfold lifeMake
  cases hp : l.cache.policy with
  | some p => exact h
  | none =>
    simp only
    rcases makePolicy_none (expand := expand) (v := v) (b := b) hp with ⟨e, he⟩ | ⟨p, o, hf, h1, h2, _⟩
    · cases hf : fromConfig expand v l.cache.os with
      | error e' => rw [he]; exact h
      | ok r =>
        obtain ⟨p, o⟩ := r
        unfold makePolicy at he
        rw [hp, hf] at he
        simp only [tellManager] at he
        split at he
        · have := congrArg (fun x => x.2.policy) he
          simp only at this
          rw [hp] at this; cases this
        · cases he
    · rw [hf]
      simp only
      refine lifeOk_add h (h.sync.2 hp) h1 ?_
      rw [h2]
      exact fromConfig_next hf

theorem lifeOk_refresh {expand : List Char → List Char} {v : View} {b : Bool} {p : Policy} {l : Life} (h : LifeOk l) (hp : l.cache.policy = some p) :
    LifeOk (lifeRefresh expand v b p l) := by
  have keep : ∀ s : CacheSt, s.os = l.cache.os → (∃ q, s.policy = some q ∧ q.dir = p.dir) → LifeOk { l with cache := s } := by
    rintro s ho ⟨q, hq, hd⟩
    refine ⟨⟨fun e => absurd (h.sync.1 e) (by rw [hp]; simp), fun e => (by rw [show s.policy = none from e] at hq; cases hq)⟩, ?_, h.needed, h.curOld, h.heldOld, ?_, h.owners, h.names⟩
    · intro i q' d hi hq'
      rw [show s.policy = some q' from hq'] at hq
      cases hq
      rw [hd]
      exact h.own i p d hi hp
    · rw [show ({ l with cache := s } : Life).cache.os = l.cache.os from ho]; exact h.named
  unfold lifeRefresh
  rcases refresh_cases expand v b p l.cache with ⟨e, he⟩ | ⟨ho, he⟩ | ⟨ho, h1, h2, _⟩
  · split
    · exact lifeOk_make (lifeOk_drop h)
    · rw [he]; exact h
  · rw [ho]
    exact lifeOk_make (lifeOk_drop h)
  · rw [ho]
    exact keep _ h2 ⟨_, h1, rfl⟩

theorem lifeRefresh_cache {expand : List Char → List Char} {v : View} {b : Bool} {p : Policy} {l : Life} :
    (lifeRefresh expand v b p l).cache = (refresh expand v b p l.cache).2 := by
  unfold lifeRefresh
  split
  · rename_i ho
    rw [lifeMake_cache]
    unfold refresh
    rw [ho]
    rfl
  · rfl

/-- What `_config_changed` does to the cache. -/
theorem lifeChanged_cases (expand : List Char → List Char) (v : View) (b : Bool) (l : Life) :
    (lifeChanged expand v b l = l ∧ (configChanged expand v b l.cache).2 = l.cache) ∨
    (lifeChanged expand v b l = lifeMake expand v b l ∧ (configChanged expand v b l.cache).2 = (makePolicy expand v b l.cache).2) ∨
    ∃ p, (lifeMake expand v b l).cache.policy = some p ∧ lifeChanged expand v b l = lifeRefresh expand v b p (lifeMake expand v b l) ∧
      (configChanged expand v b l.cache).2 = (refresh expand v b p (makePolicy expand v b l.cache).2).2 := by
  unfold lifeChanged configChanged getPolicy
  cases hv : v "cache-policy" with
  | error e => exact .inl ⟨rfl, rfl⟩
  | ok x =>
    cases x with
    | str s =>
      simp only
      rw [lifeMake_cache]
      cases hm : makePolicy expand v b l.cache with
      | mk r s' =>
        cases r with
        | error e => exact .inr (.inl ⟨rfl, rfl⟩)
        | ok u =>
          simp only
          cases hp : s'.policy with
          | none => exact .inr (.inl ⟨rfl, rfl⟩)
          | some p => exact .inr (.inr ⟨p, rfl, rfl, rfl⟩)
    | none => exact .inl ⟨rfl, rfl⟩
    | bool c => exact .inl ⟨rfl, rfl⟩
    | int i => exact .inl ⟨rfl, rfl⟩
    | other i => exact .inl ⟨rfl, rfl⟩

theorem lifeOk_changed {expand : List Char → List Char} {v : View} {b : Bool} {l : Life} (h : LifeOk l) : LifeOk (lifeChanged expand v b l) := by
  rcases lifeChanged_cases expand v b l with ⟨e, _⟩ | ⟨e, _⟩ | ⟨p, hp, e, _⟩
  · rw [e]; exact h
  · rw [e]; exact lifeOk_make h
  · rw [e]; exact lifeOk_refresh (lifeOk_make h) hp

theorem lifeChanged_cache {expand : List Char → List Char} {v : View} {b : Bool} {l : Life} :
    (lifeChanged expand v b l).cache = (configChanged expand v b l.cache).2 := by
  rcases lifeChanged_cases expand v b l with ⟨e, e'⟩ | ⟨e, e'⟩ | ⟨p, hp, e, e'⟩
  · rw [e, e']
  · rw [e, e', lifeMake_cache]
  · rw [e, e', lifeRefresh_cache, lifeMake_cache]

theorem lifeOk_ask {expand : List Char → List Char} {l : Life} (h : LifeOk l) : LifeOk (lifeAsk expand l) := by
  unfold lifeAsk
  cases hp : l.cache.policy with
  | none => exact h
  | some p =>
    cases hc : l.cur with
    | none => exact h
    | some i =>
      simp only
      cases hd : p.directory expand l.cache.os with
      | error e => exact h
      | ok r =>
        obtain ⟨d, p', o'⟩ := r
        simp only
        rw [← hc]
        rcases directory_next hd with ⟨hn, e1, e2, _⟩ | ⟨hk, hdir, e1, root, e2, e3⟩
        · rw [if_neg hn, e1, e2, ← hp]; exact h
        · rw [if_pos ⟨hk, hdir⟩]
          have hno : ∀ d', (i, d') ∉ l.dirs := by
            intro d' hm
            have := (h.own i p d' hc hp).1 hm
            rw [hdir] at this; cases this
          refine ⟨⟨fun e => (by cases hc.symm.trans e), fun e => (by cases e)⟩, ?_, ?_, h.curOld, h.heldOld, ?_, ?_, ?_⟩
          · intro j q d' hj hq
            have ej : i = j := Option.some.inj (hc.symm.trans hj)
            have eq : p' = q := Option.some.inj hq
            subst ej; subst eq
            rw [e1]
            simp only [List.mem_append, List.mem_singleton, Prod.mk.injEq, true_and, Option.some.injEq]
            exact ⟨fun hx => hx.elim (fun hx => absurd hx (hno d')) Eq.symm, fun hx => .inr hx.symm⟩
          · intro x hx
            rcases List.mem_append.1 hx with hx | hx
            · exact h.needed x hx
            · rw [List.mem_singleton] at hx
              subst hx
              exact .inl hc
          · intro x hx
            rcases List.mem_append.1 hx with hx | hx
            · obtain ⟨r, n, e, hl⟩ := h.named x hx
              exact ⟨r, n, e, by show n < o'.next; omega⟩
            · rw [List.mem_singleton] at hx
              subst hx
              exact ⟨root, _, e2, by show _ < o'.next; omega⟩
          · simp only [List.map_append, List.map_cons, List.map_nil]
            refine nodup_add h.owners ?_
            intro hm
            obtain ⟨x, hx, ex⟩ := List.mem_map.1 hm
            obtain ⟨x1, x2⟩ := x
            cases ex
            exact hno _ hx
          · simp only [List.map_append, List.map_cons, List.map_nil]
            refine nodup_add h.names ?_
            intro hm
            obtain ⟨x, hx, ex⟩ := List.mem_map.1 hm
            obtain ⟨r, n, en, hl⟩ := h.named x hx
            rw [en, e2] at ex
            cases ex
            omega

theorem lifeOk_directory {expand : List Char → List Char} {v : View} {b : Bool} {l : Life} (h : LifeOk l) : LifeOk (lifeDirectory expand v b l) := by
  unfold lifeDirectory
  split
  · exact lifeOk_ask (lifeOk_make h)
  · exact lifeOk_make h

theorem lifeDirectory_cache {expand : List Char → List Char} {v : View} {b : Bool} {l : Life} (h : LifeOk l) :
    (lifeDirectory expand v b l).cache = (cacheDirectory expand v b l.cache).2 := by
  have hm : LifeOk (lifeMake expand v b l) := lifeOk_make h
  have e := lifeMake_cache expand v b l
  unfold lifeDirectory cacheDirectory getPolicy
  cases hr : makePolicy expand v b l.cache with
  | mk r s' =>
    rw [hr] at e
    cases r with
    | error x => exact e
    | ok u =>
      simp only at e ⊢
      unfold lifeAsk
      rw [e]
      cases hp : s'.policy with
      | none => exact e
      | some p =>
        cases hc : (lifeMake expand v b l).cur with
        | none =>
          have := hm.sync.1 hc
          rw [e, hp] at this; cases this
        | some i =>
          simp only
          cases hd : p.directory expand s'.os with
          | error x => exact e
          | ok y => rfl

theorem lifeOk_step {expand : List Char → List Char} {l : Life} (h : LifeOk l) (e : LifeEv) : LifeOk (lifeStep expand l e) := by
  cases e with
  | cache e =>
    cases e with
    | changed v b => exact lifeOk_changed h
    | used v b => exact lifeOk_make h
    | directory v b => exact lifeOk_directory h
  | keep =>
    simp only [lifeStep]
    cases hc : l.cur with
    | none => exact h
    | some i =>
      have := lifeOk_keep h hc
      simp only [hc] at this
      exact this
  | release n => exact lifeOk_release h n

theorem lifeOk_run {expand : List Char → List Char} (h : List LifeEv) : ∀ {l : Life}, LifeOk l → LifeOk (lifeRun expand l h) := by
  induction h with
  | nil => intro l hl; exact hl
  | cons e h ih => intro l hl; exact ih (lifeOk_step hl e)

/-! ## C114 -/

/-- The directory exists. -/
def Life.has (l : Life) (d : Dir) : Prop := ∃ i, (i, d) ∈ l.dirs

/-- The cache goes through the same states as in `Policy.lean`, whoever keeps policies. -/
theorem C114_follows (expand : List Char → List Char) (o : Os) (h : List LifeEv) :
    (lifeRun expand (Life.init o) h).cache = cacheRun expand (CacheSt.init o) (cacheEvents h) := by
  have gen : ∀ (h : List LifeEv) (l : Life), LifeOk l → (lifeRun expand l h).cache = cacheRun expand l.cache (cacheEvents h) := by
    intro h
    induction h with
    | nil => intro l _; rfl
    | cons e h ih =>
      intro l hl
      have h1 := ih (lifeStep expand l e) (lifeOk_step hl e)
      show (lifeRun expand (lifeStep expand l e) h).cache = _
      rw [h1]
      cases e with
      | cache e =>
        show _ = cacheRun expand (cacheStep expand l.cache e) (cacheEvents h)
        congr 1
        cases e with
        | changed v b => exact lifeChanged_cache
        | used v b => exact lifeMake_cache expand v b l
        | directory v b => exact lifeDirectory_cache hl
      | keep =>
        show cacheRun expand (lifeStep expand l .keep).cache _ = cacheRun expand l.cache _
        simp only [lifeStep]
        split <;> rfl
      | release n => rfl
  exact gen h _ (lifeOk_init o)

/-- At any time, the temporary directory of the policy in force exists. -/
theorem C114_inforce {expand : List Char → List Char} {o : Os} {h : List LifeEv} {p : Policy} {d : Dir}
    (hp : (lifeRun expand (Life.init o) h).cache.policy = some p) (hd : p.dir = some d) : (lifeRun expand (Life.init o) h).has d := by
  have hl : LifeOk (lifeRun expand (Life.init o) h) := lifeOk_run h (lifeOk_init o)
  cases hc : (lifeRun expand (Life.init o) h).cur with
  | none => have := hl.sync.1 hc; rw [hp] at this; cases this
  | some i => exact ⟨i, (hl.own i p d hc hp).2 hd⟩

/-- At any time, a temporary directory that exists belongs to the policy in force or to one that somebody keeps; no two policies have
the same, and none has two. -/
theorem C114_owner {expand : List Char → List Char} {o : Os} {h : List LifeEv} {i : Nat} {d : Dir} (hx : (i, d) ∈ (lifeRun expand (Life.init o) h).dirs) :
    ((lifeRun expand (Life.init o) h).cur = some i ∨ i ∈ (lifeRun expand (Life.init o) h).held) ∧
      ∀ j e, (j, e) ∈ (lifeRun expand (Life.init o) h).dirs → (j = i ↔ e = d) := by
  have hl : LifeOk (lifeRun expand (Life.init o) h) := lifeOk_run h (lifeOk_init o)
  refine ⟨hl.needed _ hx, fun j e hy => ⟨fun hj => ?_, fun he => ?_⟩⟩
  · exact congrArg Prod.snd (nodup_map_inj hl.owners hy hx hj)
  · exact congrArg Prod.fst (nodup_map_inj hl.names hy hx he)

/-- What `cache.directory()` answers under the policies `off` and `temporary` exists. -/
theorem C114_reply {expand : List Char → List Char} {o : Os} {h : List LifeEv} {v : View} {b : Bool} {d : Dir}
    (hr : (cacheDirectory expand v b (lifeRun expand (Life.init o) h).cache).1 = .ok d) :
    (∃ path, d = .at path) ∨ (lifeRun expand (Life.init o) (h ++ [.cache (.directory v b)])).has d := by
  have hl : LifeOk (lifeRun expand (Life.init o) h) := lifeOk_run h (lifeOk_init o)
  have hrun : lifeRun expand (Life.init o) (h ++ [.cache (.directory v b)]) = lifeDirectory expand v b (lifeRun expand (Life.init o) h) := by
    unfold lifeRun; rw [List.foldl_append]; rfl
  rw [hrun]
  generalize lifeRun expand (Life.init o) h = l at hl hr
  have hl' : LifeOk (lifeDirectory expand v b l) := lifeOk_directory hl
  have hc := lifeDirectory_cache (expand := expand) (v := v) (b := b) hl
  unfold cacheDirectory getPolicy at hr hc
  cases hm : makePolicy expand v b l.cache with
  | mk r s' =>
    rw [hm] at hr hc
    cases r with
    | error x => cases hr
    | ok u =>
      simp only at hr hc
      cases hp : s'.policy with
      | none => rw [hp] at hr; cases hr
      | some p =>
        rw [hp] at hr hc
        simp only at hr hc
        cases hd : p.directory expand s'.os with
        | error x => rw [hd] at hr; cases hr
        | ok y =>
          obtain ⟨d', p', o'⟩ := y
          rw [hd] at hr hc
          cases hr
          simp only at hc
          have hpol : (lifeDirectory expand v b l).cache.policy = some p' := by rw [hc]
          have hdir : p'.dir = some d ∨ ∃ path, d = .at path := by
            rcases directory_next hd with ⟨_, e1, _, e3⟩ | ⟨_, _, e1, _⟩
            · by_cases hk : p.kind = .user
              · right
                unfold Policy.directory at hd
                rw [hk] at hd
                cases hd
                exact ⟨_, rfl⟩
              · left; rw [e1]; exact e3 hk
            · left; rw [e1]
          rcases hdir with hdir | hdir
          · right
            cases hcur : (lifeDirectory expand v b l).cur with
            | none => have := hl'.sync.1 hcur; rw [hpol] at this; cases this
            | some i => exact ⟨i, (hl'.own i p' d hcur hpol).2 hdir⟩
          · exact .inl hdir

/-- Nobody keeps a policy: besides the directory of the policy in force there is none. -/
theorem C114_alone {expand : List Char → List Char} {o : Os} {h : List LifeEv} (hk : .keep ∉ h) :
    (lifeRun expand (Life.init o) h).dirs.map Prod.snd = ((lifeRun expand (Life.init o) h).cache.policy.bind Policy.dir).toList := by
  have hl : LifeOk (lifeRun expand (Life.init o) h) := lifeOk_run h (lifeOk_init o)
  have hmake : ∀ (v : View) (b : Bool) (l : Life), l.held = [] → (lifeMake expand v b l).held = [] := by
    intro v b l hh
    unfold lifeMake
    split
    · exact hh
    · split <;> exact hh
  have gen : ∀ (h : List LifeEv) (l : Life), .keep ∉ h → l.held = [] → (lifeRun expand l h).held = [] := by
    intro h
    induction h with
    | nil => intro l _ hh; exact hh
    | cons e h ih =>
      intro l hk hh
      refine ih (lifeStep expand l e) (fun hm => hk (List.mem_cons_of_mem _ hm)) ?_
      cases e with
      | cache e =>
        cases e with
        | changed v b =>
          show (lifeChanged expand v b l).held = []
          rcases lifeChanged_cases expand v b l with ⟨e, _⟩ | ⟨e, _⟩ | ⟨p, _, e, _⟩
          · rw [e]; exact hh
          · rw [e]; exact hmake v b l hh
          · rw [e]
            unfold lifeRefresh
            split
            · exact hmake v b _ (hmake v b l hh)
            · exact hmake v b l hh
        | used v b => exact hmake v b l hh
        | directory v b =>
          show (lifeDirectory expand v b l).held = []
          unfold lifeDirectory
          split
          · unfold lifeAsk
            split
            · split
              · exact hmake v b l hh
              · exact hmake v b l hh
            · exact hmake v b l hh
          · exact hmake v b l hh
      | keep => exact absurd List.mem_cons_self hk
      | release n => show l.held.erase n = []; rw [hh]; rfl
  have hh := gen h (Life.init o) hk rfl
  generalize lifeRun expand (Life.init o) h = l at hl hh
  obtain ⟨cache, cur, held, next, dirs⟩ := l
  simp only at hh
  subst hh
  have hall : ∀ x ∈ dirs, cur = some x.1 := fun x hx => (hl.needed x hx).resolve_right (by simp)
  cases hc : cur with
  | none =>
    have : dirs = [] := by
      rcases dirs with _ | ⟨x, xs⟩
      · rfl
      · have := hall x List.mem_cons_self; rw [hc] at this; cases this
    have hp : cache.policy = none := hl.sync.1 hc
    simp [this, hp]
  | some i =>
    cases hp : cache.policy with
    | none => have := hl.sync.2 hp; rw [show cur = none from this] at hc; cases hc
    | some p =>
      have hown := fun d => hl.own i p d hc hp
      simp only at hown
      show dirs.map Prod.snd = p.dir.toList
      cases hd : p.dir with
      | none =>
        rcases dirs with _ | ⟨⟨j, e⟩, xs⟩
        · rfl
        · have hj : i = j := Option.some.inj (hc.symm.trans (hall (j, e) List.mem_cons_self))
          subst hj
          have := (hown e).1 List.mem_cons_self
          rw [hd] at this; cases this
      | some d =>
        have hmem := (hown d).2 hd
        have hone : dirs.length ≤ 1 := by
          have hnd := hl.owners
          simp only at hnd
          rcases dirs with _ | ⟨x, _ | ⟨y, ys⟩⟩
          · simp
          · simp
          · have e1 := hall x (by simp)
            have e2 := hall y (by simp)
            have : x.1 = y.1 := Option.some.inj (e1.symm.trans e2)
            simp only [List.map_cons, List.nodup_cons, List.mem_cons] at hnd
            exact absurd (.inl this) hnd.1
        rcases dirs with _ | ⟨x, _ | ⟨y, ys⟩⟩
        · cases hmem
        · rw [List.mem_singleton] at hmem
          subst hmem
          rfl
        · simp at hone

/-- The configuration changes in a way that makes the policy outdated: its temporary directory is removed, even if no new policy can be
made — unless somebody keeps the old policy. -/
theorem C114_gone {expand : List Char → List Char} {o : Os} {h : List LifeEv} {v : View} {b : Bool} {name : List Char} {p : Policy} {d : Dir}
    (hp : (lifeRun expand (Life.init o) h).cache.policy = some p) (hd : p.dir = some d)
    (hv : v "cache-policy" = .ok (.str name)) (hout : p.outdated v = .ok true)
    (hfree : ∀ i ∈ (lifeRun expand (Life.init o) h).held, (lifeRun expand (Life.init o) h).cur ≠ some i) :
    ¬ (lifeRun expand (Life.init o) (h ++ [.cache (.changed v b)])).has d := by
  have hl : LifeOk (lifeRun expand (Life.init o) h) := lifeOk_run h (lifeOk_init o)
  have hrun : lifeRun expand (Life.init o) (h ++ [.cache (.changed v b)]) = lifeChanged expand v b (lifeRun expand (Life.init o) h) := by
    unfold lifeRun; rw [List.foldl_append]; rfl
  rw [hrun]
  generalize lifeRun expand (Life.init o) h = l at hl hp hfree
  have hsame : lifeMake expand v b l = l := by unfold lifeMake; rw [hp]
  have hch : lifeChanged expand v b l = lifeMake expand v b (lifeDrop l) := by
    unfold lifeChanged getPolicy
    rw [hv, makePolicy_some hp, hsame, hp]
    simp only
    unfold lifeRefresh
    rw [hout]
  rw [hch]
  obtain ⟨i, hi⟩ : ∃ i, l.cur = some i := by
    cases hc : l.cur with
    | none => have := hl.sync.1 hc; rw [hp] at this; cases this
    | some i => exact ⟨i, rfl⟩
  have hmem := (hl.own i p d hi hp).2 hd
  obtain ⟨root, n, hn, hlt⟩ := hl.named _ hmem
  have hdrop : ∀ j, (j, d) ∉ (lifeDrop l).dirs := by
    intro j hj
    obtain ⟨h1, h2⟩ := mem_collect.1 hj
    have e : j = i := congrArg Prod.fst (nodup_map_inj hl.names h1 hmem rfl)
    subst e
    rcases h2 with h2 | h2
    · cases h2
    · exact hfree j h2 hi
  rintro ⟨j, hj⟩
  unfold lifeMake at hj
  rw [show (lifeDrop l).cache.policy = none from rfl] at hj
  simp only at hj
  split at hj
  · exact hdrop j hj
  · rename_i q o1 hf
    rcases List.mem_append.1 hj with hj | hj
    · exact hdrop j hj
    · obtain ⟨d', hd', e⟩ := List.mem_map.1 hj
      cases e
      rcases fromConfig_next hf with ⟨e, _⟩ | ⟨r, e, _⟩
      · rw [e] at hd'; cases hd'
      · rw [e] at hd'
        simp only [Option.toList_some, List.mem_singleton] at hd'
        rw [hd'] at hn
        simp only at hn
        cases hn
        exact absurd hlt (Nat.lt_irrefl _)

/-- Whoever keeps a policy keeps its directory, whatever else happens. -/
theorem C114_kept {expand : List Char → List Char} {l : Life} {i : Nat} {d : Dir} (hi : i ∈ l.held) (hd : (i, d) ∈ l.dirs) (h : List LifeEv)
    (hr : .release i ∉ h) : (i, d) ∈ (lifeRun expand l h).dirs := by
  have hmake : ∀ (v : View) (b : Bool) (l : Life), i ∈ l.held ∧ (i, d) ∈ l.dirs → i ∈ (lifeMake expand v b l).held ∧ (i, d) ∈ (lifeMake expand v b l).dirs := by
    intro v b l hh
    unfold lifeMake
    split
    · exact hh
    · split
      · exact hh
      · exact ⟨hh.1, List.mem_append_left _ hh.2⟩
  have step : ∀ (l : Life) (e : LifeEv), e ≠ .release i → i ∈ l.held ∧ (i, d) ∈ l.dirs →
      i ∈ (lifeStep expand l e).held ∧ (i, d) ∈ (lifeStep expand l e).dirs := by
    intro l e he hh
    cases e with
    | cache e =>
      cases e with
      | changed v b =>
        show i ∈ (lifeChanged expand v b l).held ∧ (i, d) ∈ (lifeChanged expand v b l).dirs
        rcases lifeChanged_cases expand v b l with ⟨e, _⟩ | ⟨e, _⟩ | ⟨p, _, e, _⟩
        · rw [e]; exact hh
        · rw [e]; exact hmake v b l hh
        · rw [e]
          have hm := hmake v b l hh
          unfold lifeRefresh
          split
          · exact hmake v b _ ⟨hm.1, mem_collect.2 ⟨hm.2, .inr hm.1⟩⟩
          · exact hm
      | used v b => exact hmake v b l hh
      | directory v b =>
        show i ∈ (lifeDirectory expand v b l).held ∧ (i, d) ∈ (lifeDirectory expand v b l).dirs
        have hm := hmake v b l hh
        unfold lifeDirectory
        split
        · unfold lifeAsk
          split
          · split
            · exact hm
            · refine ⟨hm.1, ?_⟩
              simp only
              split
              · exact List.mem_append_left _ hm.2
              · exact hm.2
          · exact hm
        · exact hm
    | keep =>
      simp only [lifeStep]
      split
      · exact ⟨List.mem_cons_of_mem _ hh.1, hh.2⟩
      · exact hh
    | release n =>
      have hne : i ≠ n := fun e => he (by rw [e])
      have hm : i ∈ l.held.erase n := (List.mem_erase_of_ne hne).2 hh.1
      exact ⟨hm, mem_collect.2 ⟨hh.2, .inr hm⟩⟩
  have gen : ∀ (h : List LifeEv) (l : Life), .release i ∉ h → i ∈ l.held ∧ (i, d) ∈ l.dirs → (i, d) ∈ (lifeRun expand l h).dirs := by
    intro h
    induction h with
    | nil => intro l _ hh; exact hh.2
    | cons e h ih =>
      intro l hr hh
      exact ih _ (fun hm => hr (List.mem_cons_of_mem _ hm)) (step l e (fun e' => hr (e' ▸ List.mem_cons_self)) hh)
  exact gen h l hr ⟨hi, hd⟩

/-- A change that does not make the policy outdated keeps all temporary directories as they are. -/
theorem C114_same {expand : List Char → List Char} {l : Life} {v : View} {b : Bool} {p : Policy} (hp : l.cache.policy = some p)
    (hout : p.outdated v = .ok false) : (lifeStep expand l (.cache (.changed v b))).dirs = l.dirs := by
  have hsame : lifeMake expand v b l = l := by unfold lifeMake; rw [hp]
  show (lifeChanged expand v b l).dirs = l.dirs
  unfold lifeChanged getPolicy
  rw [makePolicy_some hp, hsame, hp]
  simp only
  unfold lifeRefresh
  rw [hout]
  split <;> rfl

/-! ### A history -/

/-- Policy `temporary` below `/r`, then below `/s`. -/
def underR : View := viewOf "temporary" "/u" (.str "/r".toList) (.ok .none) (.ok .none) .none
def underS : View := viewOf "temporary" "/u" (.str "/s".toList) (.ok .none) (.ok .none) .none

example : (lifeRun id (Life.init bareOs) [.cache (.used underR false)]).dirs = [(0, .fresh (some "/r".toList) 0)] ∧
    (lifeRun id (Life.init bareOs) [.cache (.used underR false), .cache (.changed underS false)]).dirs = [(1, .fresh (some "/s".toList) 1)] ∧
    (lifeRun id (Life.init bareOs) [.cache (.used underR false), .keep, .cache (.changed underS false)]).dirs =
      [(0, .fresh (some "/r".toList) 0), (1, .fresh (some "/s".toList) 1)] ∧
    (lifeRun id (Life.init bareOs) [.cache (.used underR false), .keep, .cache (.changed underS false), .release 0]).dirs =
      [(1, .fresh (some "/s".toList) 1)] := by decide +kernel

example : ∃ p d, (lifeRun id (Life.init bareOs) [.cache (.used underR false)]).cache.policy = some p ∧ p.dir = some d ∧
    p.outdated underS = .ok true ∧ p.outdated underR = .ok false :=
  ⟨_, _, rfl, rfl, by decide +kernel, by decide +kernel⟩

example : (cacheDirectory id (viewOf "off" "/u" .none (.ok .none) (.ok .none) .none) false (CacheSt.init bareOs)).1 = .ok (.fresh none 0) := by decide +kernel

/-- "A change of the configuration that fails leaves the cache as it was": it does not, the files in the temporary directory are lost. -/
theorem C114_failed : ∃ (o : Os) (v v' : View) (d : Dir), (cacheDirectory id v false (CacheSt.init o)).1 = .ok d ∧
    (lifeRun id (Life.init o) [.cache (.directory v false)]).has d ∧
    (configChanged id v' false (lifeRun id (Life.init o) [.cache (.directory v false)]).cache).1 = .error .os ∧
    (lifeRun id (Life.init o) [.cache (.directory v false), .cache (.changed v' false)]).dirs = [] :=
  ⟨{ bareOs with denied := fun p => p = "/s".toList }, underR, underS, .fresh (some "/r".toList) 0, by decide +kernel,
    ⟨0, by decide +kernel⟩, by decide +kernel, by decide +kernel⟩

/-- Under policy `off` the manager, which has nothing to do then, still has the name of a directory that is gone. -/
theorem C114_manager : ∃ (h : List LifeEv) (q : Policy) (d : Dir), (lifeRun id (Life.init bareOs) h).cache.manager = some (some q) ∧ q.dir = some d ∧
    (lifeRun id (Life.init bareOs) h).dirs = [] :=
  ⟨[.cache (.used underR false), .cache (.changed (viewOf "off" "/u" .none (.ok .none) (.ok .none) .none) false)], _, _, rfl, rfl, by decide +kernel⟩

/-- `C114_follows`, `C114_inforce`, `C114_owner`, `C114_alone`, `C114_gone`, `C114_kept`, `C114_same` on these histories. -/
example : (lifeRun id (Life.init bareOs) [.cache (.used underR false), .keep, .cache (.changed underS false)]).cache =
      cacheRun id (CacheSt.init bareOs) [.used underR false, .changed underS false] ∧
    (lifeRun id (Life.init bareOs) [.cache (.used underR false)]).has (.fresh (some "/r".toList) 0) ∧
    ¬ (lifeRun id (Life.init bareOs) ([.cache (.used underR false)] ++ [.cache (.changed underS false)])).has (.fresh (some "/r".toList) 0) ∧
    (lifeStep id (lifeRun id (Life.init bareOs) [.cache (.used underR false)]) (.cache (.changed underR false))).dirs =
      (lifeRun id (Life.init bareOs) [.cache (.used underR false)]).dirs :=
  ⟨C114_follows id bareOs [.cache (.used underR false), .keep, .cache (.changed underS false)],
    C114_inforce (h := [.cache (.used underR false)]) rfl rfl,
    C114_gone (h := [.cache (.used underR false)]) rfl rfl rfl (by decide +kernel) (by intro i hi; cases hi),
    C114_same rfl (by decide +kernel)⟩

example : (lifeRun id (Life.init bareOs) [.cache (.used underR false), .cache (.changed underS false)]).dirs.map Prod.snd =
      ((lifeRun id (Life.init bareOs) [.cache (.used underR false), .cache (.changed underS false)]).cache.policy.bind Policy.dir).toList ∧
    ∀ j e, (j, e) ∈ (lifeRun id (Life.init bareOs) [.cache (.used underR false), .keep, .cache (.changed underS false)]).dirs →
      (j = 0 ↔ e = .fresh (some "/r".toList) 0) :=
  ⟨C114_alone (by simp), (C114_owner (h := [.cache (.used underR false), .keep, .cache (.changed underS false)]) (i := 0)
    (d := .fresh (some "/r".toList) 0) (by decide +kernel)).2⟩

example (h : List LifeEv) (hr : .release 0 ∉ h) :
    (0, Dir.fresh (some "/r".toList) 0) ∈ (lifeRun id (lifeRun id (Life.init bareOs) [.cache (.used underR false), .keep]) h).dirs :=
  C114_kept (by decide +kernel) (by decide +kernel) h hr

/-- `C114_reply`: the directory given with policy `off` is there afterwards. -/
example : (∃ path, Dir.fresh none 0 = .at path) ∨ (lifeRun id (Life.init bareOs)
    ([] ++ [.cache (.directory (viewOf "off" "/u" .none (.ok .none) (.ok .none) .none) false)])).has (.fresh none 0) :=
  C114_reply (h := []) (by decide +kernel)

end Verif.DiskCache.Policy

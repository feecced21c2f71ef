import Verif.DiskCache.Policy

/-!
# Properties of cache policies

C67 the active policy follows the configuration. C68 `temporary-directory-root`. C89 policy `temporary` and the directory of the user.
C90 unrelated changes keep the directory. C91 what the manager works with.
-/

namespace Verif.DiskCache.Policy
open Verif.Config

/-! ## Specification -/

/-- The directory the documentation promises for a managed policy: `user-cache-directory`, or a new directory below
`temporary-cache-directory-root` (below the directory for temporary files of the system if that is not set). -/
inductive Promised (expand : List Char → List Char) (v : View) : Dir → Prop where
  | user {d : List Char} (hp : v "cache-policy" = .ok (.str "user".toList)) (hd : v "user-cache-directory" = .ok (.str d)) :
      Promised expand v (.at (expand d))
  | temporary {r : List Char} {n : Nat} (hp : v "cache-policy" = .ok (.str "temporary".toList))
      (hd : v "temporary-cache-directory-root" = .ok (.str r)) : Promised expand v (.fresh (some (expand r)) n)
  | system {n : Nat} (hp : v "cache-policy" = .ok (.str "temporary".toList))
      (hd : v "temporary-cache-directory-root" = .ok .none) : Promised expand v (.fresh none n)

/-- Two policies do the same: same class, directory and limits. -/
structure SamePolicy (p q : Policy) : Prop where
  kind : p.kind = q.kind
  path : p.path = q.path
  dir : p.dir = q.dir
  size : pyEq p.maxSize q.maxSize = true
  usage : pyEq p.maxUsage q.maxUsage = true

/-! ## Equality of python -/

theorem pyEq_refl (a : V) : pyEq a a = true := by cases a <;> simp [pyEq]

theorem pyEq_symm {a b : V} (h : pyEq a b = true) : pyEq b a = true := by
  cases a <;> cases b <;> simp_all [pyEq]

theorem pyEq_trans {a b c : V} (h : pyEq a b = true) (h' : pyEq b c = true) : pyEq a c = true := by
  cases a <;> cases b <;> cases c <;> simp_all [pyEq]
  · rename_i x y z
    cases x <;> cases z <;> simp_all
    · rw [← h] at h'; cases h'
    · rw [← h] at h'; cases h'

theorem pyEq_str {s : List Char} {b : V} (h : pyEq (.str s) b = true) : b = .str s := by
  cases b <;> simp_all [pyEq]

theorem pyEq_none {b : V} (h : pyEq .none b = true) : b = .none := by
  cases b <;> simp_all [pyEq]

theorem samePolicy_refl (p : Policy) : SamePolicy p p := ⟨rfl, rfl, rfl, pyEq_refl _, pyEq_refl _⟩

/-! ## Invariant -/

/-- A policy was made from the values it remembers. -/
structure Made (expand : List Char → List Char) (p : Policy) : Prop where
  name : p.snap "cache-policy" = some (.str p.kind.name)
  user : p.kind = .user → ∃ d, p.snap "user-cache-directory" = some (.str d) ∧ p.path = expand d
  temporary : p.kind = .temporary → ∃ x root n, p.snap "temporary-cache-directory-root" = some x ∧ expandPath expand (some x) = .ok root ∧
    p.dir = some (.fresh root n)
  off : p.kind = .off → ∀ d, p.dir = some d → ∃ n, d = .fresh none n
  nothing : p.snap "temporary-directory-root" = none
  limits : ∃ x y, p.snap "maximum-cache-size" = some x ∧ p.snap "maximum-cache-disk-usage" = some y

theorem readKeys_cache {v : View} {sn : Snap} (h : readKeys v CACHE_KEYS = .ok sn) :
    (∀ k ∈ CACHE_KEYS, ∃ x, v k = .ok x ∧ sn k = some x) ∧ sn "temporary-directory-root" = none := by
  simp only [CACHE_KEYS, readKeys] at h
  cases h1 : v "cache-policy" with
  | error e => simp [h1] at h
  | ok x1 =>
  cases h2 : v "user-cache-directory" with
  | error e => simp [h1, h2] at h
  | ok x2 =>
  cases h3 : v "temporary-cache-directory-root" with
  | error e => simp [h1, h2, h3] at h
  | ok x3 =>
  cases h4 : v "maximum-cache-disk-usage" with
  | error e => simp [h1, h2, h3, h4] at h
  | ok x4 =>
  cases h5 : v "maximum-cache-size" with
  | error e => simp [h1, h2, h3, h4, h5] at h
  | ok x5 =>
  simp only [h1, h2, h3, h4, h5, Except.ok.injEq] at h
  subst h
  refine ⟨?_, by simp⟩
  intro k hk
  simp only [CACHE_KEYS, List.mem_cons, List.not_mem_nil, or_false] at hk
  rcases hk with rfl | rfl | rfl | rfl | rfl
  · exact ⟨x1, h1, by simp⟩
  · exact ⟨x2, h2, by simp⟩
  · exact ⟨x3, h3, by simp⟩
  · exact ⟨x4, h4, by simp⟩
  · exact ⟨x5, h5, by simp⟩

theorem kindOf_name {x : V} {k : Kind'} (h : kindOf x = some k) : x = .str k.name := by
  unfold kindOf at h
  split at h
  · cases h; assumption
  · split at h
    · cases h; assumption
    · split at h
      · cases h; assumption
      · cases h

theorem temp_ok {o : Os} {root : Option (List Char)} {d : Dir} {o' : Os} (h : o.temp root = .ok (d, o')) : ∃ n, d = .fresh root n := by
  unfold Os.temp at h
  cases root with
  | none =>
    simp only at h
    split at h
    · cases h
    · cases h; exact ⟨_, rfl⟩
  | some r =>
    simp only at h
    split at h
    · cases h
    · split at h
      · cases h
      · split at h
        · cases h
        · cases h; exact ⟨_, rfl⟩

theorem userInit_ok {expand : List Char → List Char} {kind : Kind'} {sn : Snap} {o o' : Os} {p : Policy}
    (h : userInit expand kind sn o = .ok (p, o')) :
    p.kind = kind ∧ p.snap = sn ∧ p.dir = none ∧ (∃ d, sn "user-cache-directory" = some (.str d) ∧ p.path = expand d) ∧ o.ensure p.path = .ok o' := by
  unfold userInit at h
  cases hx : sn "user-cache-directory" with
  | none => simp [hx, expandPath] at h
  | some x =>
    cases x with
    | str d =>
      simp only [hx, expandPath] at h
      cases ho : o.ensure (expand d) with
      | error e => rw [ho] at h; cases h
      | ok o1 =>
        rw [ho] at h
        cases h
        exact ⟨rfl, rfl, rfl, ⟨d, rfl, rfl⟩, ho⟩
    | none => simp [hx, expandPath] at h
    | bool b => simp [hx, expandPath] at h
    | int i => simp [hx, expandPath] at h
    | other i => simp [hx, expandPath] at h

theorem expandPath_some {expand : List Char → List Char} {x : Option V} {root : Option (List Char)} (h : expandPath expand x = .ok root)
    (hx : ∃ y, x = some y) : (x = some .none ∧ root = none) ∨ ∃ r, x = some (.str r) ∧ root = some (expand r) := by
  obtain ⟨y, rfl⟩ := hx
  cases y <;> simp_all [expandPath]

/-- A new policy remembers the configuration it was made from. -/
theorem fromConfig_ok {expand : List Char → List Char} {v : View} {o o' : Os} {p : Policy} (h : fromConfig expand v o = .ok (p, o')) :
    Made expand p ∧ v "cache-policy" = .ok (.str p.kind.name) ∧ ∀ k ∈ CACHE_KEYS, ∃ x, v k = .ok x ∧ p.snap k = some x := by
  unfold fromConfig at h
  cases hv : v "cache-policy" with
  | error e => rw [hv] at h; cases h
  | ok x =>
    rw [hv] at h
    simp only at h
    cases hk : kindOf x with
    | none => rw [hk] at h; cases h
    | some k =>
      rw [hk] at h
      have hx := kindOf_name hk
      subst hx
      cases hr : readKeys v CACHE_KEYS with
      | error e => cases k <;> simp [construct, hr] at h
      | ok sn =>
        obtain ⟨hall, hno⟩ := readKeys_cache hr
        have hname : sn "cache-policy" = some (.str k.name) := by
          obtain ⟨y, hy, hs⟩ := hall "cache-policy" (by simp [CACHE_KEYS])
          rw [hv] at hy; cases hy; exact hs
        have hlim : ∃ x y, sn "maximum-cache-size" = some x ∧ sn "maximum-cache-disk-usage" = some y := by
          obtain ⟨x, _, hs⟩ := hall "maximum-cache-size" (by simp [CACHE_KEYS])
          obtain ⟨y, _, hs'⟩ := hall "maximum-cache-disk-usage" (by simp [CACHE_KEYS])
          exact ⟨x, y, hs, hs'⟩
        cases k with
        | off =>
          simp only [construct, hr] at h
          cases h
          exact ⟨⟨hname, (by intro e; cases e), (by intro e; cases e), (by intro _ d e; cases e), hno, hlim⟩, rfl, hall⟩
        | user =>
          simp only [construct, hr] at h
          obtain ⟨h1, h2, h3, h4, _⟩ := userInit_ok h
          obtain ⟨kind, snap, path, dir⟩ := p
          simp only at h1 h2 h3
          subst h1 h2 h3
          exact ⟨⟨hname, fun _ => h4, (by intro e; cases e), (by intro e; cases e), hno, hlim⟩, rfl, hall⟩
        | temporary =>
          simp only [construct, hr, tmpInit] at h
          cases hu : userInit expand .temporary sn o with
          | error e => rw [hu] at h; cases h
          | ok r =>
            obtain ⟨p1, o1⟩ := r
            rw [hu] at h
            obtain ⟨h1, h2, h3, h4, _⟩ := userInit_ok hu
            simp only at h
            cases he : expandPath expand (sn "temporary-cache-directory-root") with
            | error e => rw [he] at h; cases h
            | ok root =>
              rw [he] at h
              simp only at h
              cases ht : o1.temp root with
              | error e => rw [ht] at h; cases h
              | ok d =>
                obtain ⟨d, o2⟩ := d
                rw [ht] at h
                cases h
                obtain ⟨kind, snap, path, dir⟩ := p1
                simp only at h1 h2 h3
                subst h1 h2 h3
                obtain ⟨x, _, hs⟩ := hall "temporary-cache-directory-root" (by simp [CACHE_KEYS])
                obtain ⟨n, hn⟩ := temp_ok ht
                refine ⟨⟨hname, (by intro e; cases e), fun _ => ⟨x, root, n, hs, hs ▸ he, congrArg some hn⟩, (by intro e; cases e), hno, hlim⟩, rfl, hall⟩

/-! ## Updates -/

theorem anyDiffers_false {sn : Snap} {v : View} {ks : List String} (h : anyDiffers sn v ks = .ok false) :
    ∀ k ∈ ks, ∃ x, v k = .ok x ∧ pyEq ((sn k).getD .none) x = true := by
  induction ks with
  | nil => intro k hk; cases hk
  | cons a ks ih =>
    unfold anyDiffers at h
    unfold differs at h
    intro k hk
    cases hv : v a with
    | error e => rw [hv] at h; cases h
    | ok x =>
      rw [hv] at h
      simp only at h
      cases hp : pyEq ((sn a).getD .none) x with
      | false => rw [hp] at h; cases h
      | true =>
        rw [hp] at h
        rcases List.mem_cons.1 hk with rfl | hk
        · exact ⟨x, hv, hp⟩
        · exact ih h k hk

/-- The loop keeps the keys that make a policy outdated and replaces the others. -/
theorem updateL_snap {kind : Kind'} {v : View} (ks : List String) : ∀ {c : Bool} {sn : Snap},
    ∀ k, (updateL kind v ks c sn).2 k = sn k ∨ (k ∈ ks ∧ k ∉ kind.outdatedKeys ∧ ∃ x, v k = .ok x ∧ (updateL kind v ks c sn).2 k = some x) := by
  induction ks with
  | nil => intro c sn k; exact .inl rfl
  | cons a ks ih =>
    intro c sn k
    unfold updateL
    cases hv : v a with
    | error e => exact .inl rfl
    | ok x =>
      simp only
      rcases ih (c := c || !pyEq ((sn a).getD .none) x) (sn := if a ∈ kind.outdatedKeys then sn else fun k' => if k' = a then some x else sn k') k with h | ⟨h1, h2, h3⟩
      · by_cases ha : a ∈ kind.outdatedKeys
        · rw [if_pos ha] at h ⊢; exact .inl h
        · rw [if_neg ha] at h ⊢
          by_cases e : k = a
          · subst e
            simp only [if_true] at h
            exact .inr ⟨List.mem_cons_self, ha, x, hv, h⟩
          · simp only [e, if_false] at h
            exact .inl h
      · exact .inr ⟨List.mem_cons_of_mem _ h1, h2, h3⟩

theorem updateL_ok {kind : Kind'} {v : View} (ks : List String) : ∀ {c : Bool} {sn : Snap} {r : Bool},
    (updateL kind v ks c sn).1 = .ok r →
    (∀ k ∈ ks, k ∉ kind.outdatedKeys → ∃ x, v k = .ok x ∧ (updateL kind v ks c sn).2 k = some x) ∧
    (ks.Nodup → r = false → c = false ∧ ∀ k ∈ ks, ∃ x, v k = .ok x ∧ pyEq ((sn k).getD .none) x = true) := by
  induction ks with
  | nil =>
    intro c sn r h
    simp only [updateL, Except.ok.injEq] at h
    refine ⟨fun k hk => (by cases hk), fun _ hr => ⟨h.trans hr, fun k hk => (by cases hk)⟩⟩
  | cons a ks ih =>
    intro c sn r h
    unfold updateL at h ⊢
    cases hv : v a with
    | error e => rw [hv] at h; cases h
    | ok x =>
      rw [hv] at h
      simp only at h ⊢
      obtain ⟨h1, h2⟩ := ih h
      refine ⟨?_, ?_⟩
      · intro k hk ho
        by_cases hks : k ∈ ks
        · exact h1 k hks ho
        · have e : k = a := (List.mem_cons.1 hk).resolve_right hks
          subst e
          refine ⟨x, hv, ?_⟩
          rcases updateL_snap (kind := kind) (v := v) ks (c := c || !pyEq ((sn k).getD .none) x)
            (sn := if k ∈ kind.outdatedKeys then sn else fun k' => if k' = k then some x else sn k') k with h | h
          · rw [h, if_neg ho]; simp
          · exact absurd h.1 hks
      · intro hnd hr
        obtain ⟨hna, hnd⟩ := List.nodup_cons.1 hnd
        obtain ⟨h3, h4⟩ := h2 hnd hr
        rw [Bool.or_eq_false_iff] at h3
        refine ⟨h3.1, ?_⟩
        intro k hk
        rcases List.mem_cons.1 hk with rfl | hk
        · exact ⟨x, hv, by simpa using h3.2⟩
        · obtain ⟨y, hy, he⟩ := h4 k hk
          refine ⟨y, hy, ?_⟩
          have hne : k ≠ a := fun e => hna (e ▸ hk)
          by_cases ha : a ∈ kind.outdatedKeys
          · rw [if_pos ha] at he; exact he
          · rw [if_neg ha] at he; simp only [hne, if_false] at he; exact he

theorem made_update {expand : List Char → List Char} {p : Policy} (hm : Made expand p) (v : View) :
    Made expand { p with snap := (updateL p.kind v CACHE_KEYS false p.snap).2 } := by
  have keep : ∀ k, k ∈ p.kind.outdatedKeys → (updateL p.kind v CACHE_KEYS false p.snap).2 k = p.snap k := by
    intro k hk
    rcases updateL_snap (kind := p.kind) (v := v) CACHE_KEYS (c := false) (sn := p.snap) k with h | h
    · exact h
    · exact absurd hk h.2.1
  refine ⟨?_, ?_, ?_, hm.off, ?_, ?_⟩
  · show (updateL p.kind v CACHE_KEYS false p.snap).2 "cache-policy" = _
    rw [keep _ (by cases p.kind <;> simp [Kind'.outdatedKeys])]
    exact hm.name
  · intro hk
    show ∃ d, (updateL p.kind v CACHE_KEYS false p.snap).2 "user-cache-directory" = _ ∧ _
    rw [keep _ (by rw [show p.kind = _ from hk]; simp [Kind'.outdatedKeys])]
    exact hm.user hk
  · intro hk
    show ∃ x root n, (updateL p.kind v CACHE_KEYS false p.snap).2 "temporary-cache-directory-root" = _ ∧ _
    rw [keep _ (by rw [show p.kind = _ from hk]; simp [Kind'.outdatedKeys])]
    exact hm.temporary hk
  · show (updateL p.kind v CACHE_KEYS false p.snap).2 "temporary-directory-root" = none
    rcases updateL_snap (kind := p.kind) (v := v) CACHE_KEYS (c := false) (sn := p.snap) "temporary-directory-root" with h | h
    · rw [h]; exact hm.nothing
    · exact absurd h.1 (by simp [CACHE_KEYS])
  · obtain ⟨x, y, hx, hy⟩ := hm.limits
    have some' : ∀ k x, p.snap k = some x → ∃ y, (updateL p.kind v CACHE_KEYS false p.snap).2 k = some y := by
      intro k x hx
      rcases updateL_snap (kind := p.kind) (v := v) CACHE_KEYS (c := false) (sn := p.snap) k with h | ⟨_, _, z, _, hz⟩
      · exact ⟨x, h.trans hx⟩
      · exact ⟨z, hz⟩
    obtain ⟨x', hx'⟩ := some' _ x hx
    obtain ⟨y', hy'⟩ := some' _ y hy
    exact ⟨x', y', hx', hy'⟩

/-! ## The cache -/

/-- What always holds. -/
structure Cached (expand : List Char → List Char) (s : CacheSt) : Prop where
  made : ∀ p, s.policy = some p → Made expand p
  manager : ∀ p, s.policy = some p → p.kind.managed = true → ∃ q, s.manager = some (some q)

theorem cached_init (expand : List Char → List Char) (o : Os) : Cached expand (CacheSt.init o) :=
  ⟨fun p h => (by cases h), fun p h => (by cases h)⟩

/-- What `_make_policy` leaves when there was no policy. -/
theorem makePolicy_none {expand : List Char → List Char} {v : View} {b : Bool} {s : CacheSt} (hs : s.policy = none) :
    ((∃ e, makePolicy expand v b s = (.error e, s)) ∨
      ∃ p o, fromConfig expand v s.os = .ok (p, o) ∧ (makePolicy expand v b s).2.policy = some p ∧ (makePolicy expand v b s).2.os = o ∧
        (p.kind.managed = true → (makePolicy expand v b s).2.manager = some (some p)) ∧
        (p.kind.managed = false → (makePolicy expand v b s).2.manager = s.manager ∧ (makePolicy expand v b s).1 = .ok ()) ) := by
  unfold makePolicy
  rw [hs]
  simp only
  cases hf : fromConfig expand v s.os with
  | error e => exact .inl ⟨e, rfl⟩
  | ok r =>
    obtain ⟨p, o⟩ := r
    refine .inr ⟨p, o, rfl, ?_⟩
    simp only
    cases hm : p.kind.managed with
    | false => exact ⟨rfl, rfl, fun h => (by cases h), fun _ => ⟨rfl, rfl⟩⟩
    | true => exact ⟨rfl, rfl, fun _ => rfl, fun h => (by cases h)⟩

theorem makePolicy_some {expand : List Char → List Char} {v : View} {b : Bool} {s : CacheSt} {p : Policy} (hs : s.policy = some p) :
    makePolicy expand v b s = (.ok (), s) := by
  unfold makePolicy
  rw [hs]

theorem cached_make {expand : List Char → List Char} {v : View} {b : Bool} {s : CacheSt} (h : Cached expand s) :
    Cached expand (makePolicy expand v b s).2 := by
  cases hs : s.policy with
  | some p => rw [makePolicy_some hs]; exact h
  | none =>
    rcases makePolicy_none (expand := expand) (v := v) (b := b) hs with ⟨e, he⟩ | ⟨p, o, hf, hp, _, hm, _⟩
    · rw [he]; exact h
    · refine ⟨?_, ?_⟩
      · intro q hq; rw [hp] at hq; cases hq; exact (fromConfig_ok hf).1
      · intro q hq hk; rw [hp] at hq; cases hq; exact ⟨p, hm hk⟩

/-- The three ways through `refresh`. -/
theorem refresh_cases (expand : List Char → List Char) (v : View) (b : Bool) (p : Policy) (s : CacheSt) :
    (∃ e, refresh expand v b p s = (.error (.config e), s)) ∨
    (p.outdated v = .ok true ∧ refresh expand v b p s = makePolicy expand v b { s with policy := none }) ∨
    (p.outdated v = .ok false ∧ (refresh expand v b p s).2.policy = some { p with snap := (updateL p.kind v CACHE_KEYS false p.snap).2 } ∧
      (refresh expand v b p s).2.os = s.os ∧
      ((∃ e, (updateL p.kind v CACHE_KEYS false p.snap).1 = .error e ∧ (refresh expand v b p s).1 = .error (.config e) ∧ (refresh expand v b p s).2.manager = s.manager) ∨
        ∃ c, (updateL p.kind v CACHE_KEYS false p.snap).1 = .ok c ∧
          (((c && p.kind.managed) = false ∧ (refresh expand v b p s).2.manager = s.manager ∧ (refresh expand v b p s).1 = .ok ()) ∨
            ((c && p.kind.managed) = true ∧ ((s.manager = none ∧ (refresh expand v b p s).2.manager = none) ∨
              (refresh expand v b p s).2.manager = some (some { p with snap := (updateL p.kind v CACHE_KEYS false p.snap).2 })))))) := by
  unfold refresh
  cases ho : p.outdated v with
  | error e => exact .inl ⟨e, rfl⟩
  | ok r =>
    cases r with
    | true => exact .inr (.inl ⟨rfl, rfl⟩)
    | false =>
      refine .inr (.inr ⟨rfl, ?_⟩)
      simp only
      obtain ⟨x, e⟩ : ∃ x, x = updateL p.kind v CACHE_KEYS false p.snap := ⟨_, rfl⟩
      rw [← e]
      obtain ⟨x1, x2⟩ := x
      cases x1 with
      | error err => exact ⟨rfl, rfl, .inl ⟨err, rfl, rfl, rfl⟩⟩
      | ok c =>
        simp only
        unfold tellManager
        cases hc : (c && p.kind.managed) with
        | false => exact ⟨rfl, rfl, .inr ⟨c, rfl, .inl ⟨hc, rfl, rfl⟩⟩⟩
        | true =>
          cases hm : s.manager with
          | none => exact ⟨rfl, rfl, .inr ⟨c, rfl, .inr ⟨hc, .inl ⟨rfl, rfl⟩⟩⟩⟩
          | some q => exact ⟨rfl, rfl, .inr ⟨c, rfl, .inr ⟨hc, .inr rfl⟩⟩⟩

theorem cached_refresh {expand : List Char → List Char} {v : View} {b : Bool} {p : Policy} {s : CacheSt} (h : Cached expand s) (hp : s.policy = some p) :
    Cached expand (refresh expand v b p s).2 := by
  rcases refresh_cases expand v b p s with ⟨e, he⟩ | ⟨_, he⟩ | ⟨_, hpol, _, hman⟩
  · rw [he]; exact h
  · rw [he]
    exact cached_make ⟨fun p h => (by cases h), fun p h => (by cases h)⟩
  · refine ⟨?_, ?_⟩
    · intro q hq; rw [hpol] at hq; cases hq; exact made_update (h.made p hp) v
    · intro q hq hk
      rw [hpol] at hq; cases hq
      obtain ⟨m, hm⟩ := h.manager p hp hk
      rcases hman with ⟨e, _, _, h1⟩ | ⟨c, _, ⟨_, h1, _⟩ | ⟨_, ⟨h0, _⟩ | h1⟩⟩
      · exact ⟨m, h1.trans hm⟩
      · exact ⟨m, h1.trans hm⟩
      · rw [hm] at h0; cases h0
      · exact ⟨_, h1⟩

theorem configChanged_cases (expand : List Char → List Char) (v : View) (b : Bool) (s : CacheSt) :
    (∃ e, configChanged expand v b s = (.error e, s)) ∨
    (∃ e, configChanged expand v b s = (.error e, (makePolicy expand v b s).2)) ∨
    (∃ p, (makePolicy expand v b s).1 = .ok () ∧ (makePolicy expand v b s).2.policy = some p ∧
      configChanged expand v b s = refresh expand v b p (makePolicy expand v b s).2) := by
  unfold configChanged getPolicy
  cases hv : v "cache-policy" with
  | error e => exact .inl ⟨_, rfl⟩
  | ok x =>
    cases x with
    | str t =>
      simp only
      obtain ⟨m, e⟩ : ∃ m, m = makePolicy expand v b s := ⟨_, rfl⟩
      rw [← e]
      obtain ⟨m1, m2⟩ := m
      cases m1 with
      | error err => exact .inr (.inl ⟨err, rfl⟩)
      | ok _ =>
        simp only
        cases hp : m2.policy with
        | none => exact .inr (.inl ⟨_, rfl⟩)
        | some p => exact .inr (.inr ⟨p, trivial, rfl, rfl⟩)
    | none => exact .inl ⟨_, rfl⟩
    | bool _ => exact .inl ⟨_, rfl⟩
    | int _ => exact .inl ⟨_, rfl⟩
    | other _ => exact .inl ⟨_, rfl⟩

theorem cached_changed {expand : List Char → List Char} {v : View} {b : Bool} {s : CacheSt} (h : Cached expand s) :
    Cached expand (configChanged expand v b s).2 := by
  rcases configChanged_cases expand v b s with ⟨e, he⟩ | ⟨e, he⟩ | ⟨p, _, hp, he⟩
  · rw [he]; exact h
  · rw [he]; exact cached_make h
  · rw [he]; exact cached_refresh (cached_make h) hp

/-- The directory of a policy in the state. -/
theorem directory_made {expand : List Char → List Char} {p p' : Policy} {o o' : Os} {d : Dir} (hm : Made expand p)
    (h : p.directory expand o = .ok (d, p', o')) :
    (p.kind = .user ∧ d = .at p.path ∧ p' = p) ∨ (p.kind = .temporary ∧ p.dir = some d ∧ p' = p) ∨
      (p.kind = .off ∧ p' = { p with dir := some d } ∧ (∃ n, d = .fresh none n) ∧ (p.dir = none ∨ p.dir = some d)) := by
  unfold Policy.directory at h
  cases hk : p.kind with
  | user =>
    rw [hk] at h
    cases h; exact .inl ⟨rfl, rfl, rfl⟩
  | temporary =>
    rw [hk] at h
    simp only at h
    cases hd : p.dir with
    | none => rw [hd] at h; cases h
    | some d' => rw [hd] at h; cases h; exact .inr (.inl ⟨rfl, rfl, rfl⟩)
  | off =>
    rw [hk] at h
    simp only at h
    cases hd : p.dir with
    | some d' =>
      rw [hd] at h
      cases h
      refine .inr (.inr ⟨rfl, ?_, hm.off hk d hd, .inr rfl⟩)
      obtain ⟨k, sn, pa, di⟩ := p
      simp only at hd hk
      rw [hd, hk]
    | none =>
      rw [hd, hm.nothing] at h
      simp only [expandPath] at h
      cases ht : o.temp none with
      | error e => rw [ht] at h; cases h
      | ok r =>
        rw [ht] at h
        cases h
        exact .inr (.inr ⟨rfl, rfl, temp_ok ht, .inl rfl⟩)

theorem cacheDirectory_cases (expand : List Char → List Char) (v : View) (b : Bool) (s : CacheSt) :
    (∃ e, cacheDirectory expand v b s = (.error e, (makePolicy expand v b s).2)) ∨
    (∃ p d p' o', (makePolicy expand v b s).2.policy = some p ∧ p.directory expand (makePolicy expand v b s).2.os = .ok (d, p', o') ∧
      cacheDirectory expand v b s = (.ok d, { (makePolicy expand v b s).2 with policy := some p', os := o' })) := by
  unfold cacheDirectory getPolicy
  obtain ⟨m, e⟩ : ∃ m, m = makePolicy expand v b s := ⟨_, rfl⟩
  rw [← e]
  obtain ⟨m1, m2⟩ := m
  cases m1 with
  | error err => exact .inl ⟨err, rfl⟩
  | ok _ =>
    simp only
    cases hp : m2.policy with
    | none => exact .inl ⟨_, rfl⟩
    | some p =>
      simp only
      cases hd : p.directory expand m2.os with
      | error e => exact .inl ⟨e, rfl⟩
      | ok r =>
        obtain ⟨d, p', o'⟩ := r
        exact .inr ⟨p, d, p', o', rfl, hd, rfl⟩

theorem cached_directory {expand : List Char → List Char} {v : View} {b : Bool} {s : CacheSt} (h : Cached expand s) :
    Cached expand (cacheDirectory expand v b s).2 := by
  rcases cacheDirectory_cases expand v b s with ⟨e, he⟩ | ⟨p, d, p', o', hp, hd, he⟩
  · rw [he]; exact cached_make h
  · rw [he]
    have hc := cached_make (v := v) (b := b) h
    have hm := hc.made p hp
    rcases directory_made hm hd with ⟨_, _, e⟩ | ⟨_, _, e⟩ | ⟨hk, e, hn, _⟩
    · subst e; exact ⟨fun q hq => (by cases hq; exact hm), fun q hq hk => (by cases hq; exact hc.manager _ hp hk)⟩
    · subst e; exact ⟨fun q hq => (by cases hq; exact hm), fun q hq hk => (by cases hq; exact hc.manager _ hp hk)⟩
    · subst e
      refine ⟨fun q hq => ?_, fun q hq hk' => ?_⟩
      · cases hq
        exact ⟨hm.name, hm.user, fun h => (by rw [show p.kind = _ from hk] at h; cases h), fun _ d' e => (by cases e; exact hn), hm.nothing, hm.limits⟩
      · cases hq
        replace hk' : p.kind.managed = true := hk'
        rw [hk] at hk'; cases hk'

theorem cached_step {expand : List Char → List Char} {s : CacheSt} (h : Cached expand s) (e : CacheEv) : Cached expand (cacheStep expand s e) := by
  cases e with
  | changed v b => exact cached_changed h
  | used v b => exact cached_make h
  | directory v b => exact cached_directory h

theorem cached_run {expand : List Char → List Char} (h : List CacheEv) : ∀ {s : CacheSt}, Cached expand s → Cached expand (cacheRun expand s h) := by
  induction h with
  | nil => intro s hs; exact hs
  | cons e h ih => intro s hs; exact ih (cached_step hs e)

/-! ## C67 -/

/-- The policy left by a successful change remembers the configuration. -/
theorem changed_ok {expand : List Char → List Char} {v : View} {b : Bool} {s : CacheSt} (h : Cached expand s)
    (ho : (configChanged expand v b s).1 = .ok ()) :
    ∃ p, (configChanged expand v b s).2.policy = some p ∧ Made expand p ∧
      (∀ k ∈ CACHE_KEYS, k ∉ p.kind.outdatedKeys → ∃ x, v k = .ok x ∧ p.snap k = some x) ∧
      (∀ k ∈ p.kind.outdatedKeys, k ∈ CACHE_KEYS → ∃ x, v k = .ok x ∧ pyEq ((p.snap k).getD .none) x = true) := by
  rcases configChanged_cases expand v b s with ⟨e, he⟩ | ⟨e, he⟩ | ⟨p, _, hp, he⟩
  · rw [he] at ho; cases ho
  · rw [he] at ho; cases ho
  · rw [he] at ho ⊢
    have hc := cached_make (v := v) (b := b) h
    rcases refresh_cases expand v b p (makePolicy expand v b s).2 with ⟨e, hr⟩ | ⟨_, hr⟩ | ⟨hout, hpol, _, hman⟩
    · rw [hr] at ho; cases ho
    · rw [hr] at ho ⊢
      rcases makePolicy_none (expand := expand) (v := v) (b := b) (s := { (makePolicy expand v b s).2 with policy := none }) rfl with ⟨e, he⟩ | ⟨q, o, hf, hq, _⟩
      · rw [he] at ho; cases ho
      · obtain ⟨h1, h2, h3⟩ := fromConfig_ok hf
        refine ⟨q, hq, h1, fun k hk _ => h3 k hk, fun k _ hk => ?_⟩
        obtain ⟨x, hx, hs⟩ := h3 k hk
        exact ⟨x, hx, by rw [hs]; exact pyEq_refl x⟩
    · refine ⟨_, hpol, made_update (hc.made p hp) v, ?_, ?_⟩
      · rcases hman with ⟨e, _, h1, _⟩ | ⟨c, h1, _⟩
        · rw [h1] at ho; cases ho
        · intro k hk hko
          exact (updateL_ok CACHE_KEYS h1).1 k hk hko
      · intro k hk _
        obtain ⟨x, hx, hpe⟩ := anyDiffers_false hout k hk
        refine ⟨x, hx, ?_⟩
        show pyEq (((updateL p.kind v CACHE_KEYS false p.snap).2 k).getD .none) x = true
        rcases updateL_snap (kind := p.kind) (v := v) CACHE_KEYS (c := false) (sn := p.snap) k with h | h
        · rw [h]; exact hpe
        · exact absurd hk h.2.1

theorem name_inj {k k' : Kind'} (h : k.name = k'.name) : k = k' := by
  cases k <;> cases k' <;> first | rfl | (revert h; decide)

/-- The cache does what the configuration says: its policy is the configured one; the directory is where the configuration says; the
limits are the configured ones. -/
def Follows (expand : List Char → List Char) (v : View) (s : CacheSt) : Prop :=
  ∃ p, s.policy = some p ∧ v "cache-policy" = .ok (.str p.kind.name) ∧
    (p.kind.managed = true → v "maximum-cache-size" = .ok p.maxSize ∧ v "maximum-cache-disk-usage" = .ok p.maxUsage ∧
      ∀ b, ∃ d, cacheDirectory expand v b s = (.ok d, s) ∧ Promised expand v d)

theorem follows_changed {expand : List Char → List Char} {v : View} {b : Bool} {s : CacheSt} (hc : Cached expand s)
    (ho : (configChanged expand v b s).1 = .ok ()) : Follows expand v (configChanged expand v b s).2 := by
  obtain ⟨p, hp, hm, h1, h2⟩ := changed_ok hc ho
  have hname : v "cache-policy" = .ok (.str p.kind.name) := by
    obtain ⟨x, hx, he⟩ := h2 "cache-policy" (by cases p.kind <;> simp [Kind'.outdatedKeys]) (by simp [CACHE_KEYS])
    rw [hm.name] at he
    rw [hx, pyEq_str he]
  generalize (configChanged expand v b s).2 = s' at *
  refine ⟨p, hp, hname, fun hmg => ?_⟩
  have hne : p.kind ≠ .off := by intro e; rw [e] at hmg; cases hmg
  obtain ⟨x, hx, hs⟩ := h1 "maximum-cache-size" (by simp [CACHE_KEYS]) (by cases p.kind <;> simp [Kind'.outdatedKeys])
  obtain ⟨y, hy, hs'⟩ := h1 "maximum-cache-disk-usage" (by simp [CACHE_KEYS]) (by cases p.kind <;> simp [Kind'.outdatedKeys])
  refine ⟨?_, ?_, ?_⟩
  · rw [hx]; unfold Policy.maxSize; rw [if_neg hne, hs]; rfl
  · rw [hy]; unfold Policy.maxUsage; rw [if_neg hne, hs']; rfl
  · intro b'
    have hself : ∀ d, p.directory expand s'.os =
        .ok (d, p, s'.os) →
        cacheDirectory expand v b' s' =
          (.ok d, s') := by
      intro d hd
      unfold cacheDirectory getPolicy
      rw [makePolicy_some hp]
      simp only [hp, hd]
      rw [← hp]
    cases hk : p.kind with
    | off => exact absurd hk hne
    | user =>
      obtain ⟨d, hd, hpath⟩ := hm.user hk
      obtain ⟨x, hx, he⟩ := h2 "user-cache-directory" (by rw [hk]; simp [Kind'.outdatedKeys]) (by simp [CACHE_KEYS])
      rw [hd] at he
      have := pyEq_str he
      subst this
      refine ⟨.at (expand d), hself _ ?_, .user (by rw [hname, hk]; rfl) hx⟩
      unfold Policy.directory
      rw [hk]
      simp only [hpath]
    | temporary =>
      obtain ⟨x, root, n, hx, hroot, hdir⟩ := hm.temporary hk
      obtain ⟨y, hy, he⟩ := h2 "temporary-cache-directory-root" (by rw [hk]; simp [Kind'.outdatedKeys]) (by simp [CACHE_KEYS])
      rw [hx] at he
      refine ⟨.fresh root n, hself _ ?_, ?_⟩
      · unfold Policy.directory
        rw [hk]
        simp only [hdir]
      · rcases expandPath_some hroot ⟨x, rfl⟩ with ⟨h3, h4⟩ | ⟨r, h3, h4⟩
        · cases h3; subst h4
          exact .system (by rw [hname, hk]; rfl) (by rw [hy, pyEq_none he])
        · cases h3; subst h4
          exact .temporary (by rw [hname, hk]; rfl) (by rw [hy, pyEq_str he])

theorem managed_iff {k : Kind'} : k.managed = true ↔ k = .user ∨ k = .temporary := by cases k <;> decide

/-- C67: after any history, when the cache has been told of a configuration change without an exception, its policy is the configured
one; `cache.directory()` is where the configuration says; and the limits are the configured ones. -/
theorem C67_policy_follows (expand : List Char → List Char) (o : Os) (h : List CacheEv) (v : View) (b : Bool)
    (ho : (configChanged expand v b (cacheRun expand (CacheSt.init o) h)).1 = .ok ()) :
    ∃ p, (configChanged expand v b (cacheRun expand (CacheSt.init o) h)).2.policy = some p ∧
      v "cache-policy" = .ok (.str p.kind.name) ∧
      (p.kind = .user ∨ p.kind = .temporary → v "maximum-cache-size" = .ok p.maxSize ∧ v "maximum-cache-disk-usage" = .ok p.maxUsage ∧
        ∃ d, cacheDirectory expand v b (configChanged expand v b (cacheRun expand (CacheSt.init o) h)).2 =
          (.ok d, (configChanged expand v b (cacheRun expand (CacheSt.init o) h)).2) ∧ Promised expand v d) := by
  obtain ⟨p, h1, h2, h3⟩ := follows_changed (cached_run h (cached_init expand o)) ho
  exact ⟨p, h1, h2, fun hm => have hm := managed_iff.mpr hm; ⟨(h3 hm).1, (h3 hm).2.1, (h3 hm).2.2 b⟩⟩

/-! ## C91: the manager -/

/-- The keys can be read. -/
def Readable (v : View) : Prop := ∀ k, k ∈ CACHE_KEYS → ∃ x, v k = .ok x

/-- The manager works with a policy like the active one. -/
def InStep (s : CacheSt) : Prop :=
  ∀ p, s.policy = some p → p.kind = .user ∨ p.kind = .temporary → ∃ q, s.manager = some (some q) ∧ SamePolicy p q

/-- The same in the terms of the model. -/
def InStepM (s : CacheSt) : Prop := ∀ p, s.policy = some p → p.kind.managed = true → ∃ q, s.manager = some (some q) ∧ SamePolicy p q

theorem inStep_iff {s : CacheSt} : InStep s ↔ InStepM s :=
  ⟨fun h p hp hk => h p hp (managed_iff.mp hk), fun h p hp hk => h p hp (managed_iff.mpr hk)⟩

theorem inStep_make {expand : List Char → List Char} {v : View} {b : Bool} {s : CacheSt} (h : InStepM s) : InStepM (makePolicy expand v b s).2 := by
  cases hs : s.policy with
  | some p => rw [makePolicy_some hs]; exact h
  | none =>
    rcases makePolicy_none (expand := expand) (v := v) (b := b) hs with ⟨e, he⟩ | ⟨p, o, hf, hp, _, hm, _⟩
    · rw [he]; exact h
    · intro q hq hk
      rw [hp] at hq; cases hq
      exact ⟨p, hm hk, samePolicy_refl p⟩

theorem updateL_readable {kind : Kind'} {v : View} (ks : List String) (hr : ∀ k ∈ ks, ∃ x, v k = .ok x) : ∀ {c : Bool} {sn : Snap},
    ∃ r, (updateL kind v ks c sn).1 = .ok r := by
  induction ks with
  | nil => intro c sn; exact ⟨c, rfl⟩
  | cons a ks ih =>
    intro c sn
    obtain ⟨x, hx⟩ := hr a List.mem_cons_self
    unfold updateL
    rw [hx]
    exact ih (fun k hk => hr k (List.mem_cons_of_mem _ hk))

theorem inStep_refresh {expand : List Char → List Char} {v : View} {b : Bool} {p : Policy} {s : CacheSt} (h : InStepM s)
    (hp : s.policy = some p) (hv : Readable v) : InStepM (refresh expand v b p s).2 := by
  rcases refresh_cases expand v b p s with ⟨e, he⟩ | ⟨_, he⟩ | ⟨_, hpol, _, hman⟩
  · rw [he]; exact h
  · rw [he]; exact inStep_make (fun p h => (by cases h))
  · intro q hq hk
    rw [hpol] at hq; cases hq
    replace hk : p.kind.managed = true := hk
    obtain ⟨m, hm, hsame⟩ := h p hp hk
    rcases hman with ⟨e, he, _⟩ | ⟨c, hc', ⟨h0, h1, _⟩ | ⟨_, ⟨h0, _⟩ | h1⟩⟩
    · obtain ⟨r, hr⟩ := updateL_readable (kind := p.kind) (v := v) CACHE_KEYS hv (c := false) (sn := p.snap)
      rw [hr] at he; cases he
    · have hcf : c = false := by rw [hk, Bool.and_true] at h0; exact h0
      refine ⟨m, h1.trans hm, ?_⟩
      obtain ⟨h2, h3⟩ := updateL_ok CACHE_KEYS hc'
      have h3 := (h3 (by simp [CACHE_KEYS]) hcf).2
      have hlim : ∀ k ∈ CACHE_KEYS, k ∉ p.kind.outdatedKeys →
          pyEq (((updateL p.kind v CACHE_KEYS false p.snap).2 k).getD .none) ((p.snap k).getD .none) = true := by
        intro k hkk hko
        obtain ⟨x, hx, hs⟩ := h2 k hkk hko
        obtain ⟨y, hy, he⟩ := h3 k hkk
        rw [hx] at hy; cases hy
        rw [hs]
        exact pyEq_symm he
      have hne : p.kind ≠ .off := by intro e; rw [e] at hk; cases hk
      refine ⟨hsame.kind, hsame.path, hsame.dir, pyEq_trans ?_ hsame.size, pyEq_trans ?_ hsame.usage⟩
      · unfold Policy.maxSize
        rw [if_neg hne, if_neg hne]
        exact hlim _ (by simp [CACHE_KEYS]) (by cases p.kind <;> simp [Kind'.outdatedKeys])
      · unfold Policy.maxUsage
        rw [if_neg hne, if_neg hne]
        exact hlim _ (by simp [CACHE_KEYS]) (by cases p.kind <;> simp [Kind'.outdatedKeys])
    · rw [hm] at h0; cases h0
    · exact ⟨_, h1, samePolicy_refl _⟩

theorem inStep_step {expand : List Char → List Char} {s : CacheSt} (h : InStepM s) (hc : Cached expand s) (e : CacheEv) (hv : Readable e.view) :
    InStepM (cacheStep expand s e) := by
  cases e with
  | changed v b =>
    show InStepM (configChanged expand v b s).2
    rcases configChanged_cases expand v b s with ⟨e, he⟩ | ⟨e, he⟩ | ⟨p, _, hp, he⟩
    · rw [he]; exact h
    · rw [he]; exact inStep_make h
    · rw [he]; exact inStep_refresh (inStep_make h) hp hv
  | used v b => exact inStep_make h
  | directory v b =>
    show InStepM (cacheDirectory expand v b s).2
    rcases cacheDirectory_cases expand v b s with ⟨e, he⟩ | ⟨p, d, p', o', hp, hd, he⟩
    · rw [he]; exact inStep_make h
    · rw [he]
      intro q hq hk
      cases hq
      rcases directory_made ((cached_make hc).made p hp) hd with ⟨_, _, e⟩ | ⟨_, _, e⟩ | ⟨hk', e, _⟩
      · subst e; exact inStep_make h _ hp hk
      · subst e; exact inStep_make h _ hp hk
      · subst e
        replace hk : p.kind.managed = true := hk
        rw [hk'] at hk; cases hk

theorem inStep_run {expand : List Char → List Char} (h : List CacheEv) : ∀ {s : CacheSt}, InStepM s → Cached expand s →
    (∀ e ∈ h, Readable e.view) → InStepM (cacheRun expand s h) := by
  induction h with
  | nil => intro s hs _ _; exact hs
  | cons e h ih =>
    intro s hs hc hv
    exact ih (inStep_step hs hc e (hv e List.mem_cons_self)) (cached_step hc e) (fun e' he' => hv e' (List.mem_cons_of_mem _ he'))

/-- C91 (part): as long as the options can be read, the manager works with the directory and the limits of the active policy, whatever
exceptions the manager or the file system raised. Missing: options that cannot be read at times (`C91_refuted`). -/
theorem C91_manager_in_step_partial (expand : List Char → List Char) (o : Os) (h : List CacheEv) (hv : ∀ e ∈ h, Readable e.view) :
    InStep (cacheRun expand (CacheSt.init o) h) :=
  inStep_iff.mpr <| inStep_run h (fun p h => (by cases h)) (cached_init expand o) hv

/-! ## Concrete configurations -/

/-- A configuration that gives the five values, and no `temporary-directory-root`. -/
def viewOf (policy : String) (user : String) (root : V) (usage size : Except Err V) (off : V) : View := fun k =>
  if k = "cache-policy" then .ok (.str policy.toList)
  else if k = "user-cache-directory" then .ok (.str user.toList)
  else if k = "temporary-cache-directory-root" then .ok root
  else if k = "maximum-cache-disk-usage" then usage
  else if k = "maximum-cache-size" then size
  else if k = "temporary-directory-root" then .ok off
  else .error .key

def bareOs : Os := ⟨fun _ => false, fun _ => false, fun _ => false, [], 0⟩

/-- Not vacuous: `user`, then `temporary` below a root, then new limits only. -/
example : (configChanged id (viewOf "temporary" "/u" (.str "/r".toList) (.ok (.int 50)) (.ok (.int 10)) .none) false
    (cacheRun id (CacheSt.init bareOs)
      [.used (viewOf "user" "/u" .none (.ok .none) (.ok (.int 5))  .none) false,
       .changed (viewOf "temporary" "/u" (.str "/r".toList) (.ok .none) (.ok (.int 5)) .none) false])).1 = .ok () := by
  decide +kernel

theorem calm_readable : ∀ e ∈ [CacheEv.used (viewOf "user" "/u" .none (.ok .none) (.ok (.int 5)) .none) false,
    .changed (viewOf "temporary" "/u" (.str "/r".toList) (.ok .none) (.ok (.int 5)) .none) false], Readable e.view := by
  intro e he k hk
  simp only [List.mem_cons, List.not_mem_nil, or_false] at he
  simp only [CACHE_KEYS, List.mem_cons, List.not_mem_nil, or_false] at hk
  rcases he with rfl | rfl <;> rcases hk with rfl | rfl | rfl | rfl | rfl <;> exact ⟨_, rfl⟩

/-- `C91_manager_in_step_partial` for these; `C67_policy_follows` for the change above. -/
example : InStep (cacheRun id (CacheSt.init bareOs) [.used (viewOf "user" "/u" .none (.ok .none) (.ok (.int 5)) .none) false,
      .changed (viewOf "temporary" "/u" (.str "/r".toList) (.ok .none) (.ok (.int 5)) .none) false]) ∧
    ∃ p, (configChanged id (viewOf "temporary" "/u" (.str "/r".toList) (.ok (.int 50)) (.ok (.int 10)) .none) false
      (cacheRun id (CacheSt.init bareOs) [.used (viewOf "user" "/u" .none (.ok .none) (.ok (.int 5)) .none) false,
        .changed (viewOf "temporary" "/u" (.str "/r".toList) (.ok .none) (.ok (.int 5)) .none) false])).2.policy = some p ∧
      Except.ok (V.str "temporary".toList) = (.ok (.str p.kind.name) : Except Err V) := by
  obtain ⟨p, h1, h2, _⟩ := C67_policy_follows id bareOs [.used (viewOf "user" "/u" .none (.ok .none) (.ok (.int 5)) .none) false,
    .changed (viewOf "temporary" "/u" (.str "/r".toList) (.ok .none) (.ok (.int 5)) .none) false]
    (viewOf "temporary" "/u" (.str "/r".toList) (.ok (.int 50)) (.ok (.int 10)) .none) false (by decide +kernel)
  exact ⟨C91_manager_in_step_partial id bareOs _ calm_readable, p, h1, h2⟩

/-- C91 refuted: the size limit cannot be read for a moment (an environment variable with a wrong value) while the usage limit is
changed: `update` stops half way. After the variable is removed the next change finds nothing new, the manager is not told and keeps
the old limit for ever. -/
theorem C91_refuted : ∃ (h : List CacheEv) (v : View), (configChanged id v false (cacheRun id (CacheSt.init bareOs) h)).1 = .ok () ∧
    Readable v ∧ ¬InStep (configChanged id v false (cacheRun id (CacheSt.init bareOs) h)).2 := by
  refine ⟨[.used (viewOf "user" "/u" .none (.ok .none) (.ok (.int 5)) .none) false,
    .changed (viewOf "user" "/u" .none (.ok (.int 50)) (.error .value) .none) false],
    viewOf "user" "/u" .none (.ok (.int 50)) (.ok (.int 5)) .none, by decide +kernel, ?_, ?_⟩
  · intro k hk
    simp only [CACHE_KEYS, List.mem_cons, List.not_mem_nil, or_false] at hk
    rcases hk with rfl | rfl | rfl | rfl | rfl <;> exact ⟨_, rfl⟩
  · intro hi
    have key : ∀ s : CacheSt, InStepM s → s.policy.all (fun p => p.kind.managed && match s.manager with
        | some (some q) => pyEq p.maxUsage q.maxUsage
        | _ => false) = true ∨ s.policy.all (fun p => p.kind.managed) = false := by
      intro s hs
      cases hp : s.policy with
      | none => exact .inl rfl
      | some p =>
        cases hk : p.kind.managed with
        | false => exact .inr hk
        | true =>
          obtain ⟨q, hq, hsame⟩ := hs p hp hk
          refine .inl ?_
          simp only [Option.all_some, hk, hq, Bool.true_and]
          exact hsame.usage
    rcases key _ (inStep_iff.mp hi) with h | h
    · revert h; decide +kernel
    · revert h; decide +kernel

/-! ## C68 -/

/-- The directory of policy `off` never is below `temporary-directory-root`: for every configuration and history it is below the
directory for temporary files of the system. -/
theorem C68_ignored (expand : List Char → List Char) (o : Os) (h : List CacheEv) (v : View) (b : Bool) (d : Dir) (p : Policy)
    (hd : (cacheDirectory expand v b (cacheRun expand (CacheSt.init o) h)).1 = .ok d)
    (hp : (cacheDirectory expand v b (cacheRun expand (CacheSt.init o) h)).2.policy = some p) (hk : p.kind = .off) : ∃ n, d = .fresh none n := by
  have hc := cached_run h (cached_init expand o)
  rcases cacheDirectory_cases expand v b (cacheRun expand (CacheSt.init o) h) with ⟨e, he⟩ | ⟨q, d', q', o', hq, hdir, he⟩
  · rw [he] at hd; cases hd
  · rw [he] at hd hp
    cases hd; cases hp
    rcases directory_made ((cached_make hc).made q hq) hdir with ⟨h1, _, e⟩ | ⟨h1, _, e⟩ | ⟨_, _, hn, _⟩
    · subst e; rw [h1] at hk; cases hk
    · subst e; rw [h1] at hk; cases hk
    · exact hn

/-- C68 refuted: `temporary-directory-root` is not among the values a policy remembers. -/
theorem C68_refuted : ∃ (v : View) (d : Dir), v "cache-policy" = .ok (.str "off".toList) ∧ v "temporary-directory-root" = .ok (.str "/scratch".toList) ∧
    (cacheDirectory id v false (CacheSt.init bareOs)).1 = .ok d ∧ ∀ n, d ≠ .fresh (some "/scratch".toList) n := by
  refine ⟨viewOf "off" "/u" .none (.ok .none) (.ok .none) (.str "/scratch".toList), .fresh none 0, rfl, rfl, by decide +kernel, ?_⟩
  intro n e
  cases e

/-- C68 (part): when `temporary-directory-root` is not set, a change to policy `off` gives a directory below the one of the system,
unless no directory can be made. -/
theorem C68_default_partial (expand : List Char → List Char) (o : Os) (h : List CacheEv) (v : View) (b : Bool)
    (hoff : v "cache-policy" = .ok (.str "off".toList)) (ho : (configChanged expand v b (cacheRun expand (CacheSt.init o) h)).1 = .ok ())
    (hfull : (configChanged expand v b (cacheRun expand (CacheSt.init o) h)).2.os.full none = false) :
    ∃ n, (cacheDirectory expand v b (configChanged expand v b (cacheRun expand (CacheSt.init o) h)).2).1 = .ok (.fresh none n) := by
  obtain ⟨p, hp, hm, _, h2⟩ := changed_ok (cached_run h (cached_init expand o)) ho
  have hk : p.kind = .off := by
    obtain ⟨x, hx, he⟩ := h2 "cache-policy" (by cases p.kind <;> simp [Kind'.outdatedKeys]) (by simp [CACHE_KEYS])
    rw [hm.name] at he
    rw [hoff] at hx
    cases hx
    have := pyEq_str he
    simp only [V.str.injEq] at this
    exact (name_inj (k := .off) this).symm
  unfold cacheDirectory getPolicy
  rw [makePolicy_some hp]
  simp only [hp]
  unfold Policy.directory
  rw [hk]
  simp only
  cases hd : p.dir with
  | some d =>
    obtain ⟨n, e⟩ := hm.off hk d hd
    subst e
    exact ⟨n, rfl⟩
  | none =>
    simp only [hm.nothing, expandPath, Os.temp, hfull]
    exact ⟨_, rfl⟩

/-! ## C89 -/

/-- `C68_ignored`, `C68_default_partial`: policy `off`, first with a root (not used), then without. -/
example : (∃ n, Dir.fresh none 0 = .fresh none n) ∧
    ∃ n, (cacheDirectory id (viewOf "off" "/u" .none (.ok .none) (.ok .none) .none) false
      (configChanged id (viewOf "off" "/u" .none (.ok .none) (.ok .none) .none) false (CacheSt.init bareOs)).2).1 = .ok (.fresh none n) :=
  ⟨C68_ignored id bareOs [] (viewOf "off" "/u" .none (.ok .none) (.ok .none) (.str "/scratch".toList)) false (.fresh none 0) _ (by decide +kernel) rfl
      (by decide +kernel),
    C68_default_partial id bareOs [] (viewOf "off" "/u" .none (.ok .none) (.ok .none) .none) false rfl (by decide +kernel) (by decide +kernel)⟩

/-- C89 refuted: policy `temporary` creates the cache directory of the user, which it does not use; and if that cannot be created there is
no cache although the temporary directory could be. -/
theorem C89_refuted : (∃ (v : View) (s : CacheSt), v "cache-policy" = .ok (.str "temporary".toList) ∧
      v "user-cache-directory" = .ok (.str "/u".toList) ∧ s = (getPolicy id v false (CacheSt.init bareOs)).2 ∧ Dir.at "/u".toList ∈ s.os.made) ∧
    ∃ v : View, v "cache-policy" = .ok (.str "temporary".toList) ∧
      (getPolicy id v false (CacheSt.init { bareOs with denied := fun p => p = "/u".toList })).1 = .error .os := by
  refine ⟨⟨viewOf "temporary" "/u" .none (.ok .none) (.ok .none) .none, _, rfl, rfl, rfl, by decide +kernel⟩,
    viewOf "temporary" "/u" .none (.ok .none) (.ok .none) .none, rfl, by decide +kernel⟩

theorem ensure_made {o o' : Os} {p : List Char} (h : o.ensure p = .ok o') : o'.has = o.has ∧ ∀ d ∈ o'.made, d ∈ o.made ∨ (d = .at p ∧ o.exists p = false) := by
  unfold Os.ensure at h
  split at h
  · cases h; exact ⟨rfl, fun d hd => .inl hd⟩
  · rename_i he
    split at h
    · cases h
    · cases h
      refine ⟨rfl, fun d hd => ?_⟩
      rcases List.mem_append.1 hd with hd | hd
      · exact .inl hd
      · exact .inr ⟨List.mem_singleton.1 hd, by simpa using he⟩

theorem temp_made {o o' : Os} {root : Option (List Char)} {d : Dir} (h : o.temp root = .ok (d, o')) :
    ∀ x ∈ o'.made, x ∈ o.made ∨ x = d ∨ ∃ r, root = some r ∧ x = .at r := by
  unfold Os.temp at h
  cases root with
  | none =>
    simp only at h
    split at h
    · cases h
    · cases h
      intro x hx
      rcases List.mem_append.1 hx with hx | hx
      · exact .inl hx
      · exact .inr (.inl (List.mem_singleton.1 hx))
  | some r =>
    simp only at h
    split at h
    · cases h
    · split at h
      · cases h
      · rename_i o1 ho1
        split at h
        · cases h
        · cases h
          intro x hx
          rcases List.mem_append.1 hx with hx | hx
          · rcases (ensure_made ho1).2 x hx with hx | ⟨hx, _⟩
            · exact .inl hx
            · exact .inr (.inr ⟨r, rfl, hx⟩)
          · exact .inr (.inl (List.mem_singleton.1 hx))

/-- C89 (part): if the directory of the user exists, a new policy `temporary` makes at most its root and its own directory. -/
theorem C89_temporary_partial (expand : List Char → List Char) (v : View) (o o' : Os) (p : Policy) (u : List Char)
    (ht : v "cache-policy" = .ok (.str "temporary".toList)) (hu : v "user-cache-directory" = .ok (.str u)) (hex : o.has (expand u) = true ∨ Dir.at (expand u) ∈ o.made)
    (h : fromConfig expand v o = .ok (p, o')) :
    ∀ x ∈ o'.made, x ∈ o.made ∨ p.dir = some x ∨ ∃ r, v "temporary-cache-directory-root" = .ok (.str r) ∧ x = .at (expand r) := by
  unfold fromConfig at h
  rw [ht] at h
  have hk : kindOf (.str "temporary".toList) = some .temporary := by decide
  simp only [hk, construct] at h
  cases hr : readKeys v CACHE_KEYS with
  | error e => rw [hr] at h; cases h
  | ok sn =>
    obtain ⟨hall, _⟩ := readKeys_cache hr
    rw [hr] at h
    simp only [tmpInit] at h
    cases hui : userInit expand .temporary sn o with
    | error e => rw [hui] at h; cases h
    | ok r =>
      obtain ⟨p1, o1⟩ := r
      rw [hui] at h
      obtain ⟨_, _, _, ⟨d, hd, hpath⟩, hens⟩ := userInit_ok hui
      have hdu : d = u := by
        obtain ⟨x, hx, hs⟩ := hall "user-cache-directory" (by simp [CACHE_KEYS])
        rw [hu] at hx
        rw [hd] at hs
        cases hx; cases hs; rfl
      simp only at h
      cases he : expandPath expand (sn "temporary-cache-directory-root") with
      | error e => rw [he] at h; cases h
      | ok root =>
        rw [he] at h
        simp only at h
        cases htm : o1.temp root with
        | error e => rw [htm] at h; cases h
        | ok d' =>
          obtain ⟨d', o2⟩ := d'
          rw [htm] at h
          cases h
          intro x hx
          rcases temp_made htm x hx with hx | hx | ⟨r, hroot, hx⟩
          · rcases (ensure_made hens).2 x hx with hx | ⟨_, hx⟩
            · exact .inl hx
            · rw [hpath, hdu] at hx
              have : o.exists (expand u) = true := by unfold Os.exists; rcases hex with h | h <;> simp [h]
              rw [this] at hx; cases hx
          · exact .inr (.inl (by rw [hx]))
          · obtain ⟨y, hy, hs⟩ := hall "temporary-cache-directory-root" (by simp [CACHE_KEYS])
            rcases expandPath_some he ⟨y, hs⟩ with ⟨_, h2⟩ | ⟨r', h1, h2⟩
            · rw [h2] at hroot; cases hroot
            · rw [h2] at hroot; cases hroot
              rw [hs] at h1; cases h1
              exact .inr (.inr ⟨r', hy, hx⟩)

theorem ensure_exists {o o' : Os} {p : List Char} (h : o.ensure p = .ok o') : o'.exists p = true := by
  unfold Os.ensure at h
  split at h
  · next he => cases h; exact he
  · split at h
    · cases h
    · cases h; unfold Os.exists; simp

theorem exists_mono {o o' : Os} (hh : o'.has = o.has) (hm : ∀ x ∈ o.made, x ∈ o'.made) {p : List Char} (h : o.exists p = true) :
    o'.exists p = true := by
  unfold Os.exists at h ⊢
  rw [hh]
  simp only [Bool.or_eq_true, decide_eq_true_eq] at h ⊢
  exact h.imp id (hm _)

theorem temp_keeps {o o' : Os} {root : Option (List Char)} {d : Dir} (h : o.temp root = .ok (d, o')) :
    o'.has = o.has ∧ ∀ x ∈ o.made, x ∈ o'.made := by
  unfold Os.temp at h
  cases root with
  | none =>
    simp only at h
    split at h
    · cases h
    · cases h; exact ⟨rfl, fun x hx => List.mem_append_left _ hx⟩
  | some r =>
    simp only at h
    split at h
    · cases h
    · cases he : o.ensure r with
      | error e => rw [he] at h; cases h
      | ok o1 =>
        rw [he] at h
        simp only at h
        split at h
        · cases h
        · cases h
          have h1 : o1.has = o.has ∧ ∀ x ∈ o.made, x ∈ o1.made := by
            unfold Os.ensure at he
            split at he
            · cases he; exact ⟨rfl, fun _ h => h⟩
            · split at he
              · cases he
              · cases he; exact ⟨rfl, fun x hx => List.mem_append_left _ hx⟩
          exact ⟨h1.1, fun x hx => List.mem_append_left _ (h1.2 x hx)⟩

/-- C89 fails always, if the directory of the user is not there: with every configuration and file system, after a policy `temporary`
was made the user's directory exists, and where it neither exists nor can be made the policy cannot be made either. -/
theorem C89_always_refuted (expand : List Char → List Char) (v : View) (o : Os) (u : List Char)
    (ht : v "cache-policy" = .ok (.str "temporary".toList)) (hu : v "user-cache-directory" = .ok (.str u)) :
    (∀ p o', fromConfig expand v o = .ok (p, o') → o'.exists (expand u) = true) ∧
    (o.exists (expand u) = false → o.denied (expand u) = true → ∃ e, fromConfig expand v o = .error e) := by
  have key : ∀ sn, readKeys v CACHE_KEYS = .ok sn → sn "user-cache-directory" = some (.str u) := by
    intro sn hr
    obtain ⟨hall, _⟩ := readKeys_cache hr
    obtain ⟨x, hx, hs⟩ := hall "user-cache-directory" (by simp [CACHE_KEYS])
    rw [hu] at hx
    cases hx; exact hs
  have hk : kindOf (.str "temporary".toList) = some .temporary := by decide
  constructor
  · intro p o' h
    unfold fromConfig at h
    rw [ht] at h
    simp only [hk, construct] at h
    cases hr : readKeys v CACHE_KEYS with
    | error e => rw [hr] at h; cases h
    | ok sn =>
      rw [hr] at h
      have hue : expandPath expand (sn "user-cache-directory") = .ok (some (expand u)) := by rw [key sn hr]; rfl
      simp only [tmpInit, userInit, hue] at h
      cases he : o.ensure (expand u) with
      | error e => rw [he] at h; cases h
      | ok o1 =>
        rw [he] at h
        simp only at h
        generalize expandPath expand (sn "temporary-cache-directory-root") = root at h
        cases root with
        | error e => cases h
        | ok root =>
          simp only at h
          cases htm : o1.temp root with
          | error e => rw [htm] at h; cases h
          | ok x =>
            obtain ⟨d, o2⟩ := x
            rw [htm] at h
            cases h
            obtain ⟨h1, h2⟩ := temp_keeps htm
            exact exists_mono h1 h2 (ensure_exists he)
  · intro he hd
    unfold fromConfig
    rw [ht]
    simp only [hk, construct]
    cases hr : readKeys v CACHE_KEYS with
    | error e => exact ⟨_, rfl⟩
    | ok sn =>
      have hue : expandPath expand (sn "user-cache-directory") = .ok (some (expand u)) := by rw [key sn hr]; rfl
      simp only [tmpInit, userInit, hue, Os.ensure, he, hd, Bool.false_eq_true, if_false, if_true]
      exact ⟨_, rfl⟩

example : ∃ p o', fromConfig id (viewOf "temporary" "/u" (.str "/r".toList) (.ok .none) (.ok .none) .none) { bareOs with has := fun p => p = "/u".toList } = .ok (p, o') :=
  ⟨_, _, rfl⟩
/-- `C89_temporary_partial` -/
example (p : Policy) (o' : Os) (h : fromConfig id (viewOf "temporary" "/u" (.str "/r".toList) (.ok .none) (.ok .none) .none)
    { bareOs with has := fun p => p = "/u".toList } = .ok (p, o')) (x : Dir) (hx : x ∈ o'.made) : p.dir = some x ∨ x = .at "/r".toList := by
  rcases C89_temporary_partial id _ _ o' p "/u".toList rfl rfl (.inl (by decide)) h x hx with h | h | ⟨r, h1, h2⟩
  · cases h
  · exact .inl h
  · cases h1; exact .inr h2
/-- `C89_always_refuted`: with an empty file system the user's directory is made, and where that is refused there is no policy. -/
example : (∃ p o', fromConfig id (viewOf "temporary" "/u" (.str "/r".toList) (.ok .none) (.ok .none) .none) bareOs = .ok (p, o')) ∧
    bareOs.exists "/u".toList = false ∧ ({ bareOs with denied := fun p => p = "/u".toList } : Os).exists "/u".toList = false ∧
    ({ bareOs with denied := fun p => p = "/u".toList } : Os).denied "/u".toList = true :=
  ⟨⟨_, _, rfl⟩, by decide, by decide, by decide⟩

/-! ## C90 -/

/-- C90 refuted: with policy `off` and a `temporary-directory-root`, every configuration change gives a new directory, though nothing
that concerns the cache changed. -/
theorem C90_refuted : ∃ (v : View) (s : CacheSt), s = (cacheDirectory id v false (configChanged id v false (CacheSt.init bareOs)).2).2 ∧
    (configChanged id v false s).1 = .ok () ∧
    (cacheDirectory id v false s).1 = .ok (.fresh none 0) ∧ (cacheDirectory id v false (configChanged id v false s).2).1 = .ok (.fresh none 1) :=
  ⟨viewOf "off" "/u" .none (.ok .none) (.ok .none) (.str "/scratch".toList), _, rfl, by decide +kernel, by decide +kernel, by decide +kernel⟩

theorem anyDiffers_same {sn : Snap} {v : View} {ks : List String} (h : ∀ k ∈ ks, ∃ x, v k = .ok x ∧ pyEq ((sn k).getD .none) x = true) :
    anyDiffers sn v ks = .ok false := by
  induction ks with
  | nil => rfl
  | cons a ks ih =>
    unfold anyDiffers differs
    obtain ⟨x, hx, he⟩ := h a List.mem_cons_self
    rw [hx]
    simp only [he]
    exact ih (fun k hk => h k (List.mem_cons_of_mem _ hk))

/-- C90 (part): a change that concerns neither the policy nor its directories keeps `cache.directory()`, unless the policy is `off` and
`temporary-directory-root` is set. -/
theorem C90_directory_kept_partial (expand : List Char → List Char) (o : Os) (h : List CacheEv) (v v' : View) (b b' : Bool) (s : CacheSt) (d : Dir)
    (ho : (configChanged expand v b (cacheRun expand (CacheSt.init o) h)).1 = .ok ())
    (hd : cacheDirectory expand v b (configChanged expand v b (cacheRun expand (CacheSt.init o) h)).2 = (.ok d, s))
    (hsame : ∀ k ∈ ["cache-policy", "user-cache-directory", "temporary-cache-directory-root"], v' k = v k)
    (hroot : v "cache-policy" = .ok (.str "off".toList) → v' "temporary-directory-root" = .ok .none)
    (ho' : (configChanged expand v' b' s).1 = .ok ()) :
    (cacheDirectory expand v' b' (configChanged expand v' b' s).2).1 = .ok d := by
  obtain ⟨p, hp, hm, _, h2⟩ := changed_ok (cached_run h (cached_init expand o)) ho
  obtain ⟨p', hp', hk, hsnap, hdir⟩ : ∃ p', s.policy = some p' ∧ p'.kind = p.kind ∧ p'.snap = p.snap ∧
      ∀ x o, Policy.directory expand { p' with snap := x } o = .ok (d, { p' with snap := x }, o) := by
    rcases cacheDirectory_cases expand v b (configChanged expand v b (cacheRun expand (CacheSt.init o) h)).2 with ⟨e, he⟩ | ⟨q, d', q', o', hq, hdir, he⟩
    · rw [he] at hd; cases hd
    · rw [makePolicy_some hp] at he hq hdir
      rw [hp] at hq
      cases hq
      rw [he] at hd
      cases hd
      refine ⟨q', rfl, ?_⟩
      rcases directory_made hm hdir with ⟨h1, h3, e⟩ | ⟨h1, h3, e⟩ | ⟨h1, e, _⟩
      · subst e
        refine ⟨rfl, rfl, fun x o => ?_⟩
        unfold Policy.directory
        simp only [h1, h3]
      · subst e
        refine ⟨rfl, rfl, fun x o => ?_⟩
        unfold Policy.directory
        simp only [h1, h3]
      · subst e
        refine ⟨rfl, rfl, fun x o => ?_⟩
        unfold Policy.directory
        simp only [h1]
  have hout : p'.outdated v' = .ok false := by
    refine anyDiffers_same ?_
    intro k hko
    rw [hk] at hko
    by_cases hkc : k ∈ CACHE_KEYS
    · obtain ⟨x, hx, he⟩ := h2 k hko hkc
      refine ⟨x, ?_, by rw [hsnap]; exact he⟩
      rw [hsame k ?_]
      · exact hx
      · revert hko
        cases p.kind <;> simp [Kind'.outdatedKeys] <;> intro h <;> rcases h with rfl | rfl <;> simp_all [CACHE_KEYS]
    · have : k = "temporary-directory-root" ∧ p.kind = .off := by
        revert hko hkc
        cases p.kind <;> simp [Kind'.outdatedKeys, CACHE_KEYS] <;> intro h <;> rcases h with rfl | rfl <;> simp
      obtain ⟨rfl, hoff⟩ := this
      obtain ⟨x, hx, he⟩ := h2 "cache-policy" (by rw [hoff]; simp [Kind'.outdatedKeys]) (by simp [CACHE_KEYS])
      rw [hm.name, hoff] at he
      have := pyEq_str he
      rw [this] at hx
      exact ⟨.none, hroot hx, by rw [hsnap, hm.nothing]; rfl⟩
  have final : (configChanged expand v' b' s).2.policy = some { p' with snap := (updateL p'.kind v' CACHE_KEYS false p'.snap).2 } := by
    rcases configChanged_cases expand v' b' s with ⟨e, he⟩ | ⟨e, he⟩ | ⟨q, _, hq, he⟩
    · rw [he] at ho'; cases ho'
    · rw [he] at ho'; cases ho'
    · rw [makePolicy_some hp'] at hq he
      rw [hp'] at hq
      cases hq
      rw [he] at ho' ⊢
      rcases refresh_cases expand v' b' p' s with ⟨e, he⟩ | ⟨h, _⟩ | ⟨_, h, _⟩
      · rw [he] at ho'; cases ho'
      · rw [hout] at h; cases h
      · exact h
  unfold cacheDirectory getPolicy
  rw [makePolicy_some final]
  simp only [final, hdir]

/-- Directories made for the policy in use have a number that was given out. -/
def Young (s : CacheSt) : Prop := ∀ p r n, s.policy = some p → p.dir = some (.fresh r n) → n < s.os.next

theorem young_ensure {o o' : Os} {p : List Char} (h : o.ensure p = .ok o') : o'.next = o.next := by
  unfold Os.ensure at h
  split at h
  · cases h; rfl
  · split at h
    · cases h
    · cases h; rfl

theorem young_temp {o o' : Os} {root : Option (List Char)} {d : Dir} (h : o.temp root = .ok (d, o')) :
    d = .fresh root o.next ∧ o'.next = o.next + 1 := by
  unfold Os.temp at h
  cases root with
  | none =>
    simp only at h
    split at h
    · cases h
    · cases h; exact ⟨rfl, rfl⟩
  | some r =>
    simp only at h
    split at h
    · cases h
    · cases he : o.ensure r with
      | error e => rw [he] at h; cases h
      | ok o1 =>
        rw [he] at h
        simp only at h
        split at h
        · cases h
        · cases h
          rw [young_ensure he]
          exact ⟨rfl, by simp [young_ensure he]⟩

theorem young_config {expand : List Char → List Char} {v : View} {o o' : Os} {p : Policy} (h : fromConfig expand v o = .ok (p, o')) :
    ∀ r n, p.dir = some (.fresh r n) → n < o'.next := by
  unfold fromConfig at h
  cases hv : v "cache-policy" with
  | error e => rw [hv] at h; cases h
  | ok x =>
    rw [hv] at h
    simp only at h
    cases hk : kindOf x with
    | none => rw [hk] at h; cases h
    | some k =>
      rw [hk] at h
      simp only at h
      cases k with
      | off =>
        unfold construct at h
        cases hr : readKeys v CACHE_KEYS with
        | error e => rw [hr] at h; cases h
        | ok sn => rw [hr] at h; cases h; intro r n hd; cases hd
      | user =>
        unfold construct at h
        cases hr : readKeys v CACHE_KEYS with
        | error e => rw [hr] at h; cases h
        | ok sn =>
          rw [hr] at h
          have := userInit_ok h
          intro r n hd
          rw [this.2.2.1] at hd; cases hd
      | temporary =>
        unfold construct at h
        cases hr : readKeys v CACHE_KEYS with
        | error e => rw [hr] at h; cases h
        | ok sn =>
          rw [hr] at h
          simp only [tmpInit] at h
          cases hui : userInit expand .temporary sn o with
          | error e => rw [hui] at h; cases h
          | ok q =>
            obtain ⟨p1, o1⟩ := q
            rw [hui] at h
            simp only at h
            cases he : expandPath expand (sn "temporary-cache-directory-root") with
            | error e => rw [he] at h; cases h
            | ok root =>
              rw [he] at h
              simp only at h
              cases htm : o1.temp root with
              | error e => rw [htm] at h; cases h
              | ok d' =>
                obtain ⟨d', o2⟩ := d'
                rw [htm] at h
                cases h
                intro r n hd
                obtain ⟨e1, e2⟩ := young_temp htm
                rw [e1] at hd
                cases hd
                rw [e2]; exact Nat.lt_succ_self _

theorem young_make {expand : List Char → List Char} {v : View} {b : Bool} {s : CacheSt} (h : Young s) : Young (makePolicy expand v b s).2 := by
  cases hs : s.policy with
  | some p => rw [makePolicy_some hs]; exact h
  | none =>
    rcases makePolicy_none (expand := expand) (v := v) (b := b) hs with ⟨e, he⟩ | ⟨p, o, hf, hp, ho, _⟩
    · rw [he]; exact h
    · intro q r n hq hd
      rw [hp] at hq
      cases hq
      rw [ho]
      exact young_config hf r n hd

theorem young_changed {expand : List Char → List Char} {v : View} {b : Bool} {s : CacheSt} (h : Young s) : Young (configChanged expand v b s).2 := by
  rcases configChanged_cases expand v b s with ⟨e, he⟩ | ⟨e, he⟩ | ⟨p, _, hp, he⟩
  · rw [he]; exact h
  · rw [he]; exact young_make h
  · rw [he]
    have hm := young_make (expand := expand) (v := v) (b := b) h
    generalize (makePolicy expand v b s).2 = m at *
    rcases refresh_cases expand v b p m with ⟨e, he⟩ | ⟨_, he⟩ | ⟨_, hq, ho, _⟩
    · rw [he]; exact hm
    · rw [he]; exact young_make (fun q r n hq => by cases hq)
    · intro q r n hq' hd
      rw [hq] at hq'
      cases hq'
      rw [ho]
      exact hm p r n hp hd

theorem young_directory {expand : List Char → List Char} {v : View} {b : Bool} {s : CacheSt} (hc : Cached expand s) (h : Young s) :
    Young (cacheDirectory expand v b s).2 := by
  have hm := young_make (expand := expand) (v := v) (b := b) h
  have hcm := cached_make (v := v) (b := b) hc
  rcases cacheDirectory_cases expand v b s with ⟨e, he⟩ | ⟨p, d, p', o', hp, hd, he⟩
  · rw [he]; exact hm
  · rw [he]
    generalize (makePolicy expand v b s).2 = m at *
    intro q r n hq hdir
    cases hq
    show n < o'.next
    unfold Policy.directory at hd
    cases hk : p.kind with
    | user => rw [hk] at hd; cases hd; exact hm _ r n hp hdir
    | temporary =>
      rw [hk] at hd
      simp only at hd
      cases hpd : p.dir with
      | none => rw [hpd] at hd; cases hd
      | some x => rw [hpd] at hd; cases hd; exact hm _ r n hp hdir
    | off =>
      rw [hk] at hd
      simp only at hd
      cases hpd : p.dir with
      | some x => rw [hpd] at hd; cases hd; exact hm _ r n hp hdir
      | none =>
        rw [hpd] at hd
        simp only at hd
        cases hx : expandPath expand (p.snap "temporary-directory-root") with
        | error e => rw [hx] at hd; cases hd
        | ok root =>
          rw [hx] at hd
          simp only at hd
          cases ht : m.os.temp root with
          | error e => rw [ht] at hd; cases hd
          | ok z =>
            obtain ⟨d', o2⟩ := z
            rw [ht] at hd
            cases hd
            obtain ⟨e1, e2⟩ := young_temp ht
            rw [e1] at hdir
            cases hdir
            rw [e2]; exact Nat.lt_succ_self _

theorem young_run {expand : List Char → List Char} (h : List CacheEv) : ∀ {s : CacheSt}, Cached expand s → Young s → Young (cacheRun expand s h) := by
  induction h with
  | nil => intro s _ hs; exact hs
  | cons e h ih =>
    intro s hc hs
    refine ih (cached_step hc e) ?_
    cases e with
    | changed v b => exact young_changed hs
    | used v b => exact young_make hs
    | directory v b => exact young_directory hc hs

theorem kind_off {k : Kind'} (h : "off".toList = k.name) : k = .off := by
  cases k with
  | off => rfl
  | temporary => exact absurd h (by decide)
  | user => exact absurd h (by decide)

theorem policy_key (k : Kind') : "cache-policy" ∈ k.outdatedKeys := by
  cases k <;> simp [Kind'.outdatedKeys]

/-- C90, exactly: a change that concerns neither the policy nor its directories keeps `cache.directory()` if and only if the policy is
not `off` or `temporary-directory-root` is not set; otherwise the directory after the change is another one. -/
theorem C90_exact (expand : List Char → List Char) (o : Os) (h : List CacheEv) (v v' : View) (b b' : Bool) (s : CacheSt) (d : Dir)
    (ho : (configChanged expand v b (cacheRun expand (CacheSt.init o) h)).1 = .ok ())
    (hd : cacheDirectory expand v b (configChanged expand v b (cacheRun expand (CacheSt.init o) h)).2 = (.ok d, s))
    (hsame : ∀ k ∈ ["cache-policy", "user-cache-directory", "temporary-cache-directory-root"], v' k = v k)
    (ho' : (configChanged expand v' b' s).1 = .ok ()) :
    (cacheDirectory expand v' b' (configChanged expand v' b' s).2).1 = .ok d ↔
      (v "cache-policy" = .ok (.str "off".toList) → v' "temporary-directory-root" = .ok .none) := by
  constructor
  swap
  · intro hroot
    exact C90_directory_kept_partial expand o h v v' b b' s d ho hd hsame hroot ho'
  intro hdir hoff
  have hc1 := cached_changed (v := v) (b := b) (cached_run h (cached_init expand o))
  have hy1 := young_changed (expand := expand) (v := v) (b := b) (young_run h (cached_init expand o) (fun p r n hp => by cases hp))
  obtain ⟨p, hp, hm, _, h2⟩ := changed_ok (cached_run h (cached_init expand o)) ho
  have hkind : p.kind = .off := by
    obtain ⟨x, hx, he⟩ := h2 "cache-policy" (policy_key _) (by simp [CACHE_KEYS])
    rw [hm.name] at he
    rw [pyEq_str he, hoff] at hx
    exact kind_off (V.str.inj (Except.ok.inj hx))
  have hys : Young s := by
    have := young_directory (expand := expand) (v := v) (b := b) hc1 hy1
    rw [hd] at this
    exact this
  obtain ⟨p', hp', hk', hm', hd'⟩ : ∃ p', s.policy = some p' ∧ p'.kind = .off ∧ Made expand p' ∧ p'.dir = some d := by
    have hcs := cached_directory (v := v) (b := b) hc1
    rcases cacheDirectory_cases expand v b (configChanged expand v b (cacheRun expand (CacheSt.init o) h)).2 with ⟨e, he⟩ | ⟨q, d', q', o', hq, hdir', he⟩
    · rw [he] at hd; cases hd
    · rw [makePolicy_some hp] at hq hdir'
      rw [hp] at hq
      cases hq
      rw [he] at hd hcs
      cases hd
      refine ⟨q', rfl, ?_, hcs.made q' rfl, ?_⟩
      · rcases directory_made hm hdir' with ⟨h1, _⟩ | ⟨h1, _⟩ | ⟨_, e, _⟩
        · rw [hkind] at h1; cases h1
        · rw [hkind] at h1; cases h1
        · rw [e]; exact hkind
      · rcases directory_made hm hdir' with ⟨h1, _⟩ | ⟨h1, _⟩ | ⟨_, e, _⟩
        · rw [hkind] at h1; cases h1
        · rw [hkind] at h1; cases h1
        · rw [e]
  have hno : ∃ e, configChanged expand v' b' s = (.error e, s) ∨ configChanged expand v' b' s = refresh expand v' b' p' s := by
    rcases configChanged_cases expand v' b' s with ⟨e, he⟩ | ⟨e, he⟩ | ⟨q, _, hq, he⟩
    · exact ⟨e, .inl he⟩
    · rw [makePolicy_some hp'] at he; exact ⟨e, .inl he⟩
    · rw [makePolicy_some hp'] at he hq
      rw [hp'] at hq
      cases hq
      exact ⟨.os, .inr he⟩
  obtain ⟨_, he | he⟩ := hno
  · rw [he] at ho'; cases ho'
  rw [he] at ho' hdir
  rcases refresh_cases expand v' b' p' s with ⟨e, hr⟩ | ⟨_, hr⟩ | ⟨hout, _⟩
  · rw [hr] at ho'; cases ho'
  · exfalso
    rw [hr] at ho' hdir
    rcases makePolicy_none (expand := expand) (v := v') (b := b') (s := { s with policy := none }) rfl with ⟨e, he⟩ | ⟨p2, o2, hf, hp2, ho2, _⟩
    · rw [he] at ho'; cases ho'
    · have hk2 : p2.kind = .off := by
        have := (fromConfig_ok hf).2.1
        rw [hsame "cache-policy" (by simp), hoff] at this
        exact kind_off (V.str.inj (Except.ok.inj this))
      have hoff' : v' "cache-policy" = .ok (.str "off".toList) := by rw [hsame "cache-policy" (by simp)]; exact hoff
      obtain ⟨hd2, ho2'⟩ : p2.dir = none ∧ o2 = s.os := by
        unfold fromConfig at hf
        rw [hoff'] at hf
        simp only [kindOf, if_true, construct] at hf
        cases hr : readKeys v' CACHE_KEYS with
        | error e => rw [hr] at hf; cases hf
        | ok sn => rw [hr] at hf; cases hf; exact ⟨rfl, rfl⟩
      rcases cacheDirectory_cases expand v' b' (makePolicy expand v' b' { s with policy := none }).2 with ⟨e, he⟩ | ⟨q, d2, q', o', hq, hdir', he⟩
      · rw [he] at hdir; cases hdir
      · rw [he] at hdir
        cases hdir
        rw [makePolicy_some hp2] at hq hdir'
        rw [hp2] at hq
        cases hq
        rw [ho2, ho2'] at hdir'
        unfold Policy.directory at hdir'
        rw [hk2] at hdir'
        simp only [hd2, (fromConfig_ok hf).1.nothing, expandPath] at hdir'
        cases ht : s.os.temp none with
        | error e => rw [ht] at hdir'; cases hdir'
        | ok z =>
          obtain ⟨d3, o3⟩ := z
          rw [ht] at hdir'
          cases hdir'
          have := hys p' none s.os.next hp' (by rw [hd', (young_temp ht).1])
          exact Nat.lt_irrefl _ this
  · have h3 : ∀ (ks : List String), anyDiffers p'.snap v' ks = .ok false → ∀ k ∈ ks, ∃ x, v' k = .ok x ∧ pyEq ((p'.snap k).getD .none) x = true := by
      intro ks
      induction ks with
      | nil => intro _ k hk; cases hk
      | cons a ks ih =>
        intro hks k hk
        unfold anyDiffers differs at hks
        cases hva : v' a with
        | error e => rw [hva] at hks; cases hks
        | ok x =>
          rw [hva] at hks
          simp only at hks
          cases hpe : pyEq ((p'.snap a).getD .none) x with
          | false => rw [hpe] at hks; cases hks
          | true =>
            rw [hpe] at hks
            rcases List.mem_cons.1 hk with rfl | hk
            · exact ⟨x, hva, hpe⟩
            · exact ih hks k hk
    obtain ⟨x, hx, hpe⟩ := h3 _ hout "temporary-directory-root" (by rw [hk']; simp [Kind'.outdatedKeys])
    rw [hm'.nothing] at hpe
    rw [hx, pyEq_none hpe]

/-- Not vacuous: the limit changes, with the option set and not set. -/
example : ∃ s d, cacheDirectory id (viewOf "off" "/u" .none (.ok .none) (.ok (.int 5)) (.str "/scratch".toList)) false
      (configChanged id (viewOf "off" "/u" .none (.ok .none) (.ok (.int 5)) (.str "/scratch".toList)) false (CacheSt.init bareOs)).2 = (.ok d, s) ∧
    (configChanged id (viewOf "off" "/u" .none (.ok .none) (.ok (.int 7)) (.str "/scratch".toList)) false s).1 = .ok () := by
  refine ⟨_, .fresh none 0, rfl, ?_⟩
  decide +kernel

/-- `C90_directory_kept_partial`: another limit. -/
example (s : CacheSt) (d : Dir)
    (hd : cacheDirectory id (viewOf "user" "/u" .none (.ok .none) (.ok (.int 5)) .none) false
      (configChanged id (viewOf "user" "/u" .none (.ok .none) (.ok (.int 5)) .none) false (CacheSt.init bareOs)).2 = (.ok d, s))
    (ho : (configChanged id (viewOf "user" "/u" .none (.ok .none) (.ok (.int 7)) .none) false s).1 = .ok ()) :
    (cacheDirectory id (viewOf "user" "/u" .none (.ok .none) (.ok (.int 7)) .none) false
      (configChanged id (viewOf "user" "/u" .none (.ok .none) (.ok (.int 7)) .none) false s).2).1 = .ok d :=
  C90_directory_kept_partial id bareOs [] _ _ false false s d (by decide +kernel) hd
    (by simp only [List.forall_mem_cons]; exact ⟨rfl, rfl, rfl, by simp⟩) (fun h => by cases h) ho

/-- Not vacuous: the limit changes. -/
example : ∃ s d, cacheDirectory id (viewOf "off" "/u" .none (.ok .none) (.ok (.int 5)) .none) false
      (configChanged id (viewOf "off" "/u" .none (.ok .none) (.ok (.int 5)) .none) false (CacheSt.init bareOs)).2 = (.ok d, s) ∧
    (configChanged id (viewOf "off" "/u" .none (.ok .none) (.ok (.int 7)) .none) false s).1 = .ok () := by
  refine ⟨_, .fresh none 0, rfl, ?_⟩
  decide +kernel

end Verif.DiskCache.Policy

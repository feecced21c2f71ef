import Verif.Regrid.ArgsProps2

/-!
# Properties: which calls are carried out, and what arguments left out mean (C130)
-/

namespace Verif.Regrid.Args

/-! ## Specification -/

/-- The argument `k` of a call: as given, or else its default. -/
def Given (kw : Kw) (k : String) (dflt v : Arg) : Prop := (k, v) ∈ kw ∨ k ∉ kw.map Prod.fst ∧ v = dflt

/-- Only these arguments are given. -/
def Only (kw : Kw) (l : List String) : Prop := ∀ k ∈ kw.map Prod.fst, k ∈ l

/-- The options of MIR. -/
def options : List String := ["interpolation", "nearest_method", "distance", "distance_tolerance", "nclosest"]

/-- What MIR needs: that it is chosen, that the target grid can be used, an inventory that can be hashed (it is not looked at), and no argument but
its own and those in `l`. -/
structure MirServes (E : Extern) (kw : Kw) (l : List String) (out : Arg) : Prop where
  backend : Given kw "backend" (text "mir") (text "mir")
  inventory : ∃ v, Given kw "inventory" .none v ∧ (∀ i, v ≠ .dict i) ∧ ∀ i, v ≠ .list i
  area : ∃ x, E.area out = .ok x
  only : Only kw ("backend" :: "inventory" :: options ++ l)

/-- What the search for weights needs: that it is chosen, an inventory that is None or a name, and no argument but its own and those in `l`. -/
structure WeightsServe (kw : Kw) (l : List String) : Prop where
  backend : Given kw "backend" (text "mir") (text "precomputed")
  inventory : ∃ v db, Given kw "inventory" .none v ∧ Names v db
  only : Only kw ("backend" :: "inventory" :: "interpolation" :: l)

/-- The deprecated interface: no backend, a source that is None or a name. -/
structure OldServes (kw : Kw) : Prop where
  source : ∃ v db, Given kw "matrix_source" .none v ∧ Names v db
  only : Only kw ["matrix_source", "in_grid", "out_grid", "method"]

/-- The grid of xarray data can be found: in its attribute (no other may be given), as given, by its accessor. -/
def GridFound (E : Extern) (d : Data) (kw : Kw) : Prop :=
  (∃ a g, d.attr = some a ∧ E.canon a = .ok g ∧ "grid_spec" ∉ kw.map Prod.fst) ∨
  (d.attr = none ∧ ∃ a g, (Given kw "grid_spec" .none a ∧ a ≠ .none ∨ Given kw "grid_spec" .none .none ∧ d.accessor = some a) ∧ E.canon a = .ok g)

/-- Dimensions are given, or found. -/
def DimsFound (kw : Kw) (k : String) (found : Except Err Arg) : Prop :=
  (∃ v, Given kw k .none v ∧ v ≠ .none) ∨ ∃ v, found = .ok v

/-! ## Lemmas -/

theorem keys_without (k : String) (kw : Kw) (a : String) : a ∈ (without k kw).map Prod.fst ↔ a ∈ kw.map Prod.fst ∧ a ≠ k := by
  unfold without
  simp only [List.mem_map, List.mem_filter, bne_iff_ne]
  constructor
  · rintro ⟨p, ⟨h1, h2⟩, rfl⟩
    exact ⟨⟨p, h1, rfl⟩, h2⟩
  · rintro ⟨⟨p, h1, rfl⟩, h2⟩
    exact ⟨p, ⟨h1, h2⟩, rfl⟩

theorem lookup_none {k : String} : ∀ {kw : Kw}, kw.lookup k = none ↔ k ∉ kw.map Prod.fst := by
  intro kw
  induction kw with
  | nil => simp
  | cons p kw ih =>
    obtain ⟨a, v⟩ := p
    rw [List.lookup_cons]
    by_cases ha : k = a
    · subst ha; simp
    · have : (k == a) = false := by simpa using ha
      rw [this]
      simp only [List.map_cons, List.mem_cons, not_or]
      rw [ih]
      exact ⟨fun h => ⟨ha, h⟩, fun h => h.2⟩

theorem lookup_mem {k : String} {v : Arg} {kw : Kw} (hn : (kw.map Prod.fst).Nodup) : kw.lookup k = some v ↔ (k, v) ∈ kw :=
  ⟨mem_of_lookup, lookup_of_mem hn⟩

theorem given_iff {kw : Kw} (hn : (kw.map Prod.fst).Nodup) (k : String) (dflt v : Arg) : Given kw k dflt v ↔ (kw.lookup k).getD dflt = v := by
  unfold Given
  rw [← lookup_mem hn, ← lookup_none]
  cases kw.lookup k with
  | none => simp [eq_comm]
  | some w => simp

theorem keys_signature (ds kw : Kw) (a : String) : a ∈ (signature ds kw).map Prod.fst ↔ a ∈ ds.map Prod.fst ∨ a ∈ kw.map Prod.fst := by
  unfold signature
  simp only [List.map_append, List.map_map, List.mem_append]
  have h1 : (Prod.fst ∘ fun d : String × Arg => (d.1, (kw.lookup d.1).getD d.2)) = Prod.fst := rfl
  rw [h1]
  constructor
  · rintro (h | h)
    · exact .inl h
    · obtain ⟨p, h2, rfl⟩ := List.mem_map.1 h
      exact .inr (List.mem_map_of_mem (List.mem_filter.1 h2).1)
  · rintro (h | h)
    · exact .inl h
    · by_cases hd : a ∈ ds.map Prod.fst
      · exact .inl hd
      · obtain ⟨p, h2, rfl⟩ := List.mem_map.1 h
        exact .inr (List.mem_map.2 ⟨p, List.mem_filter.2 ⟨h2, by simpa using hd⟩, rfl⟩)

theorem lookup_sig_default {k : String} {d : Arg} : ∀ {ds : Kw} (kw : Kw), ds.lookup k = some d → (signature ds kw).lookup k = some ((kw.lookup k).getD d) := by
  intro ds kw h
  unfold signature
  rw [lookup_app]
  suffices (ds.map (fun d => (d.1, (kw.lookup d.1).getD d.2))).lookup k = some ((kw.lookup k).getD d) by rw [this]; rfl
  induction ds with
  | nil => cases h
  | cons p ds ih =>
    obtain ⟨a, w⟩ := p
    rw [List.lookup_cons] at h
    rw [List.map_cons, List.lookup_cons]
    by_cases ha : k = a
    · subst ha
      rw [beq_self_eq_true] at h ⊢
      cases h
      rfl
    · have : (k == a) = false := by simpa using ha
      rw [this] at h ⊢
      exact ih h

theorem lookup_sig_other {k : String} {ds : Kw} (kw : Kw) (h : k ∉ ds.map Prod.fst) : (signature ds kw).lookup k = kw.lookup k := by
  unfold signature
  rw [lookup_app, lookup_none.2 (by simpa [List.map_map, Function.comp_def] using h),
    lookup_keep (fun x => !(ds.map Prod.fst).contains x) (by simpa using h)]
  rfl

theorem getDb_names {v : Arg} {db : Db} : getDb v.toPV = .ok db ↔ Names v db := by
  refine ⟨names_getDb, ?_⟩
  rintro (⟨rfl, rfl⟩ | ⟨rfl, rfl⟩ | ⟨r, ⟨rfl, rfl⟩ | ⟨rfl, rfl⟩⟩ | ⟨s, rfl, rfl, h1, h2, h3⟩)
  · rfl
  · rfl
  · simp only [Arg.toPV, getDb]
    rw [if_neg (by simp), if_pos]
    rw [Bool.or_eq_true]
    exact .inl (List.isPrefixOf_iff_prefix.2 ⟨r, rfl⟩)
  · simp only [Arg.toPV, getDb]
    rw [if_neg (by simp), if_pos]
    rw [Bool.or_eq_true]
    exact .inr (List.isPrefixOf_iff_prefix.2 ⟨r, rfl⟩)
  · simp only [Arg.toPV, getDb]
    rw [if_neg h2, if_neg, if_pos h1]
    rw [Bool.or_eq_true]
    rintro (h | h)
    · obtain ⟨r, rfl⟩ := List.isPrefixOf_iff_prefix.1 h
      exact (h3 r).1 rfl
    · obtain ⟨r, rfl⟩ := List.isPrefixOf_iff_prefix.1 h
      exact (h3 r).2 rfl

theorem hashable_iff (v : Arg) : v.hashable = true ↔ (∀ i, v ≠ .dict i) ∧ ∀ i, v ≠ .list i := by
  cases v <;> simp [Arg.hashable]

theorem names_hashable {v : Arg} {db : Db} (h : Names v db) : v.hashable = true := by
  rcases h with ⟨rfl, rfl⟩ | ⟨rfl, rfl⟩ | ⟨r, ⟨rfl, rfl⟩ | ⟨rfl, rfl⟩⟩ | ⟨s, rfl, rfl, h1, h2, h3⟩ <;> rfl

/-- What the chosen backend needs of the inventory. -/
def InvOk : Chosen → Arg → Prop
  | .mir, v => v.hashable = true
  | .precomputed db, v => Names v db

theorem choose_iff (n : Arg) (inv : Option Arg) (c : Chosen) : choose n inv = .ok c ↔ n = c.named ∧ InvOk c (inv.getD .none) := by
  constructor
  · intro h
    obtain ⟨h1, h2⟩ := choose_spec h
    refine ⟨h1, ?_⟩
    cases c with
    | mir =>
      show (inv.getD .none).hashable = true
      unfold choose at h
      split at h
      · cases h
      · rename_i hh
        simp only [Bool.or_eq_true, Bool.not_eq_true', not_or, Bool.not_eq_false] at hh
        exact hh.2
    | precomputed db => exact h2 db rfl
  · rintro ⟨rfl, h⟩
    unfold choose
    cases c with
    | mir =>
      have h : (inv.getD .none).hashable = true := h
      show (if (!true || !(inv.getD .none).hashable) = true then _ else Except.ok Chosen.mir) = _
      rw [h, if_neg (by decide)]
    | precomputed db =>
      have h : Names (inv.getD .none) db := h
      show (if (!true || !(inv.getD .none).hashable) = true then _ else (getDb (inv.getD .none).toPV).map Chosen.precomputed) = _
      rw [names_hashable h, if_neg (by decide), getDb_names.2 h]
      rfl

theorem backend_iff (kw kw' : Kw) (c : Chosen) : backendFromKwargs kw = .ok (c, kw') ↔
    kw.lookup "backend" = some c.named ∧ InvOk c ((kw.lookup "inventory").getD .none) ∧ kw' = without "inventory" (without "backend" kw) := by
  have hm : ∀ x : Except Err Chosen, x.map (fun c => (c, without "inventory" (without "backend" kw))) = .ok (c, kw') ↔
      x = .ok c ∧ kw' = without "inventory" (without "backend" kw) := by
    intro x
    cases x with
    | error e => simp [Except.map]
    | ok c' => simp [Except.map, eq_comm]
  unfold backendFromKwargs
  cases hb : kw.lookup "backend" with
  | none => simp
  | some b =>
    cases b with
    | none =>
      simp only [reduceCtorEq, Option.some.injEq, false_iff, not_and]
      intro h
      cases c <;> cases h
    | _ =>
      simp only [hm, choose_iff, Option.some.injEq]
      tauto

theorem only_all {kw : Kw} {l : List String} : kw.all (fun p => l.contains p.1) = true ↔ Only kw l := by
  unfold Only
  simp [List.all_eq_true]

theorem mirGrib_iff (E : Extern) (g : Arg) (kw : Kw) : (∃ j, mirRegridGrib E g kw = .ok j) ↔ (∃ x, E.area g = .ok x) ∧ Only kw options := by
  unfold mirRegridGrib
  have : kw.all (fun p => MIR_OPTIONS.contains p.1) = true ↔ Only kw options := only_all
  by_cases h : kw.all (fun p => MIR_OPTIONS.contains p.1) = true
  · rw [if_pos h]
    cases ha : E.area g with
    | error e => simp
    | ok x => simp [this.1 h]
  · rw [if_neg h]
    exact ⟨fun ⟨_, h'⟩ => (by cases h'), fun h' => absurd (this.2 h'.2) h⟩

theorem mirArray_iff (E : Extern) (gi g : Arg) (kw : Kw) : (∃ j, mirRegrid E gi g kw = .ok j) ↔ (∃ x, E.area g = .ok x) ∧ Only kw options := by
  unfold mirRegrid
  have : kw.all (fun p => MIR_OPTIONS.contains p.1) = true ↔ Only kw options := only_all
  by_cases h : kw.all (fun p => MIR_OPTIONS.contains p.1) = true
  · rw [if_pos h]
    cases ha : E.area g with
    | error e => simp
    | ok x => simp [this.1 h]
  · rw [if_neg h]
    exact ⟨fun ⟨_, h'⟩ => (by cases h'), fun h' => absurd (this.2 h'.2) h⟩

theorem weights_iff (db : Db) (gi g : Arg) (kw : Kw) : (∃ j, weightsRegrid db gi g kw = .ok j) ↔
    "interpolation" ∈ kw.map Prod.fst ∧ Only kw ["interpolation"] := by
  unfold weightsRegrid
  have : kw.all (fun p => p.1 == "interpolation") = true ↔ Only kw ["interpolation"] := by
    unfold Only
    simp [List.all_eq_true]
  by_cases h : kw.all (fun p => p.1 == "interpolation") = true
  · rw [if_pos h]
    cases hm : kw.lookup "interpolation" with
    | none => simp [lookup_none.1 hm]
    | some m => simp only [Except.ok.injEq, exists_eq', true_iff]; exact ⟨List.mem_map.2 ⟨_, mem_of_lookup hm, rfl⟩, this.1 h⟩
  · rw [if_neg h]
    exact ⟨fun ⟨_, h'⟩ => (by cases h'), fun h' => absurd (this.2 h'.2) h⟩

theorem all_iff (f : Arg → Except Err Job) : ∀ l : List Arg, (∃ js, all f l = .ok js ∧ js.length = l.length) ↔ ∀ g ∈ l, ∃ j, f g = .ok j := by
  intro l
  induction l with
  | nil => simp [all]
  | cons g l ih =>
    unfold all
    cases hf : f g with
    | error e => simp [hf]
    | ok j =>
      simp only [List.mem_cons, forall_eq_or_imp, hf, Except.ok.injEq, exists_eq', true_and]
      rw [← ih]
      cases all f l with
      | error e => simp
      | ok js => simp

theorem only_without (k : String) (kw : Kw) (l : List String) : Only (without k kw) l ↔ Only kw (k :: l) := by
  unfold Only
  constructor
  · intro h a ha
    by_cases hk : a = k
    · exact hk ▸ List.mem_cons_self
    · exact List.mem_cons_of_mem _ (h a ((keys_without k kw a).2 ⟨ha, hk⟩))
  · intro h a ha
    obtain ⟨h1, h2⟩ := (keys_without k kw a).1 ha
    exact (List.mem_cons.1 (h a h1)).resolve_left h2

theorem only_same {kw : Kw} {l l' : List String} (h : ∀ a, a ∈ l ↔ a ∈ l') : Only kw l ↔ Only kw l' :=
  ⟨fun g a ha => (h a).1 (g a ha), fun g a ha => (h a).2 (g a ha)⟩

theorem only_signature (ds kw : Kw) (l : List String) (h : ∀ a ∈ ds.map Prod.fst, a ∈ l) : Only (signature ds kw) l ↔ Only kw l := by
  unfold Only
  constructor
  · exact fun g a ha => g a ((keys_signature ds kw a).2 (.inr ha))
  · exact fun g a ha => ((keys_signature ds kw a).1 ha).elim (h a) (g a)

/-- The part of the backends: MIR. -/
theorem mir_iff {kw : Kw} (hn : (kw.map Prod.fst).Nodup) (E : Extern) (ds : Kw) (l : List String) (out : Arg)
    (hb : ds.lookup "backend" = some (text "mir")) (hi : "inventory" ∉ ds.map Prod.fst) (hl : ∀ a ∈ ds.map Prod.fst, a ∈ "backend" :: "inventory" :: options ++ l) :
    MirServes E kw l out ↔ (signature ds kw).lookup "backend" = some (Chosen.mir).named ∧ InvOk .mir (((signature ds kw).lookup "inventory").getD .none) ∧
      (∃ x, E.area out = .ok x) ∧ Only (signature ds kw) ("backend" :: "inventory" :: options ++ l) := by
  rw [lookup_sig_default kw hb, lookup_sig_other kw hi, only_signature ds kw _ hl, Option.some.injEq, ← given_iff hn]
  have h2 : InvOk .mir ((kw.lookup "inventory").getD .none) ↔ ∃ v, Given kw "inventory" .none v ∧ (∀ i, v ≠ .dict i) ∧ ∀ i, v ≠ .list i := by
    constructor
    · intro h
      exact ⟨_, (given_iff hn _ _ _).2 rfl, (hashable_iff _).1 h⟩
    · rintro ⟨v, h1, h2⟩
      rw [(given_iff hn _ _ _).1 h1]
      exact (hashable_iff _).2 h2
  rw [h2]
  exact ⟨fun ⟨a, b, c, d⟩ => ⟨a, b, c, d⟩, fun ⟨a, b, c, d⟩ => ⟨a, b, c, d⟩⟩

/-- The part of the backends: weights. -/
theorem weightsServe_iff {kw : Kw} (hn : (kw.map Prod.fst).Nodup) (ds : Kw) (l : List String)
    (hb : ds.lookup "backend" = some (text "mir")) (hi : "inventory" ∉ ds.map Prod.fst)
    (hl : ∀ a ∈ ds.map Prod.fst, a ∈ "backend" :: "inventory" :: "interpolation" :: l) :
    WeightsServe kw l ↔ ∃ db, (signature ds kw).lookup "backend" = some (Chosen.precomputed db).named ∧
      InvOk (.precomputed db) (((signature ds kw).lookup "inventory").getD .none) ∧
      Only (signature ds kw) ("backend" :: "inventory" :: "interpolation" :: l) := by
  have hb' : ∀ db, (signature ds kw).lookup "backend" = some (Chosen.precomputed db).named ↔ Given kw "backend" (text "mir") (text "precomputed") := by
    intro db
    rw [lookup_sig_default kw hb, Option.some.injEq, ← given_iff hn]
    rfl
  simp only [hb', lookup_sig_other kw hi, only_signature ds kw _ hl]
  constructor
  · rintro ⟨a, ⟨v, db, b, b'⟩, c⟩
    refine ⟨db, a, ?_, c⟩
    rw [(given_iff hn _ _ _).1 b]
    exact b'
  · rintro ⟨db, a, b, c⟩
    exact ⟨a, ⟨_, db, (given_iff hn _ _ _).2 rfl, b⟩, c⟩

theorem jobOf_iff (r : Except Err Job) : (∃ o, jobOf r = .ok o) ↔ ∃ j, r = .ok j := by
  cases r <;> simp [jobOf, Except.map]

/-! ## C130 -/

/-- C130, messages: `regrid` of a message is carried out if and only if it is left to MIR, with a usable grid and MIR's arguments. -/
theorem C130_message (E : Extern) (kw : Kw) (hn : (kw.map Prod.fst).Nodup) :
    (∃ o, call E .message kw = .ok o) ↔ ∃ g, Given kw "grid" .none g ∧ MirServes E kw ["grid"] g := by
  show (∃ o, jobOf (messageRegrid E (signature REGRID kw)) = .ok o) ↔ _
  rw [jobOf_iff]
  have hg : ∀ g, Given kw "grid" .none g ↔ (signature REGRID kw).lookup "grid" = some g := by
    intro g
    rw [lookup_sig_default kw (rfl : REGRID.lookup "grid" = some .none), Option.some.injEq, given_iff hn]
  have hm := fun g => mir_iff hn E REGRID ["grid"] g rfl (by decide) (by decide)
  generalize signature REGRID kw = S at *
  have hon : Only (without "grid" (without "inventory" (without "backend" S))) options ↔ Only S ("backend" :: "inventory" :: options ++ ["grid"]) := by
    rw [only_without, only_without, only_without]
    exact only_same (by simp [or_comm, or_left_comm, or_assoc])
  have hlk : (without "inventory" (without "backend" S)).lookup "grid" = S.lookup "grid" := by
    rw [lookup_without (by decide), lookup_without (by decide)]
  constructor
  · rintro ⟨j, h⟩
    unfold messageRegrid at h
    cases hb : backendFromKwargs S with
    | error e => rw [hb] at h; cases h
    | ok ck =>
      obtain ⟨c, kw'⟩ := ck
      rw [hb] at h
      cases c with
      | precomputed db => cases h
      | mir =>
        obtain ⟨b1, b2, rfl⟩ := (backend_iff _ _ _).1 hb
        simp only at h
        cases hl : (without "inventory" (without "backend" S)).lookup "grid" with
        | none => rw [hl] at h; cases h
        | some g =>
          rw [hl] at h
          obtain ⟨h1, h2⟩ := (mirGrib_iff E g _).1 ⟨j, h⟩
          exact ⟨g, (hg g).2 (hlk ▸ hl), (hm g).2 ⟨b1, b2, h1, hon.1 h2⟩⟩
  · rintro ⟨g, h1, h2⟩
    obtain ⟨b1, b2, b3, b4⟩ := (hm g).1 h2
    unfold messageRegrid
    rw [(backend_iff S _ .mir).2 ⟨b1, b2, rfl⟩]
    simp only [hlk, (hg g).1 h1]
    exact (mirGrib_iff E g _).2 ⟨b3, hon.2 b4⟩

/-- The numpy handler, on what it is passed. -/
theorem numpy_iff (E : Extern) (S : Kw) : (∃ j, numpyRegrid E S = .ok j) ↔
    "in_grid" ∈ S.map Prod.fst ∧ ∃ go, S.lookup "out_grid" = some go ∧
      ((S.lookup "backend" = some (Chosen.mir).named ∧ InvOk .mir ((S.lookup "inventory").getD .none) ∧ (∃ x, E.area go = .ok x) ∧
          Only S ("backend" :: "inventory" :: options ++ ["in_grid", "out_grid"])) ∨
        ∃ db, S.lookup "backend" = some (Chosen.precomputed db).named ∧ InvOk (.precomputed db) ((S.lookup "inventory").getD .none) ∧
          "interpolation" ∈ S.map Prod.fst ∧ Only S ("backend" :: "inventory" :: "interpolation" :: ["in_grid", "out_grid"])) := by
  unfold numpyRegrid
  cases h1 : S.lookup "in_grid" with
  | none => simp [lookup_none.1 h1]
  | some gi =>
    have h1' : "in_grid" ∈ S.map Prod.fst := List.mem_map.2 ⟨_, mem_of_lookup h1, rfl⟩
    cases h2 : S.lookup "out_grid" with
    | none => simp
    | some go =>
      simp only [Option.some.injEq, exists_eq_left', h1', true_and]
      have hl : ∀ k, k ≠ "in_grid" → k ≠ "out_grid" → (without "out_grid" (without "in_grid" S)).lookup k = S.lookup k := by
        intro k a b
        rw [lookup_without b, lookup_without a]
      have hon : ∀ l, Only (without "inventory" (without "backend" (without "out_grid" (without "in_grid" S)))) l ↔
          Only S ("backend" :: "inventory" :: l ++ ["in_grid", "out_grid"]) := by
        intro l
        rw [only_without, only_without, only_without, only_without]
        refine only_same fun a => ?_
        simp only [List.mem_cons, List.mem_append, List.not_mem_nil, or_false]
        tauto
      have hint : "interpolation" ∈ (without "inventory" (without "backend" (without "out_grid" (without "in_grid" S)))).map Prod.fst ↔
          "interpolation" ∈ S.map Prod.fst := by
        simp [keys_without]
      have hb := backend_iff (without "out_grid" (without "in_grid" S))
      rw [hl "backend" (by decide) (by decide), hl "inventory" (by decide) (by decide)] at hb
      constructor
      · rintro ⟨j, h⟩
        cases hc : backendFromKwargs (without "out_grid" (without "in_grid" S)) with
        | error e => rw [hc] at h; cases h
        | ok ck =>
          obtain ⟨c, kw'⟩ := ck
          rw [hc] at h
          obtain ⟨b1, b2, rfl⟩ := (hb _ _).1 hc
          cases c with
          | mir =>
            obtain ⟨h3, h4⟩ := (mirArray_iff E gi go _).1 ⟨j, h⟩
            exact .inl ⟨b1, b2, h3, (hon _).1 h4⟩
          | precomputed db =>
            obtain ⟨h3, h4⟩ := (weights_iff db gi go _).1 ⟨j, h⟩
            exact .inr ⟨db, b1, b2, hint.1 h3, (hon _).1 h4⟩
      · rintro (⟨b1, b2, h3, h4⟩ | ⟨db, b1, b2, h3, h4⟩)
        · rw [(hb _ .mir).2 ⟨b1, b2, rfl⟩]
          exact (mirArray_iff E gi go _).2 ⟨h3, (hon _).2 h4⟩
        · rw [(hb _ (.precomputed db)).2 ⟨b1, b2, rfl⟩]
          exact (weights_iff db gi go _).2 ⟨hint.2 h3, (hon ["interpolation"]).2 h4⟩

/-- C130, arrays. -/
theorem C130_array (E : Extern) (kw : Kw) (hn : (kw.map Prod.fst).Nodup) :
    (∃ o, call E .array kw = .ok o) ↔ ∃ go, Given kw "out_grid" .none go ∧
      (MirServes E kw ["in_grid", "out_grid"] go ∨ WeightsServe kw ["in_grid", "out_grid"]) := by
  show (∃ o, jobOf (numpyRegrid E (signature ARRAY kw)) = .ok o) ↔ _
  rw [jobOf_iff, numpy_iff]
  have hg : ∀ g, Given kw "out_grid" .none g ↔ (signature ARRAY kw).lookup "out_grid" = some g := by
    intro g
    rw [lookup_sig_default kw (rfl : ARRAY.lookup "out_grid" = some .none), Option.some.injEq, given_iff hn]
  have hm := fun g => mir_iff hn E ARRAY ["in_grid", "out_grid"] g rfl (by decide) (by decide)
  have hw := weightsServe_iff hn ARRAY ["in_grid", "out_grid"] rfl (by decide) (by decide)
  have h1 : "in_grid" ∈ (signature ARRAY kw).map Prod.fst := (keys_signature _ _ _).2 (.inl (by decide))
  have h2 : "interpolation" ∈ (signature ARRAY kw).map Prod.fst := (keys_signature _ _ _).2 (.inl (by decide))
  simp only [hg, hm, hw, h1, h2, true_and]

theorem jobsOf_iff (r : Except Err (List Job)) (n : Nat) : (∃ o, jobsOf r = .ok o ∧ o.jobs.length = n) ↔ ∃ js, r = .ok js ∧ js.length = n := by
  cases r <;> simp [jobsOf, Except.map]

theorem all_same (f : Arg → Except Err Job) (l : List Arg) (hl : l ≠ []) (P : Prop) (h : ∀ g, (∃ j, f g = .ok j) ↔ P) :
    (∃ js, all f l = .ok js ∧ js.length = l.length) ↔ P := by
  rw [all_iff]
  constructor
  · intro h'
    obtain ⟨g, hg⟩ := List.exists_mem_of_ne_nil l hl
    exact (h g).1 (h' g hg)
  · exact fun hp g _ => (h g).2 hp

/-- C130, fields: `regrid` of fields is carried out, for all of them, if and only if a grid is given and either MIR is chosen, the grid is
usable and the arguments are MIR's, or weights are to be searched, the inventory can be opened, the grid is supported and the arguments
are those of the search. -/
theorem C130_fields (E : Extern) (grids : List Arg) (hne : grids ≠ []) (kw : Kw) (hn : (kw.map Prod.fst).Nodup) :
    (∃ o, call E (.fields grids) kw = .ok o ∧ o.jobs.length = grids.length) ↔ ∃ g, Given kw "grid" .none g ∧ g ≠ .none ∧
      (MirServes E kw ["grid"] g ∨ WeightsServe kw ["grid"] ∧ ∃ go, E.spec g = .ok go) := by
  show (∃ o, jobsOf (listRegrid E grids (signature REGRID kw)) = .ok o ∧ _) ↔ _
  rw [jobsOf_iff]
  have hg : ∀ g, Given kw "grid" .none g ↔ (signature REGRID kw).lookup "grid" = some g := by
    intro g
    rw [lookup_sig_default kw (rfl : REGRID.lookup "grid" = some .none), Option.some.injEq, given_iff hn]
  have hm := fun g => mir_iff hn E REGRID ["grid"] g rfl (by decide) (by decide)
  have hw := weightsServe_iff hn REGRID ["grid"] rfl (by decide) (by decide)
  have h2 : "interpolation" ∈ (signature REGRID kw).map Prod.fst := (keys_signature _ _ _).2 (.inl (by decide))
  simp only [hg, hm, hw]
  clear hg hm hw
  generalize signature REGRID kw = S at *
  have hon : ∀ l, Only (without "grid" (without "inventory" (without "backend" S))) l ↔ Only S ("backend" :: "inventory" :: l ++ ["grid"]) := by
    intro l
    rw [only_without, only_without, only_without]
    refine only_same fun a => ?_
    simp only [List.mem_cons, List.mem_append, List.not_mem_nil, or_false]
    tauto
  have hint : "interpolation" ∈ (without "grid" (without "inventory" (without "backend" S))).map Prod.fst := by
    simp only [keys_without]
    exact ⟨⟨⟨h2, by decide⟩, by decide⟩, by decide⟩
  have hlk : (without "inventory" (without "backend" S)).lookup "grid" = S.lookup "grid" := by
    rw [lookup_without (by decide), lookup_without (by decide)]
  have am : ∀ g, (∃ js, all (fun _ => mirRegridGrib E g (without "grid" (without "inventory" (without "backend" S)))) grids = .ok js ∧
      js.length = grids.length) ↔ (∃ x, E.area g = .ok x) ∧ Only S ("backend" :: "inventory" :: options ++ ["grid"]) := by
    intro g
    rw [← hon]
    exact all_same _ _ hne _ (fun _ => mirGrib_iff E g _)
  have aw : ∀ db go, (∃ js, all (fun gi => weightsRegrid db gi go (without "grid" (without "inventory" (without "backend" S)))) grids = .ok js ∧
      js.length = grids.length) ↔ Only S ("backend" :: "inventory" :: "interpolation" :: ["grid"]) := by
    intro db go
    refine all_same _ _ hne _ (fun _ => (weights_iff db _ go _).trans ?_)
    rw [hon]
    exact ⟨fun h => h.2, fun h => ⟨hint, h⟩⟩
  constructor
  · rintro ⟨js, h, hj⟩
    unfold listRegrid at h
    cases hb : backendFromKwargs S with
    | error e => rw [hb] at h; cases h
    | ok ck =>
      obtain ⟨c, kw'⟩ := ck
      obtain ⟨b1, b2, rfl⟩ := (backend_iff _ _ _).1 hb
      rw [hb] at h
      simp only [hlk] at h
      cases hl : S.lookup "grid" with
      | none => rw [hl] at h; cases h
      | some g =>
        have hgn : g ≠ .none := by
          rintro rfl
          rw [hl] at h
          cases h
        refine ⟨g, rfl, hgn, ?_⟩
        rw [hl] at h
        have h : (match c with
            | .mir => all (fun _ => mirRegridGrib E g (without "grid" (without "inventory" (without "backend" S)))) grids
            | .precomputed db =>
              match E.spec g with
              | .error e => .error e
              | .ok go => all (fun gi => weightsRegrid db gi go (without "grid" (without "inventory" (without "backend" S)))) grids) = .ok js := by
          cases g <;> first | exact h | exact absurd rfl hgn
        cases c with
        | mir =>
          obtain ⟨h3, h4⟩ := (am g).1 ⟨js, h, hj⟩
          exact .inl ⟨b1, b2, h3, h4⟩
        | precomputed db =>
          cases hs : E.spec g with
          | error e => simp only [hs] at h; cases h
          | ok go =>
            simp only [hs] at h
            exact .inr ⟨⟨db, b1, b2, (aw db go).1 ⟨js, h, hj⟩⟩, go, rfl⟩
  · rintro ⟨g, hl, hgn, hs⟩
    unfold listRegrid
    rcases hs with ⟨b1, b2, b3, b4⟩ | ⟨⟨db, b1, b2, b3⟩, go, hs⟩
    · rw [(backend_iff S _ .mir).2 ⟨b1, b2, rfl⟩]
      simp only [hlk, hl]
      cases g <;> first | exact absurd rfl hgn | exact (am _).2 ⟨b3, b4⟩
    · rw [(backend_iff S _ (.precomputed db)).2 ⟨b1, b2, rfl⟩]
      simp only [hlk, hl]
      cases g <;> first | exact absurd rfl hgn | (simp only [hs]; exact (aw _ _).2 b3)

/-! ### xarray -/

theorem dims_iff (found : Except Err Arg) (given : Option Arg) : (∃ v, dimsOr found given = .ok v) ↔
    (∃ v, given.getD .none = v ∧ v ≠ .none) ∨ ∃ v, found = .ok v := by
  cases given with
  | none => simp [dimsOr]
  | some w => cases w <;> simp [dimsOr]

theorem inGrid_iff (E : Extern) (d : Data) (T T' : Kw) (gi : Arg) : inGrid E d T = .ok (gi, T') ↔
    (∃ a, d.attr = some a ∧ E.canon a = .ok gi ∧ T' = T) ∨
    (d.attr = none ∧ ∃ a, ((T.lookup "grid_spec").getD .none = a ∧ a ≠ .none ∨ (T.lookup "grid_spec").getD .none = .none ∧ d.accessor = some a) ∧
      E.canon a = .ok gi ∧ T' = without "grid_spec" T) := by
  have hm : ∀ (x : Except Err Arg) (R : Kw), x.map (fun g => (g, R)) = .ok (gi, T') ↔ x = .ok gi ∧ T' = R := by
    intro x R
    cases x with
    | error e => simp [Except.map]
    | ok c' => simp [Except.map, eq_comm]
  unfold inGrid
  cases ha : d.attr with
  | some a => simp [hm]
  | none =>
    simp only [reduceCtorEq, false_and, exists_const, true_and, false_or]
    cases hl : T.lookup "grid_spec" with
    | none => cases d.accessor <;> simp [hm]
    | some w =>
      cases w with
      | none => cases d.accessor <;> simp [hm]
      | _ => simp [hm]

/-- C130, xarray data: carried out if and only if a grid is given, that of the data and its dimensions are given or found, and the
backend can serve. -/
theorem C130_xarray (E : Extern) (d : Data) (hc : d.calls ≠ 0) (kw : Kw) (hn : (kw.map Prod.fst).Nodup) :
    (∃ o, call E (.xarray d) kw = .ok o ∧ o.jobs.length = d.calls) ↔ ∃ g, Given kw "grid" .none g ∧ g ≠ .none ∧ GridFound E d kw ∧
      DimsFound kw "in_dims" d.inDims ∧ DimsFound kw "out_dims" d.outDims ∧
      (MirServes E kw ["grid", "grid_spec", "in_dims", "out_dims"] g ∨ WeightsServe kw ["grid", "grid_spec", "in_dims", "out_dims"]) := by
  show (∃ o, xarrayRegrid E d (signature REGRID kw) = .ok o ∧ _) ↔ _
  have hg : ∀ g, Given kw "grid" .none g ↔ (signature REGRID kw).lookup "grid" = some g := by
    intro g
    rw [lookup_sig_default kw (rfl : REGRID.lookup "grid" = some .none), Option.some.injEq, given_iff hn]
  have hm := fun g => mir_iff hn E REGRID ["grid", "grid_spec", "in_dims", "out_dims"] g rfl (by decide) (by decide)
  have hw := weightsServe_iff hn REGRID ["grid", "grid_spec", "in_dims", "out_dims"] rfl (by decide) (by decide)
  have h2 : "interpolation" ∈ (signature REGRID kw).map Prod.fst := (keys_signature _ _ _).2 (.inl (by decide))
  have hds : ∀ k f, k ∉ REGRID.map Prod.fst → (DimsFound kw k f ↔
      (∃ v, ((signature REGRID kw).lookup k).getD .none = v ∧ v ≠ .none) ∨ ∃ v, f = .ok v) := by
    intro k f hk
    unfold DimsFound
    rw [lookup_sig_other kw hk]
    simp only [given_iff hn]
  have hgf : GridFound E d kw ↔
      (∃ a g, d.attr = some a ∧ E.canon a = .ok g ∧ "grid_spec" ∉ (signature REGRID kw).map Prod.fst) ∨
      (d.attr = none ∧ ∃ a g, (((signature REGRID kw).lookup "grid_spec").getD .none = a ∧ a ≠ .none ∨
        ((signature REGRID kw).lookup "grid_spec").getD .none = .none ∧ d.accessor = some a) ∧ E.canon a = .ok g) := by
    unfold GridFound
    rw [lookup_sig_other kw (by decide)]
    simp only [given_iff hn, keys_signature]
    have : "grid_spec" ∉ REGRID.map Prod.fst := by decide
    simp only [this, false_or]
  rw [hgf]
  simp only [hg, hm, hw, hds "in_dims" _ (by decide), hds "out_dims" _ (by decide)]
  clear hg hm hw hds hgf
  generalize signature REGRID kw = S at *
  -- what is passed on to the handler of arrays
  have pass : ∀ (T' : Kw) (gi g : Arg), (∀ k, k ≠ "grid" → k ≠ "grid_spec" → T'.lookup k = S.lookup k) →
      (∀ k, k ≠ "grid" → k ≠ "grid_spec" → (k ∈ T'.map Prod.fst ↔ k ∈ S.map Prod.fst)) →
      ((∃ j, numpyRegrid E (("in_grid", gi) :: ("out_grid", g) :: without "out_dims" (without "in_dims" T')) = .ok j) ∧
        ((T'.map Prod.fst).contains "in_grid" || (T'.map Prod.fst).contains "out_grid") = false ↔
      ((S.lookup "backend" = some (Chosen.mir).named ∧ InvOk .mir ((S.lookup "inventory").getD .none) ∧ (∃ x, E.area g = .ok x) ∧
          Only T' ("backend" :: "inventory" :: options ++ ["in_dims", "out_dims"])) ∨
        ∃ db, S.lookup "backend" = some (Chosen.precomputed db).named ∧ InvOk (.precomputed db) ((S.lookup "inventory").getD .none) ∧
          Only T' ("backend" :: "inventory" :: "interpolation" :: ["in_dims", "out_dims"]))) := by
    intro T' gi g hlk hks
    have hl' : ∀ k, k ∉ ["in_grid", "out_grid", "out_dims", "in_dims", "grid", "grid_spec"] →
        (("in_grid", gi) :: ("out_grid", g) :: without "out_dims" (without "in_dims" T') : Kw).lookup k = S.lookup k := by
      intro k hk
      simp only [List.mem_cons, List.not_mem_nil, or_false, not_or] at hk
      obtain ⟨a, b, c, e, f, i⟩ := hk
      have a' : (k == "in_grid") = false := by simpa using a
      have b' : (k == "out_grid") = false := by simpa using b
      rw [List.lookup_cons, a']
      simp only
      rw [List.lookup_cons, b']
      simp only
      rw [lookup_without c, lookup_without e, hlk k f i]
    rw [numpy_iff, hl' "backend" (by decide), hl' "inventory" (by decide)]
    have o1 : (("in_grid", gi) :: ("out_grid", g) :: without "out_dims" (without "in_dims" T') : Kw).lookup "out_grid" = some g := by
      rw [List.lookup_cons]
      show List.lookup "out_grid" (("out_grid", g) :: _) = _
      rw [List.lookup_cons]
      rfl
    have o2 : "in_grid" ∈ (("in_grid", gi) :: ("out_grid", g) :: without "out_dims" (without "in_dims" T') : Kw).map Prod.fst := by simp
    have o3 : "interpolation" ∈ (("in_grid", gi) :: ("out_grid", g) :: without "out_dims" (without "in_dims" T') : Kw).map Prod.fst := by
      simp only [List.map_cons, List.mem_cons, keys_without]
      exact .inr (.inr ⟨⟨(hks _ (by decide) (by decide)).2 h2, by decide⟩, by decide⟩)
    simp only [o1, o2, o3, true_and, Option.some.injEq, exists_eq_left']
    have o4 : ∀ l : List String, "in_grid" ∉ l → "out_grid" ∉ l → "in_dims" ∉ l → "out_dims" ∉ l →
        (Only (("in_grid", gi) :: ("out_grid", g) :: without "out_dims" (without "in_dims" T') : Kw) (l ++ ["in_grid", "out_grid"]) ∧
          ((T'.map Prod.fst).contains "in_grid" || (T'.map Prod.fst).contains "out_grid") = false ↔ Only T' (l ++ ["in_dims", "out_dims"])) := by
      intro l n1 n2 n3 n4
      have hcn : ((T'.map Prod.fst).contains "in_grid" || (T'.map Prod.fst).contains "out_grid") = false ↔
          "in_grid" ∉ T'.map Prod.fst ∧ "out_grid" ∉ T'.map Prod.fst := by
        rw [Bool.or_eq_false_iff]
        simp
      rw [hcn]
      unfold Only
      simp only [List.map_cons, List.mem_cons, keys_without, List.mem_append, List.not_mem_nil, or_false]
      constructor
      · rintro ⟨h, i1, i2⟩ k hk
        by_cases e1 : k = "in_dims"
        · exact .inr (.inl e1)
        · by_cases e2 : k = "out_dims"
          · exact .inr (.inr e2)
          · rcases h k (.inr (.inr ⟨⟨hk, e1⟩, e2⟩)) with h | h | h
            · exact .inl h
            · subst h; exact absurd hk i1
            · subst h; exact absurd hk i2
      · intro h
        refine ⟨?_, ?_, ?_⟩
        · rintro k (rfl | rfl | ⟨⟨hk, e1⟩, e2⟩)
          · exact .inr (.inl rfl)
          · exact .inr (.inr rfl)
          · rcases h k hk with h | h | h
            · exact .inl h
            · exact absurd h e1
            · exact absurd h e2
        · intro hk
          rcases h _ hk with h | h | h
          · exact n1 h
          · exact absurd h (by decide)
          · exact absurd h (by decide)
        · intro hk
          rcases h _ hk with h | h | h
          · exact n2 h
          · exact absurd h (by decide)
          · exact absurd h (by decide)
    have m1 := o4 ("backend" :: "inventory" :: options) (by decide) (by decide) (by decide) (by decide)
    have m2 := o4 ["backend", "inventory", "interpolation"] (by decide) (by decide) (by decide) (by decide)
    simp only [List.cons_append, List.nil_append] at m1 m2 ⊢
    rw [← m1, ← m2]
    constructor
    · rintro ⟨⟨a, b, c, e⟩ | ⟨db, a, b, c⟩, f⟩
      · exact .inl ⟨a, b, c, e, f⟩
      · exact .inr ⟨db, a, b, c, f⟩
    · rintro (⟨a, b, c, e, f⟩ | ⟨db, a, b, c, f⟩)
      · exact ⟨.inl ⟨a, b, c, e⟩, f⟩
      · exact ⟨.inr ⟨db, a, b, c⟩, f⟩
  have lkT : ∀ k, k ≠ "grid" → (without "grid" S).lookup k = S.lookup k := fun k hk => lookup_without hk S
  have lkT' : ∀ k, k ≠ "grid" → k ≠ "grid_spec" → (without "grid_spec" (without "grid" S)).lookup k = S.lookup k := fun k hk hk' => by
    rw [lookup_without hk', lookup_without hk]
  have onT : ∀ L : List String, "grid_spec" ∉ L → (Only (without "grid" S) L ↔ Only S ("grid" :: "grid_spec" :: L) ∧ "grid_spec" ∉ S.map Prod.fst) := by
    intro L hL
    rw [only_without]
    unfold Only
    constructor
    · intro h
      refine ⟨fun k hk => ?_, fun hk => ?_⟩
      · rcases List.mem_cons.1 (h k hk) with h | h
        · simp [h]
        · simp [h]
      · rcases List.mem_cons.1 (h _ hk) with h | h
        · exact absurd h (by decide)
        · exact hL h
    · rintro ⟨h, h'⟩ k hk
      have := h k hk
      simp only [List.mem_cons] at this ⊢
      rcases this with rfl | rfl | h
      · exact .inl rfl
      · exact absurd hk h'
      · exact .inr h
  have onT' : ∀ L : List String, Only (without "grid_spec" (without "grid" S)) L ↔ Only S ("grid" :: "grid_spec" :: L) := by
    intro L
    rw [only_without, only_without]
  have onS : ∀ L : List String, (Only S ("grid" :: "grid_spec" :: (L ++ ["in_dims", "out_dims"])) ↔ Only S (L ++ ["grid", "grid_spec", "in_dims", "out_dims"])) := by
    intro L
    refine only_same fun a => ?_
    simp only [List.mem_cons, List.mem_append, List.not_mem_nil, or_false]
    tauto
  -- the part of the backends, for both forms of what is left
  have fits : ∀ (gi g : Arg) (T' : Kw),
      (T' = without "grid" S ∨ T' = without "grid_spec" (without "grid" S)) →
      ((∃ js, all (fun _ => numpyRegrid E (("in_grid", gi) :: ("out_grid", g) :: without "out_dims" (without "in_dims" T'))) (List.replicate d.calls .none) = .ok js ∧
          js.length = d.calls) ∧ ((T'.map Prod.fst).contains "in_grid" || (T'.map Prod.fst).contains "out_grid") = false ↔
      ((S.lookup "backend" = some (Chosen.mir).named ∧ InvOk .mir ((S.lookup "inventory").getD .none) ∧ (∃ x, E.area g = .ok x) ∧
          Only T' ("backend" :: "inventory" :: options ++ ["in_dims", "out_dims"])) ∨
        ∃ db, S.lookup "backend" = some (Chosen.precomputed db).named ∧ InvOk (.precomputed db) ((S.lookup "inventory").getD .none) ∧
          Only T' ("backend" :: "inventory" :: "interpolation" :: ["in_dims", "out_dims"]))) := by
    intro gi g T' hT
    have hne : List.replicate d.calls Arg.none ≠ [] := by simp [hc]
    have hal := all_same (fun _ => numpyRegrid E (("in_grid", gi) :: ("out_grid", g) :: without "out_dims" (without "in_dims" T')))
      (List.replicate d.calls .none) hne _ (fun _ => Iff.rfl)
    rw [List.length_replicate] at hal
    rw [hal]
    have := pass T' gi g (by rcases hT with rfl | rfl; exact fun k h _ => lkT k h; exact lkT')
      (by
        intro k h h'
        rcases hT with rfl | rfl
        · rw [keys_without]; exact ⟨fun h => h.1, fun h'' => ⟨h'', h⟩⟩
        · rw [keys_without, keys_without]; exact ⟨fun h => h.1.1, fun h'' => ⟨⟨h'', h⟩, h'⟩⟩)
    exact this
  unfold xarrayRegrid
  cases hl : S.lookup "grid" with
  | none => simp
  | some g =>
    simp only [Option.some.injEq, exists_eq_left']
    have ex : ∀ x : Arg, (∃ v, x = v ∧ v ≠ .none) ↔ x ≠ .none := fun x => by simp
    have gs : (without "grid" S).lookup "grid_spec" = S.lookup "grid_spec" := lkT _ (by decide)
    -- the body once the grid of the data is known
    have body : ∀ (gi : Arg) (T' : Kw), (T' = without "grid" S ∨ T' = without "grid_spec" (without "grid" S)) →
        ((∃ o, (if g = .none then Except.error Err.value
          else
            match dimsOr d.inDims (T'.lookup "in_dims") with
            | .error e => .error e
            | .ok i =>
              match dimsOr d.outDims (T'.lookup "out_dims") with
              | .error e => .error e
              | .ok u =>
                if ((T'.map Prod.fst).contains "in_grid" || (T'.map Prod.fst).contains "out_grid") = true then .error .type
                else
                  match all (fun _ => numpyRegrid E (("in_grid", gi) :: ("out_grid", g) :: without "out_dims" (without "in_dims" T')))
                    (List.replicate d.calls .none) with
                  | .error e => .error e
                  | .ok js => Except.ok (⟨js, i, u⟩ : Outcome)) = .ok o ∧ o.jobs.length = d.calls) ↔
        g ≠ .none ∧ ((∃ v, (S.lookup "in_dims").getD .none = v ∧ v ≠ .none) ∨ ∃ v, d.inDims = .ok v) ∧
          ((∃ v, (S.lookup "out_dims").getD .none = v ∧ v ≠ .none) ∨ ∃ v, d.outDims = .ok v) ∧
          (∃ js, all (fun _ => numpyRegrid E (("in_grid", gi) :: ("out_grid", g) :: without "out_dims" (without "in_dims" T'))) (List.replicate d.calls .none) = .ok js ∧
          js.length = d.calls) ∧ ((T'.map Prod.fst).contains "in_grid" || (T'.map Prod.fst).contains "out_grid") = false) := by
      intro gi T' hT
      have e1 : T'.lookup "in_dims" = S.lookup "in_dims" := by
        rcases hT with rfl | rfl
        · exact lkT _ (by decide)
        · exact lkT' _ (by decide) (by decide)
      have e2 : T'.lookup "out_dims" = S.lookup "out_dims" := by
        rcases hT with rfl | rfl
        · exact lkT _ (by decide)
        · exact lkT' _ (by decide) (by decide)
      rw [e1, e2, ← dims_iff, ← dims_iff]
      by_cases hg : g = .none
      · simp [hg]
      · rw [if_neg hg]
        cases dimsOr d.inDims (S.lookup "in_dims") with
        | error e => simp
        | ok i =>
          cases dimsOr d.outDims (S.lookup "out_dims") with
          | error e => simp
          | ok u =>
            simp only
            cases hcn : ((T'.map Prod.fst).contains "in_grid" || (T'.map Prod.fst).contains "out_grid") with
            | true => simp
            | false =>
              simp only [Bool.false_eq_true, if_false]
              cases all (fun _ => numpyRegrid E (("in_grid", gi) :: ("out_grid", g) :: without "out_dims" (without "in_dims" T'))) (List.replicate d.calls .none) with
              | error e => simp
              | ok js => simp [hg]
    constructor
    · rintro ⟨o, h, hj⟩
      cases hi : inGrid E d (without "grid" S) with
      | error e => rw [hi] at h; cases h
      | ok gk =>
        obtain ⟨gi, T'⟩ := gk
        rw [hi] at h
        have hgi := (inGrid_iff E d _ _ _).1 hi
        rw [gs] at hgi
        have hT : T' = without "grid" S ∨ T' = without "grid_spec" (without "grid" S) := by
          rcases hgi with ⟨_, _, _, e⟩ | ⟨_, _, _, _, e⟩
          · exact .inl e
          · exact .inr e
        obtain ⟨b1, b2, b3, b4⟩ := (body gi T' hT).1 ⟨o, h, hj⟩
        rw [ex] at b2 b3
        have b5 := (fits gi g T' hT).1 b4
        rcases hgi with ⟨a, c1, c2, rfl⟩ | ⟨c1, a, c2, c3, rfl⟩
        · rcases b5 with ⟨f1, f2, f3, f4⟩ | ⟨db, f1, f2, f3⟩
          · obtain ⟨f4, f5⟩ := (onT ("backend" :: "inventory" :: options ++ ["in_dims", "out_dims"]) (by decide)).1 f4
            exact ⟨b1, .inl ⟨a, gi, c1, c2, f5⟩, b2, b3, .inl ⟨f1, f2, f3, (onS ("backend" :: "inventory" :: options)).1 f4⟩⟩
          · obtain ⟨f4, f5⟩ := (onT ["backend", "inventory", "interpolation", "in_dims", "out_dims"] (by decide)).1 f3
            exact ⟨b1, .inl ⟨a, gi, c1, c2, f5⟩, b2, b3, .inr ⟨db, f1, f2, (onS ["backend", "inventory", "interpolation"]).1 f4⟩⟩
        · rcases b5 with ⟨f1, f2, f3, f4⟩ | ⟨db, f1, f2, f3⟩
          · exact ⟨b1, .inr ⟨c1, a, gi, c2, c3⟩, b2, b3, .inl ⟨f1, f2, f3, (onS ("backend" :: "inventory" :: options)).1 ((onT' _).1 f4)⟩⟩
          · exact ⟨b1, .inr ⟨c1, a, gi, c2, c3⟩, b2, b3, .inr ⟨db, f1, f2, (onS ["backend", "inventory", "interpolation"]).1 ((onT' _).1 f3)⟩⟩
    · rintro ⟨b1, hgf, b2, b3, hs⟩
      rw [← ex] at b2 b3
      rcases hgf with ⟨a, gi, c1, c2, c3⟩ | ⟨c1, a, gi, c2, c3⟩
      · rw [(inGrid_iff E d _ _ gi).2 (.inl ⟨a, c1, c2, rfl⟩)]
        refine (body gi _ (.inl rfl)).2 ⟨b1, b2, b3, (fits gi g _ (.inl rfl)).2 ?_⟩
        rcases hs with ⟨f1, f2, f3, f4⟩ | ⟨db, f1, f2, f3⟩
        · exact .inl ⟨f1, f2, f3, (onT ("backend" :: "inventory" :: options ++ ["in_dims", "out_dims"]) (by decide)).2 ⟨(onS ("backend" :: "inventory" :: options)).2 f4, c3⟩⟩
        · exact .inr ⟨db, f1, f2, (onT ["backend", "inventory", "interpolation", "in_dims", "out_dims"] (by decide)).2 ⟨(onS ["backend", "inventory", "interpolation"]).2 f3, c3⟩⟩
      · rw [(inGrid_iff E d _ _ gi).2 (.inr ⟨c1, a, by rw [gs]; exact c2, c3, rfl⟩)]
        refine (body gi _ (.inr rfl)).2 ⟨b1, b2, b3, (fits gi g _ (.inr rfl)).2 ?_⟩
        rcases hs with ⟨f1, f2, f3, f4⟩ | ⟨db, f1, f2, f3⟩
        · exact .inl ⟨f1, f2, f3, (onT' _).2 ((onS ("backend" :: "inventory" :: options)).2 f4)⟩
        · exact .inr ⟨db, f1, f2, (onT' _).2 ((onS ["backend", "inventory", "interpolation"]).2 f3)⟩

/-! ### The deprecated interface -/

theorem oldBackend_iff (kw kw' : Kw) (c : Chosen) : oldBackend kw = .ok (c, kw') ↔
    "backend" ∉ kw.map Prod.fst ∧ (∃ db, c = .precomputed db ∧ Names ((kw.lookup "matrix_source").getD .none) db) ∧ kw' = without "matrix_source" kw := by
  have hm : ∀ x : Except Err Chosen, x.map (fun c => (c, without "matrix_source" kw)) = .ok (c, kw') ↔ x = .ok c ∧ kw' = without "matrix_source" kw := by
    intro x
    cases x with
    | error e => simp [Except.map]
    | ok c' => simp [Except.map, eq_comm]
  have hc : ∀ inv : Option Arg, choose (text "precomputed") inv = .ok c ↔ ∃ db, c = .precomputed db ∧ Names (inv.getD .none) db := by
    intro inv
    rw [choose_iff]
    constructor
    · rintro ⟨h1, h2⟩
      cases c with
      | mir => cases h1
      | precomputed db => exact ⟨db, rfl, h2⟩
    · rintro ⟨db, rfl, h⟩
      exact ⟨rfl, h⟩
  unfold oldBackend
  by_cases hb : (kw.map Prod.fst).contains "backend" = true
  · rw [if_pos hb]
    have : "backend" ∈ kw.map Prod.fst := by simpa using hb
    simp only [reduceCtorEq, false_iff, not_and]
    exact fun h => absurd this h
  · rw [if_neg hb, hm]
    have hb' : "backend" ∉ kw.map Prod.fst := by simpa using hb
    cases hl : kw.lookup "matrix_source" with
    | none => simp only [hc]; exact ⟨fun h => ⟨hb', h⟩, fun h => h.2⟩
    | some w =>
      cases w with
      | none => simp only [hc]; exact ⟨fun h => ⟨hb', h⟩, fun h => h.2⟩
      | _ => simp only [hc]; exact ⟨fun h => ⟨hb', h⟩, fun h => h.2⟩

theorem weightsOld_iff (db : Db) (gi g : Arg) (kw : Kw) : (∃ j, weightsInterpolate (.precomputed db) gi g kw = .ok j) ↔
    "method" ∈ kw.map Prod.fst ∧ Only kw ["method"] := by
  simp only [weightsInterpolate]
  have : kw.all (fun p => p.1 == "method") = true ↔ Only kw ["method"] := by
    unfold Only
    simp [List.all_eq_true]
  by_cases h : kw.all (fun p => p.1 == "method") = true
  · rw [if_pos h]
    cases hm : kw.lookup "method" with
    | none => simp [lookup_none.1 hm]
    | some m => simp only [Except.ok.injEq, exists_eq', true_iff]; exact ⟨List.mem_map.2 ⟨_, mem_of_lookup hm, rfl⟩, this.1 h⟩
  · rw [if_neg h]
    exact ⟨fun ⟨_, h'⟩ => (by cases h'), fun h' => absurd (this.2 h'.2) h⟩

/-- The deprecated interface, on the arguments with their defaults. -/
theorem oldServes_iff {kw : Kw} (hn : (kw.map Prod.fst).Nodup) : OldServes kw ↔
    (∃ db, Names (((signature INTERPOLATE kw).lookup "matrix_source").getD .none) db) ∧
      Only (signature INTERPOLATE kw) ["matrix_source", "in_grid", "out_grid", "method"] := by
  rw [lookup_sig_other kw (by decide), only_signature INTERPOLATE kw _ (by decide)]
  constructor
  · rintro ⟨⟨v, db, a, b⟩, c⟩
    rw [(given_iff hn _ _ _).1 a]
    exact ⟨⟨db, b⟩, c⟩
  · rintro ⟨⟨db, a⟩, b⟩
    exact ⟨⟨_, db, (given_iff hn _ _ _).2 rfl, a⟩, b⟩

/-- C130, the deprecated interface for arrays. -/
theorem C130_oldArray (E : Extern) (kw : Kw) (hn : (kw.map Prod.fst).Nodup) : (∃ o, call E .oldArray kw = .ok o) ↔ OldServes kw := by
  show (∃ o, jobOf (oldArray (signature INTERPOLATE kw)) = .ok o) ↔ _
  rw [jobOf_iff, oldServes_iff hn]
  have k1 : "in_grid" ∈ (signature INTERPOLATE kw).map Prod.fst := (keys_signature _ _ _).2 (.inl (by decide))
  have k2 : "out_grid" ∈ (signature INTERPOLATE kw).map Prod.fst := (keys_signature _ _ _).2 (.inl (by decide))
  have k3 : "method" ∈ (signature INTERPOLATE kw).map Prod.fst := (keys_signature _ _ _).2 (.inl (by decide))
  generalize signature INTERPOLATE kw = S at *
  unfold oldArray
  cases h1 : S.lookup "in_grid" with
  | none => exact absurd k1 (lookup_none.1 h1)
  | some gi =>
    cases h2 : S.lookup "out_grid" with
    | none => exact absurd k2 (lookup_none.1 h2)
    | some go =>
      have hon : Only (without "matrix_source" (without "out_grid" (without "in_grid" S))) ["method"] ↔
          Only S ["matrix_source", "in_grid", "out_grid", "method"] := by
        rw [only_without, only_without, only_without]
        refine only_same fun a => ?_
        simp only [List.mem_cons, List.not_mem_nil, or_false]
        tauto
      have k3' : "method" ∈ (without "matrix_source" (without "out_grid" (without "in_grid" S))).map Prod.fst := by
        simp only [keys_without]
        exact ⟨⟨⟨k3, by decide⟩, by decide⟩, by decide⟩
      have hb := oldBackend_iff (without "out_grid" (without "in_grid" S))
      have hlk : (without "out_grid" (without "in_grid" S)).lookup "matrix_source" = S.lookup "matrix_source" := by
        rw [lookup_without (by decide), lookup_without (by decide)]
      rw [hlk] at hb
      constructor
      · rintro ⟨j, h⟩
        simp only at h
        cases hc : oldBackend (without "out_grid" (without "in_grid" S)) with
        | error e => rw [hc] at h; cases h
        | ok ck =>
          obtain ⟨c, kw'⟩ := ck
          rw [hc] at h
          obtain ⟨_, ⟨db, rfl, b2⟩, rfl⟩ := (hb _ _).1 hc
          exact ⟨⟨db, b2⟩, hon.1 ((weightsOld_iff db gi go _).1 ⟨j, h⟩).2⟩
      · rintro ⟨⟨db, a⟩, b⟩
        have hnb : "backend" ∉ (without "out_grid" (without "in_grid" S)).map Prod.fst := by
          simp only [keys_without]
          exact fun h => absurd (b _ h.1.1) (by decide)
        rw [(hb _ (.precomputed db)).2 ⟨hnb, ⟨db, rfl, a⟩, rfl⟩]
        exact (weightsOld_iff db gi go _).2 ⟨k3', hon.2 b⟩

/-- C130, the deprecated interface for fields. -/
theorem C130_oldFields (E : Extern) (grids : List Arg) (hne : grids ≠ []) (kw : Kw) (hn : (kw.map Prod.fst).Nodup) :
    (∃ o, call E (.oldFields grids) kw = .ok o ∧ o.jobs.length = grids.length) ↔
      OldServes kw ∧ ∃ g go, Given kw "out_grid" .none g ∧ E.spec g = .ok go := by
  show (∃ o, jobsOf (oldList E grids (signature INTERPOLATE kw)) = .ok o ∧ _) ↔ _
  rw [jobsOf_iff, oldServes_iff hn]
  have hg : ∀ g, Given kw "out_grid" .none g ↔ (signature INTERPOLATE kw).lookup "out_grid" = some g := by
    intro g
    rw [lookup_sig_default kw (rfl : INTERPOLATE.lookup "out_grid" = some .none), Option.some.injEq, given_iff hn]
  simp only [hg]
  have k1 : "in_grid" ∈ (signature INTERPOLATE kw).map Prod.fst := (keys_signature _ _ _).2 (.inl (by decide))
  have k3 : "method" ∈ (signature INTERPOLATE kw).map Prod.fst := (keys_signature _ _ _).2 (.inl (by decide))
  clear hg
  generalize signature INTERPOLATE kw = S at *
  unfold oldList
  have hb := oldBackend_iff S
  have hon : Only (without "out_grid" (without "in_grid" (without "matrix_source" S))) ["method"] ↔
      Only S ["matrix_source", "in_grid", "out_grid", "method"] := by
    rw [only_without, only_without, only_without]
  have k3' : "method" ∈ (without "out_grid" (without "in_grid" (without "matrix_source" S))).map Prod.fst := by
    simp only [keys_without]
    exact ⟨⟨⟨k3, by decide⟩, by decide⟩, by decide⟩
  have l1 : (without "matrix_source" S).lookup "in_grid" = S.lookup "in_grid" := lookup_without (by decide) S
  have l2 : (without "matrix_source" S).lookup "out_grid" = S.lookup "out_grid" := lookup_without (by decide) S
  cases h1 : S.lookup "in_grid" with
  | none => exact absurd k1 (lookup_none.1 h1)
  | some user =>
    have al : ∀ db go, (∃ js, all (fun gi => weightsInterpolate (.precomputed db) (if user = .none then gi else user) go
        (without "out_grid" (without "in_grid" (without "matrix_source" S)))) grids = .ok js ∧ js.length = grids.length) ↔
        Only S ["matrix_source", "in_grid", "out_grid", "method"] := by
      intro db go
      refine all_same _ _ hne _ (fun _ => (weightsOld_iff db _ go _).trans ?_)
      rw [hon]
      exact ⟨fun h => h.2, fun h => ⟨k3', h⟩⟩
    constructor
    · rintro ⟨js, h, hj⟩
      cases hc : oldBackend S with
      | error e => rw [hc] at h; cases h
      | ok ck =>
        obtain ⟨c, kw'⟩ := ck
        rw [hc] at h
        obtain ⟨_, ⟨db, rfl, b2⟩, rfl⟩ := (hb _ _).1 hc
        simp only [l1, l2, h1] at h
        cases h2 : S.lookup "out_grid" with
        | none => rw [h2] at h; cases h
        | some g =>
          simp only [h2] at h
          cases hs : E.spec g with
          | error e => rw [hs] at h; cases h
          | ok go =>
            simp only [hs] at h
            exact ⟨⟨⟨db, b2⟩, (al db go).1 ⟨js, h, hj⟩⟩, g, go, rfl, hs⟩
    · rintro ⟨⟨⟨db, a⟩, b⟩, g, go, h2, hs⟩
      have hnb : "backend" ∉ S.map Prod.fst := fun h => absurd (b _ h) (by decide)
      rw [(hb _ (.precomputed db)).2 ⟨hnb, ⟨db, rfl, a⟩, rfl⟩]
      simp only [l1, l2, h1, h2, hs]
      exact (al db go).2 b

/-! ### Arguments left out -/

/-- The value the documentation gives an argument that is left out (regrid.py:17, array/regrid.py:13, interpolate.py:14, mir.py:43-52 and
the docstrings): MIR's options are those of MIR alone, the grid of xarray data is asked for if the data carry none. -/
inductive Documented : Entry → Kw → String → Arg → Prop
  | grid {f : Entry} {kw : Kw} : (∃ g, f = .fields g) ∨ f = .message ∨ (∃ d, f = .xarray d) → Documented f kw "grid" .none
  | inGrid {f : Entry} {kw : Kw} : f = .array ∨ f = .oldArray ∨ (∃ g, f = .oldFields g) → Documented f kw "in_grid" .none
  | outGrid {f : Entry} {kw : Kw} : f = .array ∨ f = .oldArray ∨ (∃ g, f = .oldFields g) → Documented f kw "out_grid" .none
  | method {f : Entry} {kw : Kw} : f = .oldArray ∨ (∃ g, f = .oldFields g) → Documented f kw "method" (text "linear")
  | source {f : Entry} {kw : Kw} : f = .oldArray ∨ (∃ g, f = .oldFields g) → Documented f kw "matrix_source" .none
  | interpolation {f : Entry} {kw : Kw} : f ≠ .oldArray → (∀ g, f ≠ .oldFields g) → Documented f kw "interpolation" (text "linear")
  | backend {f : Entry} {kw : Kw} : f ≠ .oldArray → (∀ g, f ≠ .oldFields g) → Documented f kw "backend" (text "mir")
  | inventory {f : Entry} {kw : Kw} : f ≠ .oldArray → (∀ g, f ≠ .oldFields g) → Documented f kw "inventory" .none
  | option {f : Entry} {kw : Kw} {k : String} {v : Arg} : f ≠ .oldArray → (∀ g, f ≠ .oldFields g) → Given kw "backend" (text "mir") (text "mir") →
      (k, v) ∈ [("nearest_method", text "automatic"), ("distance", .thing 1), ("distance_tolerance", .thing 1), ("nclosest", .thing 4)] →
      Documented f kw k v
  | inDims {d : Data} {kw : Kw} : Documented (.xarray d) kw "in_dims" .none
  | outDims {d : Data} {kw : Kw} : Documented (.xarray d) kw "out_dims" .none
  | gridSpec {d : Data} {kw : Kw} : d.attr = none → Documented (.xarray d) kw "grid_spec" .none

/-- `S'` is `S` with one more argument. -/
structure Ins (k : String) (v : Arg) (S S' : Kw) : Prop where
  fresh : k ∉ S.map Prod.fst
  parts : ∃ A B, S = A ++ B ∧ S' = A ++ (k, v) :: B

namespace Ins

variable {k : String} {v : Arg} {S S' : Kw}

theorem same (h : Ins k v S S') {a : String} (ha : a ≠ k) : S'.lookup a = S.lookup a := by
  obtain ⟨A, B, rfl, rfl⟩ := h.parts
  rw [lookup_app, lookup_app, List.lookup_cons]
  have : (a == k) = false := by simpa using ha
  rw [this]

theorem here (h : Ins k v S S') : S'.lookup k = some v := by
  have hf := h.fresh
  obtain ⟨A, B, rfl, rfl⟩ := h.parts
  rw [List.map_append, List.mem_append, not_or] at hf
  rw [lookup_app, lookup_none.2 hf.1, List.lookup_cons, beq_self_eq_true]
  rfl

theorem absent (h : Ins k v S S') : S.lookup k = none := lookup_none.2 h.fresh

theorem gone (h : Ins k v S S') : without k S' = without k S := by
  obtain ⟨A, B, rfl, rfl⟩ := h.parts
  unfold without
  simp

theorem less (h : Ins k v S S') {a : String} (ha : a ≠ k) : Ins k v (without a S) (without a S') := by
  have hf := h.fresh
  obtain ⟨A, B, rfl, rfl⟩ := h.parts
  refine ⟨fun h => hf ((keys_without _ _ _).1 h).1, A.filter (fun p => p.1 != a), B.filter (fun p => p.1 != a), by simp [without], ?_⟩
  have : (k != a) = true := by simpa using ha.symm
  simp [without, List.filter_append, List.filter_cons, this]

theorem keys (h : Ins k v S S') {a : String} (ha : a ≠ k) : (S'.map Prod.fst).contains a = (S.map Prod.fst).contains a := by
  obtain ⟨A, B, rfl, rfl⟩ := h.parts
  rw [Bool.eq_iff_iff]
  simp only [List.contains_iff_mem, List.map_append, List.map_cons, List.mem_append, List.mem_cons]
  simp [ha]

theorem every (h : Ins k v S S') {p : String → Bool} (hp : p k = true) : S'.all (fun q => p q.1) = S.all (fun q => p q.1) := by
  obtain ⟨A, B, rfl, rfl⟩ := h.parts
  simp [hp]

end Ins

/-- A signature takes an argument of its own at its default as if left out. -/
theorem signature_default {ds kw : Kw} {k : String} {v : Arg} (hd : ∀ d ∈ ds, d.1 = k → d.2 = v) (hm : k ∈ ds.map Prod.fst) (hk : k ∉ kw.map Prod.fst) :
    signature ds ((k, v) :: kw) = signature ds kw := by
  unfold signature
  have h1 : ds.map (fun d => (d.1, (List.lookup d.1 ((k, v) :: kw)).getD d.2)) = ds.map (fun d => (d.1, (kw.lookup d.1).getD d.2)) := by
    refine List.map_congr_left fun d hdm => ?_
    by_cases h : d.1 = k
    · rw [h, lookup_none.2 hk, List.lookup_cons, beq_self_eq_true, hd d hdm h]
      rfl
    · have : (d.1 == k) = false := by simpa using h
      rw [List.lookup_cons, this]
  have h2 : (!(ds.map Prod.fst).contains k) = false := by simpa using hm
  rw [h1, List.filter_cons]
  simp only [h2, Bool.false_eq_true, if_false]

/-- Any other argument is passed on. -/
theorem signature_ins {ds kw : Kw} {k : String} {v : Arg} (hm : k ∉ ds.map Prod.fst) (hk : k ∉ kw.map Prod.fst) :
    Ins k v (signature ds kw) (signature ds ((k, v) :: kw)) := by
  refine ⟨fun h => ((keys_signature _ _ _).1 h).elim hm hk, _, _, rfl, ?_⟩
  unfold signature
  have h1 : ds.map (fun d => (d.1, (List.lookup d.1 ((k, v) :: kw)).getD d.2)) = ds.map (fun d => (d.1, (kw.lookup d.1).getD d.2)) := by
    refine List.map_congr_left fun d hdm => ?_
    have h : d.1 ≠ k := fun h => hm (List.mem_map.2 ⟨d, hdm, h⟩)
    have : (d.1 == k) = false := by simpa using h
    rw [List.lookup_cons, this]
  have h2 : (!(ds.map Prod.fst).contains k) = true := by simpa using hm
  rw [h1, List.filter_cons]
  simp only [h2, if_true]

theorem backend_inventory {S S' : Kw} (h : Ins "inventory" .none S S') : backendFromKwargs S' = backendFromKwargs S := by
  unfold backendFromKwargs
  rw [h.same (by decide), h.here, h.absent, (h.less (a := "backend") (by decide)).gone]
  rfl

theorem backend_ins {k : String} {v : Arg} {S S' : Kw} (h : Ins k v S S') (h1 : k ≠ "backend") (h2 : k ≠ "inventory") :
    (∃ e, backendFromKwargs S = .error e ∧ backendFromKwargs S' = .error e) ∨
    ∃ c T T', backendFromKwargs S = .ok (c, T) ∧ backendFromKwargs S' = .ok (c, T') ∧ Ins k v T T' ∧ S.lookup "backend" = some c.named := by
  have hi := (h.less h1.symm).less h2.symm
  cases hb : backendFromKwargs S with
  | ok ck =>
    obtain ⟨c, T⟩ := ck
    obtain ⟨a, b, rfl⟩ := (backend_iff _ _ _).1 hb
    exact .inr ⟨c, _, _, rfl, (backend_iff _ _ _).2 ⟨by rw [h.same h1.symm]; exact a, by rw [h.same h2.symm]; exact b, rfl⟩, hi, a⟩
  | error e =>
    refine .inl ⟨e, rfl, ?_⟩
    unfold backendFromKwargs at hb ⊢
    rw [h.same h1.symm, h.same h2.symm]
    cases hl : S.lookup "backend" with
    | none => rw [hl] at hb; exact hb
    | some b =>
      rw [hl] at hb
      cases b with
      | none => exact hb
      | _ =>
        simp only at hb ⊢
        cases hc : choose _ (S.lookup "inventory") with
        | ok c => rw [hc] at hb; cases hb
        | error e' => rw [hc] at hb; cases hb; rfl

/-- An option of MIR at its default. -/
def MirDefault (k : String) (v : Arg) : Prop :=
  (k, v) ∈ [("nearest_method", text "automatic"), ("distance", .thing 1), ("distance_tolerance", .thing 1), ("nclosest", .thing 4)]

theorem MirDefault.facts {k : String} {v : Arg} (h : MirDefault k v) : k ∈ MIR_OPTIONS ∧ mirDefault k = v ∧
    k ∉ ["backend", "inventory", "grid", "in_grid", "out_grid", "interpolation", "in_dims", "out_dims", "grid_spec"] := by
  simp only [MirDefault, List.mem_cons, List.not_mem_nil, or_false, Prod.mk.injEq] at h
  rcases h with ⟨rfl, rfl⟩ | ⟨rfl, rfl⟩ | ⟨rfl, rfl⟩ | ⟨rfl, rfl⟩ <;> exact ⟨by decide, rfl, by decide⟩

theorem option_ins {k : String} {v : Arg} {T T' : Kw} (h : Ins k v T T') (hd : MirDefault k v) (a : String) : option T' a = option T a := by
  unfold option
  by_cases ha : a = k
  · subst ha
    rw [h.here, h.absent]
    exact hd.facts.2.1.symm
  · rw [h.same ha]

theorem mirRegrid_ins {k : String} {v : Arg} {T T' : Kw} (E : Extern) (gi g : Arg) (h : Ins k v T T') (hd : MirDefault k v) :
    mirRegrid E gi g T' = mirRegrid E gi g T := by
  unfold mirRegrid
  rw [h.every (p := fun a => MIR_OPTIONS.contains a) (by simpa using hd.facts.1), option_ins h hd]

theorem mirGrib_ins {k : String} {v : Arg} {T T' : Kw} (E : Extern) (g : Arg) (h : Ins k v T T') (hd : MirDefault k v) :
    mirRegridGrib E g T' = mirRegridGrib E g T := by
  unfold mirRegridGrib
  have : (fun a => (a, option T' a)) = fun a => (a, option T a) := funext fun a => by rw [option_ins h hd]
  rw [h.every (p := fun a => MIR_OPTIONS.contains a) (by simpa using hd.facts.1), this]

theorem numpy_inventory {S S' : Kw} (E : Extern) (h : Ins "inventory" .none S S') : numpyRegrid E S' = numpyRegrid E S := by
  unfold numpyRegrid
  rw [h.same (by decide), h.same (by decide), backend_inventory ((h.less (a := "in_grid") (by decide)).less (a := "out_grid") (by decide))]

theorem numpy_option {k : String} {v : Arg} {S S' : Kw} (E : Extern) (h : Ins k v S S') (hd : MirDefault k v) (hb : S.lookup "backend" = some (text "mir")) :
    numpyRegrid E S' = numpyRegrid E S := by
  have hk := hd.facts.2.2
  simp only [List.mem_cons, List.not_mem_nil, or_false, not_or] at hk
  unfold numpyRegrid
  rw [h.same (Ne.symm hk.2.2.2.1), h.same (Ne.symm hk.2.2.2.2.1)]
  rcases backend_ins ((h.less (a := "in_grid") (Ne.symm hk.2.2.2.1)).less (a := "out_grid") (Ne.symm hk.2.2.2.2.1)) hk.1 hk.2.1 with
    ⟨e, e1, e2⟩ | ⟨c, T, T', e1, e2, e3, e4⟩
  · rw [e1, e2]
  · rw [e1, e2]
    rw [lookup_without (by decide), lookup_without (by decide), hb] at e4
    cases c with
    | precomputed db => exact absurd e4 (by rintro ⟨⟩)
    | mir =>
      cases S.lookup "in_grid" with
      | none => rfl
      | some gi =>
        cases S.lookup "out_grid" with
        | none => rfl
        | some go => exact mirRegrid_ins E gi go e3 hd

theorem message_option {k : String} {v : Arg} {S S' : Kw} (E : Extern) (h : Ins k v S S') (hd : MirDefault k v) :
    messageRegrid E S' = messageRegrid E S := by
  have hk := hd.facts.2.2
  simp only [List.mem_cons, List.not_mem_nil, or_false, not_or] at hk
  unfold messageRegrid
  rcases backend_ins h hk.1 hk.2.1 with ⟨e, e1, e2⟩ | ⟨c, T, T', e1, e2, e3, e4⟩
  · rw [e1, e2]
  · rw [e1, e2]
    cases c with
    | precomputed db => rfl
    | mir =>
      simp only
      rw [e3.same (Ne.symm hk.2.2.1)]
      cases T.lookup "grid" with
      | none => rfl
      | some g => exact mirGrib_ins E g (e3.less (Ne.symm hk.2.2.1)) hd

theorem list_option {k : String} {v : Arg} {S S' : Kw} (E : Extern) (grids : List Arg) (h : Ins k v S S') (hd : MirDefault k v)
    (hb : S.lookup "backend" = some (text "mir")) : listRegrid E grids S' = listRegrid E grids S := by
  have hk := hd.facts.2.2
  simp only [List.mem_cons, List.not_mem_nil, or_false, not_or] at hk
  unfold listRegrid
  rcases backend_ins h hk.1 hk.2.1 with ⟨e, e1, e2⟩ | ⟨c, T, T', e1, e2, e3, e4⟩
  · rw [e1, e2]
  · rw [e1, e2]
    rw [hb] at e4
    cases c with
    | precomputed db => exact absurd e4 (by rintro ⟨⟩)
    | mir =>
      simp only
      rw [e3.same (Ne.symm hk.2.2.1)]
      cases T.lookup "grid" with
      | none => rfl
      | some g =>
        have := mirGrib_ins E g (e3.less (Ne.symm hk.2.2.1)) hd
        cases g <;> simp only [this]

theorem list_inventory {S S' : Kw} (E : Extern) (grids : List Arg) (h : Ins "inventory" .none S S') : listRegrid E grids S' = listRegrid E grids S := by
  unfold listRegrid
  rw [backend_inventory h]

theorem message_inventory {S S' : Kw} (E : Extern) (h : Ins "inventory" .none S S') : messageRegrid E S' = messageRegrid E S := by
  unfold messageRegrid
  rw [backend_inventory h]

theorem inGrid_ins {k : String} {v : Arg} {T T' : Kw} (E : Extern) (d : Data) (h : Ins k v T T') (hk : k ≠ "grid_spec") :
    (∃ e, inGrid E d T = .error e ∧ inGrid E d T' = .error e) ∨ ∃ g R R', inGrid E d T = .ok (g, R) ∧ inGrid E d T' = .ok (g, R') ∧ Ins k v R R' ∧
      R.lookup "backend" = T.lookup "backend" := by
  have hl := h.less (a := "grid_spec") hk.symm
  have key : ∀ (x : Except Err Arg) (R R' : Kw), Ins k v R R' → R.lookup "backend" = T.lookup "backend" →
      (∃ e, x.map (fun g => (g, R)) = .error e ∧ x.map (fun g => (g, R')) = .error e) ∨
      ∃ g R₁ R₁', x.map (fun g => (g, R)) = .ok (g, R₁) ∧ x.map (fun g => (g, R')) = .ok (g, R₁') ∧ Ins k v R₁ R₁' ∧
        R₁.lookup "backend" = T.lookup "backend" := by
    intro x R R' hi hb
    cases x with
    | error e => exact .inl ⟨e, rfl, rfl⟩
    | ok g => exact .inr ⟨g, R, R', rfl, rfl, hi, hb⟩
  have hbk : (without "grid_spec" T).lookup "backend" = T.lookup "backend" := lookup_without (by decide) T
  unfold inGrid
  cases d.attr with
  | some a => exact key _ _ _ h rfl
  | none =>
    simp only
    rw [h.same hk.symm]
    cases T.lookup "grid_spec" with
    | none =>
      cases d.accessor with
      | none => exact .inl ⟨_, rfl, rfl⟩
      | some a => exact key _ _ _ hl hbk
    | some w =>
      cases w with
      | none =>
        cases d.accessor with
        | none => exact .inl ⟨_, rfl, rfl⟩
        | some a => exact key _ _ _ hl hbk
      | _ => exact key _ _ _ hl hbk

/-- xarray data: an argument the array handler takes as if left out is so taken here. -/
theorem xarray_ins {k : String} {v : Arg} {S S' : Kw} (E : Extern) (d : Data) (h : Ins k v S S')
    (hk : k ∉ ["grid", "in_grid", "out_grid", "grid_spec"])
    (hdi : k = "in_dims" → v = .none) (hdo : k = "out_dims" → v = .none)
    (hnp : k ≠ "in_dims" → k ≠ "out_dims" → ∀ R R', Ins k v R R' → R.lookup "backend" = S.lookup "backend" → numpyRegrid E R' = numpyRegrid E R) :
    xarrayRegrid E d S' = xarrayRegrid E d S := by
  simp only [List.mem_cons, List.not_mem_nil, or_false, not_or] at hk
  obtain ⟨n1, n2, n3, n4⟩ := hk
  unfold xarrayRegrid
  rw [h.same (Ne.symm n1)]
  cases S.lookup "grid" with
  | none => rfl
  | some g =>
    simp only
    rcases inGrid_ins E d (h.less (Ne.symm n1)) n4 with ⟨e, e1, e2⟩ | ⟨gi, R, R', e1, e2, e3, e4⟩
    · rw [e1, e2]
    · rw [e1, e2]
      rw [lookup_without (by decide)] at e4
      simp only
      rw [e3.keys (Ne.symm n2), e3.keys (Ne.symm n3)]
      have d1 : dimsOr d.inDims (R'.lookup "in_dims") = dimsOr d.inDims (R.lookup "in_dims") := by
        by_cases hk : k = "in_dims"
        · have := hdi hk
          subst hk
          rw [e3.here, e3.absent, this]
          rfl
        · rw [e3.same (Ne.symm hk)]
      have d2 : dimsOr d.outDims (R'.lookup "out_dims") = dimsOr d.outDims (R.lookup "out_dims") := by
        by_cases hk : k = "out_dims"
        · have := hdo hk
          subst hk
          rw [e3.here, e3.absent, this]
          rfl
        · rw [e3.same (Ne.symm hk)]
      have d3 : numpyRegrid E (("in_grid", gi) :: ("out_grid", g) :: without "out_dims" (without "in_dims" R')) =
          numpyRegrid E (("in_grid", gi) :: ("out_grid", g) :: without "out_dims" (without "in_dims" R)) := by
        by_cases k1 : k = "in_dims"
        · subst k1; rw [e3.gone]
        · by_cases k2 : k = "out_dims"
          · subst k2; rw [(e3.less (a := "in_dims") (by decide)).gone]
          · have hl := (e3.less (a := "in_dims") (Ne.symm k1)).less (a := "out_dims") (Ne.symm k2)
            refine hnp k1 k2 _ _ ⟨?_, ?_⟩ ?_
            · simp only [List.map_cons, List.mem_cons, not_or]
              exact ⟨n2, n3, hl.fresh⟩
            · obtain ⟨A, B, h1, h2⟩ := hl.parts
              exact ⟨("in_grid", gi) :: ("out_grid", g) :: A, B, by rw [h1]; rfl, by rw [h2]; rfl⟩
            · rw [← e4]
              show List.lookup "backend" (without "out_dims" (without "in_dims" R)) = _
              rw [lookup_without (by decide), lookup_without (by decide)]
      rw [d1, d2, d3]

theorem xarray_gridSpec {S S' : Kw} (E : Extern) (d : Data) (h : Ins "grid_spec" .none S S') (ha : d.attr = none) :
    xarrayRegrid E d S' = xarrayRegrid E d S := by
  unfold xarrayRegrid
  rw [h.same (by decide)]
  have hl := h.less (a := "grid") (by decide)
  have : inGrid E d (without "grid" S') = inGrid E d (without "grid" S) := by
    unfold inGrid
    rw [ha]
    simp only
    rw [hl.here, hl.absent, hl.gone]
  rw [this]

theorem old_source {S S' : Kw} (h : Ins "matrix_source" .none S S') : oldBackend S' = oldBackend S := by
  unfold oldBackend
  rw [h.keys (by decide), h.here, h.absent, h.gone]

/-- **C130**, arguments left out: for each function, an argument at its documented default is as if it had been left out. -/
theorem C130_default (E : Extern) (f : Entry) (kw : Kw) (hn : (kw.map Prod.fst).Nodup) (k : String) (v : Arg) (hd : Documented f kw k v)
    (hk : k ∉ kw.map Prod.fst) : call E f ((k, v) :: kw) = call E f kw := by
  have own : ∀ (ds : Kw) (a : String) (w : Arg), a = k → w = v → (∀ d ∈ ds, d.1 = a → d.2 = w) → a ∈ ds.map Prod.fst →
      signature ds ((k, v) :: kw) = signature ds kw := by
    rintro ds a w rfl rfl h1 h2
    exact signature_default h1 h2 hk
  have no : ∀ {f : Entry}, f ≠ .oldArray → (∀ g, f ≠ .oldFields g) → (∃ g, f = .fields g) ∨ f = .message ∨ (∃ d, f = .xarray d) ∨ f = .array := by
    intro f h1 h2
    cases f with
    | fields g => exact .inl ⟨g, rfl⟩
    | message => exact .inr (.inl rfl)
    | xarray d => exact .inr (.inr (.inl ⟨d, rfl⟩))
    | array => exact .inr (.inr (.inr rfl))
    | oldArray => exact absurd rfl h1
    | oldFields g => exact absurd rfl (h2 g)
  have reg : ∀ {f : Entry}, ((∃ g, f = .fields g) ∨ f = .message ∨ ∃ d, f = .xarray d) → signature REGRID ((k, v) :: kw) = signature REGRID kw →
      call E f ((k, v) :: kw) = call E f kw := by
    rintro f (⟨g, rfl⟩ | rfl | ⟨d, rfl⟩) hs <;> simp only [call, hs]
  have old : ∀ {f : Entry}, (f = .oldArray ∨ ∃ g, f = .oldFields g) → signature INTERPOLATE ((k, v) :: kw) = signature INTERPOLATE kw →
      call E f ((k, v) :: kw) = call E f kw := by
    rintro f (rfl | ⟨g, rfl⟩) hs <;> simp only [call, hs]
  have arr : ∀ {f : Entry}, f = .array → signature ARRAY ((k, v) :: kw) = signature ARRAY kw → call E f ((k, v) :: kw) = call E f kw := by
    rintro f rfl hs
    simp only [call, hs]
  cases hd with
  | grid hf => exact reg hf (own REGRID _ _ rfl rfl (by decide) (by decide))
  | inGrid hf =>
    rcases hf with hf | hf
    · exact arr hf (own ARRAY _ _ rfl rfl (by decide) (by decide))
    · exact old hf (own INTERPOLATE _ _ rfl rfl (by decide) (by decide))
  | outGrid hf =>
    rcases hf with hf | hf
    · exact arr hf (own ARRAY _ _ rfl rfl (by decide) (by decide))
    · exact old hf (own INTERPOLATE _ _ rfl rfl (by decide) (by decide))
  | method hf => exact old hf (own INTERPOLATE _ _ rfl rfl (by decide) (by decide))
  | interpolation h1 h2 =>
    rcases no h1 h2 with hf | hf | hf | hf
    · exact reg (.inl hf) (own REGRID _ _ rfl rfl (by decide) (by decide))
    · exact reg (.inr (.inl hf)) (own REGRID _ _ rfl rfl (by decide) (by decide))
    · exact reg (.inr (.inr hf)) (own REGRID _ _ rfl rfl (by decide) (by decide))
    · exact arr hf (own ARRAY _ _ rfl rfl (by decide) (by decide))
  | backend h1 h2 =>
    rcases no h1 h2 with hf | hf | hf | hf
    · exact reg (.inl hf) (own REGRID _ _ rfl rfl (by decide) (by decide))
    · exact reg (.inr (.inl hf)) (own REGRID _ _ rfl rfl (by decide) (by decide))
    · exact reg (.inr (.inr hf)) (own REGRID _ _ rfl rfl (by decide) (by decide))
    · exact arr hf (own ARRAY _ _ rfl rfl (by decide) (by decide))
  | source hf =>
    have hi := signature_ins (ds := INTERPOLATE) (v := .none) (by decide) hk
    rcases hf with rfl | ⟨g, rfl⟩
    · simp only [call, oldArray]
      rw [hi.same (by decide), hi.same (by decide), old_source ((hi.less (a := "in_grid") (by decide)).less (a := "out_grid") (by decide))]
    · simp only [call, oldList]
      rw [old_source hi]
  | inventory h1 h2 =>
    have hi := signature_ins (ds := REGRID) (v := .none) (by decide) hk
    have hi' := signature_ins (ds := ARRAY) (v := .none) (by decide) hk
    rcases no h1 h2 with ⟨g, rfl⟩ | rfl | ⟨d, rfl⟩ | rfl
    · simp only [call, list_inventory E g hi]
    · simp only [call, message_inventory E hi]
    · exact xarray_ins E d hi (by decide) (fun _ => rfl) (fun _ => rfl) (fun _ _ R R' h _ => numpy_inventory E h)
    · simp only [call, numpy_inventory E hi']
  | option h1 h2 hb hm =>
    have hm : MirDefault k v := hm
    have hf := hm.facts.2.2
    have hf0 := hf
    simp only [List.mem_cons, List.not_mem_nil, or_false, not_or] at hf
    have hi := signature_ins (ds := REGRID) (v := v) (k := k) (by simp [REGRID, hf]) hk
    have hi' := signature_ins (ds := ARRAY) (v := v) (k := k) (by simp [ARRAY, hf]) hk
    have b1 : (signature REGRID kw).lookup "backend" = some (text "mir") := by
      rw [lookup_sig_default kw (rfl : REGRID.lookup "backend" = some (text "mir")), (given_iff hn _ _ _).1 hb]
    have b2 : (signature ARRAY kw).lookup "backend" = some (text "mir") := by
      rw [lookup_sig_default kw (rfl : ARRAY.lookup "backend" = some (text "mir")), (given_iff hn _ _ _).1 hb]
    rcases no h1 h2 with ⟨g, rfl⟩ | rfl | ⟨d, rfl⟩ | rfl
    · simp only [call, list_option E g hi hm b1]
    · simp only [call, message_option E hi hm]
    · exact xarray_ins E d hi (by simp [hf]) (fun h => absurd h hf.2.2.2.2.2.2.1) (fun h => absurd h hf.2.2.2.2.2.2.2.1)
        (fun _ _ R R' h hR => numpy_option E h hm (by rw [hR, b1]))
    · simp only [call, numpy_option E hi' hm b2]
  | inDims =>
    exact xarray_ins E _ (signature_ins (ds := REGRID) (by decide) hk) (by decide) (fun _ => rfl) (fun _ => rfl) (fun h => absurd rfl h)
  | outDims =>
    exact xarray_ins E _ (signature_ins (ds := REGRID) (by decide) hk) (by decide) (fun _ => rfl) (fun _ => rfl) (fun _ h => absurd rfl h)
  | gridSpec ha => exact xarray_gridSpec E _ (signature_ins (ds := REGRID) (by decide) hk) ha

/-- The two exceptions are such: an option of MIR at its default is refused by the search for weights, and `grid_spec=None` for xarray data that
carry their grid. -/
theorem C130_refused (E : Extern) (kw : Kw) (hn : (kw.map Prod.fst).Nodup) :
    (∀ k v, k ∈ ["nearest_method", "distance", "distance_tolerance", "nclosest"] → Given kw "backend" (text "mir") (text "precomputed") → (k, v) ∈ kw →
      (∀ o, call E .array kw ≠ .ok o) ∧ ∀ grids : List Arg, grids ≠ [] → ∀ o, call E (.fields grids) kw = .ok o → o.jobs.length ≠ grids.length) ∧
    (∀ (d : Data) (v : Arg), d.calls ≠ 0 → d.attr ≠ none → ("grid_spec", v) ∈ kw → ∀ o, call E (.xarray d) kw = .ok o → o.jobs.length ≠ d.calls) := by
  have one : ∀ {k : String} {a b c : Arg}, Given kw k a b → Given kw k a c → b = c := fun h1 h2 =>
    ((given_iff hn _ _ _).1 h1).symm.trans ((given_iff hn _ _ _).1 h2)
  have nm : ∀ {l out}, MirServes E kw l out → ¬Given kw "backend" (text "mir") (text "precomputed") := fun h h' =>
    absurd (one h.backend h') (by decide)
  have nw : ∀ {k : String} {v : Arg} {l}, k ∈ ["nearest_method", "distance", "distance_tolerance", "nclosest"] → (k, v) ∈ kw → k ∉ l → ¬WeightsServe kw l := by
    intro k v l hk hm hl h
    have := h.only k (List.mem_map_of_mem hm)
    simp only [List.mem_cons] at this
    simp only [List.mem_cons, List.not_mem_nil, or_false] at hk
    rcases this with rfl | rfl | rfl | h
    · exact absurd hk (by decide)
    · exact absurd hk (by decide)
    · exact absurd hk (by decide)
    · exact hl h
  refine ⟨fun k v hk hb hm => ⟨fun o ho => ?_, fun grids hne o ho hj => ?_⟩, fun d v hc ha hm o ho hj => ?_⟩
  · obtain ⟨go, _, h | h⟩ := (C130_array E kw hn).1 ⟨o, ho⟩
    · exact nm h hb
    · refine nw hk hm ?_ h
      simp only [List.mem_cons, List.not_mem_nil, or_false] at hk
      rcases hk with rfl | rfl | rfl | rfl <;> decide
  · obtain ⟨g, _, _, h | ⟨h, _⟩⟩ := (C130_fields E grids hne kw hn).1 ⟨o, ho, hj⟩
    · exact nm h hb
    · refine nw hk hm ?_ h
      simp only [List.mem_cons, List.not_mem_nil, or_false] at hk
      rcases hk with rfl | rfl | rfl | rfl <;> decide
  · obtain ⟨g, _, _, h, _⟩ := (C130_xarray E d hc kw hn).1 ⟨o, ho, hj⟩
    rcases h with ⟨_, _, _, _, h⟩ | ⟨h, _⟩
    · exact h (List.mem_map_of_mem hm)
    · exact ha h

/-! ## Examples -/

/-- Weights that are there, and MIR. -/
def searched : Kw := [("grid", .dict 9), ("backend", text "precomputed"), ("inventory", text "/my/db")]

/-- `C130_message`: MIR takes it; with the other backend it does not. -/
example : ∃ o, call plainE .message [("grid", .dict 9), ("nclosest", .thing 8)] = .ok o :=
  (C130_message plainE _ (by decide)).2 ⟨.dict 9, .inl (by decide), .inr ⟨by decide, rfl⟩, ⟨.none, .inr ⟨by decide, rfl⟩, by simp, by simp⟩, ⟨_, rfl⟩,
    by unfold Only; decide⟩

example : ¬∃ o, call plainE .message searched = .ok o := by
  rw [C130_message plainE searched (by decide)]
  rintro ⟨g, _, h⟩
  exact absurd ((given_iff (kw := searched) (by decide) _ _ _).1 h.backend) (by decide)

/-- `C130_fields`: weights are found for every field; not so with an option of MIR. -/
example : ∃ o, call plainE (.fields [.dict 1, .dict 2]) searched = .ok o ∧ o.jobs.length = 2 :=
  (C130_fields plainE [.dict 1, .dict 2] (by simp) searched (by decide)).2 ⟨.dict 9, .inl (by decide), by decide, .inr
    ⟨⟨.inl (by decide), ⟨text "/my/db", .path "/my/db".toList, .inl (by decide), names_getDb rfl⟩, by unfold Only; decide⟩, .dict 9, rfl⟩⟩

/-- `C130_array`. -/
example : ∃ o, call plainE .array [("in_grid", .dict 1), ("out_grid", .dict 9)] = .ok o :=
  (C130_array plainE _ (by decide)).2 ⟨.dict 9, .inl (by decide), .inl ⟨.inr ⟨by decide, rfl⟩, ⟨.none, .inr ⟨by decide, rfl⟩, by simp, by simp⟩, ⟨_, rfl⟩,
    by unfold Only; decide⟩⟩

/-- An inventory that cannot be hashed is refused, though MIR has no use for it. -/
example : ¬∃ o, call plainE .array [("in_grid", .dict 1), ("out_grid", .dict 9), ("inventory", .list 3)] = .ok o := by
  rw [C130_array plainE _ (by decide)]
  rintro ⟨g, _, h | h⟩
  · obtain ⟨v, h1, _, h2⟩ := h.inventory
    exact h2 3 ((given_iff (by decide) _ _ _).1 h1).symm
  · exact absurd ((given_iff (by decide) _ _ _).1 h.backend) (by decide)

/-- `C130_xarray`: data with an accessor, dimensions as found. -/
example : ∃ o, call plainE (.xarray ⟨none, some (.dict 3), .ok (.list 1), .ok (.list 2), 2⟩) [("grid", .dict 9)] = .ok o ∧ o.jobs.length = 2 :=
  (C130_xarray plainE ⟨none, some (.dict 3), .ok (.list 1), .ok (.list 2), 2⟩ (by decide) _ (by decide)).2 ⟨.dict 9, .inl (by decide), by decide,
    .inr ⟨rfl, .dict 3, .dict 3, .inr ⟨.inr ⟨by decide, rfl⟩, rfl⟩, rfl⟩, .inr ⟨_, rfl⟩, .inr ⟨_, rfl⟩,
    .inl ⟨.inr ⟨by decide, rfl⟩, ⟨.none, .inr ⟨by decide, rfl⟩, by simp, by simp⟩, ⟨_, rfl⟩, by unfold Only; decide⟩⟩

/-- `C130_oldArray`, `C130_oldFields`. -/
example : ∃ o, call plainE .oldArray [("out_grid", .dict 9), ("matrix_source", text "https://x")] = .ok o :=
  (C130_oldArray plainE _ (by decide)).2 ⟨⟨text "https://x", .url "https://x".toList, .inl (by decide), names_getDb rfl⟩, by unfold Only; decide⟩

example : ∃ o, call plainE (.oldFields [.dict 1]) [("out_grid", .dict 9), ("method", text "nn")] = .ok o ∧ o.jobs.length = 1 :=
  (C130_oldFields plainE [.dict 1] (by simp) _ (by decide)).2 ⟨⟨⟨.none, _, .inr ⟨by decide, rfl⟩, .inl ⟨rfl, rfl⟩⟩, by unfold Only; decide⟩,
    .dict 9, .dict 9, .inl (by decide), rfl⟩

/-- `C130_default`: four neighbours, unless otherwise said. -/
example : call plainE .message [("nclosest", .thing 4), ("grid", .dict 9)] = call plainE .message [("grid", .dict 9)] :=
  C130_default plainE .message [("grid", .dict 9)] (by decide) "nclosest" (.thing 4)
    (.option (by simp) (by simp) (.inr ⟨by decide, rfl⟩) (by decide)) (by decide)

example : call plainE .message [("nclosest", .thing 5), ("grid", .dict 9)] ≠ call plainE .message [("grid", .dict 9)] := by decide +kernel

/-- `C130_refused`: four neighbours, to the search for weights. -/
example : ∀ o, call plainE .array (("nclosest", .thing 4) :: searched) ≠ .ok o :=
  ((C130_refused plainE (("nclosest", .thing 4) :: searched) (by decide)).1 "nclosest" (.thing 4) (by decide) (.inl (by decide)) (by decide)).1

end Verif.Regrid.Args

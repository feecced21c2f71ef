import Verif.Regrid.Replaced
import Verif.Regrid.Props

/-!
# Properties: the deprecated calls and what the documentation replaces them by (C156, C158)

docs/release_notes/deprecations.rst, docs/guide/interpolate/interpolate.rst, docs/release_notes/version_0.6_updates.rst.
-/

namespace Verif.Regrid.Args

/-! ## Specification -/

/-- The arguments of `interpolate`. -/
def oldNames : List String := ["in_grid", "out_grid", "method", "matrix_source"]

/-- The new names of the arguments, for arrays. -/
def newName : String → String
  | "method" => "interpolation"
  | "matrix_source" => "inventory"
  | k => k

/-- The new names of the arguments, for fields. -/
def newFieldName : String → String
  | "out_grid" => "grid"
  | k => newName k

/-- The replacement: the same values under the new names, with the backend "precomputed". -/
def replaced (kw : Kw) : Kw := ("backend", text "precomputed") :: kw.map (fun p => (newName p.1, p.2))

/-- For fields, which bring their grids. -/
def replacedFields (kw : Kw) : Kw :=
  ("backend", text "precomputed") :: (kw.filter (fun p => p.1 != "in_grid")).map (fun p => (newFieldName p.1, p.2))

/-! ## Lemmas -/

theorem lookup_named (r : String → String) (k : String) : ∀ kw : Kw, (∀ a ∈ kw.map Prod.fst, r a = r k → a = k) →
    (kw.map (fun p => (r p.1, p.2))).lookup (r k) = kw.lookup k := by
  intro kw
  induction kw with
  | nil => intro _; rfl
  | cons p kw ih =>
    intro h
    obtain ⟨a, v⟩ := p
    have h1 := h a (by simp)
    have h2 := ih (fun b hb => h b (by simp only [List.map_cons, List.mem_cons]; exact .inr hb))
    simp only [List.map_cons, List.lookup_cons]
    by_cases e : k = a
    · subst e
      simp
    · have e' : r k ≠ r a := fun q => e (h1 q.symm).symm
      rw [beq_eq_false_iff_ne.2 e, beq_eq_false_iff_ne.2 e']
      exact h2

/-- The inventory None is that left out. -/
theorem choose_none (n : Arg) (o : Option Arg) : choose n o = choose n (some (o.getD .none)) := rfl

theorem oldBackend_eval {kw : Kw} (h : "backend" ∉ kw.map Prod.fst) :
    oldBackend kw = (choose (text "precomputed") (kw.lookup "matrix_source")).map (fun c => (c, without "matrix_source" kw)) := by
  unfold oldBackend
  rw [if_neg (by simpa using h)]
  cases kw.lookup "matrix_source" with
  | none => rfl
  | some w => cases w <;> rfl

theorem choose_precomputed (o : Option Arg) : (∃ e, choose (text "precomputed") o = .error e) ∨ ∃ db, choose (text "precomputed") o = .ok (.precomputed db) := by
  cases h : choose (text "precomputed") o with
  | error e => exact .inl ⟨e, rfl⟩
  | ok c =>
    cases c with
    | mir => exact absurd ((choose_iff _ _ _).1 h).1 (by decide)
    | precomputed db => exact .inr ⟨db, rfl⟩

/-- The search with what was chosen. -/
def searchOf (c : Except Err Chosen) (f : Db → Except Err Job) : Except Err Job :=
  match c with
  | .error e => .error e
  | .ok .mir => .error .attribute
  | .ok (.precomputed db) => f db

theorem oldArray_eval {kw : Kw} (ho : Only kw oldNames) : oldArray (signature INTERPOLATE kw) =
    searchOf (choose (text "precomputed") (kw.lookup "matrix_source"))
      (fun db => .ok (.weights db ((kw.lookup "in_grid").getD .none) ((kw.lookup "out_grid").getD .none) ((kw.lookup "method").getD (text "linear")))) := by
  have l1 := lookup_sig_default kw (rfl : INTERPOLATE.lookup "in_grid" = some .none)
  have l2 := lookup_sig_default kw (rfl : INTERPOLATE.lookup "out_grid" = some .none)
  have l3 := lookup_sig_default kw (rfl : INTERPOLATE.lookup "method" = some (text "linear"))
  have l4 : (signature INTERPOLATE kw).lookup "matrix_source" = kw.lookup "matrix_source" := lookup_sig_other kw (by decide)
  have hs : Only (signature INTERPOLATE kw) oldNames := (only_signature INTERPOLATE kw oldNames (by decide)).2 ho
  generalize signature INTERPOLATE kw = S at *
  unfold oldArray
  rw [l1, l2]
  simp only
  have nb : "backend" ∉ (without "out_grid" (without "in_grid" S)).map Prod.fst := by
    simp only [keys_without]
    exact fun h => absurd (hs _ h.1.1) (by decide)
  have hall : (without "matrix_source" (without "out_grid" (without "in_grid" S))).all (fun p => p.1 == "method") = true := by
    rw [List.all_eq_true]
    intro p hp
    have hk : p.1 ∈ (without "matrix_source" (without "out_grid" (without "in_grid" S))).map Prod.fst := List.mem_map_of_mem hp
    simp only [keys_without] at hk
    have := hs _ hk.1.1.1
    simp only [oldNames, List.mem_cons, List.not_mem_nil, or_false] at this
    simp only [beq_iff_eq]
    tauto
  rw [oldBackend_eval nb, lookup_without (by decide), lookup_without (by decide), l4]
  rcases choose_precomputed (kw.lookup "matrix_source") with ⟨e, h⟩ | ⟨db, h⟩
  · rw [h]; rfl
  · rw [h]
    simp only [Except.map, searchOf, weightsInterpolate]
    rw [if_pos hall, lookup_without (by decide), lookup_without (by decide), lookup_without (by decide), l3]

theorem backend_eval {S : Kw} (h : S.lookup "backend" = some (text "precomputed")) : backendFromKwargs S =
    (choose (text "precomputed") (S.lookup "inventory")).map (fun c => (c, without "inventory" (without "backend" S))) := by
  unfold backendFromKwargs
  rw [h]
  rfl

theorem array_eval {kw : Kw} (E : Extern) (hb : kw.lookup "backend" = some (text "precomputed"))
    (ho : Only kw ["backend", "in_grid", "out_grid", "interpolation", "inventory"]) : numpyRegrid E (signature ARRAY kw) =
    searchOf (choose (text "precomputed") (kw.lookup "inventory"))
      (fun db => .ok (.weights db ((kw.lookup "in_grid").getD .none) ((kw.lookup "out_grid").getD .none) ((kw.lookup "interpolation").getD (text "linear")))) := by
  have l1 := lookup_sig_default kw (rfl : ARRAY.lookup "in_grid" = some .none)
  have l2 := lookup_sig_default kw (rfl : ARRAY.lookup "out_grid" = some .none)
  have l3 := lookup_sig_default kw (rfl : ARRAY.lookup "interpolation" = some (text "linear"))
  have l5 := lookup_sig_default kw (rfl : ARRAY.lookup "backend" = some (text "mir"))
  rw [hb] at l5
  have l4 : (signature ARRAY kw).lookup "inventory" = kw.lookup "inventory" := lookup_sig_other kw (by decide)
  have hs := (only_signature ARRAY kw ["backend", "in_grid", "out_grid", "interpolation", "inventory"] (by decide)).2 ho
  generalize signature ARRAY kw = S at *
  unfold numpyRegrid
  rw [l1, l2]
  simp only
  have hall : (without "inventory" (without "backend" (without "out_grid" (without "in_grid" S)))).all (fun p => p.1 == "interpolation") = true := by
    rw [List.all_eq_true]
    intro p hp
    have hk : p.1 ∈ (without "inventory" (without "backend" (without "out_grid" (without "in_grid" S)))).map Prod.fst := List.mem_map_of_mem hp
    simp only [keys_without] at hk
    have := hs _ hk.1.1.1.1
    simp only [List.mem_cons, List.not_mem_nil, or_false] at this
    simp only [beq_iff_eq]
    tauto
  rw [backend_eval (by rw [lookup_without (by decide), lookup_without (by decide), l5]; rfl), lookup_without (by decide), lookup_without (by decide), l4]
  rcases choose_precomputed (kw.lookup "inventory") with ⟨e, h⟩ | ⟨db, h⟩
  · rw [h]; rfl
  · rw [h]
    simp only [Except.map, searchOf, backendRegrid, weightsRegrid]
    rw [if_pos hall, lookup_without (by decide), lookup_without (by decide), lookup_without (by decide), lookup_without (by decide), l3]

/-- The searches for all fields with what was chosen. -/
def searchAll (c : Except Err Chosen) (f : Db → Except Err (List Job)) : Except Err (List Job) :=
  match c with
  | .error e => .error e
  | .ok .mir => .error .attribute
  | .ok (.precomputed db) => f db

def specThen (r : Except Err Arg) (f : Arg → Except Err (List Job)) : Except Err (List Job) :=
  match r with
  | .error e => .error e
  | .ok g => f g

theorem all_ok (f : Arg → Job) : ∀ l : List Arg, all (fun g => .ok (f g)) l = .ok (l.map f)
  | [] => rfl
  | g :: l => by simp only [all, all_ok f l, List.map_cons]

theorem oldList_eval {kw : Kw} (E : Extern) (grids : List Arg) (ho : Only kw oldNames) : oldList E grids (signature INTERPOLATE kw) =
    searchAll (choose (text "precomputed") (kw.lookup "matrix_source")) (fun db => specThen (E.spec ((kw.lookup "out_grid").getD .none))
      (fun go => .ok (grids.map (fun gi => .weights db (if (kw.lookup "in_grid").getD .none = .none then gi else (kw.lookup "in_grid").getD .none) go
        ((kw.lookup "method").getD (text "linear")))))) := by
  have l1 := lookup_sig_default kw (rfl : INTERPOLATE.lookup "in_grid" = some .none)
  have l2 := lookup_sig_default kw (rfl : INTERPOLATE.lookup "out_grid" = some .none)
  have l3 := lookup_sig_default kw (rfl : INTERPOLATE.lookup "method" = some (text "linear"))
  have l4 : (signature INTERPOLATE kw).lookup "matrix_source" = kw.lookup "matrix_source" := lookup_sig_other kw (by decide)
  have hs : Only (signature INTERPOLATE kw) oldNames := (only_signature INTERPOLATE kw oldNames (by decide)).2 ho
  generalize signature INTERPOLATE kw = S at *
  unfold oldList
  have nb : "backend" ∉ S.map Prod.fst := fun h => absurd (hs _ h) (by decide)
  have hall : (without "out_grid" (without "in_grid" (without "matrix_source" S))).all (fun p => p.1 == "method") = true := by
    rw [List.all_eq_true]
    intro p hp
    have hk : p.1 ∈ (without "out_grid" (without "in_grid" (without "matrix_source" S))).map Prod.fst := List.mem_map_of_mem hp
    simp only [keys_without] at hk
    have := hs _ hk.1.1.1
    simp only [oldNames, List.mem_cons, List.not_mem_nil, or_false] at this
    simp only [beq_iff_eq]
    tauto
  rw [oldBackend_eval nb, l4]
  rcases choose_precomputed (kw.lookup "matrix_source") with ⟨e, h⟩ | ⟨db, h⟩
  · rw [h]; rfl
  · rw [h]
    have m1 : (without "matrix_source" S).lookup "in_grid" = some ((kw.lookup "in_grid").getD .none) := by rw [lookup_without (by decide), l1]
    have m2 : (without "matrix_source" S).lookup "out_grid" = some ((kw.lookup "out_grid").getD .none) := by rw [lookup_without (by decide), l2]
    have m3 : (without "out_grid" (without "in_grid" (without "matrix_source" S))).lookup "method" = some ((kw.lookup "method").getD (text "linear")) := by
      rw [lookup_without (by decide), lookup_without (by decide), lookup_without (by decide), l3]
    simp only [Except.map, searchAll, m1, m2]
    cases E.spec ((kw.lookup "out_grid").getD .none) with
    | error e => rfl
    | ok go =>
      simp only [specThen, weightsInterpolate, hall, if_true, m3]
      exact all_ok _ grids

theorem fields_eval {kw : Kw} (E : Extern) (grids : List Arg) (hb : kw.lookup "backend" = some (text "precomputed"))
    (ho : Only kw ["backend", "grid", "interpolation", "inventory"]) (g : Arg) (hg : kw.lookup "grid" = some g) (hgn : g ≠ .none) :
    listRegrid E grids (signature REGRID kw) =
    searchAll (choose (text "precomputed") (kw.lookup "inventory")) (fun db => specThen (E.spec g)
      (fun go => .ok (grids.map (fun gi => .weights db gi go ((kw.lookup "interpolation").getD (text "linear")))))) := by
  have l1 := lookup_sig_default kw (rfl : REGRID.lookup "grid" = some .none)
  have l3 := lookup_sig_default kw (rfl : REGRID.lookup "interpolation" = some (text "linear"))
  have l5 := lookup_sig_default kw (rfl : REGRID.lookup "backend" = some (text "mir"))
  rw [hb] at l5
  rw [hg] at l1
  have l4 : (signature REGRID kw).lookup "inventory" = kw.lookup "inventory" := lookup_sig_other kw (by decide)
  have hs := (only_signature REGRID kw ["backend", "grid", "interpolation", "inventory"] (by decide)).2 ho
  generalize signature REGRID kw = S at *
  unfold listRegrid
  have hall : (without "grid" (without "inventory" (without "backend" S))).all (fun p => p.1 == "interpolation") = true := by
    rw [List.all_eq_true]
    intro p hp
    have hk : p.1 ∈ (without "grid" (without "inventory" (without "backend" S))).map Prod.fst := List.mem_map_of_mem hp
    simp only [keys_without] at hk
    have := hs _ hk.1.1.1
    simp only [List.mem_cons, List.not_mem_nil, or_false] at this
    simp only [beq_iff_eq]
    tauto
  rw [backend_eval (by rw [l5]; rfl), l4]
  rcases choose_precomputed (kw.lookup "inventory") with ⟨e, h⟩ | ⟨db, h⟩
  · rw [h]; rfl
  · rw [h]
    have m1 : (without "inventory" (without "backend" S)).lookup "grid" = some g := by rw [lookup_without (by decide), lookup_without (by decide), l1]; rfl
    have m3 : (without "grid" (without "inventory" (without "backend" S))).lookup "interpolation" = some ((kw.lookup "interpolation").getD (text "linear")) := by
      rw [lookup_without (by decide), lookup_without (by decide), lookup_without (by decide), l3]
    simp only [Except.map, searchAll, m1]
    cases g with
    | none => exact absurd rfl hgn
    | _ =>
      cases E.spec _ with
      | error e => rfl
      | ok go =>
        simp only [specThen, weightsRegrid, hall, if_true, m3]
        exact all_ok _ grids

/-! ## Theorems -/

/-- For arrays, whatever the arguments: `array.regrid` with the new names does what `interpolate` did, exceptions included. -/
theorem C156_array_partial (E : Extern) (kw : Kw) (ho : Only kw oldNames) : call E .array (replaced kw) = call E .oldArray kw := by
  have inj : ∀ k ∈ oldNames, ∀ a ∈ kw.map Prod.fst, newName a = newName k → a = k := by
    intro k hk a ha
    have ha := ho a ha
    clear * - hk ha
    revert k a
    decide
  have look : ∀ k ∈ oldNames, (replaced kw).lookup (newName k) = kw.lookup k := by
    intro k hk
    unfold replaced
    rw [List.lookup_cons, beq_eq_false_iff_ne.2 (by revert k; decide)]
    exact lookup_named newName k kw (inj k hk)
  have hb : (replaced kw).lookup "backend" = some (text "precomputed") := rfl
  have hon : Only (replaced kw) ["backend", "in_grid", "out_grid", "interpolation", "inventory"] := by
    intro k hk
    simp only [replaced, List.map_cons, List.map_map, List.mem_cons, List.mem_map, Function.comp_apply] at hk
    rcases hk with rfl | ⟨p, hp, rfl⟩
    · decide
    · have := ho p.1 (List.mem_map_of_mem hp)
      generalize p.1 = a at this
      revert a
      decide
  show jobOf (numpyRegrid E (signature ARRAY (replaced kw))) = jobOf (oldArray (signature INTERPOLATE kw))
  rw [array_eval E hb hon, oldArray_eval ho]
  have e1 : (replaced kw).lookup "in_grid" = _ := look "in_grid" (by decide)
  have e2 : (replaced kw).lookup "out_grid" = _ := look "out_grid" (by decide)
  have e3 : (replaced kw).lookup "interpolation" = _ := look "method" (by decide)
  have e4 : (replaced kw).lookup "inventory" = _ := look "matrix_source" (by decide)
  rw [e1, e2, e3, e4]

/-- For fields that bring their grids: `regrid` with the new names does what `interpolate` did. -/
theorem C156_fields_partial (E : Extern) (grids : List Arg) (kw : Kw) (hn : (kw.map Prod.fst).Nodup) (ho : Only kw oldNames) (hi : Given kw "in_grid" .none .none)
    (g : Arg) (hg : ("out_grid", g) ∈ kw) (hgn : g ≠ .none) : call E (.fields grids) (replacedFields kw) = call E (.oldFields grids) kw := by
  have hkeys : ∀ a ∈ (kw.filter (fun p => p.1 != "in_grid")).map Prod.fst, a ∈ ["out_grid", "method", "matrix_source"] := by
    intro a ha
    obtain ⟨p, hp, rfl⟩ := List.mem_map.1 ha
    obtain ⟨hp, hne⟩ := List.mem_filter.1 hp
    have := ho p.1 (List.mem_map_of_mem hp)
    simp only [oldNames, List.mem_cons, List.not_mem_nil, or_false] at this
    simp only [bne_iff_ne] at hne
    simp only [List.mem_cons, List.not_mem_nil, or_false]
    tauto
  have look : ∀ k ∈ ["out_grid", "method", "matrix_source"], (replacedFields kw).lookup (newFieldName k) = kw.lookup k := by
    intro k hk
    unfold replacedFields
    rw [List.lookup_cons, beq_eq_false_iff_ne.2 (by revert k; decide)]
    simp only
    rw [lookup_named newFieldName k _ (fun a ha => by have := hkeys a ha; clear ha; revert k a; decide)]
    exact lookup_without (k' := "in_grid") (by revert k; decide) kw
  have hb : (replacedFields kw).lookup "backend" = some (text "precomputed") := rfl
  have hon : Only (replacedFields kw) ["backend", "grid", "interpolation", "inventory"] := by
    intro k hk
    simp only [replacedFields, List.map_cons, List.map_map, List.mem_cons, List.mem_map, Function.comp_apply] at hk
    rcases hk with rfl | ⟨p, hp, rfl⟩
    · decide
    · have := hkeys p.1 (List.mem_map_of_mem hp)
      generalize p.1 = a at this
      revert a
      decide
  have e1 : (replacedFields kw).lookup "grid" = _ := look "out_grid" (by decide)
  have e3 : (replacedFields kw).lookup "interpolation" = _ := look "method" (by decide)
  have e4 : (replacedFields kw).lookup "inventory" = _ := look "matrix_source" (by decide)
  have e2 : kw.lookup "out_grid" = some g := (lookup_mem hn).2 hg
  show jobsOf (listRegrid E grids (signature REGRID (replacedFields kw))) = jobsOf (oldList E grids (signature INTERPOLATE kw))
  rw [fields_eval E grids hb hon g (e1.trans e2) hgn, oldList_eval E grids ho, e3, e4, e2, (given_iff hn _ _ _).1 hi]
  rfl

/-- The page on deprecations tells users of arrays to call the `regrid` that takes no arrays: whatever the arguments and the modules loaded, ValueError,
where `interpolate` gets as far as the search for weights. -/
theorem C156_replacement_refuted (E : Extern) (m : Modules) (v : Obj) (hv : ∀ d, v.isa d = true ↔ d = .ndarray) (f f' : Handler → Entry) (hf : f' .numpy = .oldArray)
    (gi go : Arg) : (∀ kw, regridTop E m v f kw = .error .value) ∧
      interpolateTop E m v f' [("in_grid", gi), ("out_grid", go)] = .ok ⟨[.weights .system gi go (text "linear")], .none, .none⟩ := by
  constructor
  · intro kw
    unfold regridTop
    rw [C49_routed m v .ndarray hv trivial]
    rfl
  · unfold interpolateTop
    rw [C49_interpolate m v .ndarray hv trivial]
    simp only [hf]
    rfl

/-- The example of the page on the in-memory cache, which shows a miss and a hit: the call raises, whatever the array; `array.regrid` with the same
arguments asks MIR and no inventory, so that no weights are looked up at all. -/
theorem C158_counters_refuted (E : Extern) (m : Modules) (v : Obj) (hv : ∀ d, v.isa d = true ↔ d = .ndarray) (f : Handler → Entry) (gi go : Arg) :
    regridTop E m v f [("in_grid", gi), ("out_grid", go)] = .error .value ∧
      ∀ o, call E .array [("in_grid", gi), ("out_grid", go)] = .ok o → ∀ j ∈ o.jobs, ∀ db a b i, j ≠ .weights db a b i := by
  refine ⟨(C156_replacement_refuted E m v hv f (fun _ => .oldArray) rfl gi go).1 _, fun o ho j hj db a b i => ?_⟩
  have h : jobOf (mirRegrid E gi go [("interpolation", text "linear")]) = .ok o := ho
  unfold mirRegrid at h
  cases ha : E.area go with
  | error e => rw [ha] at h; cases h
  | ok x =>
    rw [ha] at h
    cases h
    simp only [List.mem_singleton] at hj
    subst hj
    simp

/-- The page on `interpolate` promises ValueError if `in_grid` is given for a field list: the grid given takes the place of those of all fields, and
the values of each are multiplied with weights for another grid. -/
theorem C156_in_grid_refuted (E : Extern) (grids : List Arg) (u g go : Arg) (hu : u ≠ .none) (hg : E.spec g = .ok go) :
    call E (.oldFields grids) [("in_grid", u), ("out_grid", g)] = .ok ⟨grids.map (fun _ => .weights .system u go (text "linear")), .none, .none⟩ := by
  show jobsOf (oldList E grids (signature INTERPOLATE _)) = _
  rw [oldList_eval E grids (by simp [Only, oldNames] : Only [("in_grid", u), ("out_grid", g)] oldNames)]
  have : (([("in_grid", u), ("out_grid", g)] : Kw).lookup "in_grid").getD .none = u := rfl
  rw [this]
  have : (([("in_grid", u), ("out_grid", g)] : Kw).lookup "out_grid").getD .none = g := rfl
  rw [this, hg]
  simp only [if_neg hu]
  rfl

/-- No backend but the two: any other name, "precomputed-local" of the release notes among them, is an exception for arrays, messages and fields. -/
theorem C156_local_refuted (E : Extern) (kw : Kw) (hn : (kw.map Prod.fst).Nodup) (b : Arg) (hb : ("backend", b) ∈ kw) (h1 : b ≠ text "mir")
    (h2 : b ≠ text "precomputed") : (∃ e, call E .array kw = .error e) ∧ (∃ e, call E .message kw = .error e) ∧
      ∀ grids, ∃ e, call E (.fields grids) kw = .error e := by
  have hl := (lookup_mem hn).2 hb
  have err : ∀ S : Kw, S.lookup "backend" = some b → ∃ e, backendFromKwargs S = .error e := by
    intro S hS
    cases hc : backendFromKwargs S with
    | error e => exact ⟨e, rfl⟩
    | ok ck =>
      obtain ⟨c, kw'⟩ := ck
      unfold backendFromKwargs at hc
      rw [hS] at hc
      have key : ∀ x : Except Err Chosen, x.map (fun c => (c, without "inventory" (without "backend" S))) = .ok (c, kw') → x = .ok c := by
        intro x hx
        cases x with
        | error e => cases hx
        | ok c' => injection hx with hx; injection hx with hx; rw [hx]
      have ch : b = .none ∨ choose b (S.lookup "inventory") = .ok c := by
        cases b with
        | none => exact .inl rfl
        | _ => exact .inr (key _ hc)
      rcases ch with rfl | ch
      · cases hc
      · have := ((choose_iff _ _ _).1 ch).1
        cases c with
        | mir => exact absurd this h1
        | precomputed db => exact absurd this h2
  have s1 : (signature ARRAY kw).lookup "backend" = some b := lookup_signature ARRAY hl
  have s2 : (signature REGRID kw).lookup "backend" = some b := lookup_signature REGRID hl
  refine ⟨?_, ?_, fun grids => ?_⟩
  · show ∃ e, jobOf (numpyRegrid E (signature ARRAY kw)) = .error e
    have l1 := lookup_sig_default kw (rfl : ARRAY.lookup "in_grid" = some .none)
    have l2 := lookup_sig_default kw (rfl : ARRAY.lookup "out_grid" = some .none)
    obtain ⟨e, he⟩ := err (without "out_grid" (without "in_grid" (signature ARRAY kw))) (by rw [lookup_without (by decide), lookup_without (by decide), s1])
    refine ⟨e, ?_⟩
    unfold numpyRegrid
    rw [l1, l2]
    simp only [he]
    rfl
  · show ∃ e, jobOf (messageRegrid E (signature REGRID kw)) = .error e
    obtain ⟨e, he⟩ := err _ s2
    refine ⟨e, ?_⟩
    unfold messageRegrid
    rw [he]
    rfl
  · show ∃ e, jobsOf (listRegrid E grids (signature REGRID kw)) = .error e
    obtain ⟨e, he⟩ := err _ s2
    refine ⟨e, ?_⟩
    unfold listRegrid
    rw [he]
    rfl

/-- Three ways to name the weights of ECMWF: by leaving the inventory out, None and "ecmwf". -/
theorem C156_inventory (E : Extern) (f : Entry) (hf : f = .array ∨ ∃ grids, f = .fields grids) (kw : Kw) (hn : (kw.map Prod.fst).Nodup)
    (hb : ("backend", text "precomputed") ∈ kw) (hi : "inventory" ∉ kw.map Prod.fst) :
    call E f (("inventory", text "ecmwf") :: kw) = call E f kw ∧ call E f (("inventory", .none) :: kw) = call E f kw := by
  have key : ∀ v, v = text "ecmwf" ∨ v = .none → call E f (("inventory", v) :: kw) = call E f kw := by
    intro v hv
    have hl := (lookup_mem hn).2 hb
    have bk : ∀ S S' : Kw, Ins "inventory" v S S' → S.lookup "backend" = some (text "precomputed") → backendFromKwargs S' = backendFromKwargs S := by
      intro S S' h hS
      rw [backend_eval hS, backend_eval (by rw [h.same (by decide), hS]), h.here, h.absent, ← (h.less (a := "backend") (by decide)).gone]
      rcases hv with rfl | rfl <;> rfl
    rcases hf with rfl | ⟨grids, rfl⟩
    · have hS : (signature ARRAY kw).lookup "backend" = some (text "precomputed") := lookup_signature ARRAY hl
      have h := signature_ins (ds := ARRAY) (v := v) (by decide) hi
      have e : numpyRegrid E (signature ARRAY (("inventory", v) :: kw)) = numpyRegrid E (signature ARRAY kw) := by
        unfold numpyRegrid
        rw [h.same (by decide), h.same (by decide), bk _ _ ((h.less (by decide)).less (by decide))
          (by rw [lookup_without (by decide), lookup_without (by decide), hS])]
      simp only [call, e]
    · have hS : (signature REGRID kw).lookup "backend" = some (text "precomputed") := lookup_signature REGRID hl
      have h := signature_ins (ds := REGRID) (v := v) (by decide) hi
      have e : listRegrid E grids (signature REGRID (("inventory", v) :: kw)) = listRegrid E grids (signature REGRID kw) := by
        unfold listRegrid
        rw [bk _ _ h hS]
      simp only [call, e]
  exact ⟨key _ (.inl rfl), key _ (.inr rfl)⟩

/-! ## Examples -/

/-- `C156_array_partial`: weights of one's own, with a method. -/
def ownCall : Kw := [("in_grid", .dict 1), ("out_grid", .dict 2), ("method", text "nn"), ("matrix_source", text "/my/db")]

example : call plainE .array [("backend", text "precomputed"), ("in_grid", .dict 1), ("out_grid", .dict 2), ("interpolation", text "nn"), ("inventory", text "/my/db")] =
    call plainE .oldArray ownCall := C156_array_partial plainE ownCall (by unfold Only; decide)

example : call plainE .oldArray ownCall = .ok ⟨[.weights (.path "/my/db".toList) (.dict 1) (.dict 2) (text "nn")], .none, .none⟩ := by rfl

/-- `C156_fields_partial`: two fields. -/
example : call plainE (.fields [.dict 5, .dict 6]) [("backend", text "precomputed"), ("grid", .dict 2), ("interpolation", text "nn")] =
    call plainE (.oldFields [.dict 5, .dict 6]) [("out_grid", .dict 2), ("method", text "nn")] :=
  C156_fields_partial plainE [.dict 5, .dict 6] [("out_grid", .dict 2), ("method", text "nn")] (by decide) (by unfold Only; decide) (.inr ⟨by decide, rfl⟩) (.dict 2)
    (by decide) (by decide)

/-- `C156_replacement_refuted`: an array, with everything loaded. -/
example : regridTop plainE ⟨true, true, true, true⟩ ⟨fun d => decide (d = .ndarray)⟩ (fun _ => .array)
    [("in_grid", .dict 1), ("out_grid", .dict 2), ("backend", text "precomputed")] = .error .value :=
  (C156_replacement_refuted plainE _ ⟨fun d => decide (d = .ndarray)⟩ (fun d => by simp) _ (fun _ => .oldArray) rfl (.dict 1) (.dict 2)).1 _

/-- `C158_counters_refuted`: it goes to MIR. -/
example : ∃ o, call plainE .array [("in_grid", .dict 1), ("out_grid", .dict 2)] = .ok o ∧ ∀ j ∈ o.jobs, ∀ db a b i, j ≠ .weights db a b i :=
  ⟨_, rfl, (C158_counters_refuted plainE ⟨true, true, true, true⟩ ⟨fun d => decide (d = .ndarray)⟩ (fun d => by simp) (fun _ => .array) (.dict 1) (.dict 2)).2 _ rfl⟩

/-- `C156_in_grid_refuted`: both fields are taken to be on the grid 9. -/
example : call plainE (.oldFields [.dict 5, .dict 6]) [("in_grid", .dict 9), ("out_grid", .dict 2)] =
    .ok ⟨[.weights .system (.dict 9) (.dict 2) (text "linear"), .weights .system (.dict 9) (.dict 2) (text "linear")], .none, .none⟩ :=
  C156_in_grid_refuted plainE _ (.dict 9) (.dict 2) (.dict 2) (by decide) rfl

/-- `C156_local_refuted`: the backend of the release notes. -/
example : ∃ e, call plainE .array [("in_grid", .dict 1), ("out_grid", .dict 2), ("backend", text "precomputed-local")] = .error e :=
  (C156_local_refuted plainE [("in_grid", .dict 1), ("out_grid", .dict 2), ("backend", text "precomputed-local")] (by decide) (text "precomputed-local") (by decide) (by decide)
    (by decide)).1

/-- `C156_inventory`: an array. -/
example : call plainE .array [("inventory", text "ecmwf"), ("in_grid", .dict 1), ("out_grid", .dict 2), ("backend", text "precomputed")] =
    call plainE .array [("in_grid", .dict 1), ("out_grid", .dict 2), ("backend", text "precomputed")] :=
  (C156_inventory plainE .array (.inl rfl) [("in_grid", .dict 1), ("out_grid", .dict 2), ("backend", text "precomputed")] (by decide) (by decide) (by decide)).1

end Verif.Regrid.Args

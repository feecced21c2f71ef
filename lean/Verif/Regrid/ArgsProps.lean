import Verif.Regrid.Args

/-!
# Properties: every argument of a call counts (C119)
-/

namespace Verif.Regrid.Args

/-! ## Specification -/

/-- The inventory an argument names. -/
def Names (v : Arg) (db : Db) : Prop :=
  (v = .none ∧ db = .system) ∨ (v = text "ecmwf" ∧ db = .system) ∨
  (∃ r, (v = .str ("http://".toList ++ r) ∧ db = .url ("http://".toList ++ r)) ∨ (v = .str ("https://".toList ++ r) ∧ db = .url ("https://".toList ++ r))) ∨
  (∃ s, v = .str s ∧ db = .path s ∧ s ≠ [] ∧ s ≠ "ecmwf".toList ∧ ∀ r, s ≠ "http://".toList ++ r ∧ s ≠ "https://".toList ++ r)

/-- A job does what argument `k` with value `v` says. -/
inductive Obeys (E : Extern) : Job → String → Arg → Prop where
  | mirArray {gi set} : Obeys E (.mirArray gi set) "backend" (text "mir")
  | mirGrib {set} : Obeys E (.mirGrib set) "backend" (text "mir")
  | precomputed {db gi go m} : Obeys E (.weights db gi go m) "backend" (text "precomputed")
  | inventory {db gi go m v} (h : Names v db) : Obeys E (.weights db gi go m) "inventory" v
  | matrixSource {db gi go m v} (h : Names v db) : Obeys E (.weights db gi go m) "matrix_source" v
  | interpolation {db gi go m} : Obeys E (.weights db gi go m) "interpolation" m
  | method {db gi go m} : Obeys E (.weights db gi go m) "method" m
  /-- an option is set on the job of MIR -/
  | arrayOption {gi set k v} (hk : k ∈ MIR_OPTIONS) (h : set.lookup k = some v) : Obeys E (.mirArray gi set) k v
  | gribOption {set k v} (hk : k ∈ MIR_OPTIONS) (h : set.lookup k = some v) : Obeys E (.mirGrib set) k v
  /-- None: the grid is that of the data -/
  | ownGrid {j k} (hk : k = "in_grid" ∨ k = "grid_spec") : Obeys E j k .none
  | inGridMir {gi set} : Obeys E (.mirArray gi set) "in_grid" gi
  | inGridWeights {db gi go m} : Obeys E (.weights db gi go m) "in_grid" gi
  | specMir {gi set v} (h : E.canon v = .ok gi) : Obeys E (.mirArray gi set) "grid_spec" v
  | specWeights {db gi go m v} (h : E.canon v = .ok gi) : Obeys E (.weights db gi go m) "grid_spec" v
  | outMir {gi set k v g a} (hk : k = "grid" ∨ k = "out_grid") (h : E.area v = .ok (g, a)) (hg : set.lookup "grid" = some g)
      (ha : set.lookup "area" = a) : Obeys E (.mirArray gi set) k v
  | outGrib {set v g a} (h : E.area v = .ok (g, a)) (hg : set.lookup "grid" = some g)
      (ha : set.lookup "area" = a) : Obeys E (.mirGrib set) "grid" v
  | outWeights {db gi go m k v} (hk : k = "grid" ∨ k = "out_grid") (h : go = v ∨ E.spec v = .ok go) : Obeys E (.weights db gi go m) k v

/-- A job of a call does what argument `k` with value `v` says; dimensions are a matter of the whole call. -/
def Obeyed (E : Extern) (o : Outcome) (j : Job) (k : String) (v : Arg) : Prop :=
  if k = "in_dims" then v ≠ .none → o.inDims = v
  else if k = "out_dims" then v ≠ .none → o.outDims = v
  else Obeys E j k v

/-- Arguments without effect: the inventory for MIR, and four options of MIR for arrays. -/
def Dropped : Job → String → Prop
  | .mirArray _ _, k => k ∈ ["inventory", "nearest_method", "distance", "distance_tolerance", "nclosest"]
  | .mirGrib _, k => k = "inventory"
  | .weights _ _ _ _, _ => False

/-! ## Keyword arguments -/

theorem lookup_without {k k' : String} (h : k ≠ k') : ∀ kw : Kw, (without k' kw).lookup k = kw.lookup k := by
  intro kw
  induction kw with
  | nil => rfl
  | cons p kw ih =>
    obtain ⟨a, v⟩ := p
    unfold without at *
    by_cases ha : a = k'
    · subst ha
      rw [List.filter_cons_of_neg (by simp), ih, List.lookup_cons]
      have : (k == a) = false := by simpa using h
      rw [this]
    · rw [List.filter_cons_of_pos (by simpa using ha), List.lookup_cons, List.lookup_cons, ih]

theorem lookup_keep {k : String} (P : String → Bool) (h : P k = true) : ∀ kw : Kw, (kw.filter (fun p => P p.1)).lookup k = kw.lookup k := by
  intro kw
  induction kw with
  | nil => rfl
  | cons p kw ih =>
    obtain ⟨a, v⟩ := p
    by_cases ha : P a = true
    · rw [List.filter_cons_of_pos (by simpa using ha), List.lookup_cons, List.lookup_cons, ih]
    · rw [List.filter_cons_of_neg (by simpa using ha), ih, List.lookup_cons]
      have : (k == a) = false := by
        rw [beq_eq_false_iff_ne]
        rintro rfl
        exact ha h
      rw [this]

theorem mem_of_lookup {k : String} {v : Arg} : ∀ {kw : Kw}, kw.lookup k = some v → (k, v) ∈ kw := by
  intro kw
  induction kw with
  | nil => intro h; cases h
  | cons p kw ih =>
    obtain ⟨a, w⟩ := p
    intro h
    rw [List.lookup_cons] at h
    by_cases ha : k = a
    · subst ha
      rw [beq_self_eq_true] at h
      cases h
      exact List.mem_cons_self
    · have : (k == a) = false := by simpa using ha
      rw [this] at h
      exact List.mem_cons_of_mem _ (ih h)

theorem lookup_of_mem {k : String} {v : Arg} : ∀ {kw : Kw}, (kw.map Prod.fst).Nodup → (k, v) ∈ kw → kw.lookup k = some v := by
  intro kw
  induction kw with
  | nil => intro _ h; cases h
  | cons p kw ih =>
    obtain ⟨a, w⟩ := p
    intro hn h
    rw [List.map_cons, List.nodup_cons] at hn
    rw [List.lookup_cons]
    rcases List.mem_cons.1 h with h' | h'
    · cases h'
      rw [beq_self_eq_true]
    · have : (k == a) = false := by
        rw [beq_eq_false_iff_ne]
        rintro rfl
        exact hn.1 (List.mem_map.2 ⟨(k, v), h', rfl⟩)
      rw [this]
      exact ih hn.2 h'

theorem lookup_defaults {k : String} {v : Arg} {kw : Kw} (h : kw.lookup k = some v) : ∀ ds : Kw,
    ((ds.map (fun d => (d.1, (kw.lookup d.1).getD d.2))).lookup k = some v ∧ k ∈ ds.map Prod.fst) ∨
    ((ds.map (fun d => (d.1, (kw.lookup d.1).getD d.2))).lookup k = none ∧ k ∉ ds.map Prod.fst) := by
  intro ds
  induction ds with
  | nil => exact .inr ⟨rfl, fun h => by cases h⟩
  | cons d ds ih =>
    obtain ⟨a, w⟩ := d
    simp only [List.map_cons, List.lookup_cons]
    by_cases ha : k = a
    · subst ha
      rw [beq_self_eq_true, h]
      exact .inl ⟨rfl, List.mem_cons_self⟩
    · have : (k == a) = false := by simpa using ha
      rw [this]
      rcases ih with ih | ih
      · exact .inl ⟨ih.1, List.mem_cons_of_mem _ ih.2⟩
      · refine .inr ⟨ih.1, fun hm => ?_⟩
        rcases List.mem_cons.1 hm with hm | hm
        · exact ha hm
        · exact ih.2 hm

theorem lookup_app {k : String} : ∀ a b : Kw, (a ++ b).lookup k = (a.lookup k).or (b.lookup k) := by
  intro a b
  induction a with
  | nil => rfl
  | cons p a ih =>
    obtain ⟨x, w⟩ := p
    rw [List.cons_append, List.lookup_cons, List.lookup_cons]
    split
    · rfl
    · exact ih

/-- What the user gives is passed on. -/
theorem lookup_signature {k : String} {v : Arg} {kw : Kw} (ds : Kw) (h : kw.lookup k = some v) : (signature ds kw).lookup k = some v := by
  unfold signature
  rw [lookup_app]
  rcases lookup_defaults h ds with ⟨h1, _⟩ | ⟨h1, h2⟩
  · rw [h1]; rfl
  · rw [h1, lookup_keep (fun x => !(ds.map Prod.fst).contains x) (by simpa using h2), h]
    rfl

/-! ## Backends -/

theorem names_getDb {v : Arg} {db : Db} (h : getDb v.toPV = .ok db) : Names v db := by
  cases v with
  | none => cases h; exact .inl ⟨rfl, rfl⟩
  | str s =>
    show Names (.str s) db
    simp only [Arg.toPV, getDb] at h
    by_cases h1 : s = "ecmwf".toList
    · rw [if_pos h1] at h
      cases h
      subst h1
      exact .inr (.inl ⟨rfl, rfl⟩)
    · rw [if_neg h1] at h
      by_cases h2 : (startsWith "http://".toList s || startsWith "https://".toList s) = true
      · rw [if_pos h2] at h
        cases h
        rw [Bool.or_eq_true] at h2
        rcases h2 with h2 | h2
        · obtain ⟨r, rfl⟩ := List.isPrefixOf_iff_prefix.1 h2
          exact .inr (.inr (.inl ⟨r, .inl ⟨rfl, rfl⟩⟩))
        · obtain ⟨r, rfl⟩ := List.isPrefixOf_iff_prefix.1 h2
          exact .inr (.inr (.inl ⟨r, .inr ⟨rfl, rfl⟩⟩))
      · rw [if_neg h2] at h
        by_cases h3 : s ≠ []
        · rw [if_pos h3] at h
          cases h
          refine .inr (.inr (.inr ⟨s, rfl, rfl, h3, h1, fun r => ⟨?_, ?_⟩⟩))
          · rintro rfl
            exact h2 (by rw [Bool.or_eq_true]; exact .inl (List.isPrefixOf_iff_prefix.2 ⟨r, rfl⟩))
          · rintro rfl
            exact h2 (by rw [Bool.or_eq_true]; exact .inr (List.isPrefixOf_iff_prefix.2 ⟨r, rfl⟩))
        · rw [if_neg h3] at h
          cases h
  | dict i => cases h
  | list i => cases h
  | thing i => cases h

/-- The name given for the backend is that of the backend chosen. -/
def Chosen.named : Chosen → Arg
  | .mir => text "mir"
  | .precomputed _ => text "precomputed"

theorem choose_spec {n : Arg} {inv : Option Arg} {c : Chosen} (h : choose n inv = .ok c) :
    n = c.named ∧ ∀ db, c = .precomputed db → Names (inv.getD .none) db := by
  unfold choose at h
  split at h
  · cases h
  · split at h
    · rename_i hn
      cases h
      exact ⟨hn, fun db h => by cases h⟩
    · split at h
      · rename_i hn
        cases hd : getDb (inv.getD .none).toPV with
        | error e => rw [hd] at h; cases h
        | ok db =>
          rw [hd] at h
          cases h
          refine ⟨hn, fun db' h => ?_⟩
          cases h
          exact names_getDb hd
      · cases h

/-- What becomes of an argument in `backend_from_kwargs`. -/
theorem backend_spec {kw kw' : Kw} {c : Chosen} (h : backendFromKwargs kw = .ok (c, kw')) {k : String} {v : Arg} (hk : kw.lookup k = some v) :
    (k = "backend" ∧ v = c.named) ∨ (k = "inventory" ∧ ∀ db, c = .precomputed db → Names v db) ∨
    (k ≠ "backend" ∧ k ≠ "inventory" ∧ kw'.lookup k = some v) := by
  unfold backendFromKwargs at h
  cases hb : kw.lookup "backend" with
  | none => rw [hb] at h; cases h
  | some b =>
    have h : ∃ c', choose b (kw.lookup "inventory") = .ok c' ∧ c' = c ∧ without "inventory" (without "backend" kw) = kw' := by
      rw [hb] at h
      cases b with
      | none => cases h
      | _ =>
        simp only at h
        revert h
        generalize choose _ _ = x
        intro h
        cases x with
        | error e => cases h
        | ok c' => cases h; exact ⟨_, rfl, rfl, rfl⟩
    obtain ⟨c', h1, rfl, rfl⟩ := h
    obtain ⟨h2, h3⟩ := choose_spec h1
    by_cases k1 : k = "backend"
    · subst k1
      rw [hb] at hk
      cases hk
      exact .inl ⟨rfl, h2⟩
    · by_cases k2 : k = "inventory"
      · subst k2
        refine .inr (.inl ⟨rfl, fun db hc => ?_⟩)
        have := h3 db hc
        rw [hk] at this
        exact this
      · refine .inr (.inr ⟨k1, k2, ?_⟩)
        rw [lookup_without k2, lookup_without k1]
        exact hk

/-! ## Jobs -/

theorem lookup_option {k : String} (f : String → Arg) : ∀ {l : List String}, k ∈ l → ∀ r : Kw, (l.map (fun x => (x, f x)) ++ r).lookup k = some (f k) := by
  intro l
  induction l with
  | nil => intro h; cases h
  | cons a l ih =>
    intro h r
    rw [List.map_cons, List.cons_append, List.lookup_cons]
    by_cases ha : k = a
    · subst ha; rw [beq_self_eq_true]
    · have : (k == a) = false := by simpa using ha
      rw [this]
      exact ih ((List.mem_cons.1 h).resolve_left ha) r

theorem all_keys {kw : Kw} {P : String → Bool} (h : kw.all (fun p => P p.1) = true) {k : String} {v : Arg} (hk : kw.lookup k = some v) : P k = true :=
  List.all_eq_true.1 h _ (mem_of_lookup hk)

/-- The job of an array for MIR. -/
theorem mirRegrid_spec {E : Extern} {gi go : Arg} {kw : Kw} {j : Job} (h : mirRegrid E gi go kw = .ok j) :
    (∃ set, j = .mirArray gi set) ∧ (∀ k v, kw.lookup k = some v → Obeys E j k v ∨ Dropped j k) ∧
    Obeys E j "in_grid" gi ∧ Obeys E j "out_grid" go ∧ Obeys E j "grid" go ∧ (∀ v, E.canon v = .ok gi → Obeys E j "grid_spec" v) ∧
    ∀ k v, Dropped j k → ¬Obeys E j k v := by
  unfold mirRegrid at h
  split at h
  · rename_i hall
    cases ha : E.area go with
    | error e => rw [ha] at h; cases h
    | ok ga =>
      obtain ⟨g, a⟩ := ga
      rw [ha] at h
      cases h
      have hg : (("grid", g) :: ("interpolation", option kw "interpolation") :: areaSetting a : Kw).lookup "grid" = some g := rfl
      have har : (("grid", g) :: ("interpolation", option kw "interpolation") :: areaSetting a : Kw).lookup "area" = a := by cases a <;> rfl
      refine ⟨⟨_, rfl⟩, fun k v hk => ?_, .inGridMir, .outMir (.inr rfl) ha hg har, .outMir (.inl rfl) ha hg har, fun v hv => .specMir hv, ?_⟩
      · have hm : k ∈ MIR_OPTIONS := by simpa using all_keys (P := fun x => MIR_OPTIONS.contains x) hall hk
        by_cases hi : k = "interpolation"
        · subst hi
          refine .inl (.arrayOption hm ?_)
          show some (option kw "interpolation") = some v
          unfold option
          rw [hk]
          rfl
        · right
          show k ∈ ["inventory", "nearest_method", "distance", "distance_tolerance", "nclosest"]
          exact List.mem_cons_of_mem _ ((List.mem_cons.1 hm).resolve_left hi)
      · intro k v hd ho
        have hd : k ∈ ["inventory", "nearest_method", "distance", "distance_tolerance", "nclosest"] := hd
        have hne : k ≠ "grid" ∧ k ≠ "out_grid" ∧ k ≠ "in_grid" ∧ k ≠ "grid_spec" ∧ k ≠ "interpolation" ∧ k ≠ "area" ∧ k ≠ "backend" := by
          refine ⟨?_, ?_, ?_, ?_, ?_, ?_, ?_⟩ <;> rintro rfl <;> revert hd <;> decide
        obtain ⟨n1, n2, n3, n4, n5, n6, n7⟩ := hne
        cases ho with
        | mirArray => exact n7 rfl
        | arrayOption hk hl =>
          have e1 : (k == "grid") = false := by simpa using n1
          have e2 : (k == "interpolation") = false := by simpa using n5
          have e3 : (k == "area") = false := by simpa using n6
          rw [List.lookup_cons, e1] at hl
          simp only at hl
          rw [List.lookup_cons, e2] at hl
          simp only at hl
          cases a with
          | none => cases hl
          | some a =>
            unfold areaSetting at hl
            rw [List.lookup_cons, e3] at hl
            cases hl
        | ownGrid hk => rcases hk with hk | hk <;> contradiction
        | inGridMir => exact n3 rfl
        | specMir _ => exact n4 rfl
        | outMir hk _ _ _ => rcases hk with hk | hk <;> contradiction
  · cases h

/-- The job of a message for MIR. -/
theorem mirGrib_spec {E : Extern} {g : Arg} {kw : Kw} {j : Job} (h : mirRegridGrib E g kw = .ok j) :
    (∃ set, j = .mirGrib set) ∧ (∀ k v, kw.lookup k = some v → Obeys E j k v) ∧ Obeys E j "grid" g := by
  unfold mirRegridGrib at h
  split at h
  · rename_i hall
    cases ha : E.area g with
    | error e => rw [ha] at h; cases h
    | ok ga =>
      obtain ⟨g', a⟩ := ga
      rw [ha] at h
      cases h
      refine ⟨⟨_, rfl⟩, fun k v hk => ?_, .outGrib ha rfl (by cases a <;> rfl)⟩
      have hm : k ∈ MIR_OPTIONS := by simpa using all_keys (P := fun x => MIR_OPTIONS.contains x) hall hk
      refine .gribOption hm ?_
      have hn : (k == "grid") = false := by
        rw [beq_eq_false_iff_ne]
        rintro rfl
        revert hm
        decide
      rw [List.cons_append, List.lookup_cons, hn]
      simp only
      rw [lookup_option (option kw) hm]
      unfold option
      rw [hk]
      rfl
  · cases h

/-- The request for weights. -/
theorem weights_spec (E : Extern) {db : Db} {gi go : Arg} {kw : Kw} {j : Job} (h : weightsRegrid db gi go kw = .ok j) :
    (∃ m, j = .weights db gi go m) ∧ ∀ k v, kw.lookup k = some v → Obeys E j k v := by
  unfold weightsRegrid at h
  split at h
  · rename_i hall
    cases hm : kw.lookup "interpolation" with
    | none => rw [hm] at h; cases h
    | some m =>
      rw [hm] at h
      cases h
      refine ⟨⟨m, rfl⟩, fun k v hk => ?_⟩
      have : k = "interpolation" := by simpa using all_keys (P := fun x => x == "interpolation") hall hk
      subst this
      rw [hm] at hk
      cases hk
      exact .interpolation
  · cases h

/-- A job made with a backend. -/
def Of (c : Chosen) : Job → Prop
  | .mirArray _ _ => c = .mir
  | .mirGrib _ => c = .mir
  | .weights db _ _ _ => c = .precomputed db

theorem obeys_backend {E : Extern} {c : Chosen} {j : Job} (h : Of c j) : Obeys E j "backend" c.named := by
  cases j with
  | mirArray gi set => cases h; exact .mirArray
  | mirGrib set => cases h; exact .mirGrib
  | weights db gi go m => cases h; exact .precomputed

theorem obeys_inventory {E : Extern} {c : Chosen} {j : Job} (h : Of c j) {v : Arg} (hv : ∀ db, c = .precomputed db → Names v db) :
    Obeys E j "inventory" v ∨ Dropped j "inventory" := by
  cases j with
  | mirArray gi set => right; exact List.mem_cons_self
  | mirGrib set => right; rfl
  | weights db gi go m => exact .inl (.inventory (hv db h))

theorem backendRegrid_spec {E : Extern} {c : Chosen} {gi go : Arg} {kw : Kw} {j : Job} (h : backendRegrid E c gi go kw = .ok j) :
    Of c j ∧ (∀ k v, kw.lookup k = some v → Obeys E j k v ∨ Dropped j k) ∧ Obeys E j "in_grid" gi ∧ Obeys E j "out_grid" go ∧
    Obeys E j "grid" go ∧ (∀ v, E.canon v = .ok gi → Obeys E j "grid_spec" v) ∧ ∀ k v, Dropped j k → ¬Obeys E j k v := by
  cases c with
  | mir =>
    obtain ⟨⟨set, rfl⟩, h2, h3, h4, h5, h6, h7⟩ := mirRegrid_spec h
    exact ⟨rfl, h2, h3, h4, h5, h6, h7⟩
  | precomputed db =>
    obtain ⟨⟨m, rfl⟩, h2⟩ := weights_spec E h
    exact ⟨rfl, fun k v hk => .inl (h2 k v hk), .inGridWeights, .outWeights (.inr rfl) (.inl rfl), .outWeights (.inl rfl) (.inl rfl),
      fun v hv => .specWeights hv, fun _ _ hd => hd.elim⟩

theorem numpy_spec {E : Extern} {kw : Kw} {j : Job} (h : numpyRegrid E kw = .ok j) :
    (∀ k v, kw.lookup k = some v → Obeys E j k v ∨ Dropped j k) ∧
    (∀ g, kw.lookup "out_grid" = some g → Obeys E j "grid" g) ∧
    (∀ v g, kw.lookup "in_grid" = some g → E.canon v = .ok g → Obeys E j "grid_spec" v) ∧ ∀ k v, Dropped j k → ¬Obeys E j k v := by
  unfold numpyRegrid at h
  cases h1 : kw.lookup "in_grid" with
  | none => rw [h1] at h; cases h
  | some gi =>
    cases h2 : kw.lookup "out_grid" with
    | none => rw [h1, h2] at h; cases h
    | some go =>
      rw [h1, h2] at h
      simp only at h
      cases h3 : backendFromKwargs (without "out_grid" (without "in_grid" kw)) with
      | error e => rw [h3] at h; cases h
      | ok ck =>
        obtain ⟨c, kw'⟩ := ck
        rw [h3] at h
        obtain ⟨b1, b2, b3, b4, b5, b6, b7⟩ := backendRegrid_spec h
        refine ⟨fun k v hk => ?_, fun g hg => (by cases hg; exact b5), fun v g hg hc => (by cases hg; exact b6 v hc), b7⟩
        by_cases k1 : k = "in_grid"
        · subst k1; rw [h1] at hk; cases hk; exact .inl b3
        · by_cases k2 : k = "out_grid"
          · subst k2; rw [h2] at hk; cases hk; exact .inl b4
          · have hk' : (without "out_grid" (without "in_grid" kw)).lookup k = some v := by
              rw [lookup_without k2, lookup_without k1]; exact hk
            rcases backend_spec h3 hk' with ⟨rfl, rfl⟩ | ⟨rfl, hn⟩ | ⟨_, _, hl⟩
            · exact .inl (obeys_backend b1)
            · exact obeys_inventory b1 hn
            · exact b2 k v hl

theorem all_spec {f : Arg → Except Err Job} : ∀ {gs : List Arg} {js : List Job}, all f gs = .ok js → ∀ j ∈ js, ∃ g, f g = .ok j := by
  intro gs
  induction gs with
  | nil => intro js h j hj; cases h; cases hj
  | cons g gs ih =>
    intro js h j hj
    rw [all] at h
    cases h1 : f g with
    | error e => rw [h1] at h; cases h
    | ok j1 =>
      rw [h1] at h
      simp only at h
      cases h2 : all f gs with
      | error e => rw [h2] at h; cases h
      | ok js' =>
        rw [h2] at h
        cases h
        rcases List.mem_cons.1 hj with rfl | hj
        · exact ⟨g, h1⟩
        · exact ih h2 j hj

end Verif.Regrid.Args

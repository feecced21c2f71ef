import Verif.Regrid.ArgsProps

/-!
# Properties: every argument of a call counts (C119), for each function
-/

namespace Verif.Regrid.Args

/-- What one function does with what it is passed. -/
def Heeds (E : Extern) (kw : Kw) (j : Job) : Prop :=
  (∀ k v, kw.lookup k = some v → Obeys E j k v ∨ Dropped j k) ∧ ∀ k v, Dropped j k → ¬Obeys E j k v

theorem grib_not {E : Extern} {set : Kw} {k : String} {v : Arg} (h : Dropped (.mirGrib set) k) : ¬Obeys E (.mirGrib set) k v := by
  have h : k = "inventory" := h
  intro ho
  cases ho with
  | mirGrib => exact absurd h (by decide)
  | gribOption hk _ => subst h; exact absurd hk (by decide)
  | ownGrid hk => subst h; exact absurd hk (by decide)
  | outGrib _ _ _ => exact absurd h (by decide)

theorem message_spec {E : Extern} {kw : Kw} {j : Job} (h : messageRegrid E kw = .ok j) : Heeds E kw j := by
  unfold messageRegrid at h
  cases hb : backendFromKwargs kw with
  | error e => rw [hb] at h; cases h
  | ok ck =>
    obtain ⟨c, kw'⟩ := ck
    rw [hb] at h
    cases c with
    | precomputed db => cases h
    | mir =>
      simp only at h
      cases hg : kw'.lookup "grid" with
      | none => rw [hg] at h; cases h
      | some g =>
        rw [hg] at h
        obtain ⟨⟨set, rfl⟩, h2, h3⟩ := mirGrib_spec h
        refine ⟨fun k v hk => ?_, fun k v hd => grib_not hd⟩
        rcases backend_spec hb hk with ⟨rfl, rfl⟩ | ⟨rfl, _⟩ | ⟨_, _, hl⟩
        · exact .inl .mirGrib
        · exact .inr rfl
        · by_cases hk' : k = "grid"
          · subst hk'; rw [hg] at hl; cases hl; exact .inl h3
          · exact .inl (h2 k v (by rw [lookup_without hk']; exact hl))

theorem list_spec {E : Extern} {grids : List Arg} {kw : Kw} {js : List Job} (h : listRegrid E grids kw = .ok js) : ∀ j ∈ js, Heeds E kw j := by
  unfold listRegrid at h
  cases hb : backendFromKwargs kw with
  | error e => rw [hb] at h; cases h
  | ok ck =>
    obtain ⟨c, kw'⟩ := ck
    rw [hb] at h
    simp only at h
    cases hg : kw'.lookup "grid" with
    | none => rw [hg] at h; cases h
    | some g =>
      rw [hg] at h
      have h : (match c with
          | .mir => all (fun _ => mirRegridGrib E g (without "grid" kw')) grids
          | .precomputed db =>
            match E.spec g with
            | .error e => .error e
            | .ok go => all (fun gi => weightsRegrid db gi go (without "grid" kw')) grids) = .ok js := by
        cases g <;> first | exact h | cases h
      intro j hj
      cases c with
      | mir =>
        obtain ⟨_, hj⟩ := all_spec h j hj
        obtain ⟨⟨set, rfl⟩, h2, h3⟩ := mirGrib_spec hj
        refine ⟨fun k v hk => ?_, fun k v hd => grib_not hd⟩
        rcases backend_spec hb hk with ⟨rfl, rfl⟩ | ⟨rfl, _⟩ | ⟨_, _, hl⟩
        · exact .inl .mirGrib
        · exact .inr rfl
        · by_cases hk' : k = "grid"
          · subst hk'; rw [hg] at hl; cases hl; exact .inl h3
          · exact .inl (h2 k v (by rw [lookup_without hk']; exact hl))
      | precomputed db =>
        simp only at h
        cases hs : E.spec g with
        | error e => rw [hs] at h; cases h
        | ok go =>
          rw [hs] at h
          obtain ⟨gi, hj⟩ := all_spec h j hj
          obtain ⟨⟨m, rfl⟩, h2⟩ := weights_spec E hj
          refine ⟨fun k v hk => ?_, fun k v hd => hd.elim⟩
          rcases backend_spec hb hk with ⟨rfl, rfl⟩ | ⟨rfl, hn⟩ | ⟨_, _, hl⟩
          · exact .inl .precomputed
          · exact .inl (.inventory (hn db rfl))
          · by_cases hk' : k = "grid"
            · subst hk'; rw [hg] at hl; cases hl; exact .inl (.outWeights (.inl rfl) (.inr hs))
            · exact .inl (h2 k v (by rw [lookup_without hk']; exact hl))

/-! ### xarray -/

theorem inGrid_spec {E : Extern} {d : Data} {kw kw' : Kw} {gi : Arg} (h : inGrid E d kw = .ok (gi, kw')) {k : String} {v : Arg}
    (hk : kw.lookup k = some v) :
    kw'.lookup k = some v ∨ (k = "grid_spec" ∧ (v = .none ∨ E.canon v = .ok gi)) := by
  unfold inGrid at h
  cases ha : d.attr with
  | some a =>
    rw [ha] at h
    simp only at h
    cases hc : E.canon a with
    | error e => rw [hc] at h; cases h
    | ok g => rw [hc] at h; cases h; exact .inl hk
  | none =>
    rw [ha] at h
    simp only at h
    have popped : ∀ {x : Except Err Arg}, x.map (fun g => (g, without "grid_spec" kw)) = .ok (gi, kw') → x = .ok gi ∧ kw' = without "grid_spec" kw := by
      intro x hx
      cases x with
      | error e => cases hx
      | ok g => cases hx; exact ⟨rfl, rfl⟩
    by_cases hne : k = "grid_spec"
    · subst hne
      rw [hk] at h
      refine .inr ⟨rfl, ?_⟩
      cases v with
      | none => exact .inl rfl
      | _ => exact .inr (popped h).1
    · have : kw' = without "grid_spec" kw := by
        cases hl : kw.lookup "grid_spec" with
        | none =>
          rw [hl] at h
          cases hac : d.accessor with
          | none => rw [hac] at h; cases h
          | some a => rw [hac] at h; exact (popped h).2
        | some w =>
          rw [hl] at h
          cases w with
          | none =>
            cases hac : d.accessor with
            | none => rw [hac] at h; cases h
            | some a => rw [hac] at h; exact (popped h).2
          | _ => exact (popped h).2
      rw [this]
      exact .inl (by rw [lookup_without hne]; exact hk)

theorem dims_spec {found : Except Err Arg} {given : Option Arg} {r : Arg} (h : dimsOr found given = .ok r) {v : Arg} (hg : given = some v)
    (hv : v ≠ .none) : r = v := by
  subst hg
  cases v with
  | none => exact absurd rfl hv
  | _ => cases h; rfl

/-- What becomes of an argument of xarray data: the dimensions are taken, everything else reaches every job. -/
theorem xarray_spec {E : Extern} {d : Data} {kw : Kw} {o : Outcome} (h : xarrayRegrid E d kw = .ok o) {k : String} {v : Arg}
    (hk : kw.lookup k = some v) :
    (k = "in_dims" → v ≠ .none → o.inDims = v) ∧ (k = "out_dims" → v ≠ .none → o.outDims = v) ∧
    (k ≠ "in_dims" → k ≠ "out_dims" → ∀ j ∈ o.jobs, (Obeys E j k v ∨ Dropped j k) ∧ (Dropped j k → ¬Obeys E j k v)) := by
  unfold xarrayRegrid at h
  cases hg : kw.lookup "grid" with
  | none => rw [hg] at h; cases h
  | some g =>
    rw [hg] at h
    simp only at h
    cases hi : inGrid E d (without "grid" kw) with
    | error e => rw [hi] at h; cases h
    | ok gk =>
      obtain ⟨gi, kw'⟩ := gk
      rw [hi] at h
      simp only at h
      split at h
      · cases h
      · cases hd1 : dimsOr d.inDims (kw'.lookup "in_dims") with
        | error e => rw [hd1] at h; cases h
        | ok i =>
          rw [hd1] at h
          simp only at h
          cases hd2 : dimsOr d.outDims (kw'.lookup "out_dims") with
          | error e => rw [hd2] at h; cases h
          | ok o' =>
            rw [hd2] at h
            simp only at h
            split at h
            · cases h
            · rename_i hno
              revert h
              generalize ha : all _ _ = x
              intro h
              cases x with
              | error e => cases h
              | ok js =>
                cases h
                have pass : k ≠ "grid" → kw'.lookup k = some v ∨ (k = "grid_spec" ∧ (v = .none ∨ E.canon v = .ok gi)) :=
                  fun hne => inGrid_spec hi (by rw [lookup_without hne]; exact hk)
                refine ⟨?_, ?_, ?_⟩
                · rintro rfl hv
                  rcases pass (by decide) with h1 | ⟨h1, _⟩
                  · exact dims_spec hd1 h1 hv
                  · exact absurd h1 (by decide)
                · rintro rfl hv
                  rcases pass (by decide) with h1 | ⟨h1, _⟩
                  · exact dims_spec hd2 h1 hv
                  · exact absurd h1 (by decide)
                · intro hn1 hn2 j hj
                  obtain ⟨_, hj⟩ := all_spec ha j hj
                  obtain ⟨n1, n2, n3, n4⟩ := numpy_spec hj
                  refine ⟨?_, n4 k v⟩
                  by_cases hgr : k = "grid"
                  · subst hgr
                    rw [hg] at hk
                    cases hk
                    exact .inl (n2 _ rfl)
                  · rcases pass hgr with h1 | ⟨rfl, h1⟩
                    · have hk1 : k ≠ "in_grid" := by
                        rintro rfl
                        refine hno (Bool.or_eq_true_iff.2 (.inl ?_))
                        exact List.contains_iff_mem.2 (List.mem_map.2 ⟨_, mem_of_lookup h1, rfl⟩)
                      have hk2 : k ≠ "out_grid" := by
                        rintro rfl
                        refine hno (Bool.or_eq_true_iff.2 (.inr ?_))
                        exact List.contains_iff_mem.2 (List.mem_map.2 ⟨_, mem_of_lookup h1, rfl⟩)
                      refine n1 k v ?_
                      have e1 : (k == "in_grid") = false := by simpa using hk1
                      have e2 : (k == "out_grid") = false := by simpa using hk2
                      rw [List.lookup_cons, e1]
                      simp only
                      rw [List.lookup_cons, e2]
                      simp only
                      rw [lookup_without hn2, lookup_without hn1]
                      exact h1
                    · rcases h1 with rfl | h1
                      · exact .inl (.ownGrid (.inr rfl))
                      · exact .inl (n3 v gi rfl h1)

/-! ### The deprecated interface -/

theorem oldBackend_spec {kw kw' : Kw} {c : Chosen} (h : oldBackend kw = .ok (c, kw')) :
    ∃ db, c = .precomputed db ∧ kw' = without "matrix_source" kw ∧ kw.lookup "backend" = none ∧
      ∀ v, kw.lookup "matrix_source" = some v → Names v db := by
  unfold oldBackend at h
  split at h
  · cases h
  · rename_i hb
    have hb' : kw.lookup "backend" = none := by
      cases hl : kw.lookup "backend" with
      | none => rfl
      | some w => exact absurd (List.contains_iff_mem.2 (List.mem_map.2 ⟨_, mem_of_lookup hl, rfl⟩)) hb
    have key : ∀ inv, choose (text "precomputed") inv = .ok c → ∃ db, c = .precomputed db ∧ Names (inv.getD .none) db := by
      intro inv hc
      obtain ⟨h1, h2⟩ := choose_spec hc
      cases c with
      | mir => exact absurd h1 (by decide)
      | precomputed db => exact ⟨db, rfl, h2 db rfl⟩
    have popped : ∀ {x : Except Err Chosen}, x.map (fun c => (c, without "matrix_source" kw)) = .ok (c, kw') → x = .ok c ∧ kw' = without "matrix_source" kw := by
      intro x hx
      cases x with
      | error e => cases hx
      | ok g => cases hx; exact ⟨rfl, rfl⟩
    obtain ⟨h1, h2⟩ := popped h
    cases hl : kw.lookup "matrix_source" with
    | none =>
      rw [hl] at h1
      obtain ⟨db, hc, _⟩ := key _ h1
      exact ⟨db, hc, h2, hb', fun v hv => by cases hv⟩
    | some w =>
      rw [hl] at h1
      cases w with
      | none =>
        obtain ⟨db, hc, hn⟩ := key _ h1
        exact ⟨db, hc, h2, hb', fun v hv => by cases hv; exact hn⟩
      | _ =>
        obtain ⟨db, hc, hn⟩ := key _ h1
        exact ⟨db, hc, h2, hb', fun v hv => by cases hv; exact hn⟩

theorem interpolate_spec (E : Extern) {c : Chosen} {gi go : Arg} {kw : Kw} {j : Job} (h : weightsInterpolate c gi go kw = .ok j) :
    (∃ db m, c = .precomputed db ∧ j = .weights db gi go m) ∧ ∀ k v, kw.lookup k = some v → Obeys E j k v := by
  cases c with
  | mir => cases h
  | precomputed db =>
    unfold weightsInterpolate at h
    simp only at h
    split at h
    · rename_i hall
      cases hm : kw.lookup "method" with
      | none => rw [hm] at h; cases h
      | some m =>
        rw [hm] at h
        cases h
        refine ⟨⟨db, m, rfl, rfl⟩, fun k v hk => ?_⟩
        have : k = "method" := by simpa using all_keys (P := fun x => x == "method") hall hk
        subst this
        rw [hm] at hk
        cases hk
        exact .method
    · cases h

theorem oldArray_spec {E : Extern} {kw : Kw} {j : Job} (h : oldArray kw = .ok j) : Heeds E kw j := by
  unfold oldArray at h
  cases h1 : kw.lookup "in_grid" with
  | none => rw [h1] at h; cases h
  | some gi =>
    cases h2 : kw.lookup "out_grid" with
    | none => rw [h1, h2] at h; cases h
    | some go =>
      rw [h1, h2] at h
      simp only at h
      cases h3 : oldBackend (without "out_grid" (without "in_grid" kw)) with
      | error e => rw [h3] at h; cases h
      | ok ck =>
        obtain ⟨c, kw'⟩ := ck
        rw [h3] at h
        obtain ⟨db, rfl, rfl, hb, hms⟩ := oldBackend_spec h3
        obtain ⟨⟨db', m, hc, rfl⟩, h5⟩ := interpolate_spec E h
        cases hc
        refine ⟨fun k v hk => .inl ?_, fun k v hd => hd.elim⟩
        by_cases k1 : k = "in_grid"
        · subst k1; rw [h1] at hk; cases hk; exact .inGridWeights
        · by_cases k2 : k = "out_grid"
          · subst k2; rw [h2] at hk; cases hk; exact .outWeights (.inr rfl) (.inl rfl)
          · have hk' : (without "out_grid" (without "in_grid" kw)).lookup k = some v := by
              rw [lookup_without k2, lookup_without k1]; exact hk
            by_cases k3 : k = "matrix_source"
            · subst k3; exact .matrixSource (hms v hk')
            · exact h5 k v (by rw [lookup_without k3]; exact hk')

theorem oldList_spec {E : Extern} {grids : List Arg} {kw : Kw} {js : List Job} (h : oldList E grids kw = .ok js) : ∀ j ∈ js, Heeds E kw j := by
  unfold oldList at h
  cases h3 : oldBackend kw with
  | error e => rw [h3] at h; cases h
  | ok ck =>
    obtain ⟨c, kw'⟩ := ck
    rw [h3] at h
    simp only at h
    obtain ⟨db, rfl, rfl, hb, hms⟩ := oldBackend_spec h3
    cases h1 : (without "matrix_source" kw).lookup "in_grid" with
    | none => rw [h1] at h; cases h
    | some user =>
      cases h2 : (without "matrix_source" kw).lookup "out_grid" with
      | none => rw [h1, h2] at h; cases h
      | some g =>
        rw [h1, h2] at h
        simp only at h
        cases hs : E.spec g with
        | error e => rw [hs] at h; cases h
        | ok go =>
          rw [hs] at h
          intro j hj
          obtain ⟨gi, hj⟩ := all_spec h j hj
          obtain ⟨⟨db', m, hc, rfl⟩, h5⟩ := interpolate_spec E hj
          cases hc
          refine ⟨fun k v hk => .inl ?_, fun k v hd => hd.elim⟩
          by_cases k3 : k = "matrix_source"
          · subst k3; exact .matrixSource (hms v hk)
          · have hk' : (without "matrix_source" kw).lookup k = some v := by rw [lookup_without k3]; exact hk
            by_cases k1 : k = "in_grid"
            · subst k1
              rw [h1] at hk'
              cases hk'
              by_cases hu : user = .none
              · subst hu; exact .ownGrid (.inl rfl)
              · rw [if_neg hu]; exact .inGridWeights
            · by_cases k2 : k = "out_grid"
              · subst k2; rw [h2] at hk'; cases hk'; exact .outWeights (.inr rfl) (.inr hs)
              · exact h5 k v (by rw [lookup_without k2, lookup_without k1]; exact hk')

/-! ## C119 -/

theorem not_dims {E : Extern} {j : Job} {k : String} {v : Arg} (h : Obeys E j k v ∨ Dropped j k) : k ≠ "in_dims" ∧ k ≠ "out_dims" := by
  have gen : ∀ d, d = "in_dims" ∨ d = "out_dims" → k ≠ d := by
    intro d hd he
    subst he
    rcases h with h | h
    · cases h with
      | mirArray => exact absurd hd (by decide)
      | mirGrib => exact absurd hd (by decide)
      | precomputed => exact absurd hd (by decide)
      | inventory _ => exact absurd hd (by decide)
      | matrixSource _ => exact absurd hd (by decide)
      | interpolation => exact absurd hd (by decide)
      | method => exact absurd hd (by decide)
      | arrayOption hk _ => rcases hd with rfl | rfl <;> exact absurd hk (by decide)
      | gribOption hk _ => rcases hd with rfl | rfl <;> exact absurd hk (by decide)
      | ownGrid hk => rcases hd with rfl | rfl <;> exact absurd hk (by decide)
      | inGridMir => exact absurd hd (by decide)
      | inGridWeights => exact absurd hd (by decide)
      | specMir _ => exact absurd hd (by decide)
      | specWeights _ => exact absurd hd (by decide)
      | outMir hk _ _ _ => rcases hd with rfl | rfl <;> exact absurd hk (by decide)
      | outGrib _ _ _ => exact absurd hd (by decide)
      | outWeights hk _ => rcases hd with rfl | rfl <;> exact absurd hk (by decide)
    · cases j with
      | mirArray gi set =>
        have h : k ∈ ["inventory", "nearest_method", "distance", "distance_tolerance", "nclosest"] := h
        rcases hd with rfl | rfl <;> exact absurd h (by decide)
      | mirGrib set =>
        have h : k = "inventory" := h
        subst h
        exact absurd hd (by decide)
      | weights db gi go m => exact h
  exact ⟨gen _ (.inl rfl), gen _ (.inr rfl)⟩

/-- Every call: each job does what each argument says, except for the arguments MIR is never told of (`Dropped`), which it does not
obey. -/
theorem C119_heeded_partial (E : Extern) (f : Entry) (kw : Kw) (hn : (kw.map Prod.fst).Nodup) (o : Outcome) (h : call E f kw = .ok o)
    (k : String) (v : Arg) (hk : (k, v) ∈ kw) (j : Job) (hj : j ∈ o.jobs) : Obeyed E o j k v ↔ ¬Dropped j k := by
  have hl := lookup_of_mem hn hk
  have one : ∀ {ds : Kw} {i u : Arg} {js : List Job}, Heeds E (signature ds kw) j → (Obeyed E ⟨js, i, u⟩ j k v ↔ ¬Dropped j k) := by
    intro ds i u js hh
    have h1 := hh.1 k v (lookup_signature ds hl)
    obtain ⟨d1, d2⟩ := not_dims h1
    unfold Obeyed
    rw [if_neg d1, if_neg d2]
    exact ⟨fun ho hd => hh.2 k v hd ho, fun hd => h1.resolve_right hd⟩
  have jobs : ∀ {ds : Kw} {r : Except Err (List Job)}, jobsOf r = .ok o → (∀ js, r = .ok js → ∀ j ∈ js, Heeds E (signature ds kw) j) →
      (Obeyed E o j k v ↔ ¬Dropped j k) := by
    intro ds r hr hs
    cases r with
    | error e => cases hr
    | ok js => cases hr; exact one (hs js rfl j hj)
  have job : ∀ {ds : Kw} {r : Except Err Job}, jobOf r = .ok o → (∀ j, r = .ok j → Heeds E (signature ds kw) j) →
      (Obeyed E o j k v ↔ ¬Dropped j k) := by
    intro ds r hr hs
    cases r with
    | error e => cases hr
    | ok j' => cases hr; rw [List.mem_singleton] at hj; subst hj; exact one (hs j rfl)
  cases f with
  | fields grids => exact jobs h (fun js hjs => list_spec hjs)
  | message => exact job h (fun j hj => message_spec hj)
  | array => exact job h (fun j hj => ⟨(numpy_spec hj).1, (numpy_spec hj).2.2.2⟩)
  | oldArray => exact job h (fun j hj => oldArray_spec hj)
  | oldFields grids => exact jobs h (fun js hjs => oldList_spec hjs)
  | xarray d =>
    have h : xarrayRegrid E d (signature REGRID kw) = .ok o := h
    obtain ⟨x1, x2, x3⟩ := xarray_spec h (lookup_signature REGRID hl)
    unfold Obeyed
    have nd : k = "in_dims" ∨ k = "out_dims" → ¬Dropped j k := by
      intro hd hdr
      obtain ⟨d1, d2⟩ := not_dims (E := E) (v := v) (.inr hdr)
      rcases hd with hd | hd
      · exact d1 hd
      · exact d2 hd
    by_cases k1 : k = "in_dims"
    · rw [if_pos k1]
      exact ⟨fun _ => nd (.inl k1), fun _ => x1 k1⟩
    · rw [if_neg k1]
      by_cases k2 : k = "out_dims"
      · rw [if_pos k2]
        exact ⟨fun _ => nd (.inr k2), fun _ => x2 k2⟩
      · rw [if_neg k2]
        obtain ⟨y1, y2⟩ := x3 k1 k2 j hj
        exact ⟨fun ho hd => y2 hd ho, fun hd => y1.resolve_right hd⟩

/-- The names of the arguments there are. -/
def ARGUMENTS : List String :=
  ["grid", "in_grid", "out_grid", "grid_spec", "backend", "inventory", "matrix_source", "interpolation", "method", "nearest_method", "distance",
    "distance_tolerance", "nclosest", "in_dims", "out_dims"]

/-- A misspelt argument is refused, whenever there is anything to do. -/
theorem C119_unknown (E : Extern) (f : Entry) (kw : Kw) (hn : (kw.map Prod.fst).Nodup) (o : Outcome) (h : call E f kw = .ok o)
    (ho : o.jobs ≠ []) : ∀ k ∈ kw.map Prod.fst, k ∈ ARGUMENTS := by
  intro k hk'
  obtain ⟨⟨k, v⟩, hk, rfl⟩ := List.mem_map.1 hk'
  clear hk'
  show k ∈ ARGUMENTS
  obtain ⟨j, hj⟩ := List.exists_mem_of_ne_nil _ ho
  have := C119_heeded_partial E f kw hn o h k v hk j hj
  by_cases hd : Dropped j k
  · cases j with
    | mirArray gi set =>
      have hd : k ∈ ["inventory", "nearest_method", "distance", "distance_tolerance", "nclosest"] := hd
      simp only [List.mem_cons, List.not_mem_nil, or_false] at hd
      rcases hd with rfl | rfl | rfl | rfl | rfl <;> decide
    | mirGrib set =>
      have hd : k = "inventory" := hd
      subst hd
      decide
    | weights db gi go m => exact hd.elim
  · have := this.2 hd
    unfold Obeyed at this
    split at this
    · rename_i h1; subst h1; decide
    · split at this
      · rename_i h1; subst h1; decide
      · have opt : k ∈ MIR_OPTIONS → k ∈ ARGUMENTS := by
          intro ho
          unfold MIR_OPTIONS at ho
          simp only [List.mem_cons, List.not_mem_nil, or_false] at ho
          rcases ho with rfl | rfl | rfl | rfl | rfl <;> decide
        cases this with
        | arrayOption ho _ => exact opt ho
        | gribOption ho _ => exact opt ho
        | ownGrid ho => rcases ho with rfl | rfl <;> decide
        | outMir ho _ _ _ => rcases ho with rfl | rfl <;> decide
        | outWeights ho _ => rcases ho with rfl | rfl <;> decide
        | _ => decide

/-- The inventory given to a call that leaves the backend at its default has no effect: MIR does the job, as without it. -/
theorem C119_inventory_refuted (E : Extern) (grids : List Arg) (g : Arg) (s : List Char) :
    call E (.fields grids) [("grid", g), ("inventory", .str s)] = call E (.fields grids) [("grid", g)] ∧
    call E .message [("grid", g), ("inventory", .str s)] = call E .message [("grid", g)] ∧
    ∀ gi, call E .array [("in_grid", gi), ("out_grid", g), ("inventory", .str s)] = call E .array [("in_grid", gi), ("out_grid", g)] :=
  ⟨rfl, rfl, fun _ => rfl⟩

/-- So have four options of MIR on arrays, whatever their values. -/
theorem C119_options_refuted (E : Extern) (gi g v : Arg) (k : String) (hk : k ∈ ["nearest_method", "distance", "distance_tolerance", "nclosest"]) :
    call E .array [("in_grid", gi), ("out_grid", g), (k, v)] = call E .array [("in_grid", gi), ("out_grid", g)] := by
  simp only [List.mem_cons, List.not_mem_nil, or_false] at hk
  rcases hk with rfl | rfl | rfl | rfl <;> rfl

/-- Without fields nothing is looked at: an empty list takes any argument. -/
theorem C119_empty_refuted (E : Extern) (g v : Arg) (hg : g ≠ .none) :
    call E (.fields []) [("grid", g), ("intrepolation", v)] = .ok ⟨[], .none, .none⟩ := by
  cases g with
  | none => exact absurd rfl hg
  | _ => rfl

/-! ## Non-vacuity -/

/-- Grids are as they stand, without area. -/
def plainE : Extern := ⟨fun g => .ok (g, none), .ok, .ok⟩

example : call plainE (.fields [.dict 1, .dict 2])
      [("grid", .dict 9), ("backend", text "precomputed"), ("inventory", text "/my/db"), ("interpolation", text "nn")] =
    .ok ⟨[.weights (.path "/my/db".toList) (.dict 1) (.dict 9) (text "nn"), .weights (.path "/my/db".toList) (.dict 2) (.dict 9) (text "nn")],
      .none, .none⟩ := by decide +kernel

example : call plainE (.xarray ⟨none, none, .ok (.list 1), .ok (.list 2), 1⟩)
      [("grid", .dict 9), ("grid_spec", .dict 3), ("in_dims", .list 7), ("nclosest", .thing 8)] =
    .ok ⟨[.mirArray (.dict 3) [("grid", .dict 9), ("interpolation", text "linear")]], .list 7, .list 2⟩ := by decide +kernel

example : call plainE (.xarray ⟨some (.dict 4), none, .ok (.list 1), .ok (.list 2), 1⟩) [("grid", .dict 9), ("grid_spec", .dict 3)] = .error .type := by
  decide +kernel

example : call plainE (.oldFields [.dict 1]) [("out_grid", .dict 9), ("matrix_source", text "https://x"), ("method", text "nn")] =
    .ok ⟨[.weights (.url "https://x".toList) (.dict 1) (.dict 9) (text "nn")], .none, .none⟩ := by decide +kernel

example : call plainE .message [("grid", .dict 9), ("nclosest", .thing 8)] =
    .ok ⟨[.mirGrib [("grid", .dict 9), ("interpolation", text "linear"), ("nearest_method", text "automatic"), ("distance", .thing 1),
      ("distance_tolerance", .thing 1), ("nclosest", .thing 8)]], .none, .none⟩ := by decide +kernel

/-- `C119_heeded_partial`: of the arguments of this call, the method reaches the search for weights. -/
example : Obeyed plainE ⟨[.weights (.path "/my/db".toList) (.dict 1) (.dict 9) (text "nn")], .none, .none⟩
    (.weights (.path "/my/db".toList) (.dict 1) (.dict 9) (text "nn")) "interpolation" (text "nn") ↔
    ¬Dropped (.weights (.path "/my/db".toList) (.dict 1) (.dict 9) (text "nn")) "interpolation" :=
  C119_heeded_partial plainE (.fields [.dict 1])
    [("grid", .dict 9), ("backend", text "precomputed"), ("inventory", text "/my/db"), ("interpolation", text "nn")] (by decide) _ (by decide +kernel)
    "interpolation" (text "nn") (by decide) _ (by decide)

/-- `C119_unknown` on the same call. -/
example : ∀ k ∈ ["grid", "backend", "inventory", "interpolation"], k ∈ ARGUMENTS :=
  C119_unknown plainE (.fields [.dict 1])
    [("grid", .dict 9), ("backend", text "precomputed"), ("inventory", text "/my/db"), ("interpolation", text "nn")] (by decide)
    ⟨[.weights (.path "/my/db".toList) (.dict 1) (.dict 9) (text "nn")], .none, .none⟩ (by decide +kernel) (by simp)

end Verif.Regrid.Args

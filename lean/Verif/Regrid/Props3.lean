import Verif.Regrid.PipelineProps

/-! # C83: the deprecated interface; a concrete inventory for C82 -/

namespace Verif.Regrid
open Verif.GridSpec Verif.Json

section
variable {α S B : Type} [Zero α] [Add α] [Mul α]

/-- C83: for arrays, the deprecated `interpolate` has the outcome of `regrid` with precomputed weights (without the grid), and the same
effects. -/
theorem C83_array (find : Dict → Dict → List Char → S → Except Err (Option (Csr α × List Nat)) × S) (x : Arr α) (di dO : Dict)
    (m : List Char) (s : S) :
    matrixInterpolate find x di dO m s =
      match (matrixBackend (B := B) find).regrid x di dO ⟨m, []⟩ s with
      | (.error e, s) => (.error e, s)
      | (.ok (y, _), s) => (.ok y, s) := by
  unfold matrixInterpolate matrixBackend
  simp only [ne_eq, not_true, if_false]
  generalize find di dO m s = r
  obtain ⟨r, t⟩ := r
  cases r with
  | error e => rfl
  | ok o =>
    cases o with
    | none => rfl
    | some p =>
      obtain ⟨z, shape⟩ := p
      simp only [applyWeights, bind, Except.bind, pure, Except.pure]
      cases z.mul x.flat with
      | error e => rfl
      | ok c =>
        simp only
        cases Arr.reshape ⟨[c.length, 1], c⟩ shape <;> rfl

theorem regrid_echo (find : Dict → Dict → List Char → S → Except Err (Option (Csr α × List Nat)) × S) (x : Arr α) (di dO : Dict)
    (kw : Kw) (s : S) (y : Arr α) (g : Dict) (h : ((matrixBackend (B := B) find).regrid x di dO kw s).1 = .ok (y, g)) : g = dO := by
  by_cases hk : kw.extra ≠ []
  · simp only [matrixBackend, if_pos hk] at h; cases h
  · simp only [matrixBackend, if_neg hk] at h
    generalize find di dO kw.interpolation s = r at *
    obtain ⟨r, t⟩ := r
    cases r with
    | error e => cases h
    | ok w =>
      cases w with
      | none => cases h
      | some w =>
        simp only [applyWeights, bind, Except.bind, Csr.mul, Arr.reshape] at h
        by_cases h1 : x.flat.length = w.1.cols
        · simp only [if_pos h1] at h
          split at h
          · cases h
          · cases h; rfl
        · simp only [if_neg h1] at h; cases h

/-- The field with its grid as the user says. -/
def withGrid (user : Option Dict) (f : Fld (Arr α) B) : Fld (Arr α) B :=
  match user with
  | some g => { f with gridspec := .ok (some g) }
  | none => f

theorem loop_same (find : Dict → Dict → List Char → S → Except Err (Option (Csr α × List Nat)) × S) (m : List Char) (user : Option Dict)
    (go : Dict) : ∀ (fs : List (Fld (Arr α) B)) (s : S), interpolateLoop (matrixInterpolate find) m user go fs s =
      arrayLoop (matrixBackend (B := B) find) ⟨m, []⟩ (fs.map (withGrid user)) go s := by
  intro fs
  induction fs with
  | nil => intro s; rfl
  | cons f fs ih =>
    intro s
    have h1 : inputGridspec (withGrid user f) = userGridspec user f := by
      cases user <;> rfl
    have h2 : (withGrid user f).values = f.values := by cases user <;> rfl
    have h3 : (withGrid user f).md = f.md := by cases user <;> rfl
    simp only [interpolateLoop, List.map_cons, arrayLoop, h1, h2, h3]
    cases userGridspec user f with
    | error e => rfl
    | ok g =>
      simp only [C83_array (B := B) find]
      have he := regrid_echo (B := B) find f.values g go ⟨m, []⟩ s
      generalize (matrixBackend (B := B) find).regrid f.values g go ⟨m, []⟩ s = r at *
      obtain ⟨r, t⟩ := r
      cases r with
      | error e => rfl
      | ok p =>
        obtain ⟨y, g'⟩ := p
        have := he y g' rfl
        subst this
        simp only [ih]
        rfl

/-- C83: for field lists too, with the user's input grid in place of that of the metadata if one is given. -/
theorem C83_fields (P : Py) (find : Dict → Dict → List Char → S → Except Err (Option (Csr α × List Nat)) × S) (m : List Char)
    (user : Option Dict) (grid : Dict) (fs : List (Fld (Arr α) B)) (s : S) :
    interpolateList P (matrixInterpolate find) m user (some grid) fs s =
      regridList P (matrixBackend (B := B) find) (some grid) ⟨m, []⟩ (fs.map (withGrid user)) s := by
  have hg : (matrixBackend (B := B) find).regridGrib = none := rfl
  simp only [interpolateList, regridList, hg]
  cases fromDict P grid with
  | error e => rfl
  | ok gs =>
    simp only
    by_cases hk : gs.kind = .ll
    · simp only [if_pos hk]; exact loop_same find m user gs.d fs s
    · simp only [if_neg hk]

/-- C83: without a target both refuse and do nothing. -/
theorem C83_no_target (P : Py) (find : Dict → Dict → List Char → S → Except Err (Option (Csr α × List Nat)) × S) (m : List Char)
    (user : Option Dict) (fs : List (Fld (Arr α) B)) (s : S) :
    (∃ e, interpolateList P (matrixInterpolate find) m user none fs s = (.error e, s)) ∧
      ∃ e, regridList P (matrixBackend (B := B) find) none ⟨m, []⟩ fs s = (.error e, s) := ⟨⟨_, rfl⟩, ⟨_, rfl⟩⟩

end

/-! ### A concrete inventory -/

namespace Demo
open Verif.Index

/-- A text for rationals: numerator, `e`, denominator. -/
def floatText (q : ℚ) : List Char := intText q.num ++ 'e' :: intText q.den

theorem no_e (i : Int) : 'e' ∉ intText i := by
  intro h
  rcases intText_chars i 'e' h with h | ⟨a, ha, h⟩
  · exact absurd h (by decide)
  · interval_cases a <;> exact absurd h (by decide)

theorem split_e (a b c d : List Char) (ha : 'e' ∉ a) (hc : 'e' ∉ c) (h : a ++ 'e' :: b = c ++ 'e' :: d) : a = c ∧ b = d := by
  induction a generalizing c with
  | nil =>
    cases c with
    | nil => cases h; exact ⟨rfl, rfl⟩
    | cons x c => cases h; simp at hc
  | cons x a ih =>
    cases c with
    | nil => cases h; simp at ha
    | cons y c =>
      simp only [List.cons_append, List.cons.injEq] at h
      simp only [List.mem_cons, not_or] at ha hc
      obtain ⟨h1, h2⟩ := ih c ha.2 hc.2 h.2
      rw [h.1, h1, h2]; exact ⟨rfl, rfl⟩

noncomputable def items (d : Dict) : List (String × V) :=
  open Classical in if h : ∃ es, ItemsOf d es then h.choose else []

noncomputable def world (P : Py) : World := ⟨P, COMPARE_KEYS, floatText, items, id⟩

theorem world_sane (P : Py) : (world P).Sane where
  text_inj := by
    intro p q h
    obtain ⟨h1, h2⟩ := split_e _ _ _ _ (no_e _) (no_e _) h
    have h1 := intText_inj _ _ h1
    have h2 := intText_inj _ _ h2
    exact Rat.ext h1 (by exact_mod_cast h2)
  text_form := by
    intro q
    refine ⟨?_, ?_, 'e', by simp [world, floatText], Or.inr (Or.inl rfl)⟩
    · intro c hc
      simp only [world, floatText, List.mem_append, List.mem_cons] at hc
      rcases hc with hc | rfl | hc
      · exact intText_num _ c hc
      · decide
      · exact intText_num _ c hc
    · obtain ⟨c, t, hc⟩ := intText_ne_nil q.num
      refine ⟨c, t ++ 'e' :: intText q.den, by simp [world, floatText, hc], ?_⟩
      rcases intText_chars q.num c (by rw [hc]; simp) with rfl | ⟨a, ha, rfl⟩
      · exact Or.inr (Or.inl rfl)
      · left; interval_cases a <;> decide
  digest := fun _ _ h => h

theorem items_spec (d : Dict) (es : List (String × V)) (h : ItemsOf d es) : ItemsOf d (items d) := by
  unfold items
  have hex : ∃ es, ItemsOf d es := ⟨es, h⟩
  rw [dif_pos hex]
  exact hex.choose_spec

def shape : V := .list [.int 3, .int 1]

theorem usable (P : Py) : Usable (world P) (orca (some shape)) := by
  constructor
  · intro k v h
    unfold orca at h
    split at h
    · cases h; exact .inl (.inl trivial)
    · split at h
      · cases h; exact .inl (.inl trivial)
      · split at h
        · cases h
          refine .inl (.inr ⟨_, rfl, ?_⟩)
          intro x hx; simp at hx; rcases hx with rfl | rfl <;> exact trivial
        · cases h
  · intro g hg
    have := orca_fromDict P (some shape)
    have hg' : fromDict P (orca (some shape)) = .ok g := hg
    rw [this] at hg'
    cases hg'
    apply items_spec _ [("type", .str "orca".toList), ("grid", .str "ORCA1_T".toList), ("shape", shape), ("i_scans_negatively", .int 0),
      ("j_points_consecutive", .int 0), ("j_scans_positively", .int 0)]
    refine ⟨by decide, ?_⟩
    intro k v
    have hv : (orcaSpec (some shape)).d k = if k = "type" then some (.str "orca".toList) else if k = "grid" then some (.str "ORCA1_T".toList)
        else if k = "shape" then some shape else if k = "i_scans_negatively" then some (.int 0)
        else if k = "j_points_consecutive" then some (.int 0) else if k = "j_scans_positively" then some (.int 0) else none := by
      show (if k = "type" then some (.str Kind.orca.name) else normalise (withDefaults (orca (some shape))) k) = _
      by_cases h1 : k = "type"
      · rw [if_pos h1, if_pos h1]; rfl
      · rw [if_neg h1, if_neg h1]
        unfold normalise withDefaults orca DEFAULTS
        rw [if_neg h1]
        by_cases h2 : k = "grid"
        · rw [if_pos h2, if_pos h2]; rfl
        · rw [if_neg h2, if_neg h2]
          by_cases h3 : k = "shape"
          · rw [if_pos h3, if_pos h3]; rfl
          · rw [if_neg h3, if_neg h3]
            by_cases h4 : k = "i_scans_negatively"
            · subst h4; rfl
            · rw [if_neg h4]
              by_cases h5 : k = "j_points_consecutive"
              · subst h5; rfl
              · rw [if_neg h5]
                by_cases h6 : k = "j_scans_positively"
                · subst h6; rfl
                · rw [if_neg h6]
                  simp only [h4, h5, h6, or_self, if_false, Option.map_none]
    rw [hv]
    simp only [List.mem_cons, Prod.mk.injEq, List.not_mem_nil, or_false]
    by_cases h1 : k = "type"
    · subst h1; simp [eq_comm]
    by_cases h2 : k = "grid"
    · subst h2; simp [eq_comm]
    by_cases h3 : k = "shape"
    · subst h3; simp [eq_comm]
    by_cases h4 : k = "i_scans_negatively"
    · subst h4; simp [eq_comm]
    by_cases h5 : k = "j_points_consecutive"
    · subst h5; simp [eq_comm]
    by_cases h6 : k = "j_scans_positively"
    · subst h6; simp [eq_comm]
    simp [h1, h2, h3, h4, h5, h6]

def raw : Raw := ⟨some (orca (some shape)), some (orca (some shape)), some (.name "nearest-neighbour".toList), "mir".toList, "1".toList, 0⟩
def entry : Entry := ⟨"w", orcaSpec (some shape), orcaSpec (some shape), raw⟩

/-- One entry, whose weights are those of `demo`. -/
def inventory : Inventory ℚ := ⟨[("w", entry)], fun _ => some 100, fun _ => .ok demo⟩

theorem clean (P : Py) : Index.Clean P inventory.index where
  nodup := by decide
  forms := by
    intro x hx
    simp [inventory] at hx
    subst hx
    exact ⟨rfl, rfl, ⟨_, rfl, orca_fromDict P _⟩, ⟨_, rfl, orca_fromDict P _⟩⟩

theorem answers (P : Py) : Answers (world P) inventory.index (orcaSpec (some shape)) (orcaSpec (some shape))
    (methodAlias "nn".toList) entry := by
  refine ⟨[], "w", [], rfl, ⟨.text _ _ rfl, ?_, ?_⟩, by simp⟩ <;>
  · show eq P COMPARE_KEYS (orcaSpec (some shape)) (orcaSpec (some shape)) = _
    rw [orca_eq P COMPARE_KEYS (fun _ => Iff.rfl), orca_shapes]
    simp [shape, tupleToList, pyEq, pyEqL, V.num]

/-- A limited cache, then a regrid, a clear, another regrid. -/
def history : List (PipeOp ℚ) := [.configure ⟨some (some 1000), false, some .lru⟩,
  .regrid ⟨[2], [1, 2]⟩ (orca (some shape)) (orca (some shape)) "nearest-neighbour".toList, .clear,
  .regrid ⟨[2], [1, 2]⟩ (orca (some shape)) (orca (some shape)) "nn".toList]

theorem history_usable (P : Py) : HistoryUsable (world P) history := by
  intro x di dO m h
  simp [history] at h
  rcases h with ⟨_, rfl, rfl, _⟩ | ⟨_, rfl, rfl, _⟩ <;> exact ⟨usable P, usable P⟩

theorem history_valid : HistoryValid history := by
  intro cfg h
  simp [history] at h
  subst h
  exact ⟨⟨_, _, rfl, rfl, fun _ => ⟨1000, rfl, by decide⟩⟩, rfl⟩

/-- After this history a regrid succeeds with the values of the weights. -/
example (P : Py) : ∃ y, (regridArray (world P) (fun _ => 50) inventory ⟨[2], [10, 20]⟩ (orca (some shape)) (orca (some shape)) "nn".toList
      (pipeRun (world P) (fun _ => 50) inventory history)).1 = .ok (y, orca (some shape)) ∧ y.elem [1, 0] = some 20 := by
  obtain ⟨y, hy⟩ := C82_succeeds (world P) (world_sane P) (fun _ => 50) inventory (clean P) _ (history_usable P) history_valid
    ⟨[2], [10, 20]⟩ (orca (some shape)) (orca (some shape)) (usable P) (usable P) "nn".toList _ _ entry demo [3, 1]
    (orca_fromDict P _) (orca_fromDict P _) (answers P) rfl rfl rfl rfl
  refine ⟨y, hy, ?_⟩
  have hd := (dbFind_same (world P) (world_sane P) (fun _ => 50) inventory (clean P) history (history_usable P) history_valid _ _
    (usable P) (usable P) "nn".toList).trans ((findPlain_some (world P) inventory _ _ "nn".toList demo [3, 1]).2
      ⟨_, _, entry, orca_fromDict P _, orca_fromDict P _, answers P, rfl, rfl⟩)
  rw [regridArray_res, hd] at hy
  obtain ⟨_, _, _, rfl⟩ := (apply_ok _ _ _ _ _ _).1 hy
  simp [Arr.elem, offset, demo, Csr.dot, Csr.row, Csr.ptr, List.range, List.range.loop]

/-- `C82_history_irrelevant`: after the history, or first thing. -/
example (P : Py) (x : Arr ℚ) (m : List Char) :
    (regridArray (world P) (fun _ => 50) inventory x (orca (some shape)) (orca (some shape)) m (pipeRun (world P) (fun _ => 50) inventory history)).1 =
      (regridArray (world P) (fun _ => 50) inventory x (orca (some shape)) (orca (some shape)) m (pipeRun (world P) (fun _ => 50) inventory [])).1 :=
  C82_history_irrelevant (world P) (world_sane P) (fun _ => 50) inventory (clean P) history [] (history_usable P) (by simp [HistoryUsable])
    history_valid (by simp [HistoryValid]) x _ _ (usable P) (usable P) m

/-- `C82_values` on the regrid above: the grid is the one asked for. -/
example (P : Py) : ∃ y g, (regridArray (world P) (fun _ => 50) inventory ⟨[2], [10, 20]⟩ (orca (some shape)) (orca (some shape)) "nn".toList
      (pipeRun (world P) (fun _ => 50) inventory history)).1 = .ok (y, g) ∧ g = orca (some shape) ∧ y.Proper := by
  obtain ⟨y, hy⟩ := C82_succeeds (world P) (world_sane P) (fun _ => 50) inventory (clean P) _ (history_usable P) history_valid
    ⟨[2], [10, 20]⟩ (orca (some shape)) (orca (some shape)) (usable P) (usable P) "nn".toList _ _ entry demo [3, 1]
    (orca_fromDict P _) (orca_fromDict P _) (answers P) rfl rfl rfl rfl
  obtain ⟨gi, go, e, z, sh, -, -, -, -, -, hg, -, hp, -⟩ := C82_values (world P) (world_sane P) (fun _ => 50) inventory (clean P)
    (by intro e z h; cases h; exact demo_wf) history (history_usable P) _ _ _ (usable P) (usable P) _ _ _ hy
  exact ⟨y, _, hy, hg, hp⟩

/-- `C83_fields`: a field with no grid in its metadata, the user giving it. -/
example (P : Py) (md : Nat) (s : PCache ℚ) :
    interpolateList P (matrixInterpolate (dbFind (world P) (fun _ => 50) inventory)) "nn".toList (some (orca (some shape))) (some (orca (some shape)))
      [⟨⟨[2], [10, 20]⟩, .ok none, .grib md, md⟩] s =
    regridList P (matrixBackend (dbFind (world P) (fun _ => 50) inventory)) (some (orca (some shape))) ⟨"nn".toList, []⟩
      [⟨⟨[2], [10, 20]⟩, .ok (some (orca (some shape))), .grib md, md⟩] s :=
  C83_fields P (dbFind (world P) (fun _ => 50) inventory) "nn".toList (some (orca (some shape))) (orca (some shape))
    [⟨⟨[2], [10, 20]⟩, .ok none, .grib md, md⟩] s

end Demo

end Verif.Regrid

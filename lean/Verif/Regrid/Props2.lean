import Verif.Regrid.Props
import Verif.GridSpec.Props

/-! # C48: field lists are regridded field by field -/

namespace Verif.Regrid
open Verif.GridSpec

variable {A B S : Type}

/-- What a backend does with a field does not depend on its state, and the grid it returns is the grid asked for. -/
structure Functional (b : Backend A B S) (kw : Kw) : Prop where
  array : ∀ v gi go s s', (b.regrid v gi go kw s).1 = (b.regrid v gi go kw s').1
  echo : ∀ v gi go s r g, (b.regrid v gi go kw s).1 = .ok (r, g) → g = go
  grib : ∀ rg, b.regridGrib = some rg → ∀ m g s s', (rg m g kw s).1 = (rg m g kw s').1

/-- One step of a loop over fields: the result for a field, or an exception. -/
abbrev Step (A B S : Type) := Fld A B → S → Except Err (OutFld A B) × S

/-- Fields one after the other, stopping at the first exception. -/
def inOrder (step : Step A B S) : List (Fld A B) → S → Except Err (List (OutFld A B)) × S
  | [], s => (.ok [], s)
  | f :: fs, s =>
    match step f s with
    | (.error e, s) => (.error e, s)
    | (.ok x, s) =>
      match inOrder step fs s with
      | (.error e, s) => (.error e, s)
      | (.ok r, s) => (.ok (x :: r), s)

/-- The grid description of a field: what its metadata gives; it is a `ValueError` if there is none. -/
def gridOf (f : Fld A B) : Except Err Dict := f.gridspec.bind (fun g => g.elim (.error .value) .ok)

theorem inputGridspec_eq (f : Fld A B) : inputGridspec f = gridOf f := by
  unfold inputGridspec gridOf
  cases f.gridspec with
  | error e => rfl
  | ok g => cases g <;> rfl

def arrayStep (b : Backend A B S) (kw : Kw) (go : Dict) : Step A B S := fun f s =>
  match gridOf f with
  | .error e => (.error e, s)
  | .ok g =>
    match b.regrid f.values g go kw s with
    | (.error e, s) => (.error e, s)
    | (.ok (v, g'), s) => (.ok (.array v f.md g'), s)

def messageOf (f : Fld A B) : Except Err B :=
  match f.message with
  | .grib m => .ok m
  | .encoded m => m
  | .unsupported => .error .value

def gribStep (rg : B → Dict → Kw → S → Except Err B × S) (kw : Kw) (go : Dict) : Step A B S := fun f s =>
  match messageOf f with
  | .error e => (.error e, s)
  | .ok m =>
    match rg m go kw s with
    | (.error e, s) => (.error e, s)
    | (.ok r, s) => (.ok (.message r), s)

theorem arrayLoop_eq (b : Backend A B S) (kw : Kw) (h : Functional b kw) (go : Dict) : ∀ (fs : List (Fld A B)) (s : S),
    arrayLoop b kw fs go s = inOrder (arrayStep b kw go) fs s := by
  intro fs
  induction fs with
  | nil => intro s; rfl
  | cons f fs ih =>
    intro s
    simp only [arrayLoop, inOrder, arrayStep, inputGridspec_eq]
    cases gridOf f with
    | error e => rfl
    | ok g =>
      have he := h.echo f.values g go s
      simp only
      generalize b.regrid f.values g go kw s = y at *
      obtain ⟨y, s'⟩ := y
      cases y with
      | error e => rfl
      | ok y =>
        obtain ⟨v, g'⟩ := y
        have := he v g' rfl
        subst this
        simp only [ih]
        rfl

theorem gribLoop_eq (rg : B → Dict → Kw → S → Except Err B × S) (kw : Kw) (go : Dict) : ∀ (fs : List (Fld A B)) (s : S),
    gribLoop rg go kw fs s = inOrder (gribStep rg kw go) fs s := by
  intro fs
  induction fs with
  | nil => intro s; rfl
  | cons f fs ih =>
    intro s
    simp only [gribLoop, inOrder, gribStep]
    show (match messageOf f with | .error e => _ | .ok m => _) = _
    cases messageOf f with
    | error e => rfl
    | ok m =>
      simp only
      generalize rg m go kw s = y at *
      obtain ⟨y, s'⟩ := y
      cases y with
      | error e => rfl
      | ok y => simp only [ih]; rfl

/-- The target grid is accepted, with the step made for each field. -/
inductive Accepted (P : Py) (b : Backend A B S) (kw : Kw) (grid : Option Dict) (step : Step A B S) : Prop
  | grib (g : Dict) (rg : B → Dict → Kw → S → Except Err B × S) : grid = some g → b.regridGrib = some rg → step = gribStep rg kw g →
      Accepted P b kw grid step
  | array (g : Dict) (gs : GS) : grid = some g → b.regridGrib = none → fromDict P g = .ok gs → gs.kind = .ll →
      step = arrayStep b kw gs.d → Accepted P b kw grid step

theorem regridList_cases (P : Py) (b : Backend A B S) (grid : Option Dict) (kw : Kw) (h : Functional b kw) :
    (∃ step, Accepted P b kw grid step ∧ ∀ (fs : List (Fld A B)) s, regridList P b grid kw fs s = inOrder step fs s) ∨
      ∃ e, ∀ (fs : List (Fld A B)) s, regridList P b grid kw fs s = (.error e, s) := by
  cases grid with
  | none => exact .inr ⟨.value, fun _ _ => rfl⟩
  | some g =>
    cases hg : b.regridGrib with
    | some rg =>
      refine .inl ⟨_, .grib g rg rfl hg rfl, ?_⟩
      intro fs s
      simp only [regridList, hg, gribLoop_eq]
    | none =>
      cases hf : fromDict P g with
      | error e => exact .inr ⟨ofSpec e, fun fs s => by simp only [regridList, hg, hf]⟩
      | ok gs =>
        by_cases hk : gs.kind = .ll
        · refine .inl ⟨_, .array g gs rfl hg hf hk rfl, ?_⟩
          intro fs s
          simp only [regridList, hg, hf, if_pos hk, arrayLoop_eq b kw h]
        · exact .inr ⟨.value, fun fs s => by simp only [regridList, hg, hf, if_neg hk]⟩

theorem step_pure (P : Py) (b : Backend A B S) (grid : Option Dict) (kw : Kw) (h : Functional b kw) (step : Step A B S)
    (ha : Accepted P b kw grid step) (f : Fld A B) (s s' : S) : (step f s).1 = (step f s').1 := by
  cases ha with
  | grib g rg h1 h2 h3 =>
    subst h3
    unfold gribStep
    cases messageOf f with
    | error e => rfl
    | ok m =>
      have := h.grib rg h2 m g s s'
      simp only
      generalize rg m g kw s = y at *
      generalize rg m g kw s' = y' at *
      obtain ⟨y, t⟩ := y
      obtain ⟨y', t'⟩ := y'
      simp only at this
      subst this
      cases y <;> rfl
  | array g gs h1 h2 h3 h4 h5 =>
    subst h5
    unfold arrayStep
    cases gridOf f with
    | error e => rfl
    | ok gi =>
      have := h.array f.values gi gs.d s s'
      simp only
      generalize b.regrid f.values gi gs.d kw s = y at *
      generalize b.regrid f.values gi gs.d kw s' = y' at *
      obtain ⟨y, t⟩ := y
      obtain ⟨y', t'⟩ := y'
      simp only at this
      subst this
      cases y <;> rfl

theorem regridField_step (P : Py) (b : Backend A B S) (grid : Option Dict) (kw : Kw) (step : Step A B S)
    (hl : ∀ (fs : List (Fld A B)) s, regridList P b grid kw fs s = inOrder step fs s) (f : Fld A B) (s : S) :
    regridField P b grid kw f s = step f s := by
  unfold regridField
  rw [hl]
  simp only [inOrder]
  generalize step f s = y
  obtain ⟨y, t⟩ := y
  cases y <;> rfl

theorem inOrder_ok (step : Step A B S) (hp : ∀ f s s', (step f s).1 = (step f s').1) (s0 : S) : ∀ (fs : List (Fld A B)) (s : S)
    (r : List (OutFld A B)), (inOrder step fs s).1 = .ok r ↔ List.Forall₂ (fun f x => (step f s0).1 = .ok x) fs r := by
  intro fs
  induction fs with
  | nil =>
    intro s r
    constructor
    · intro h; cases h; exact .nil
    · intro h; cases h; rfl
  | cons f fs ih =>
    intro s r
    simp only [inOrder]
    have h1 := hp f s s0
    generalize step f s = y at *
    obtain ⟨y, t⟩ := y
    cases y with
    | error e =>
      constructor
      · intro h; cases h
      · intro h; cases h with
        | cons a b => rw [← h1] at a; cases a
    | ok x =>
      have ih' := ih t
      simp only
      generalize inOrder step fs t = z at *
      obtain ⟨z, t'⟩ := z
      cases z with
      | error e =>
        constructor
        · intro h; cases h
        · intro h; cases h with
          | cons a b => exact absurd ((ih' _).2 b) (by simp)
      | ok q =>
        constructor
        · intro h; cases h; exact .cons h1.symm ((ih' q).1 rfl)
        · intro h; cases h with
          | cons a b =>
            rw [← h1] at a
            cases a
            have := (ih' _).2 b
            cases this
            rfl

theorem inOrder_error (step : Step A B S) (hp : ∀ f s s', (step f s).1 = (step f s').1) (s0 : S) : ∀ (fs : List (Fld A B)) (s : S)
    (e : Err), (inOrder step fs s).1 = .error e ↔
      ∃ pre f post, fs = pre ++ f :: post ∧ (step f s0).1 = .error e ∧ ∀ f' ∈ pre, ∃ x, (step f' s0).1 = .ok x := by
  intro fs
  induction fs with
  | nil =>
    intro s e
    constructor
    · intro h; cases h
    · rintro ⟨pre, f, post, h, _⟩; cases pre <;> cases h
  | cons f fs ih =>
    intro s e
    simp only [inOrder]
    have h1 := hp f s s0
    generalize step f s = y at *
    obtain ⟨y, t⟩ := y
    cases y with
    | error e' =>
      constructor
      · intro h; cases h; exact ⟨[], f, fs, rfl, h1.symm, fun f' hf => (by cases hf)⟩
      · rintro ⟨pre, g, post, h, h2, h3⟩
        cases pre with
        | nil => cases h; rw [← h1] at h2; cases h2; rfl
        | cons p pre =>
          cases h
          obtain ⟨x, hx⟩ := h3 f (by simp)
          rw [← h1] at hx; cases hx
    | ok x =>
      have ih' := ih t
      simp only
      generalize inOrder step fs t = z at *
      obtain ⟨z, t'⟩ := z
      cases z with
      | error e' =>
        constructor
        · intro h
          obtain ⟨pre, g, post, h, h2, h3⟩ := (ih' e).1 (by cases h; rfl)
          refine ⟨f :: pre, g, post, by rw [h]; rfl, h2, ?_⟩
          intro f' hf
          rcases List.mem_cons.1 hf with rfl | hf
          · exact ⟨x, h1.symm⟩
          · exact h3 f' hf
        · rintro ⟨pre, g, post, h, h2, h3⟩
          cases pre with
          | nil => cases h; rw [← h1] at h2; cases h2
          | cons p pre =>
            cases h
            have := (ih' e).2 ⟨pre, g, post, rfl, h2, fun f' hf => h3 f' (List.mem_cons_of_mem _ hf)⟩
            cases this; rfl
      | ok q =>
        constructor
        · intro h; cases h
        · rintro ⟨pre, g, post, h, h2, h3⟩
          cases pre with
          | nil => cases h; rw [← h1] at h2; cases h2
          | cons p pre =>
            cases h
            have := (ih' e).2 ⟨pre, g, post, rfl, h2, fun f' hf => h3 f' (List.mem_cons_of_mem _ hf)⟩
            cases this

/-- C48: a list of fields is regridded exactly when each of them alone can be, and the i-th result is that of the i-th field
alone, whatever the backend did before. -/
theorem C48_fields (P : Py) (b : Backend A B S) (grid : Option Dict) (kw : Kw) (h : Functional b kw) (fs : List (Fld A B)) (hne : fs ≠ [])
    (s s0 : S) (r : List (OutFld A B)) :
    (regridList P b grid kw fs s).1 = .ok r ↔ List.Forall₂ (fun f x => (regridField P b grid kw f s0).1 = .ok x) fs r := by
  rcases regridList_cases P b grid kw h with ⟨step, ha, hl⟩ | ⟨e, hl⟩
  · rw [hl, inOrder_ok step (step_pure P b grid kw h step ha) s0]
    simp only [regridField_step P b grid kw step hl]
  · rw [hl]
    constructor
    · intro h; cases h
    · intro h
      cases h with
      | nil => exact absurd rfl hne
      | cons a b => unfold regridField at a; rw [hl] at a; cases a

/-- C48: the result has as many fields as the input. -/
theorem C48_length (P : Py) (b : Backend A B S) (grid : Option Dict) (kw : Kw) (h : Functional b kw) (fs : List (Fld A B)) (s : S)
    (r : List (OutFld A B)) (hr : (regridList P b grid kw fs s).1 = .ok r) : r.length = fs.length := by
  rcases regridList_cases P b grid kw h with ⟨step, ha, hl⟩ | ⟨e, hl⟩
  · rw [hl, inOrder_ok step (step_pure P b grid kw h step ha) s] at hr
    exact hr.length_eq.symm
  · rw [hl] at hr; cases hr

/-- C48: a failure is that of the first field that cannot be regridded. -/
theorem C48_fails (P : Py) (b : Backend A B S) (grid : Option Dict) (kw : Kw) (h : Functional b kw) (fs : List (Fld A B)) (hne : fs ≠ [])
    (s s0 : S) (e : Err) : (regridList P b grid kw fs s).1 = .error e ↔
      ∃ pre f post, fs = pre ++ f :: post ∧ (regridField P b grid kw f s0).1 = .error e ∧
        ∀ f' ∈ pre, ∃ x, (regridField P b grid kw f' s0).1 = .ok x := by
  rcases regridList_cases P b grid kw h with ⟨step, ha, hl⟩ | ⟨e', hl⟩
  · rw [hl, inOrder_error step (step_pure P b grid kw h step ha) s0]
    simp only [regridField_step P b grid kw step hl]
  · have hf : ∀ f s, (regridField P b grid kw f s).1 = .error e' := by intro f s; unfold regridField; rw [hl]
    rw [hl]
    constructor
    · intro h
      cases h
      cases fs with
      | nil => exact absurd rfl hne
      | cons f fs => exact ⟨[], f, fs, rfl, hf _ _, fun f' hf => (by cases hf)⟩
    · rintro ⟨pre, f, post, _, h2, _⟩
      rw [hf] at h2; cases h2; rfl

/-- C48: without a target, or when the backend works on values and the target is not a supported regular grid, nothing is processed. -/
theorem C48_target_refused (P : Py) (b : Backend A B S) (grid : Option Dict) (kw : Kw) (fs : List (Fld A B)) (s : S)
    (h : grid = none ∨ b.regridGrib = none ∧ ∀ g gs, grid = some g → fromDict P g = .ok gs → gs.kind ≠ .ll) :
    ∃ e, regridList P b grid kw fs s = (.error e, s) := by
  cases grid with
  | none => exact ⟨.value, rfl⟩
  | some g =>
    rcases h with h | ⟨h1, h2⟩
    · cases h
    · simp only [regridList, h1]
      cases hf : fromDict P g with
      | error e => exact ⟨_, rfl⟩
      | ok gs => simp only [if_neg (h2 g gs rfl hf)]; exact ⟨_, rfl⟩

/-- C48: a field with values gives a field with the backend's values, its own metadata and the requested grid. -/
theorem C48_array_content (P : Py) (b : Backend A B S) (hb : b.regridGrib = none) (g : Dict) (kw : Kw) (h : Functional b kw) (f : Fld A B)
    (s : S) (x : OutFld A B) : (regridField P b (some g) kw f s).1 = .ok x ↔
      ∃ gs gi v, fromDict P g = .ok gs ∧ gs.kind = .ll ∧ f.gridspec = .ok (some gi) ∧
        (b.regrid f.values gi gs.d kw s).1 = .ok (v, gs.d) ∧ x = .array v f.md gs.d := by
  have key : regridField P b (some g) kw f s =
      (match fromDict P g with
      | .error e => (.error (ofSpec e), s)
      | .ok gs => if gs.kind = .ll then arrayStep b kw gs.d f s else (.error .value, s)) := by
    cases hf : fromDict P g with
    | error e => simp only [regridField, regridList, hb, hf]
    | ok gs =>
      by_cases hk : gs.kind = .ll
      · simp only [regridField, regridList, hb, hf, if_pos hk, arrayLoop_eq b kw h, inOrder]
        generalize arrayStep b kw gs.d f s = y
        obtain ⟨y, t⟩ := y
        cases y <;> rfl
      · simp only [regridField, regridList, hb, hf, if_neg hk]
  rw [key]
  cases hf : fromDict P g with
  | error e =>
    constructor
    · intro h; cases h
    · rintro ⟨gs, gi, v, h1, _⟩; cases h1
  | ok gs =>
    by_cases hk : gs.kind = .ll
    · simp only [if_pos hk, arrayStep, ← inputGridspec_eq, inputGridspec]
      cases hg : f.gridspec with
      | error e =>
        constructor
        · intro h; cases h
        · rintro ⟨gs, gi, v, _, _, h1, _⟩; cases h1
      | ok o =>
        cases o with
        | none =>
          constructor
          · intro h; cases h
          · rintro ⟨gs, gi, v, _, _, h1, _⟩; cases h1
        | some gi =>
          have he := h.echo f.values gi gs.d s
          simp only
          cases hy : b.regrid f.values gi gs.d kw s with
          | mk y t =>
            rw [hy] at he
            cases y with
            | error e =>
              constructor
              · intro h; cases h
              · rintro ⟨gs', gi', v, h1, _, h3, h4, _⟩
                cases h1; cases h3; rw [hy] at h4; cases h4
            | ok y =>
              obtain ⟨v, g'⟩ := y
              have := he v g' rfl
              subst this
              constructor
              · intro h; cases h; exact ⟨gs, gi, v, rfl, hk, rfl, by rw [hy], rfl⟩
              · rintro ⟨gs', gi', v', h1, _, h3, h4, h5⟩
                cases h1; cases h3; rw [hy] at h4; cases h4; rw [h5]
    · simp only [if_neg hk]
      constructor
      · intro h; cases h
      · rintro ⟨gs', gi, v, h1, h2, _⟩; cases h1; exact absurd h2 hk

/-- C48: the precomputed backend is such a backend when its lookups do not depend on earlier ones. -/
theorem C48_precomputed {α : Type} [Zero α] [Add α] [Mul α] (find : Dict → Dict → List Char → S → Except Err (Option (Csr α × List Nat)) × S)
    (kw : Kw) (hf : ∀ gi go m s s', (find gi go m s).1 = (find gi go m s').1) : Functional (matrixBackend (B := B) find) kw where
  array := by
    intro v gi go s s'
    have h := hf gi go kw.interpolation s s'
    by_cases hk : kw.extra ≠ []
    · simp only [matrixBackend, if_pos hk]
    · simp only [matrixBackend, if_neg hk]
      generalize find gi go kw.interpolation s = y at *
      generalize find gi go kw.interpolation s' = y' at *
      obtain ⟨y, t⟩ := y
      obtain ⟨y', t'⟩ := y'
      simp only at h
      subst h
      cases y <;> rfl
  echo := by
    intro v gi go s r g h
    by_cases hk : kw.extra ≠ []
    · simp only [matrixBackend, if_pos hk] at h; cases h
    · simp only [matrixBackend, if_neg hk] at h
      generalize find gi go kw.interpolation s = y at *
      obtain ⟨y, t⟩ := y
      cases y with
      | error e => cases h
      | ok w =>
        cases w with
        | none => cases h
        | some w =>
          simp only [applyWeights, bind, Except.bind, Csr.mul, Arr.reshape] at h
          by_cases h1 : v.flat.length = w.1.cols
          · simp only [if_pos h1] at h
            split at h
            · cases h
            · cases h; rfl
          · simp only [if_neg h1] at h; cases h
  grib := by intro rg h; cases h

/-! ### Examples -/

/-- A backend for messages that fails on message 0 and counts its calls; one for arrays that adds one. -/
def tenfold : Backend Nat Nat Nat := ⟨fun _ _ _ _ s => (.error .other, s), some fun m _ _ s => (if m = 0 then .error .value else .ok (10 * m), s + 1)⟩
def plusOne : Backend Nat Nat Nat := ⟨fun v _ go _ s => (.ok (v + 1, go), s + 1), none⟩

theorem tenfold_functional (kw : Kw) : Functional tenfold kw where
  array := fun _ _ _ _ _ => rfl
  echo := by intro v gi go s r g h; cases h
  grib := by intro rg h m g s s'; cases h; rfl

theorem plusOne_functional (kw : Kw) : Functional plusOne kw where
  array := fun _ _ _ _ _ => rfl
  echo := by intro v gi go s r g h; cases h; rfl
  grib := by intro rg h; cases h

/-- A field that is message `m`, without a gridspec. -/
def msg (m : Nat) : Fld Nat Nat := ⟨0, .ok none, .grib m, m⟩

/-- `C48_fields`, `C48_length`: two messages. -/
example (P : Py) (g : Dict) (kw : Kw) (s s0 : Nat) :
    List.Forall₂ (fun f x => (regridField P tenfold (some g) kw f s0).1 = .ok x) [msg 3, msg 4] [.message 30, .message 40] ∧
    [OutFld.message (A := Nat) 30, .message 40].length = [msg 3, msg 4].length :=
  ⟨(C48_fields P tenfold (some g) kw (tenfold_functional kw) [msg 3, msg 4] (by simp) s s0 _).1 rfl,
    C48_length P tenfold (some g) kw (tenfold_functional kw) [msg 3, msg 4] s _ rfl⟩

/-- `C48_fails`: the second message cannot be regridded. -/
example (P : Py) (g : Dict) (kw : Kw) (s : Nat) : (regridList P tenfold (some g) kw [msg 3, msg 0, msg 4] s).1 = .error .value :=
  (C48_fails P tenfold (some g) kw (tenfold_functional kw) [msg 3, msg 0, msg 4] (by simp) s 7 .value).2
    ⟨[msg 3], msg 0, [msg 4], rfl, rfl, by intro f hf; rw [List.mem_singleton.1 hf]; exact ⟨_, rfl⟩⟩

/-- `C48_target_refused`: no grid. -/
example (P : Py) (kw : Kw) (s : Nat) : ∃ e, regridList P plusOne none kw [msg 3] s = (.error e, s) :=
  C48_target_refused P plusOne none kw [msg 3] s (.inl rfl)

/-- `C48_array_content`: values on the one-degree grid. -/
example (P : Py) (gi : Dict) (kw : Kw) : ∃ g gs, fromDict P g = .ok gs ∧
    (regridField P plusOne (some g) kw ⟨41, .ok (some gi), .unsupported, 5⟩ 0).1 = .ok (.array 42 5 gs.d) := by
  obtain ⟨gs, h, hk, -⟩ := fromDict_full P (.int 1) (.int 1) (.list [.int 181, .int 360]) (.int 90) (.int 0) (.int (-90)) (.int 359)
  exact ⟨_, gs, h, (C48_array_content P plusOne rfl _ kw (plusOne_functional kw) _ 0 _).2 ⟨gs, gi, 42, h, hk, rfl, rfl, rfl⟩⟩

/-- `C48_precomputed`: a search that counts. -/
example (kw : Kw) : Functional (matrixBackend (α := ℚ) (B := Nat) (fun _ _ _ (s : Nat) => (.ok (some (demo, [3, 1])), s + 1))) kw :=
  C48_precomputed _ kw (fun _ _ _ _ _ => rfl)

end Verif.Regrid

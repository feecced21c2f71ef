import Verif.Regrid.PlainDouble
import Verif.Regrid.Props2

/-!
# Field lists, from the index file and the fields to the values (C136)

C48 and C135 put together: `regrid(fieldlist, grid=…, interpolation=…, backend="precomputed")` in doubles, at any point of any history. The
in-memory cache changes from field to field.
-/

namespace Verif.Regrid
open Verif.GridSpec Verif.Index Finset

/-! ## Specification -/

/-- What becomes of one field: `g` the target as given, `n` the published name of the method. -/
inductive FieldOutcome (P : Py) (es : List (String × Raw)) (weights : String × Raw → Except Err (Csr (Fp double))) (g : Dict) (n : List Char)
    {B : Type} (f : Fld (Arr (Fp double)) B) : Except Err (OutFld (Arr (Fp double)) B) → Prop
  /-- its grid cannot be told -/
  | raises (e : Err) (hf : f.gridspec = .error e) : FieldOutcome P es weights g n f (.error e)
  | unknown (hf : f.gridspec = .ok none) : FieldOutcome P es weights g n f (.error .value)
  /-- it cannot be regridded -/
  | failed (di : Dict) (e : Err) (hf : f.gridspec = .ok (some di)) (ho : OutcomeD P es weights f.values di g n (.error e)) :
      FieldOutcome P es weights g n f (.error e)
  /-- a field of the new values, with its own metadata and the target -/
  | made (di : Dict) (y : Arr (Fp double)) (gs : GS) (hf : f.gridspec = .ok (some di)) (ho : OutcomeD P es weights f.values di g n (.ok (y, g)))
      (hg : fromDict P g = .ok gs) : FieldOutcome P es weights g n f (.ok (.array y f.md gs.d))

/-- What becomes of a list: one field after the other, up to the first that fails. -/
inductive FieldsOutcome (P : Py) (es : List (String × Raw)) (weights : String × Raw → Except Err (Csr (Fp double))) (g : Dict) (n : List Char)
    {B : Type} : List (Fld (Arr (Fp double)) B) → Except Err (List (OutFld (Arr (Fp double)) B)) → Prop
  | nil : FieldsOutcome P es weights g n [] (.ok [])
  | stops (f : Fld (Arr (Fp double)) B) (fs : List (Fld (Arr (Fp double)) B)) (e : Err) (h : FieldOutcome P es weights g n f (.error e)) :
      FieldsOutcome P es weights g n (f :: fs) (.error e)
  | fails (f : Fld (Arr (Fp double)) B) (fs : List (Fld (Arr (Fp double)) B)) (x : OutFld (Arr (Fp double)) B) (e : Err)
      (h : FieldOutcome P es weights g n f (.ok x)) (hs : FieldsOutcome P es weights g n fs (.error e)) : FieldsOutcome P es weights g n (f :: fs) (.error e)
  | next (f : Fld (Arr (Fp double)) B) (fs : List (Fld (Arr (Fp double)) B)) (x : OutFld (Arr (Fp double)) B) (r : List (OutFld (Arr (Fp double)) B))
      (h : FieldOutcome P es weights g n f (.ok x)) (hs : FieldsOutcome P es weights g n fs (.ok r)) : FieldsOutcome P es weights g n (f :: fs) (.ok (x :: r))

/-- Only global or limited regular lat-lon targets are served. -/
inductive ListOutcome (P : Py) (es : List (String × Raw)) (weights : String × Raw → Except Err (Csr (Fp double))) (g : Dict) (n : List Char)
    {B : Type} (fs : List (Fld (Arr (Fp double)) B)) : Except Err (List (OutFld (Arr (Fp double)) B)) → Prop
  | unsupported (h : ¬IsKind P g .ll) : ListOutcome P es weights g n fs (.error .value)
  | fields (h : IsKind P g .ll) (r : Except Err (List (OutFld (Arr (Fp double)) B))) (hr : FieldsOutcome P es weights g n fs r) : ListOutcome P es weights g n fs r

/-! ## C136 -/

theorem filled_usable (w : World) (g : Dict) (u : Usable w g) (gs : GS) (h : fromDict w.P g = .ok gs) : Usable w gs.d := by
  refine ⟨fun k v hv => .inl (fromDict_plain w.P g u.1 gs h k v hv), fun gs' h' => ?_⟩
  rw [C31_idempotent _ _ _ h] at h'
  cases h'
  exact u.2 gs h

/-- The outcome of a regrid to the filled target, on the target as given. -/
theorem applied_outcome {P : Py} {es : List (String × Raw)} {weights : String × Raw → Except Err (Csr (Fp double))}
    (hwf : ∀ r z, weights r = .ok z → z.WF) {x : Arr (Fp double)} {di dO : Dict} {n : List Char} {g : Dict} {res : Except Err (Arr (Fp double) × Dict)}
    (h : Applied P es weights x di dO n g res) :
    (∃ e, res = .error e ∧ OutcomeD P es weights x di dO n (.error e)) ∨ ∃ y, res = .ok (y, g) ∧ OutcomeD P es weights x di dO n (.ok (y, dO)) := by
  cases h with
  | unavailable hf => exact .inl ⟨_, rfl, .unavailable hf⟩
  | unreadable r err hf hz => exact .inl ⟨_, rfl, .unreadable r err hf hz⟩
  | applied r z shape hfirst hz hshape =>
    by_cases hfit : x.flat.length = z.cols ∧ shape.prod = z.rows
    · obtain ⟨h1, h2⟩ := hfit
      have hr := (apply_ok' z shape x g g _).2 ⟨h1, h2, rfl, rfl⟩
      exact .inr ⟨_, hr, .values _ z shape _ hfirst hz hshape h1 h2 rfl (by simp [Arr.Proper, h2])
        (fun idx hi => pointD z (hwf _ z hz) shape x g g _ hr idx hi)⟩
    · exact .inl ⟨_, mismatch z shape x g (Classical.not_and_iff_not_or_not.1 hfit), .unfitting _ z shape hfirst hz hshape
        (Classical.not_and_iff_not_or_not.1 hfit)⟩

theorem loop_outcome {B : Type} (w : World) (sizeFn : Csr (Fp double) → Nat) (inv : Inventory (Fp double)) (es : List (String × Raw))
    (weights : String × Raw → Except Err (Csr (Fp double))) (hwf : ∀ r z, weights r = .ok z → z.WF) (g : Dict) (gs : GS) (ug : Usable w gs.d)
    (hg : fromDict w.P g = .ok gs) (m n : List Char)
    (hall : ∀ (h : List (PipeOp (Fp double))), HistoryUsable w h → HistoryValid h → ∀ (x : Arr (Fp double)) (di : Dict),
      GridSpec.Plain w.P di → Usable w di →
      Applied w.P es weights x di g n gs.d (regridArray w sizeFn inv x di gs.d m (pipeRun w sizeFn inv h)).1) :
    ∀ (fs : List (Fld (Arr (Fp double)) B)) (h : List (PipeOp (Fp double))), HistoryUsable w h → HistoryValid h →
      (∀ f ∈ fs, ∀ di, f.gridspec = .ok (some di) → GridSpec.Plain w.P di ∧ Usable w di) →
      FieldsOutcome w.P es weights g n fs (arrayLoop (matrixBackend (dbFind w sizeFn inv)) ⟨m, []⟩ fs gs.d (pipeRun w sizeFn inv h)).1
  | [], _, _, _, _ => .nil
  | f :: fs, h, hh, hv, hp => by
    unfold arrayLoop inputGridspec
    cases hd : f.gridspec with
    | error e => exact .stops f fs e (.raises e hd)
    | ok o =>
      cases o with
      | none => exact .stops f fs _ (.unknown hd)
      | some di =>
        obtain ⟨pi, ui⟩ := hp f (by simp) di hd
        have hone := applied_outcome hwf (hall h hh hv f.values di pi ui)
        have hstate : (regridArray w sizeFn inv f.values di gs.d m (pipeRun w sizeFn inv h)).2 =
            pipeRun w sizeFn inv (h ++ [.regrid f.values di gs.d m]) := by
          unfold pipeRun
          rw [List.foldl_append]
          rfl
        have hsame : (matrixBackend (B := B) (dbFind w sizeFn inv)).regrid f.values di gs.d ⟨m, []⟩ (pipeRun w sizeFn inv h) =
            regridArray w sizeFn inv f.values di gs.d m (pipeRun w sizeFn inv h) := rfl
        simp only [hsame]
        generalize hx : regridArray w sizeFn inv f.values di gs.d m (pipeRun w sizeFn inv h) = x at hone hstate
        obtain ⟨res, s⟩ := x
        change s = _ at hstate
        rcases hone with ⟨e, he, ho⟩ | ⟨y, hy, ho⟩
        · change res = _ at he
          subst he
          exact .stops f fs e (.failed di e hd ho)
        · change res = _ at hy
          subst hy
          have hrest := loop_outcome w sizeFn inv es weights hwf g gs ug hg m n hall fs (h ++ [.regrid f.values di gs.d m])
            (by
              intro x' di' dO' m' hm
              rcases List.mem_append.1 hm with hm | hm
              · exact hh x' di' dO' m' hm
              · simp only [List.mem_singleton, PipeOp.regrid.injEq] at hm
                obtain ⟨rfl, rfl, rfl, rfl⟩ := hm
                exact ⟨ui, ug⟩)
            (by
              intro cfg hm
              rcases List.mem_append.1 hm with hm | hm
              · exact hv cfg hm
              · simp at hm)
            (fun f' hf' => hp f' (by simp [hf']))
          rw [← hstate] at hrest
          simp only
          generalize arrayLoop (matrixBackend (dbFind w sizeFn inv)) ⟨m, []⟩ fs gs.d s = rest at hrest
          obtain ⟨rest, s'⟩ := rest
          cases rest with
          | error e => exact .fails f fs _ e (.made di y gs hd ho hg) hrest
          | ok r => exact .next f fs _ r (.made di y gs hd ho hg) hrest

/-- C136: with an index file of published entries, each with a shape, and documented grids, regridding a list of fields in doubles, at any point of
any history, comes to what the specification says. -/
theorem C136_outcome {B : Type} (w : World) (hw : w.Sane) (ho : Enumerates w.order) (sizeFn : Csr (Fp double) → Nat) (f : IndexFile)
    (es : List (String × Raw)) (hv : OneVersion f.version) (hf : f.matrix = some es) (hn : (es.map Prod.fst).Nodup)
    (hu : ∀ e ∈ es, Index.Usable w.P e.2) (hs : ∀ e ∈ es, ∃ shape, GivenShape e.2 shape)
    (weights : String × Raw → Except Err (Csr (Fp double))) (hwf : ∀ r z, weights r = .ok z → z.WF) (memory : Entry → Option Int) :
    ∃ ix, load w.P f = .ok ix ∧ ∀ (h : List (PipeOp (Fp double))), HistoryUsable w h → HistoryValid h →
      ∀ (fs : List (Fld (Arr (Fp double)) B)) (g : Dict) (m n : List Char), GridSpec.Plain w.P g → Usable w g → Published m n →
      (∀ f ∈ fs, ∀ di, f.gridspec = .ok (some di) → GridSpec.Plain w.P di ∧ Usable w di) →
      ListOutcome w.P es weights g n fs (regridList w.P (matrixBackend (dbFind w sizeFn ⟨ix, memory, fun e => weights e.shown⟩)) (some g) ⟨m, []⟩ fs
        (pipeRun w sizeFn ⟨ix, memory, fun e => weights e.shown⟩ h)).1 := by
  obtain ⟨ix, hl, hall⟩ := outcome_any w hw ho sizeFn f es hv hf hn hu hs weights memory
  refine ⟨ix, hl, fun h hh hv' fs g m n pg ug hm hp => ?_⟩
  obtain ⟨gs, hg⟩ := plain_accepted pg
  have hk := kind_iff w.P g gs hg .ll
  have ug' := filled_usable w g ug gs hg
  unfold regridList
  simp only [matrixBackend, hg]
  by_cases hll : gs.kind = .ll
  · rw [if_pos hll]
    exact .fields (hk.2 hll) _ (loop_outcome w sizeFn _ es weights hwf g gs ug' hg m n
      (fun h hh hv x di pi ui => hall h hh hv x di g m n pi pg ui hm gs.d ((C31_idempotent _ _ _ hg).trans hg.symm) ug') fs h hh hv' hp)
  · rw [if_neg hll]
    exact .unsupported (fun h => hll (hk.1 h))

/-! ## The hypotheses can be met -/

namespace Demo

theorem finite_items (d : Dict) (ks : List String) (h : ∀ k, d k ≠ none → k ∈ ks) : ∃ es, ItemsOf d es := by
  refine ⟨ks.dedup.filterMap (fun k => (d k).map (fun v => (k, v))), ?_, ?_⟩
  · have hn := ks.nodup_dedup
    generalize ks.dedup = l at hn
    induction l with
    | nil => exact List.nodup_nil
    | cons a l ih =>
      rw [List.nodup_cons] at hn
      have ih := ih hn.2
      rw [List.filterMap_cons]
      cases hd : d a with
      | none => exact ih
      | some v =>
        simp only [Option.map_some, List.map_cons, List.nodup_cons]
        refine ⟨fun hm => hn.1 ?_, ih⟩
        obtain ⟨x, hx, rfl⟩ := List.mem_map.1 hm
        obtain ⟨b, hb, hbx⟩ := List.mem_filterMap.1 hx
        cases hdb : d b with
        | none => rw [hdb] at hbx; cases hbx
        | some v => rw [hdb] at hbx; cases hbx; exact hb
  · intro k v
    rw [List.mem_filterMap]
    constructor
    · rintro ⟨b, hb, hbx⟩
      cases hdb : d b with
      | none => rw [hdb] at hbx; cases hbx
      | some v => rw [hdb] at hbx; cases hbx; exact hdb
    · intro hv
      exact ⟨k, List.mem_dedup.2 (h k (by rw [hv]; simp)), by rw [hv]; rfl⟩

/-- A dict of finitely many plain items is usable. -/
theorem usable_finite (P : Py) (d : Dict) (hp : PlainDict d) (ks : List String) (h : ∀ k, d k ≠ none → k ∈ ks) : Usable (world P) d := by
  refine ⟨hp, fun g hg => ?_⟩
  obtain ⟨es, he⟩ := finite_items g.d (ks ++ ["type", "area", "global", "order", "ordering", "i_scans_negatively", "j_points_consecutive",
    "j_scans_positively"]) (by
      intro k hk
      rw [List.mem_append]
      by_cases ht : k ∈ ["type", "area", "global", "order", "ordering", "i_scans_negatively", "j_points_consecutive", "j_scans_positively"]
      · exact .inr ht
      · left
        apply h
        intro hn
        simp only [List.mem_cons, List.not_mem_nil, or_false, not_or] at ht
        rw [asked_eq P d g hg k (by unfold Untouched; simp [ht]) ht.1] at hk
        apply hk
        unfold asked
        rw [hn]
        simp [ht])
  exact items_spec _ es he

/-- The one-degree grid with a shape. -/
def degree : Dict := fun k => if k = "shape" then some shape else oneDegree 0 359 k

theorem degree_kind (P : Py) : IsKind P degree .ll := .inferred (.inl rfl) _ rfl (.ll _ _)

theorem degree_area : AreaOf .ll degree (.list [.int 90, .int 0, .int (-90), .int 359]) :=
  AreaOf.given (k := .ll) (d := degree) (.list [.int 90, .int 0, .int (-90), .int 359]) rfl

theorem degree_box : Box .ll degree := ⟨_, _, _, _, _, _, _, _, _, degree_area, .list _, .int _, .int _, .int _, .int _⟩

theorem degree_plain (P : Py) : GridSpec.Plain P degree :=
  .ll (degree_kind P) (.int 1) (.flt 1) _ _ rfl (.int 1) (.flt 1) degree_box

theorem degree_matches (P : Py) : Matches P degree (oneDegree 0 359) := by
  refine .llSame (degree_kind P) (oneDegree_kind P _ _) ⟨⟨_, _, rfl, rfl, .numbers _ _ [1, 1] [1, 1] ?_ ?_ (.inl ?_)⟩, ?_, ?_⟩ _ _ degree_area
    (oneDegree_area _ _) ⟨_, _, .list _, .list _, ?_⟩
  · exact .cons (by simpa using Number.int 1) (.cons (.flt 1) .nil)
  · exact .cons (by simpa using Number.int 1) (.cons (.flt 1) .nil)
  · exact .cons (by norm_num [Close]) (.cons (by norm_num [Close]) .nil)
  · intro k hk
    simp only [List.mem_cons, List.not_mem_nil, or_false] at hk
    rcases hk with rfl | rfl | rfl <;> exact ⟨.int 0, .int 0, rfl, rfl, .integers _ _ _ rfl rfl (.int 0) (.int 0)⟩
  · intro a b _ h; cases h
  · exact .cons ⟨_, _, .int _, .int _, by norm_num⟩ (.cons ⟨_, _, .int _, .int _, by norm_num⟩ (.cons ⟨_, _, .int _, .int _, by norm_num⟩
      (.cons ⟨_, _, .int _, .int _, by norm_num⟩ .nil)))

theorem oneDegree_usable (P : Py) : Usable (world P) (oneDegree 0 359) := by
  refine usable_finite P _ ?_ ["grid", "area"] ?_
  · intro k v h
    unfold oneDegree at h
    split at h
    · cases h
      exact .inr ⟨_, rfl, by intro x hx; simp at hx; rcases hx with rfl | rfl <;> exact trivial⟩
    · split at h
      · cases h
        exact .inl (.inr ⟨_, rfl, by intro x hx; simp at hx; rcases hx with rfl | rfl | rfl | rfl <;> exact trivial⟩)
      · cases h
  · intro k h
    unfold oneDegree at h
    by_cases h1 : k = "grid"
    · simp [h1]
    · by_cases h2 : k = "area"
      · simp [h2]
      · simp [h1, h2] at h

/-- From an ORCA grid to the one-degree grid. -/
def toDegrees : Raw := ⟨some (orca (some shape)), some degree, some (.name "linear".toList), "mir".toList, "1".toList, 0⟩

def degreeFile : IndexFile := ⟨some (.int 1), some [("i", iconShaped), ("d", toDegrees)]⟩

theorem toDegrees_shape : GivenShape toDegrees [3, 1] := ⟨_, _, rfl, rfl, .inl rfl⟩

theorem toDegrees_first (P : Py) : First (Index.Answers P (orca (some shape)) (oneDegree 0 359) "linear".toList)
    [("i", iconShaped), ("d", toDegrees)] (some ("d", toDegrees)) := by
  refine .later _ _ _ ?_ (.here _ _ ⟨_, _, .text _ _ rfl, rfl, rfl, ?_, degree_matches P, orca_accepted P _, ⟨_, .ll, rfl, degree_kind P, fun _ => box_readable degree_box⟩⟩)
  · rintro ⟨i, o, _, hi, _, _, _, ai, _⟩
    cases hi
    exact icon_unaccepted P ai
  · exact orca_matches P _ _ (fun x y h h' => by cases h; cases h'; exact (pyEq_iff _ _).1 rfl)

/-- Two fields on the ORCA grid, the first with a missing value. -/
def twoFields : List (Fld (Arr (Fp double)) Unit) := [⟨⟨[2], [.nan, .fin (1121 / 4)]⟩, .ok (some (orca (some shape))), .unsupported, 1⟩,
  ⟨⟨[2], [.fin (1121 / 4), .inf true]⟩, .ok (some (orca (some shape))), .unsupported, 2⟩]

/-- `C136_outcome`, after a history: both fields come out, with their metadata; missing and infinite values are copied where they are alone. -/
example (P : Py) : ∃ ix, load P degreeFile = .ok ix ∧ ∃ y z d,
    (regridList (world P).P (matrixBackend (dbFind (world P) (fun _ => 50) ⟨ix, fun _ => some 100, fun _ => .ok demoD⟩)) (some (oneDegree 0 359))
      ⟨"linear".toList, []⟩ twoFields (pipeRun (world P) (fun _ => 50) ⟨ix, fun _ => some 100, fun _ => .ok demoD⟩ historyD)).1 =
      .ok [.array y 1 d, .array z 2 d] ∧ y.elem [0, 0] = some .nan ∧ z.elem [1, 0] = some (.inf true) := by
  obtain ⟨ix, hl, h⟩ := C136_outcome (B := Unit) (world P) (world_sane P) (fun _ => Iff.rfl) (fun _ => 50) degreeFile _ (.inl rfl) rfl (by decide)
    (by
      intro e he
      simp only [List.mem_cons, List.not_mem_nil, or_false] at he
      rcases he with rfl | rfl
      · exact .inr (fun h => icon_unaccepted P h.1)
      · exact .inl ⟨_, _, _, .text _ _ rfl, rfl, rfl, orca_plain P _, degree_plain P⟩)
    (by
      intro e he
      simp only [List.mem_cons, List.not_mem_nil, or_false] at he
      rcases he with rfl | rfl
      · exact ⟨[3, 1], _, _, rfl, rfl, .inl rfl⟩
      · exact ⟨_, toDegrees_shape⟩)
    (fun _ => .ok demoD) (by intro r z h; cases h; exact demoD_wf) (fun _ => some 100)
  refine ⟨ix, hl, ?_⟩
  have ho := h historyD (historyD_usable P) historyD_valid twoFields (oneDegree 0 359) "linear".toList "linear".toList (oneDegree_plain P _ _)
    (oneDegree_usable P) (.itself _ (by decide) (by decide))
    (by
      intro f hf di hd
      simp only [twoFields, List.mem_cons, List.not_mem_nil, or_false] at hf
      rcases hf with rfl | rfl <;> (cases hd; exact ⟨orca_plain P _, usable P⟩))
  have fits : ∀ (x : Arr (Fp double)) (res : Except Err (Arr (Fp double) × Dict)), x.flat.length = 2 →
      OutcomeD P [("i", iconShaped), ("d", toDegrees)] (fun _ => .ok demoD) x (orca (some shape)) (oneDegree 0 359) "linear".toList res →
      ∃ y, res = .ok (y, oneDegree 0 359) ∧ ∀ idx, Inside [3, 1] idx → ∃ v, y.elem idx = some v ∧ PointD demoD x.flat (offset [3, 1] idx) v := by
    intro x res hx ho
    cases ho with
    | unavailable hf => cases first_unique hf (toDegrees_first P)
    | unreadable r err hf hw => cases hw
    | unfitting r z sh hf hw hs hn =>
      cases first_unique hf (toDegrees_first P)
      cases hw
      cases shape_unique hs toDegrees_shape
      exact absurd hn (by rw [hx]; decide)
    | values r z sh y hf hw hs hx hz h1 h2 h3 =>
      cases first_unique hf (toDegrees_first P)
      cases hw
      cases shape_unique hs toDegrees_shape
      exact ⟨y, rfl, h3⟩
  have field : ∀ (f : Fld (Arr (Fp double)) Unit) (res : Except Err (OutFld (Arr (Fp double)) Unit)), f.values.flat.length = 2 →
      f.gridspec = .ok (some (orca (some shape))) →
      FieldOutcome P [("i", iconShaped), ("d", toDegrees)] (fun _ => .ok demoD) (oneDegree 0 359) "linear".toList f res →
      ∃ y gs, res = .ok (.array y f.md gs) ∧ (∃ s, fromDict P (oneDegree 0 359) = .ok s ∧ s.d = gs) ∧
        ∀ idx, Inside [3, 1] idx → ∃ v, y.elem idx = some v ∧ PointD demoD f.values.flat (offset [3, 1] idx) v := by
    intro f res hx hg ho
    cases ho with
    | raises e hf => rw [hg] at hf; cases hf
    | unknown hf => rw [hg] at hf; cases hf
    | failed di e hf ho =>
      rw [hg] at hf
      cases hf
      obtain ⟨y, hy, -⟩ := fits _ _ hx ho
      cases hy
    | made di y gs hf ho hgs =>
      rw [hg] at hf
      cases hf
      obtain ⟨y', hy, hp⟩ := fits _ _ hx ho
      cases hy
      exact ⟨y, _, rfl, ⟨gs, hgs, rfl⟩, hp⟩
  revert ho
  generalize (regridList (world P).P _ _ _ _ _).1 = res
  intro ho
  cases ho with
  | unsupported h => exact absurd (oneDegree_kind P _ _) h
  | fields hk r hr =>
    cases hr with
    | stops f fs e h1 => obtain ⟨y, gs, h2, -⟩ := field _ _ rfl rfl h1; cases h2
    | fails f fs x e h1 h2 =>
      cases h2 with
      | stops f fs e h3 => obtain ⟨y, gs, h4, -⟩ := field _ _ rfl rfl h3; cases h4
      | fails f fs x e h3 h4 => cases h4
    | next f fs x r h1 h2 =>
      cases h2 with
      | next f fs x' r h3 h4 =>
        cases h4
        obtain ⟨y, gs, e1, ⟨s, hs, hsd⟩, p1⟩ := field _ _ rfl rfl h1
        obtain ⟨z, gs', e2, ⟨s', hs', hsd'⟩, p2⟩ := field _ _ rfl rfl h3
        cases e1
        cases e2
        rw [hs] at hs'
        cases hs'
        subst hsd hsd'
        obtain ⟨v, g1, q1⟩ := p1 [0, 0] (.cons (by decide) (.cons (by decide) .nil))
        obtain ⟨v', g2, q2⟩ := p2 [1, 0] (.cons (by decide) (.cons (by decide) .nil))
        refine ⟨y, z, _, rfl, ?_, ?_⟩
        · rw [g1, q1.missing 0 ⟨0, by decide, rfl⟩ rfl]
        · rw [g2, q2.copied 2 (by decide) rfl trivial]
          rfl

end Demo

end Verif.Regrid

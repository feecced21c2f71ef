import Verif.Xarray.Stored
import Verif.Xarray.WeightsProps
import Verif.Regrid.FieldsDouble

/-!
# xarray data, from the index file to the values in doubles (C141)

C108 and C135 put together: the weights are looked up through the in-memory cache for every slice, the numbers are IEEE doubles.
-/

namespace Verif.Xarray
open Verif.GridSpec (Dict Py fromDict Enumerates)
open Verif.Index (Raw Entry IndexFile First OneVersion load)
open Verif.Regrid (World Inventory Csr Fp double PipeOp pipeRun HistoryUsable HistoryValid Published GivenShape PointD)

/-! ## A state that does not show -/

section
variable {G α S : Type}

theorem vectorizeS_eq (I : S → Prop) (f : MethodS G S α) (f0 : Method G α) (hf : ∀ a s, I s → (f a s).1 = f0 a ∧ I (f a s).2) (d : DA α)
    (ins : List String) (ok : List Nat → Bool) : ∀ (ls : List (List Nat)) (acc : List (List Nat × Arr α)) (sh : Option (List Nat)) (g : G) (s : S), I s →
      (vectorizeS f d ins ok ls acc sh g s).1 = vectorize f0 d ins ok ls acc sh g ∧ I (vectorizeS f d ins ok ls acc sh g s).2
  | [], _, _, _, _, hs => ⟨rfl, hs⟩
  | l :: ls, acc, sh, g, s, hs => by
    obtain ⟨h1, h2⟩ := hf (d.slice ins l) s hs
    unfold vectorizeS vectorize
    rw [← h1]
    generalize f (d.slice ins l) s = y at h2
    obtain ⟨r, s'⟩ := y
    cases r with
    | error e => exact ⟨rfl, h2⟩
    | ok r =>
      obtain ⟨a, ga⟩ := r
      simp only [bind, Except.bind]
      split
      · exact vectorizeS_eq I f f0 hf d ins ok ls _ _ _ _ h2
      · exact ⟨rfl, h2⟩

theorem applyUfuncS_eq [Zero α] (I : S → Prop) (f : MethodS G S α) (f0 : Method G α) (hf : ∀ a s, I s → (f a s).1 = f0 a ∧ I (f a s).2) (g0 : G) (d : DA α)
    (ins outs : List String) (s : S) (hs : I s) :
    (applyUfuncS f g0 d ins outs s).1 = applyUfunc f0 g0 d ins outs ∧ I (applyUfuncS f g0 d ins outs s).2 := by
  unfold applyUfuncS applyUfunc
  split
  · simp only [bind, Except.bind]
    obtain ⟨h1, h2⟩ := vectorizeS_eq I f f0 hf d ins (fits d ins outs (ins.all outs.contains && outs.all ins.contains))
      (ndindex ((d.loop ins).map Prod.snd)) [] none g0 s hs
    rw [← h1]
    generalize vectorizeS f d ins _ _ [] none g0 s = y at h2
    obtain ⟨r, s'⟩ := y
    cases r with
    | error e => exact ⟨rfl, h2⟩
    | ok r =>
      obtain ⟨acc, sh, g⟩ := r
      cases sh <;> exact ⟨rfl, h2⟩
  · exact ⟨rfl, hs⟩

theorem regridS_eq [Zero α] (I : S → Prop) (f : MethodS G S α) (f0 : Method G α) (hf : ∀ a s, I s → (f a s).1 = f0 a ∧ I (f a s).2) (grid : G → M Grid)
    (out : G) (d : DA α) (i j : Option (List String)) (s : S) (hs : I s) :
    (regridS grid f out d i j s).1 = regrid grid f0 out d i j ∧ I (regridS grid f out d i j s).2 := by
  unfold regridS regrid
  simp only [bind, Except.bind]
  cases grid out with
  | error e => exact ⟨rfl, hs⟩
  | ok geo =>
    simp only
    cases dimsOr i (inGeoDims d.names) with
    | error e => exact ⟨rfl, hs⟩
    | ok ins =>
      simp only
      cases dimsOr j (geoDims geo) with
      | error e => exact ⟨rfl, hs⟩
      | ok outs =>
        simp only
        obtain ⟨h1, h2⟩ := applyUfuncS_eq I f f0 hf out d ins outs s hs
        rw [← h1]
        generalize applyUfuncS f out d ins outs s = y at h2
        obtain ⟨r, s'⟩ := y
        cases r with
        | error e => exact ⟨rfl, h2⟩
        | ok r => exact ⟨rfl, h2⟩

end

/-! ## The inventory -/

section
variable {α : Type} [Zero α] [Add α] [Mul α]

/-- A state of the cache that a history leads to. -/
def Reached (w : World) (sizeFn : Csr α → Nat) (inv : Inventory α) (s : Cache α) : Prop :=
  ∃ h, HistoryUsable w h ∧ HistoryValid h ∧ s = pipeRun w sizeFn inv h

theorem storedMethod_eq (w : World) (hw : w.Sane) (sizeFn : Csr α → Nat) (inv : Inventory α) (hc : Index.Clean w.P inv.index) (gi go : Dict)
    (ui : Regrid.Usable w gi) (uo : Regrid.Usable w go) (kw : Regrid.Kw) (a : Arr α) (s : Cache α) (hs : Reached w sizeFn inv s) :
    (storedMethod w sizeFn inv gi go kw a s).1 = weightsMethod (Regrid.findPlain w inv) gi go kw a ∧
      Reached w sizeFn inv (storedMethod w sizeFn inv gi go kw a s).2 := by
  obtain ⟨h, hu, hv, rfl⟩ := hs
  have hf := Regrid.dbFind_same w hw sizeFn inv hc h hu hv gi go ui uo kw.interpolation
  unfold storedMethod weightsMethod Regrid.matrixBackend
  simp only
  by_cases hx : kw.extra = []
  · rw [if_neg (by simp [hx]), if_neg (by simp [hx])]
    have hstate : (Regrid.dbFind w sizeFn inv gi go kw.interpolation (pipeRun w sizeFn inv h)).2 =
        pipeRun w sizeFn inv (h ++ [.regrid ⟨a.shape, a.data⟩ gi go kw.interpolation]) := by
      unfold pipeRun
      rw [List.foldl_append]
      simp only [List.foldl_cons, List.foldl_nil, Regrid.pipeStep, Regrid.regridArray, Regrid.matrixBackend]
      simp only [ne_eq, not_true, if_false]
      generalize Regrid.dbFind w sizeFn inv gi go kw.interpolation _ = y
      obtain ⟨y, t⟩ := y
      cases y <;> rfl
    have hreach : Reached w sizeFn inv (Regrid.dbFind w sizeFn inv gi go kw.interpolation (pipeRun w sizeFn inv h)).2 := by
      refine ⟨_, ?_, ?_, hstate⟩
      · intro x' di' dO' m' hm
        rcases List.mem_append.1 hm with hm | hm
        · exact hu x' di' dO' m' hm
        · simp only [List.mem_singleton, PipeOp.regrid.injEq] at hm
          obtain ⟨rfl, rfl, rfl, rfl⟩ := hm
          exact ⟨ui, uo⟩
      · intro cfg hm
        rcases List.mem_append.1 hm with hm | hm
        · exact hv cfg hm
        · simp at hm
    rw [← hf]
    generalize Regrid.dbFind w sizeFn inv gi go kw.interpolation _ = y at hreach
    obtain ⟨y, t⟩ := y
    cases y with
    | error e => exact ⟨rfl, hreach⟩
    | ok found =>
      simp only
      cases Regrid.applyWeights found ⟨a.shape, a.data⟩ go with
      | error e => exact ⟨rfl, hreach⟩
      | ok r => exact ⟨rfl, hreach⟩
  · rw [if_pos hx, if_pos hx]
    exact ⟨rfl, h, hu, hv, rfl⟩

theorem regridStored_eq (w : World) (hw : w.Sane) (sizeFn : Csr α → Nat) (inv : Inventory α) (hc : Index.Clean w.P inv.index) (canon : Dict → M Dict)
    (grid : Dict → M Grid) (attr kwarg acc out : Option Dict) (hi : ∀ g gi, InputGrid attr kwarg acc g → canon g = .ok gi → Regrid.Usable w gi)
    (ho : ∀ go, out = some go → Regrid.Usable w go) (kw : Regrid.Kw) (d : DA α) (i j : Option (List String)) (s : Cache α) (hs : Reached w sizeFn inv s) :
    (regridStored w sizeFn inv canon grid attr kwarg acc out kw d i j s).1 =
        regridWeights (Regrid.findPlain w inv) canon grid attr kwarg acc out kw d i j ∧
      Reached w sizeFn inv (regridStored w sizeFn inv canon grid attr kwarg acc out kw d i j s).2 := by
  unfold regridStored regridWeights
  simp only [bind, Except.bind]
  cases hg : inGrid attr kwarg acc with
  | error e => exact ⟨rfl, hs⟩
  | ok r =>
    obtain ⟨g, rest⟩ := r
    simp only
    cases hcg : canon g with
    | error e => exact ⟨rfl, hs⟩
    | ok gi =>
      simp only
      cases out with
      | none => exact ⟨rfl, hs⟩
      | some go =>
        exact regridS_eq (Reached w sizeFn inv) _ _
          (fun a s hs => storedMethod_eq w hw sizeFn inv hc gi go (hi g gi (inGrid_ok _ _ _ _ _ hg).1 hcg) (ho go rfl) _ a s hs) grid go d i j s hs

/-- What a lookup comes to: `es` the entries of the index file. -/
inductive Looked (P : Py) (es : List (String × Raw)) (weights : String × Raw → Except Regrid.Err (Csr α)) (di dO : Dict) (n : List Char) :
    Except Regrid.Err (Option (Csr α × List Nat)) → Prop
  | nothing (hf : First (Index.Answers P di dO n) es none) : Looked P es weights di dO n (.ok none)
  | unreadable (r : String × Raw) (err : Regrid.Err) (hf : First (Index.Answers P di dO n) es (some r)) (hw : weights r = .error err) :
      Looked P es weights di dO n (.error err)
  | found (r : String × Raw) (z : Csr α) (shape : List Nat) (hf : First (Index.Answers P di dO n) es (some r)) (hw : weights r = .ok z)
      (hs : GivenShape r.2 shape) : Looked P es weights di dO n (.ok (some (z, shape)))

omit [Zero α] [Add α] [Mul α] in
theorem looked (w : World) (ho : Enumerates w.order) (f : IndexFile) (es : List (String × Raw))
    (hv : OneVersion f.version) (hf : f.matrix = some es) (hn : (es.map Prod.fst).Nodup) (hu : ∀ e ∈ es, Index.Usable w.P e.2)
    (hs : ∀ e ∈ es, ∃ shape, GivenShape e.2 shape) (weights : String × Raw → Except Regrid.Err (Csr α)) (memory : Entry → Option Int) :
    ∃ ix, load w.P f = .ok ix ∧ Index.Clean w.P ix ∧ ∀ (di dO : Dict) (m n : List Char), GridSpec.Plain w.P di → GridSpec.Plain w.P dO → Published m n →
      Looked w.P es weights di dO n (Regrid.findPlain w ⟨ix, memory, fun e => weights e.shown⟩ di dO m) := by
  obtain ⟨ix, hl, hmem, -⟩ := Index.C40_kept w.P f es hv hf hn
  refine ⟨ix, hl, Index.load_clean w.P f ix (fun es' h => by rw [hf] at h; cases h; exact hn) hl, fun di dO m n pi pO hm => ?_⟩
  obtain ⟨gi, hi⟩ := GridSpec.plain_accepted pi
  obtain ⟨go, hO⟩ := GridSpec.plain_accepted pO
  obtain ⟨ix', r, hl', hfind, hfirst⟩ := Index.C132_found_partial w.P w.order ho f es hv hf hn hu di dO pi pO n
  rw [hl] at hl'
  cases hl'
  have hfind' : Index.find w.P w.order ix gi.d go.d n = .ok r := by
    obtain ⟨gi', go', h1, h2, h3⟩ := (Index.find_ok ..).1 hfind
    rw [hi] at h1; rw [hO] at h2; cases h1; cases h2
    exact (Index.find_ok ..).2 ⟨gi, go, GridSpec.C31_idempotent _ _ _ hi, GridSpec.C31_idempotent _ _ _ hO, h3⟩
  simp only [Regrid.findPlain, hi, hO, Regrid.lookupPlain, Regrid.published_alias hm, hfind']
  cases r with
  | none => exact .nothing hfirst
  | some e =>
    have hfirst : First (Index.Answers w.P di dO n) es (some e.shown) := hfirst
    obtain ⟨pre, k, post, hix, -⟩ := (Index.C39_first_match w.P w.order ix di dO n gi go hi hO e).1 hfind
    have hin : (k, e) ∈ ix := by rw [hix]; simp
    obtain ⟨raw, hraw, hload⟩ := (hmem (k, e)).1 hin
    obtain ⟨shape, hshape⟩ := hs _ hraw
    have hsh := Regrid.shape_loaded hload hshape
    have hrr : e.raw = raw := hload.2.1
    have hshape' : GivenShape e.shown.2 shape := by
      show GivenShape e.raw shape
      rw [hrr]; exact hshape
    simp only [Regrid.readEntry, bind, Except.bind, pure, Except.pure]
    cases hz : weights e.shown with
    | error err => exact .unreadable _ err hfirst hz
    | ok z =>
      simp only [hsh]
      exact .found _ z shape hfirst hz hshape'

end

/-! ## Specification -/

/-- A data array `o` in doubles has the values of `d` on the target: `r` is the first entry of the index file for the two grids and the method. -/
structure Regridded (P : Py) (es : List (String × Raw)) (weights : String × Raw → Except Regrid.Err (Csr (Fp double))) (gi go : Dict) (n : List Char)
    (ins outs : List String) (d o : DA (Fp double)) (r : String × Raw) (z : Csr (Fp double)) (shape : List Nat) : Prop where
  entry : First (Index.Answers P gi go n) es (some r)
  read : weights r = .ok z
  shaped : GivenShape r.2 shape
  /-- the weights are for this many points -/
  points : (ins.map d.size).prod = z.cols ∧ shape.prod = z.rows
  /-- the other dimensions stay, in front -/
  dims : shape.length = outs.length ∧ o.dims = d.dims.filter (fun x => decide (x.1 ∉ ins)) ++ outs.zip shape
  /-- at every position along the other dimensions -/
  values : ∀ q, (∀ x ∈ d.dims, x.1 ∉ ins → q x.1 < x.2) → Regrid.Inside shape (outs.map q) →
    PointD z (sliceAt d ins q).data (Regrid.offset shape (outs.map q)) (o.val q)

/-! ## C141 -/

/-- An index file of published entries, each with a shape, and weights that are matrices. -/
structure Served (w : World) (f : IndexFile) (es : List (String × Raw)) (weights : String × Raw → Except Regrid.Err (Csr (Fp double))) : Prop where
  sane : w.Sane
  order : Enumerates w.order
  version : OneVersion f.version
  matrix : f.matrix = some es
  names : (es.map Prod.fst).Nodup
  usable : ∀ e ∈ es, Index.Usable w.P e.2
  shapes : ∀ e ∈ es, ∃ shape, GivenShape e.2 shape
  wf : ∀ r z, weights r = .ok z → z.WF

/-- Documented grids on both sides. -/
structure Documented (w : World) (canon : Dict → M Dict) (attr kwarg acc out : Option Dict) : Prop where
  input : ∀ g gi, InputGrid attr kwarg acc g → canon g = .ok gi → GridSpec.Plain w.P gi ∧ Regrid.Usable w gi
  target : ∀ go, out = some go → GridSpec.Plain w.P go ∧ Regrid.Usable w go

/-- C141: a data array in doubles that is returned, at any point of any history, has the values of the first entry of the index file for its
grid, the target and the method. -/
theorem C141_values (w : World) (sizeFn : Csr (Fp double) → Nat) (f : IndexFile) (es : List (String × Raw))
    (weights : String × Raw → Except Regrid.Err (Csr (Fp double))) (hS : Served w f es weights) (memory : Entry → Option Int) :
    ∃ ix, load w.P f = .ok ix ∧ ∀ (h : List (PipeOp (Fp double))), HistoryUsable w h → HistoryValid h →
      ∀ (canon : Dict → M Dict) (grid : Dict → M Grid) (attr kwarg acc out : Option Dict) (kw : Regrid.Kw) (n : List Char) (d : DA (Fp double))
        (i j : Option (List String)) (o : DA (Fp double)) (cs : List (String × Var)),
      Documented w canon attr kwarg acc out → Published kw.interpolation n → Proper d →
      (regridStored w sizeFn ⟨ix, memory, fun e => weights e.shown⟩ canon grid attr kwarg acc out kw d i j
        (pipeRun w sizeFn ⟨ix, memory, fun e => weights e.shown⟩ h)).1 = .ok (o, cs) →
      ∃ g gi go r z shape ins outs, InputGrid attr kwarg acc g ∧ canon g = .ok gi ∧ out = some go ∧
        (i = some ins ∨ i = none ∧ LastDims d.names ins) ∧ (j = some outs ∨ j = none ∧ ∃ gr, grid go = .ok gr ∧ GridDims gr outs) ∧
        Regridded w.P es weights gi go n ins outs d o r z shape := by
  obtain ⟨ix, hl, hc, hlook⟩ := looked w hS.order f es hS.version hS.matrix hS.names hS.usable hS.shapes weights memory
  refine ⟨ix, hl, fun h hh hv canon grid attr kwarg acc out kw n d i j o cs hdoc hm hd hr => ?_⟩
  rw [(regridStored_eq w hS.sane sizeFn _ hc canon grid attr kwarg acc out (fun g gi a b => (hdoc.input g gi a b).2) (fun go a => (hdoc.target go a).2)
    kw d i j _ ⟨h, hh, hv, rfl⟩).1] at hr
  obtain ⟨g, rest, gi, go, h1, h2, h3, h4⟩ := regridWeights_ok _ canon grid attr kwarg acc out kw d i j o cs hr
  obtain ⟨g0, ins, outs, s, hg, hi, ho, hs, hdims, hval, ⟨p0, a0, g0', gr', geo, hp0, hf0, _⟩, _⟩ :=
    C74_array_partial grid _ go d o hd i j cs h4
  have hint : (leftOver kw rest).interpolation = kw.interpolation := by unfold leftOver; split <;> rfl
  obtain ⟨_, z, shape, hz, hap⟩ := weightsMethod_ok _ _ _ _ _ _ _ hf0
  rw [hint] at hz
  have hin := (inGrid_ok _ _ _ _ _ h1).1
  have hL := hlook gi go kw.interpolation n (hdoc.input g gi hin h2).1 (hdoc.target go h3).1 hm
  rw [hz] at hL
  cases hL with
  | found r _ _ hfirst hw hshape =>
    obtain ⟨f1, f2, -, -⟩ := (Regrid.apply_ok' z shape _ go g0' _).1 hap
    have hs0 : s = shape := by
      obtain ⟨a, ga, ha, hsh, _⟩ := hval p0 hp0
      rw [hf0] at ha
      simp only [Except.ok.injEq, Prod.mk.injEq] at ha
      obtain ⟨rfl, _⟩ := ha
      rw [← hsh]
      exact congrArg Regrid.Arr.shape ((Regrid.apply_ok' z shape _ go g0' _).1 hap).2.2.2
    subst hs0
    refine ⟨g, gi, go, r, z, s, ins, outs, hin, h2, h3, hi, ho.imp id (fun h => ⟨h.1, g0, hg, h.2⟩), hfirst, hw, hshape, ⟨?_, f2⟩, ⟨hs, hdims⟩, ?_⟩
    · rw [← f1]
      show _ = (sliceAt d ins p0).data.length
      unfold sliceAt
      simp [length_ndindex]
    · intro q hq hinside
      obtain ⟨a, ga, ha, hsh, hv'⟩ := hval q hq
      obtain ⟨_, z', shape', hz', hap'⟩ := weightsMethod_ok _ _ _ _ _ _ _ ha
      rw [hint, hz] at hz'
      simp only [Except.ok.injEq, Option.some.injEq, Prod.mk.injEq] at hz'
      obtain ⟨rfl, rfl⟩ := hz'
      obtain ⟨v, e1, e2⟩ := Regrid.pointD z (hS.wf _ _ hw) s _ go ga _ hap' _ hinside
      rw [hv' q (fun _ _ _ => rfl)]
      have hat : a.at (outs.map q) = Regrid.Arr.elem ⟨a.shape, a.data⟩ (outs.map q) := at_elem a.shape a.data _ (by rw [hsh]; exact hinside)
      rw [hat, e1]
      exact e2

/-- C141: with keyword arguments the backend does not know, with no entry for the two grids and the method, or when the weights of the first one
cannot be read, nothing is returned. -/
theorem C141_refused (w : World) (sizeFn : Csr (Fp double) → Nat) (f : IndexFile) (es : List (String × Raw))
    (weights : String × Raw → Except Regrid.Err (Csr (Fp double))) (hS : Served w f es weights) (memory : Entry → Option Int) :
    ∃ ix, load w.P f = .ok ix ∧ ∀ (h : List (PipeOp (Fp double))), HistoryUsable w h → HistoryValid h →
      ∀ (canon : Dict → M Dict) (grid : Dict → M Grid) (attr kwarg acc out : Option Dict) (kw : Regrid.Kw) (n : List Char) (d : DA (Fp double))
        (i j : Option (List String)), Documented w canon attr kwarg acc out → Published kw.interpolation n → Proper d →
      (kw.extra ≠ [] ∨ ∀ g gi go, InputGrid attr kwarg acc g → canon g = .ok gi → out = some go →
        First (Index.Answers w.P gi go n) es none ∨ ∃ r err, First (Index.Answers w.P gi go n) es (some r) ∧ weights r = .error err) →
      ∃ e, (regridStored w sizeFn ⟨ix, memory, fun e => weights e.shown⟩ canon grid attr kwarg acc out kw d i j
        (pipeRun w sizeFn ⟨ix, memory, fun e => weights e.shown⟩ h)).1 = .error e := by
  obtain ⟨ix, hl, hc, hlook⟩ := looked w hS.order f es hS.version hS.matrix hS.names hS.usable hS.shapes weights memory
  refine ⟨ix, hl, fun h hh hv canon grid attr kwarg acc out kw n d i j hdoc hm hd hno => ?_⟩
  rw [(regridStored_eq w hS.sane sizeFn _ hc canon grid attr kwarg acc out (fun g gi a b => (hdoc.input g gi a b).2) (fun go a => (hdoc.target go a).2)
    kw d i j _ ⟨h, hh, hv, rfl⟩).1]
  cases hr : regridWeights (Regrid.findPlain w ⟨ix, memory, fun e => weights e.shown⟩) canon grid attr kwarg acc out kw d i j with
  | error e => exact ⟨e, rfl⟩
  | ok r =>
    exfalso
    obtain ⟨o, cs⟩ := r
    obtain ⟨g, rest, gi, go, h1, h2, h3, h4⟩ := regridWeights_ok _ canon grid attr kwarg acc out kw d i j o cs hr
    obtain ⟨g0, ins, outs, s, hg, hi, ho, hs, hdims, hval, ⟨p0, a0, g0', gr', geo, hp0, hf0, _⟩, _⟩ :=
      C74_array_partial grid _ go d o hd i j cs h4
    have hint : (leftOver kw rest).interpolation = kw.interpolation := by unfold leftOver; split <;> rfl
    obtain ⟨hx, z, shape, hz, hap⟩ := weightsMethod_ok _ _ _ _ _ _ _ hf0
    rw [hint] at hz
    have hin := (inGrid_ok _ _ _ _ _ h1).1
    rcases hno with hno | hno
    · apply hno
      unfold leftOver at hx
      split at hx
      · simp at hx
      · exact hx
    · have hL := hlook gi go kw.interpolation n (hdoc.input g gi hin h2).1 (hdoc.target go h3).1 hm
      rw [hz] at hL
      cases hL with
      | found r _ _ hfirst hw hshape =>
        rcases hno g gi go hin h2 h3 with hn | ⟨r', err, hn, he⟩
        · cases Index.first_unique hn hfirst
        · cases Index.first_unique hn hfirst
          rw [hw] at he
          cases he

/-- C141: with an entry for the two grids and the method whose weights are for the slices and whose shape is that of the target, the
geographic dimensions recognised, the other ones not empty and not named like the new ones, the array is returned. -/
theorem C141_returned (w : World) (sizeFn : Csr (Fp double) → Nat) (f : IndexFile) (es : List (String × Raw))
    (weights : String × Raw → Except Regrid.Err (Csr (Fp double))) (hS : Served w f es weights) (memory : Entry → Option Int) :
    ∃ ix, load w.P f = .ok ix ∧ ∀ (h : List (PipeOp (Fp double))), HistoryUsable w h → HistoryValid h →
      ∀ (canon : Dict → M Dict) (grid : Dict → M Grid) (attr kwarg acc : Option Dict) (kw : Regrid.Kw) (n : List Char) (d : DA (Fp double))
        (g gi go : Dict) (gr : Grid) (r : String × Raw) (z : Csr (Fp double)) (ins outs : List String),
      Documented w canon attr kwarg acc (some go) → Published kw.interpolation n → attr = none ∨ kwarg = none → InputGrid attr kwarg acc g →
      canon g = .ok gi → kw.extra = [] → First (Index.Answers w.P gi go n) es (some r) → weights r = .ok z → GivenShape r.2 gr.shape →
      grid go = .ok gr → Plain gr → inGeoDims d.names = .ok ins → geoDims gr = .ok outs →
      (∀ x ∈ d.dims, x.1 ∉ ins → 0 < x.2 ∧ x.1 ∉ outs) → (ins.map d.size).prod = z.cols → gr.shape.prod = z.rows →
      ∃ o cs, (regridStored w sizeFn ⟨ix, memory, fun e => weights e.shown⟩ canon grid attr kwarg acc (some go) kw d none none
          (pipeRun w sizeFn ⟨ix, memory, fun e => weights e.shown⟩ h)).1 = .ok (o, cs) ∧
        o.dims = d.dims.filter (fun x => decide (x.1 ∉ ins)) ++ outs.zip gr.shape := by
  obtain ⟨ix, hl, hc, hlook⟩ := looked w hS.order f es hS.version hS.matrix hS.names hS.usable hS.shapes weights memory
  refine ⟨ix, hl, fun h hh hv canon grid attr kwarg acc kw n d g gi go gr r z ins outs hdoc hm hone hin hcan hx hfirst hw hshape hg hp hi ho hpos
    hcols hrows => ?_⟩
  rw [(regridStored_eq w hS.sane sizeFn _ hc canon grid attr kwarg acc (some go) (fun g gi a b => (hdoc.input g gi a b).2)
    (fun go a => (hdoc.target go a).2) kw d none none _ ⟨h, hh, hv, rfl⟩).1]
  have hz : Regrid.findPlain w ⟨ix, memory, fun e => weights e.shown⟩ gi go kw.interpolation = .ok (some (z, gr.shape)) := by
    have hL := hlook gi go kw.interpolation n (hdoc.input g gi hin hcan).1 (hdoc.target go rfl).1 hm
    generalize Regrid.findPlain w _ gi go kw.interpolation = y at hL
    cases hL with
    | nothing hf => cases Index.first_unique hf hfirst
    | unreadable r' err hf he => cases Index.first_unique hf hfirst; rw [hw] at he; cases he
    | found r' z' sh hf he hsh =>
      cases Index.first_unique hf hfirst
      rw [hw] at he
      cases he
      rw [Regrid.shape_unique hsh hshape]
  have hrest : inGrid attr kwarg acc = .ok (g, none) := by
    rcases hin with rfl | ⟨rfl, rfl | ⟨rfl, rfl⟩⟩
    · rcases hone with h | rfl
      · cases h
      · rfl
    · rfl
    · rfl
  have hreg : regridWeights (Regrid.findPlain w ⟨ix, memory, fun e => weights e.shown⟩) canon grid attr kwarg acc (some go) kw d none none =
      regrid grid (weightsMethod (Regrid.findPlain w ⟨ix, memory, fun e => weights e.shown⟩) gi go kw) go d none none := by
    unfold regridWeights
    simp only [hrest, hcan, bind, Except.bind, leftOver]
  rw [hreg]
  refine C74_returned grid _ go d gr ins outs hg hp hi ho hpos ?_
  intro x _ hlen
  refine ⟨⟨gr.shape, (List.range z.rows).map (z.dot x.data)⟩, go, ?_, rfl, hg⟩
  have hy := (Regrid.apply_ok' z gr.shape ⟨x.shape, x.data⟩ go go _).2 ⟨hlen.trans hcols, hrows, rfl, rfl⟩
  unfold weightsMethod Regrid.matrixBackend
  simp only
  rw [if_neg (by simp [hx]), hz]
  simp only [hy]

/-- C141: whatever it comes to, the in-memory cache is left as a history of regrids and configurations may leave it, so that what has been said
of the next regrid (C135, C136, C141) holds after it. -/
theorem C141_cache (w : World) (sizeFn : Csr (Fp double) → Nat) (f : IndexFile) (es : List (String × Raw))
    (weights : String × Raw → Except Regrid.Err (Csr (Fp double))) (hS : Served w f es weights) (memory : Entry → Option Int) :
    ∃ ix, load w.P f = .ok ix ∧ ∀ (h : List (PipeOp (Fp double))), HistoryUsable w h → HistoryValid h →
      ∀ (canon : Dict → M Dict) (grid : Dict → M Grid) (attr kwarg acc out : Option Dict) (kw : Regrid.Kw) (d : DA (Fp double))
        (i j : Option (List String)), Documented w canon attr kwarg acc out →
      ∃ h', HistoryUsable w h' ∧ HistoryValid h' ∧ (regridStored w sizeFn ⟨ix, memory, fun e => weights e.shown⟩ canon grid attr kwarg acc out kw d i j
        (pipeRun w sizeFn ⟨ix, memory, fun e => weights e.shown⟩ h)).2 = pipeRun w sizeFn ⟨ix, memory, fun e => weights e.shown⟩ h' := by
  obtain ⟨ix, hl, hc, -⟩ := looked w hS.order f es hS.version hS.matrix hS.names hS.usable hS.shapes weights memory
  exact ⟨ix, hl, fun h hh hv canon grid attr kwarg acc out kw d i j hdoc => (regridStored_eq w hS.sane sizeFn _ hc canon grid attr kwarg acc out
    (fun g gi a b => (hdoc.input g gi a b).2) (fun go a => (hdoc.target go a).2) kw d i j _ ⟨h, hh, hv, rfl⟩).2⟩

/-! ## The hypotheses can be met -/

namespace Demo
open Verif.Index (orca icon_unaccepted orca_plain orca_matches orca_accepted first_unique)
open Verif.GridSpec (V pyEq_iff)
open Verif.Regrid.Demo (world world_sane demoD demoD_wf historyD historyD_usable historyD_valid iconShaped usable_finite)

/-- ORCA grids of two and of three points. -/
def small : Dict := orca (some (.list [.int 2]))
def large : Dict := orca (some (.list [.int 3]))

theorem small_usable (P : Py) : Regrid.Usable (world P) small := by
  refine usable_finite P _ ?_ ["type", "grid", "shape"] ?_
  · intro k v h
    unfold small orca at h
    split at h
    · cases h; exact .inl (.inl trivial)
    · split at h
      · cases h; exact .inl (.inl trivial)
      · split at h
        · cases h
          refine .inl (.inr ⟨_, rfl, ?_⟩)
          intro x hx; simp at hx; subst hx; exact trivial
        · cases h
  · intro k h
    by_contra hk
    simp only [List.mem_cons, List.not_mem_nil, or_false, not_or] at hk
    exact h (by unfold small orca; simp [hk])

theorem large_usable (P : Py) : Regrid.Usable (world P) large := by
  refine usable_finite P _ ?_ ["type", "grid", "shape"] ?_
  · intro k v h
    unfold large orca at h
    split at h
    · cases h; exact .inl (.inl trivial)
    · split at h
      · cases h; exact .inl (.inl trivial)
      · split at h
        · cases h
          refine .inl (.inr ⟨_, rfl, ?_⟩)
          intro x hx; simp at hx; subst hx; exact trivial
        · cases h
  · intro k h
    by_contra hk
    simp only [List.mem_cons, List.not_mem_nil, or_false, not_or] at hk
    exact h (by unfold large orca; simp [hk])

/-- An entry from the one to the other. -/
def up : Raw := ⟨some small, some large, some (.name "linear".toList), "mir".toList, "1".toList, 0⟩

def upFile : IndexFile := ⟨some (.int 1), some [("i", iconShaped), ("u", up)]⟩

theorem up_shape : GivenShape up [3] := ⟨_, _, rfl, rfl, .inl rfl⟩

theorem served (P : Py) : Served (world P) upFile [("i", iconShaped), ("u", up)] (fun _ => .ok demoD) where
  sane := world_sane P
  order := fun _ => Iff.rfl
  version := .inl rfl
  matrix := rfl
  names := by decide
  usable := by
    intro e he
    simp only [List.mem_cons, List.not_mem_nil, or_false] at he
    rcases he with rfl | rfl
    · exact .inr (fun h => icon_unaccepted P h.1)
    · exact .inl ⟨_, _, _, .text _ _ rfl, rfl, rfl, orca_plain P _, orca_plain P _⟩
  shapes := by
    intro e he
    simp only [List.mem_cons, List.not_mem_nil, or_false] at he
    rcases he with rfl | rfl
    · exact ⟨[3, 1], _, _, rfl, rfl, .inl rfl⟩
    · exact ⟨_, up_shape⟩
  wf := by intro r z h; cases h; exact demoD_wf

theorem up_first (P : Py) : First (Index.Answers P small large "linear".toList) [("i", iconShaped), ("u", up)] (some ("u", up)) := by
  refine .later _ _ _ ?_ (.here _ _ ⟨_, _, .text _ _ rfl, rfl, rfl,
    orca_matches P _ _ (fun x y h h' => by cases h; cases h'; exact (pyEq_iff _ _).1 rfl),
    orca_matches P _ _ (fun x y h h' => by cases h; cases h'; exact (pyEq_iff _ _).1 rfl), orca_accepted P _, orca_accepted P _⟩)
  rintro ⟨i, o, _, hi, _, _, _, ai, _⟩
  cases hi
  exact icon_unaccepted P ai

/-- Two days; on the first one the first point is missing. -/
def daysD : DA (Fp double) :=
  ⟨[("time", 2), ("values", 2)], fun p => if p "time" = 0 ∧ p "values" = 0 then .nan else .fin (1121 / 4)⟩

theorem daysD_proper : Proper daysD := by
  refine ⟨by simp [daysD, DA.names], ?_⟩
  intro p q h
  have h1 := h "time" (by simp [daysD, DA.names])
  have h2 := h "values" (by simp [daysD, DA.names])
  simp [daysD, h1, h2]

/-- The target: three points. -/
def three : Grid := ⟨[3], .ok ([50, 51, 52], [7, 8, 9])⟩

theorem documented (P : Py) : Documented (world P) .ok none (some small) none (some large) where
  input := by
    rintro g gi (h | ⟨-, h | ⟨h, -⟩⟩) hc
    · cases h
    · cases h; cases hc; exact ⟨orca_plain P _, small_usable P⟩
    · cases h
  target := by
    intro go h
    cases h
    exact ⟨orca_plain P _, large_usable P⟩

theorem held : (Fp.fin (1121 / 4) : Fp double).Held := by
  refine ⟨Regrid.ieee_fixes 53 (-1074) _ _ ⟨1121, -2, by norm_num, by norm_num, by norm_num⟩, ?_⟩
  show |(1121 / 4 : ℚ)| ≤ ((2 : ℚ) ^ 53 - 1) * 2 ^ 971
  rw [abs_of_pos (by norm_num)]
  exact le_trans (by norm_num : (1121 / 4 : ℚ) ≤ (2 ^ 53 - 1) * 1) (mul_le_mul_of_nonneg_left (one_le_pow₀ (by norm_num)) (by norm_num))

/-- `C141_returned`, `C141_values`, after a history: on the first day the first point is missing and the second has the second value. -/
example (P : Py) : ∃ ix, load P upFile = .ok ix ∧ ∃ o cs,
    (regridStored (world P) (fun _ => 50) ⟨ix, fun _ => some 100, fun _ => .ok demoD⟩ .ok (fun _ => .ok three) none (some small) none (some large)
      ⟨"linear".toList, []⟩ daysD none none (pipeRun (world P) (fun _ => 50) ⟨ix, fun _ => some 100, fun _ => .ok demoD⟩ historyD)).1 = .ok (o, cs) ∧
    o.dims = [("time", 2), ("values", 3)] ∧ o.val (fun _ => 0) = .nan ∧ o.val (fun n => if n = "time" then 0 else 1) = .fin (1121 / 4) := by
  obtain ⟨ix, hl, h⟩ := C141_returned (world P) (fun _ => 50) upFile _ _ (served P) (fun _ => some 100)
  obtain ⟨ix', hl', h'⟩ := C141_values (world P) (fun _ => 50) upFile _ _ (served P) (fun _ => some 100)
  rw [hl] at hl'
  cases hl'
  obtain ⟨o, cs, hr, hd⟩ := h historyD (historyD_usable P) historyD_valid .ok (fun _ => .ok three) none (some small) none ⟨"linear".toList, []⟩
    "linear".toList daysD small small large three ("u", up) demoD ["values"] ["values"] (documented P) (.itself _ (by decide) (by decide)) (.inl rfl)
    (.inr ⟨rfl, .inl rfl⟩) rfl rfl (up_first P) rfl up_shape rfl
    (.inl ⟨3, rfl, by intro la lo h; simp only [three, Except.ok.injEq, Prod.mk.injEq] at h; rw [← h.1, ← h.2]; exact ⟨rfl, rfl⟩⟩)
    rfl rfl (by simp [daysD]) rfl rfl
  refine ⟨ix, hl, o, cs, hr, hd, ?_⟩
  obtain ⟨g, gi, go, r, z, shape, ins, outs, hg, hc, hgo, hi, ho, hR⟩ := h' historyD (historyD_usable P) historyD_valid .ok (fun _ => .ok three) none
    (some small) none (some large) ⟨"linear".toList, []⟩ "linear".toList daysD none none o cs (documented P) (.itself _ (by decide) (by decide))
    daysD_proper hr
  obtain rfl : g = small := by
    rcases hg with h | ⟨-, h | ⟨h, -⟩⟩
    · cases h
    · cases h; rfl
    · cases h
  cases hc
  cases hgo
  cases first_unique hR.entry (up_first P)
  have hz := hR.read
  cases hz
  cases Regrid.shape_unique hR.shaped up_shape
  obtain rfl : ins = ["values"] := by
    rcases hi with h | ⟨-, h, hs⟩
    · cases h
    · rcases h with rfl | rfl
      · rfl
      · exact absurd hs (by decide)
  obtain rfl : outs = ["values"] := by
    rcases ho with h | ⟨-, gr, hgr, h⟩
    · cases h
    · cases hgr
      rcases h with ⟨-, rfl⟩ | ⟨h, -⟩
      · rfl
      · simp [three] at h
  have p1 := hR.values (fun _ => 0) (by simp [daysD]) (.cons (by decide) .nil)
  have p2 := hR.values (fun n => if n = "time" then 0 else 1) (by simp [daysD]) (.cons (by decide) .nil)
  refine ⟨p1.missing 0 ⟨0, by decide, rfl⟩ (by decide +kernel), ?_⟩
  have e : (sliceAt daysD ["values"] (fun n => if n = "time" then 0 else 1)).data.getD 1 0 = .fin (1121 / 4) := by decide +kernel
  rw [p2.copied 2 (by decide) rfl (by rw [show demoD.indices.getD 2 0 = 1 from rfl, e]; exact held)]
  exact e

/-- `C141_refused`: no entry for another method. -/
example (P : Py) : ∃ ix, load P upFile = .ok ix ∧ ∃ e,
    (regridStored (world P) (fun _ => 50) ⟨ix, fun _ => some 100, fun _ => .ok demoD⟩ .ok (fun _ => .ok three) none (some small) none (some large)
      ⟨"nn".toList, []⟩ daysD none none (pipeRun (world P) (fun _ => 50) ⟨ix, fun _ => some 100, fun _ => .ok demoD⟩ historyD)).1 = .error e := by
  obtain ⟨ix, hl, h⟩ := C141_refused (world P) (fun _ => 50) upFile _ _ (served P) (fun _ => some 100)
  refine ⟨ix, hl, h historyD (historyD_usable P) historyD_valid .ok _ none (some small) none (some large) ⟨"nn".toList, []⟩ _ daysD none none
    (documented P) .short daysD_proper (.inr ?_)⟩
  intro g gi go _ _ _
  refine .inl (.later _ _ _ ?_ (.later _ _ _ ?_ .nothing))
  · rintro ⟨i, o, _, hi, _, _, _, ai, _⟩
    cases hi
    exact icon_unaccepted P ai
  · rintro ⟨i, o, hm, -⟩
    exact absurd (Index.methodIs_unique hm (.text _ "linear".toList rfl)) (by decide)

/-- `C141_cache`: the state after the first call is the start of another. -/
example (P : Py) : ∃ ix, load P upFile = .ok ix ∧ ∃ h', HistoryUsable (world P) h' ∧ HistoryValid h' ∧
    (regridStored (world P) (fun _ => 50) ⟨ix, fun _ => some 100, fun _ => .ok demoD⟩ .ok (fun _ => .ok three) none (some small) none (some large)
      ⟨"linear".toList, []⟩ daysD none none (pipeRun (world P) (fun _ => 50) ⟨ix, fun _ => some 100, fun _ => .ok demoD⟩ historyD)).2 =
      pipeRun (world P) (fun _ => 50) ⟨ix, fun _ => some 100, fun _ => .ok demoD⟩ h' := by
  obtain ⟨ix, hl, h⟩ := C141_cache (world P) (fun _ => 50) upFile _ _ (served P) (fun _ => some 100)
  exact ⟨ix, hl, h historyD (historyD_usable P) historyD_valid .ok _ none (some small) none (some large) _ daysD none none (documented P)⟩

end Demo

end Verif.Xarray

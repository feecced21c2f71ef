import Verif.Builder.CampaignProps

/-! # C117: the inventory after a build, and how builds go wrong -/

namespace Verif.Builder
open Verif.GridSpec Verif.Index

/-- What a complete description says, with the weights MIR keeps for it. -/
structure Parts where
  x : MirGrid
  y : MirGrid
  i : Inter
  di : Dict
  dO : Dict
  n : List Char
  e : List Char
  v : List Char
  src : List Char
  nnz : Nat
  m : Mir.MirMatrix

/-- A description is complete: two grids the builder knows, a method, engine and version, and whole weights in MIR's cache (under a
name that is not that of a matrix). -/
structure Complete (P : Py) (f : Mir.Files) (d : Desc) (p : Parts) : Prop where
  hx : d.input = some p.x
  hy : d.output = some p.y
  hi : d.inter = some p.i
  hs : d.cacheFile = some p.src
  hz : d.nnz = some p.nnz
  hdx : Describes P (some true) p.x p.di
  hdy : Describes P (some true) p.y p.dO
  hm : MethodOf p.i p.n
  he : p.i.engine = some p.e
  hv : p.i.version = some p.v
  hf : f p.src = some (.bytes p.m.file)
  hw : p.m.Wf
  hnpz : ¬ ".npz".toList <:+ p.src

def keyOf (D : Digests) (p : Parts) : String := D.key p.x p.y p.i

/-- The inventory has the entry and the matrix of a request. -/
def Has (D : Digests) (parts : Request → Parts) (w : World) (r : Request) : Prop :=
  ∃ es raw, Holds w.index es ∧ (keyOf D (parts r), raw) ∈ es ∧ raw.input = some (parts r).di ∧ raw.output = some (parts r).dO ∧
    MethodIs raw (parts r).n ∧ raw.engine = (parts r).e ∧ raw.version = (parts r).v ∧
    w.files (ReadAt r.dir (keyOf D (parts r)) (parts r).e (parts r).v (parts r).n) = some (.npz (asCsr (parts r).m))

theorem holds_det {ix : Option IndexFile} {es es' : List (String × Raw)} (h : Holds ix es) (h' : Holds ix es') : es = es' := by
  rcases h with ⟨h1, h2⟩ | ⟨f, h1, _, h2⟩ <;> rcases h' with ⟨h1', h2'⟩ | ⟨f', h1', _, h2'⟩
  · rw [h2, h2']
  · rw [h1] at h1'; cases h1'
  · rw [h1] at h1'; cases h1'
  · rw [h1] at h1'; cases h1'; rw [h2] at h2'; exact Option.some.inj h2'

theorem readAt_npz (root : List Char) (k : String) (e v n : List Char) (hk : '/' ∉ k.toList) : ".npz".toList <:+ ReadAt root k e v n := by
  obtain ⟨c, hc⟩ := readAt_form root k e v n hk
  rw [hc]
  exact ⟨c ++ '/' :: k.toList, by simp⟩

/-- What is kept up during a build: the provenance, the weights in MIR's cache, and an index with one entry per name. -/
structure Going (P : Py) (D : Digests) (E : Engines) (all : List Request) (parts : Request → Parts) (s : Site) : Prop where
  clean : Clean E all s
  weights : ∀ r ∈ all, ∃ d, Own E r d ∧ Complete P s.world.files d (parts r)
  index : ∃ es, Holds s.world.index es ∧ (es.map Prod.fst).Nodup ∧ ∀ k ∈ es.map Prod.fst, ∃ r ∈ all, k = keyOf D (parts r)

theorem request_going (P : Py) (D : Digests) (E : Engines) (all : List Request) (hn : NoClash all) (parts : Request → Parts) (delete : Bool)
    (hk : ∀ r ∈ all, ∀ r' ∈ all, keyOf D (parts r) = keyOf D (parts r') → r = r') (hsl : ∀ r ∈ all, '/' ∉ (keyOf D (parts r)).toList)
    (r : Request) (hr : r ∈ all) (s : Site) (h : Going P D E all parts s) :
    ∃ s', request E (makeMatrixPath P D) true delete r s = (.ok (), s') ∧ Going P D E all parts s' ∧ Has D parts s'.world r ∧
      ∀ r' ∈ all, Has D parts s.world r' → Has D parts s'.world r' := by
  obtain ⟨d, ⟨g, hg, hd⟩, hc⟩ := h.weights r hr
  obtain ⟨h1, -, -, -, hw1, h5⟩ := getGrib_spec E all hn r hr s h.clean
  have hok : ∃ s1, getGrib E r s = (.ok g, s1) := by
    unfold getGrib
    cases hj : s.grib (gribFile r.src) with
    | some g' =>
      have := h.clean.grib r hr g' hj
      rw [hg] at this; cases this
      exact ⟨_, rfl⟩
    | none => rw [hg]; exact ⟨_, rfl⟩
  obtain ⟨s1, e1⟩ := hok
  rw [e1] at h1 hw1
  simp only at h1 hw1
  obtain ⟨k1, -, hw2, k4⟩ := runMir_spec E all hn r hr s1 h1 g hg
  have hj := k4 d hd
  obtain ⟨l1, -, -⟩ := handIn_spec E all (makeMatrixPath P D) r hr _ k1
  obtain ⟨es, hes, hnd, hks⟩ := h.index
  have hw : (runMir E r g s1).world = s.world := hw2.trans hw1
  obtain ⟨ver, es', raw, m1, m2, m3, m4, m5, m6, m7, m8, -⟩ :=
    C71_entry_partial P D ⟨d, r.dir, some true, some true⟩ s.world (parts r).x (parts r).y (parts r).i (parts r).di (parts r).dO (parts r).n
      (parts r).e (parts r).v (parts r).src (parts r).nnz (parts r).m es hc.hx hc.hy hc.hi hc.hs hc.hz hc.hdx hc.hdy hc.hm hc.he hc.hv hc.hf
      hc.hw hes
  have hh : handIn (makeMatrixPath P D) r (runMir E r g s1) = (.ok (), { runMir E r g s1 with
      world := ⟨s.world.files.set (ReadAt r.dir (keyOf D (parts r)) (parts r).e (parts r).v (parts r).n) (.npz (asCsr (parts r).m)), some ⟨ver, some es'⟩⟩,
      built := (runMir E r g s1).built ++ [(r, d)] }) := by
    unfold handIn
    rw [hj, hw]
    simp only
    rw [m1]
    rfl
  rw [hh] at l1
  have hes' : Holds (some ⟨ver, some es'⟩) es' := .inr ⟨_, rfl, m2, rfl⟩
  have hmem := C71_others es es' (D.key (parts r).x (parts r).y (parts r).i) raw m3 hnd
  -- the new world
  obtain ⟨w', ew⟩ : ∃ w' : World, w' = ⟨s.world.files.set (ReadAt r.dir (keyOf D (parts r)) (parts r).e (parts r).v (parts r).n) (.npz (asCsr (parts r).m)), some ⟨ver, some es'⟩⟩ := ⟨_, rfl⟩
  rw [← ew] at hh l1
  have gw : (∀ r ∈ all, ∃ d, Own E r d ∧ Complete P w'.files d (parts r)) := by
    intro r' hr'
    obtain ⟨d', o', c'⟩ := h.weights r' hr'
    refine ⟨d', o', { c' with hf := ?_ }⟩
    rw [ew]
    simp only [Mir.Files.set]
    rw [if_neg]
    · exact c'.hf
    · intro h'
      exact c'.hnpz (by rw [h']; exact readAt_npz _ _ _ _ _ (hsl r hr))
  have gi : ∃ es, Holds w'.index es ∧ (es.map Prod.fst).Nodup ∧ ∀ k ∈ es.map Prod.fst, ∃ r ∈ all, k = keyOf D (parts r) := by
    refine ⟨es', by rw [ew]; exact hes', inserted_nodup m3 hnd, ?_⟩
    intro k hkm
    obtain ⟨⟨k', r'⟩, h', rfl⟩ := List.mem_map.1 hkm
    rcases (hmem k' r').1 h' with ⟨a, _⟩ | ⟨_, a⟩
    · exact ⟨r, hr, a⟩
    · exact hks _ (List.mem_map.2 ⟨_, a, rfl⟩)
  have gh : Has D parts w' r := by
    refine ⟨es', raw, by rw [ew]; exact hes', inserted_mem m3, m4, m5, m6, m7, m8, ?_⟩
    rw [ew]; simp [Mir.Files.set]
  have go : ∀ r' ∈ all, Has D parts s.world r' → Has D parts w' r' := by
    intro r' hr' hh'
    by_cases hrr : r' = r
    · subst hrr; exact gh
    · obtain ⟨es0, raw', q1, q2, q3, q4, q5, q6, q7, q8⟩ := hh'
      have := holds_det q1 hes
      subst this
      have hne : keyOf D (parts r') ≠ keyOf D (parts r) := fun h' => hrr (hk r' hr' r hr h')
      refine ⟨es', raw', by rw [ew]; exact hes', (hmem _ _).2 (.inr ⟨hne, q2⟩), q3, q4, q5, q6, q7, ?_⟩
      rw [ew]
      simp only [Mir.Files.set]
      rw [if_neg]
      · exact q8
      · intro h'
        obtain ⟨c, hc⟩ := readAt_form r'.dir (keyOf D (parts r')) (parts r').e (parts r').v (parts r').n (hsl r' hr')
        obtain ⟨c', hc'⟩ := readAt_form r.dir (keyOf D (parts r)) (parts r).e (parts r).v (parts r).n (hsl r hr)
        rw [hc, hc'] at h'
        have := no_slash_suffix _ _ _ _ h' (by simp [hsl r' hr']) (by simp [hsl r hr])
        exact hne (String.toList_injective (List.append_cancel_right this))
  cases delete with
  | false =>
    refine ⟨_, ?_, ⟨l1, gw, gi⟩, gh, go⟩
    unfold request
    simp only [if_true, e1, hh]
    rfl
  | true =>
    refine ⟨{ runMir E r g s1 with world := w', built := (runMir E r g s1).built ++ [(r, d)], json := put (runMir E r g s1).json (jsonFile r) none },
      ?_, ⟨⟨l1.grib, ?_, l1.built⟩, gw, gi⟩, gh, go⟩
    · unfold request
      simp only [if_true, e1, hh]
    · intro r' hr' d' hd'
      simp only [put] at hd'
      by_cases hp : jsonFile r' = jsonFile r
      · rw [if_pos hp] at hd'; cases hd'
      · rw [if_neg hp] at hd'; exact l1.json r' hr' d' hd'

theorem requests_going (P : Py) (D : Digests) (E : Engines) (all : List Request) (hn : NoClash all) (parts : Request → Parts) (delete : Bool)
    (hk : ∀ r ∈ all, ∀ r' ∈ all, keyOf D (parts r) = keyOf D (parts r') → r = r') (hsl : ∀ r ∈ all, '/' ∉ (keyOf D (parts r)).toList)
    (rs : List Request) (hrs : ∀ r ∈ rs, r ∈ all) (s : Site) (h : Going P D E all parts s) :
    ∃ s', requests E (makeMatrixPath P D) true delete rs s = (.ok (), s') ∧ Going P D E all parts s' ∧
      (∀ r ∈ rs, Has D parts s'.world r) ∧ ∀ r' ∈ all, Has D parts s.world r' → Has D parts s'.world r' := by
  induction rs generalizing s with
  | nil => exact ⟨s, rfl, h, fun r hr => (by cases hr), fun _ _ h => h⟩
  | cons r rs ih =>
    obtain ⟨s1, a1, a2, a3, a4⟩ := request_going P D E all hn parts delete hk hsl r (hrs r (by simp)) s h
    obtain ⟨s2, b1, b2, b3, b4⟩ := ih (fun r' hr' => hrs r' (by simp [hr'])) s1 a2
    refine ⟨s2, ?_, b2, ?_, fun r' hr' hh => b4 r' hr' (a4 r' hr' hh)⟩
    · unfold requests; rw [a1]; exact b1
    · intro r' hr'
      rcases List.mem_cons.1 hr' with rfl | hr'
      · exact b4 _ (hrs _ (by simp)) a3
      · exact b3 r' hr'

/-- C117, the inventory: a build from nothing, in which MARS and MIR serve every request and MIR's descriptions are complete and
different, comes through; afterwards the index has exactly one entry per request, with the grids, method, engine and version of MIR's
description of that request, and the weights of that request stand in the request's directory under the entry's name. Partial: with the
path given to the builder's converter as it expects it (C71), and without accidental sharing of files. -/
theorem C117_inventory_partial (P : Py) (D : Digests) (E : Engines) (rs : List Request) (hn : NoClash rs) (parts : Request → Parts) (delete : Bool)
    (hk : ∀ r ∈ rs, ∀ r' ∈ rs, keyOf D (parts r) = keyOf D (parts r') → r = r') (hsl : ∀ r ∈ rs, '/' ∉ (keyOf D (parts r)).toList)
    (s : Site) (hs : s.Empty) (hix : s.world.index = none) (hall : ∀ r ∈ rs, ∃ d, Own E r d ∧ Complete P s.world.files d (parts r)) :
    ∃ s', requests E (makeMatrixPath P D) true delete rs s = (.ok (), s') ∧ (∀ r ∈ rs, Has D parts s'.world r) ∧
      ∃ es, Holds s'.world.index es ∧ (es.map Prod.fst).Nodup ∧ ∀ k, k ∈ es.map Prod.fst ↔ ∃ r ∈ rs, k = keyOf D (parts r) := by
  obtain ⟨s', h1, h2, h3, -⟩ := requests_going P D E rs hn parts delete hk hsl rs (fun _ h => h) s
    ⟨hs.clean, hall, [], .inl ⟨hix, rfl⟩, by simp, by simp⟩
  obtain ⟨es, e1, e2, e3⟩ := h2.index
  refine ⟨s', h1, h3, es, e1, e2, fun k => ⟨e3 k, ?_⟩⟩
  rintro ⟨r, hr, rfl⟩
  obtain ⟨es', raw, q1, q2, -⟩ := h3 r hr
  rw [holds_det e1 q1]
  exact List.mem_map.2 ⟨_, q2, rfl⟩

/-! ### What goes wrong -/

/-- As the code is, no request ever comes through: the builder raises, at the latest when the matrix is to be converted. -/
theorem C117_refuted (P : Py) (D : Digests) (E : Engines) (haveDir delete : Bool) (r : Request) (rs : List Request) (s : Site) :
    (∃ e, (requests E (makeMatrix P D) haveDir delete (r :: rs) s).1 = .error e) ∧
    (requests E (makeMatrix P D) haveDir delete (r :: rs) s).2.world.index = s.world.index := by
  have key : (∃ e, (request E (makeMatrix P D) haveDir delete r s).1 = .error e) ∧
      (request E (makeMatrix P D) haveDir delete r s).2.world.index = s.world.index := by
    unfold request
    cases haveDir with
    | false => exact ⟨⟨_, rfl⟩, rfl⟩
    | true =>
      simp only [if_true]
      have hg : (getGrib E r s).2.world = s.world := by
        unfold getGrib
        cases s.grib (gribFile r.src) with
        | some g => rfl
        | none => cases E.mars r.src <;> rfl
      generalize getGrib E r s = x at *
      obtain ⟨e, s1⟩ := x
      simp only at hg
      cases e with
      | error e => exact ⟨⟨_, rfl⟩, by rw [← hg]⟩
      | ok g =>
        have hr : (runMir E r g s1).world = s1.world := by unfold runMir; cases s1.json (jsonFile r) <;> rfl
        simp only
        generalize runMir E r g s1 = s2 at *
        unfold handIn
        cases hj : s2.json (jsonFile r) with
        | none => exact ⟨⟨_, rfl⟩, by simp only [hr, hg]⟩
        | some d =>
          simp only
          obtain ⟨e, he⟩ := C71_refuted P D ⟨d, r.dir, some true, some true⟩ s2.world
          rw [he]
          exact ⟨⟨_, rfl⟩, by simp only [hr, hg]⟩
  unfold requests
  generalize request E (makeMatrix P D) haveDir delete r s = x at *
  obtain ⟨e, s1⟩ := x
  obtain ⟨⟨e', he'⟩, k2⟩ := key
  simp only at he'
  subst he'
  exact ⟨⟨_, rfl⟩, k2⟩

/-- A builder that accepts everything; MARS and MIR that number what they are asked. -/
def anyBuilder : Args → World → Except Err Unit × World := fun _ w => (.ok (), w)
def emptyDesc (k : Nat) : Desc := ⟨none, none, none, none, some k⟩
def tally : Engines := ⟨fun g => some g.length, fun g t m => some (emptyDesc (100 * g + 10 * t.length + m.length))⟩
def emptySite : Site := ⟨fun _ => none, fun _ => none, ⟨fun _ => none, none⟩, [], []⟩

/-- Names that clash: 5/5 and 5x5 are one file; a dash in a name moves between the two
grids; in both cases the second request is handed the description of the first. -/
def clash1 : List Request := [⟨"5/5".toList, "N32".toList, "nn".toList, "d".toList⟩, ⟨"5x5".toList, "N32".toList, "nn".toList, "d".toList⟩]
def clash2 : List Request := [⟨"c".toList, "a-b".toList, "nn".toList, "d".toList⟩, ⟨"b-c".toList, "a".toList, "nn".toList, "d".toList⟩]

theorem C117_shared_refuted :
    (∀ rs ∈ [clash1, clash2], ∃ r r' d, (requests tally anyBuilder true false rs emptySite).1 = .ok () ∧
      (requests tally anyBuilder true false rs emptySite).2.built = [(r, d), (r', d)] ∧ r ≠ r') ∧
    ¬ Own tally ⟨"b-c".toList, "a".toList, "nn".toList, "d".toList⟩
      (emptyDesc (100 * 1 + 10 * 3 + 2)) := by
  refine ⟨?_, ?_⟩
  · intro rs hrs
    simp only [List.mem_cons, List.not_mem_nil, or_false] at hrs
    rcases hrs with rfl | rfl
    · exact ⟨_, _, emptyDesc (100 * 3 + 10 * 3 + 2), rfl, rfl, by decide⟩
    · exact ⟨_, _, emptyDesc (100 * 1 + 10 * 3 + 2), rfl, rfl, by decide⟩
  · rintro ⟨g, h1, h2⟩
    cases h1
    have := congrArg (Option.map Desc.nnz) h2
    exact absurd this (by decide)

/-- What an earlier build left behind is used again, whatever MIR would say now: after a change of MIR the old weights are built in. -/
theorem C117_stale_refuted (E : Engines) (mk : Args → World → Except Err Unit × World) (delete : Bool) (r : Request) (s : Site) (d : Desc) (g : Nat)
    (hg : s.grib (gribFile r.src) = some g) (hd : s.json (jsonFile r) = some d) :
    (request E mk true delete r s).2.built = s.built ++ [(r, d)] := by
  unfold request getGrib
  simp only [if_true, hg]
  have : runMir E r g s = s := by unfold runMir; rw [hd]
  rw [this]
  unfold handIn
  rw [hd]
  simp only
  generalize hmk : mk ⟨d, r.dir, some true, some true⟩ s.world = m
  obtain ⟨e, w⟩ := m
  cases e with
  | error e => rfl
  | ok u => cases delete <;> rfl

/-! ### The hypotheses can be met -/

/-- The grids of build_db.py, and some lat-lon and HEALPix ones. -/
def sampleIns : List (Kind × List (List Char)) :=
  [(.other, ["eORCA025_T".toList]), (.ll, ["0.25".toList, "5".toList]), (.oRgg, ["32".toList]), (.hNested, ["4".toList]), (.hRing, ["4".toList])]
def sampleOuts : List (Kind × List (List Char)) := [(.nRgg, ["320".toList]), (.ll, ["10".toList]), (.oRgg, ["32".toList])]

instance (k : Kind) (t : List Char) : Decidable (Plain k t) := by
  cases k
  case other =>
    cases t with
    | nil => exact isFalse (by rintro ⟨⟨c, r, h, _⟩, _⟩; cases h)
    | cons c r =>
      exact decidable_of_iff ((c.isDigit = false ∧ c ∉ ['.', 'O', 'N', 'H', 'h']) ∧ ∀ x ∈ c :: r, x ∉ ['n', 'o', 'f', '/', '-'])
        ⟨fun h => ⟨⟨c, r, rfl, h.1.1, h.1.2⟩, h.2⟩, fun ⟨⟨c', r', h, h1⟩, h2⟩ => by cases h; exact ⟨h1, h2⟩⟩
  all_goals (unfold Plain; infer_instance)

theorem sample_plain : PlainGrids sampleIns ∧ PlainGrids sampleOuts := by
  unfold PlainGrids
  decide +kernel

def sampleRequests : List Request :=
  planned "b".toList ["linear".toList, "grid-box-average".toList] (makeGridId sampleIns) (makeGridId sampleOuts) []

example : NoClash sampleRequests ∧ sampleRequests.length = 34 ∧
    (requests tally anyBuilder true false sampleRequests emptySite).2.built.length = 34 := by
  refine ⟨C117_names _ _ _ _ sample_plain.1 sample_plain.2 (by decide +kernel), by decide +kernel, by decide +kernel⟩

example : makeGridId sampleIns = ["eORCA025_T".toList, "0.25/0.25".toList, "5/5".toList, "O32".toList, "H4_nested".toList, "H4_ring".toList] ∧
    (sampleRequests.map jsonFile).head? = some "b/matrices_linear/N320-eORCA025_T-linear.json".toList := by
  decide +kernel

/-- Two requests, 1 to 2 degrees and back, as MIR describes them (with the same weights, for short). -/
def there : Parts := ⟨mirLatLon 1 181 360 359, mirLatLon 2 91 180 358, ⟨some (.name "linear".toList), some "mir".toList, some "1".toList, 0⟩,
  fullSpec (.int 1) (.int 1) (.list [.int 181, .int 360]) (.int 90) (.int 0) (.int (-90)) (.int 359),
  fullSpec (.int 2) (.int 2) (.list [.int 91, .int 180]) (.int 90) (.int 0) (.int (-90)) (.int 358),
  "linear".toList, "mir".toList, "1".toList, "cache.mat".toList, 3, sampleMatrix⟩
def back : Parts := { there with x := there.y, y := there.x, di := there.dO, dO := there.di }
def descOf (p : Parts) : Desc := ⟨some p.x, some p.y, some p.i, some p.src, some p.nnz⟩
def twoEngines : Engines := ⟨fun g => some (if g = "1/1".toList then 1 else 2), fun g _ _ => some (descOf (if g = 1 then there else back))⟩
def twoRequests : List Request := planned "b".toList ["linear".toList] (makeGridId [(.ll, ["1".toList, "2".toList])]) (makeGridId [(.ll, ["1".toList, "2".toList])]) []
def twoParts (r : Request) : Parts := if r.src = "1/1".toList then there else back
def twoDigests : Digests :=
  ⟨fun x _ _ => (match x.plain "nj" with | some (.int 181) => "a" | _ => "b"), fun _ => [], fun _ _ _ _ => 0⟩

theorem there_complete (P : Py) : Complete P sampleWorld.files (descOf there) there where
  hx := rfl
  hy := rfl
  hi := rfl
  hs := rfl
  hz := rfl
  hdx := describes_latlon P 1 181 360 359
  hdy := describes_latlon P 2 91 180 358
  hm := .inl rfl
  he := rfl
  hv := rfl
  hf := sampleWorld_cache
  hw := sampleMatrix_wf
  hnpz := by decide

theorem back_complete (P : Py) : Complete P sampleWorld.files (descOf back) back :=
  { there_complete P with hx := rfl, hy := rfl, hi := rfl, hs := rfl, hz := rfl, hdx := describes_latlon P 2 91 180 358, hdy := describes_latlon P 1 181 360 359 }

example (P : Py) : ∃ s', requests twoEngines (makeMatrixPath P twoDigests) true true twoRequests { emptySite with world := sampleWorld } = (.ok (), s') ∧
    (∀ r ∈ twoRequests, Has twoDigests twoParts s'.world r) ∧
    ∃ es, Holds s'.world.index es ∧ (es.map Prod.fst).Nodup ∧ ∀ k, k ∈ es.map Prod.fst ↔ ∃ r ∈ twoRequests, k = keyOf twoDigests (twoParts r) := by
  have hrs : twoRequests = [⟨"1/1".toList, "2/2".toList, "linear".toList, "b/matrices_linear".toList⟩,
      ⟨"2/2".toList, "1/1".toList, "linear".toList, "b/matrices_linear".toList⟩] := by decide +kernel
  have hp : PlainGrids [(.ll, ["1".toList, "2".toList])] := by unfold PlainGrids; decide +kernel
  refine C117_inventory_partial P twoDigests twoEngines twoRequests (C117_names _ _ _ _ hp hp (by decide +kernel)) twoParts true ?_ ?_ _
    ⟨fun _ => rfl, fun _ => rfl, rfl⟩ rfl ?_
  · rw [hrs]
    decide +kernel
  · rw [hrs]
    decide +kernel
  · rw [hrs]
    intro r hr
    simp only [List.mem_cons, List.not_mem_nil, or_false] at hr
    rcases hr with rfl | rfl
    · exact ⟨descOf there, ⟨1, by decide, rfl⟩, there_complete P⟩
    · exact ⟨descOf back, ⟨2, by decide, rfl⟩, back_complete P⟩

/-- `C117_own_partial`, `C117_planned` -/
example : (∀ x ∈ (requests tally anyBuilder true false sampleRequests emptySite).2.built, Own tally x.1 x.2) ∧
    (⟨"O32".toList, "10/10".toList, "linear".toList, "b/matrices_linear".toList⟩ : Request) ∈ sampleRequests :=
  ⟨(C117_own_partial tally sampleRequests (C117_names _ _ _ _ sample_plain.1 sample_plain.2 (by decide +kernel)) anyBuilder true false emptySite
      ⟨fun _ => rfl, fun _ => rfl, rfl⟩).1,
    (C117_planned _ _ _ _ _ _).2 ⟨by decide +kernel, by decide +kernel, .inl (by decide +kernel)⟩⟩

/-- `C117_again` -/
example (E' : Engines) : (requests E' anyBuilder true false sampleRequests (requests tally anyBuilder true false sampleRequests emptySite).2).2.runs =
    (requests tally anyBuilder true false sampleRequests emptySite).2.runs := by
  have hb : (requests tally anyBuilder true false sampleRequests emptySite).1.toBool = true := by decide +kernel
  refine (C117_again tally E' anyBuilder anyBuilder true true sampleRequests emptySite ?_).1
  cases h : (requests tally anyBuilder true false sampleRequests emptySite).1 with
  | ok u => rfl
  | error e => rw [h] at hb; cases hb

/-- `C117_stale_refuted` -/
example : (request tally anyBuilder true false ⟨"5/5".toList, "N32".toList, "nn".toList, "d".toList⟩
    { emptySite with grib := fun _ => some 7, json := fun _ => some (emptyDesc 0) }).2.built =
      [(⟨"5/5".toList, "N32".toList, "nn".toList, "d".toList⟩, emptyDesc 0)] :=
  C117_stale_refuted tally anyBuilder false _ { emptySite with grib := fun _ => some 7, json := fun _ => some (emptyDesc 0) } (emptyDesc 0) 7 rfl rfl

end Verif.Builder

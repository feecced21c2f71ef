import Verif.Index.PlainProps
import Verif.Regrid.Props3

/-!
# From the index file and the request to the values (C133)

C82, C131, C132 put together: nothing of the model but the call itself is left in the statement.
-/

namespace Verif.Regrid
open Verif.GridSpec Verif.Index

/-! ## Specification -/

/-- The name under which a method is published. -/
inductive Published : List Char → List Char → Prop
  | short : Published "nn".toList "nearest-neighbour".toList
  | american : Published "nearest-neighbor".toList "nearest-neighbour".toList
  | itself (m : List Char) (h : m ≠ "nn".toList) (h' : m ≠ "nearest-neighbor".toList) : Published m m

/-- The shape the entry gives for its output grid. -/
inductive GivenShape (r : Raw) (shape : List Nat) : Prop
  | mk (o : Dict) (v : V) (ho : r.output = some o) (hs : o "shape" = some v) (hv : v = .list (shape.map (fun n => V.int (Int.ofNat n))) ∨ v = .tuple (shape.map (fun n => V.int (Int.ofNat n))))

section
variable {α : Type} [CommRing α]
open Finset

/-- What a regrid comes to: `es` the entries of the index file, `weights` what reading the weights of an entry gives. -/
inductive Outcome (P : Py) (es : List (String × Raw)) (weights : String × Raw → Except Err (Csr α)) (x : Arr α) (di dO : Dict) (m : List Char) :
    Except Err (Arr α × Dict) → Prop
  | unavailable (hf : First (Index.Answers P di dO m) es none) : Outcome P es weights x di dO m (.error .value)
  | unreadable (r : String × Raw) (err : Err) (hf : First (Index.Answers P di dO m) es (some r)) (hw : weights r = .error err) :
      Outcome P es weights x di dO m (.error err)
  | unfitting (r : String × Raw) (z : Csr α) (shape : List Nat) (hf : First (Index.Answers P di dO m) es (some r)) (hw : weights r = .ok z)
      (hs : GivenShape r.2 shape) (hn : x.flat.length ≠ z.cols ∨ shape.prod ≠ z.rows) : Outcome P es weights x di dO m (.error .value)
  | values (r : String × Raw) (z : Csr α) (shape : List Nat) (y : Arr α) (hf : First (Index.Answers P di dO m) es (some r)) (hw : weights r = .ok z)
      (hs : GivenShape r.2 shape) (hx : x.flat.length = z.cols) (hz : shape.prod = z.rows) (hshape : y.shape = shape) (hp : y.Proper)
      (hy : ∀ idx, Inside shape idx → y.elem idx = some (∑ j ∈ range z.cols, z.weight (offset shape idx) j * x.flat.getD j 0)) :
      Outcome P es weights x di dO m (.ok (y, dO))

end

/-! ## Lemmas -/

theorem published_alias {m n : List Char} (h : Published m n) : methodAlias m = n := by
  cases h with
  | short => rfl
  | american => rfl
  | itself _ h h' => unfold methodAlias; rw [if_neg (fun h0 => h0.elim h h')]

theorem shape_loaded {P : Py} {name : String} {r : Raw} {e : Entry} (h : Loaded P name r e) {shape : List Nat} (hs : GivenShape r shape) :
    shapeOf e = .ok shape := by
  obtain ⟨o, v, ho, hv, hi⟩ := hs
  obtain ⟨-, -, -, o', ho', hf⟩ := h
  rw [ho] at ho'
  cases ho'
  refine (C82_shape e shape).2 (.inl ?_)
  unfold entryShape Dict.item
  rw [asked_eq P o _ hf "shape" (by decide) (by decide)]
  unfold asked
  rw [hv]
  rcases hi with rfl | rfl <;> rfl

theorem ints_inj : ∀ a b : List Nat, a.map (fun n => V.int (Int.ofNat n)) = b.map (fun n => V.int (Int.ofNat n)) → a = b
  | [], [], _ => rfl
  | [], _ :: _, h => by cases h
  | _ :: _, [], h => by cases h
  | a :: as, b :: bs, h => by
    simp only [List.map_cons, List.cons.injEq, V.int.injEq, Int.ofNat.injEq] at h
    rw [h.1, ints_inj as bs h.2]

theorem shape_unique {r : Raw} {a b : List Nat} (h : GivenShape r a) (h' : GivenShape r b) : a = b := by
  obtain ⟨o, v, ho, hs, hv⟩ := h
  obtain ⟨o', v', ho', hs', hv'⟩ := h'
  rw [ho] at ho'
  cases ho'
  rw [hs] at hs'
  cases hs'
  rcases hv with rfl | rfl <;> rcases hv' with h | h
  · exact ints_inj a b (V.list.inj h)
  · cases h
  · cases h
  · exact ints_inj a b (V.tuple.inj h)

section
variable {α : Type} [Zero α] [Add α] [Mul α]

theorem mismatch (z : Csr α) (shape : List Nat) (x : Arr α) (g : Dict) (h : x.flat.length ≠ z.cols ∨ shape.prod ≠ z.rows) :
    applyWeights (some (z, shape)) x g = .error .value := by
  unfold applyWeights Csr.mul Arr.reshape
  by_cases h1 : x.flat.length = z.cols
  · have h2 : shape.prod ≠ z.rows := h.resolve_left (fun h => h h1)
    simp [h1, h2, bind, Except.bind]
  · simp [h1, bind, Except.bind]

/-- What a regrid comes to, up to the product; `g` is the target the weights are applied with. -/
inductive Applied (P : Py) (es : List (String × Raw)) (weights : String × Raw → Except Err (Csr α)) (x : Arr α) (di dO : Dict) (m : List Char) (g : Dict) :
    Except Err (Arr α × Dict) → Prop
  | unavailable (hf : First (Index.Answers P di dO m) es none) : Applied P es weights x di dO m g (.error .value)
  | unreadable (r : String × Raw) (err : Err) (hf : First (Index.Answers P di dO m) es (some r)) (hw : weights r = .error err) :
      Applied P es weights x di dO m g (.error err)
  | applied (r : String × Raw) (z : Csr α) (shape : List Nat) (hf : First (Index.Answers P di dO m) es (some r)) (hw : weights r = .ok z)
      (hs : GivenShape r.2 shape) : Applied P es weights x di dO m g (applyWeights (some (z, shape)) x g)

/-- The regrid with nothing held before. -/
def plainRegrid (w : World) (inv : Inventory α) (x : Arr α) (di g : Dict) (m : List Char) : Except Err (Arr α × Dict) :=
  match findPlain w inv di g m with
  | .error e => .error e
  | .ok found => applyWeights found x g

theorem plain_any (w : World) (ho : Enumerates w.order) (f : IndexFile) (es : List (String × Raw))
    (hv : OneVersion f.version) (hf : f.matrix = some es) (hn : (es.map Prod.fst).Nodup) (hu : ∀ e ∈ es, Index.Usable w.P e.2)
    (hs : ∀ e ∈ es, ∃ shape, GivenShape e.2 shape) (weights : String × Raw → Except Err (Csr α))
    (memory : Entry → Option Int) :
    ∃ ix, load w.P f = .ok ix ∧ Index.Clean w.P ix ∧ ∀ (x : Arr α) (di dO : Dict) (m n : List Char),
      GridSpec.Plain w.P di → GridSpec.Plain w.P dO → Published m n → ∀ g, fromDict w.P g = fromDict w.P dO →
      Applied w.P es weights x di dO n g (plainRegrid w ⟨ix, memory, fun e => weights e.shown⟩ x di g m) ∧
      ∃ gi go r, fromDict w.P di = .ok gi ∧ fromDict w.P g = .ok go ∧ find w.P w.order ix gi.d go.d (methodAlias m) = .ok r ∧
        First (Index.Answers w.P di dO n) es (r.map Entry.shown) := by
  obtain ⟨ix, hl, hmem, -⟩ := C40_kept w.P f es hv hf hn
  have hc : Index.Clean w.P ix := load_clean w.P f ix (fun es' h => by rw [hf] at h; cases h; exact hn) hl
  refine ⟨ix, hl, hc, fun x di dO m n pi pO hm g hg => ?_⟩
  obtain ⟨gi, hi⟩ := plain_accepted pi
  obtain ⟨go, hO⟩ := plain_accepted pO
  obtain ⟨ix', r, hl', hfind, hfirst⟩ := C132_found_partial w.P w.order ho f es hv hf hn hu di dO pi pO n
  rw [hl] at hl'
  cases hl'
  have hfind' : find w.P w.order ix gi.d go.d n = .ok r := by
    obtain ⟨gi', go', h1, h2, h3⟩ := (find_ok ..).1 hfind
    rw [hi] at h1; rw [hO] at h2; cases h1; cases h2
    exact (find_ok ..).2 ⟨gi, go, C31_idempotent _ _ _ hi, C31_idempotent _ _ _ hO, h3⟩
  refine ⟨?_, gi, go, r, hi, hg.trans hO, by rw [published_alias hm]; exact hfind', hfirst⟩
  simp only [plainRegrid, findPlain, hi, hg, hO, lookupPlain, published_alias hm, hfind']
  cases r with
  | none => exact .unavailable hfirst
  | some e =>
    have hfirst : First (Index.Answers w.P di dO n) es (some e.shown) := hfirst
    obtain ⟨pre, k, post, hix, -⟩ := (C39_first_match w.P w.order ix di dO n gi go hi hO e).1 hfind
    have hin : (k, e) ∈ ix := by rw [hix]; simp
    obtain ⟨raw, hraw, hload⟩ := (hmem (k, e)).1 hin
    obtain ⟨shape, hshape⟩ := hs _ hraw
    have hsh := shape_loaded hload hshape
    have hrr : e.raw = raw := hload.2.1
    have hshape' : GivenShape e.shown.2 shape := by
      show GivenShape e.raw shape
      rw [hrr]; exact hshape
    simp only [readEntry, bind, Except.bind, pure, Except.pure]
    cases hz : weights e.shown with
    | error err => exact .unreadable _ err hfirst hz
    | ok z =>
      simp only [hsh]
      exact .applied _ z shape hfirst hz hshape'

theorem outcome_any (w : World) (hw : w.Sane) (ho : Enumerates w.order) (sizeFn : Csr α → Nat) (f : IndexFile) (es : List (String × Raw))
    (hv : OneVersion f.version) (hf : f.matrix = some es) (hn : (es.map Prod.fst).Nodup) (hu : ∀ e ∈ es, Index.Usable w.P e.2)
    (hs : ∀ e ∈ es, ∃ shape, GivenShape e.2 shape) (weights : String × Raw → Except Err (Csr α))
    (memory : Entry → Option Int) :
    ∃ ix, load w.P f = .ok ix ∧ ∀ (h : List (PipeOp α)), HistoryUsable w h → HistoryValid h → ∀ (x : Arr α) (di dO : Dict) (m n : List Char),
      GridSpec.Plain w.P di → GridSpec.Plain w.P dO → Usable w di → Published m n → ∀ g, fromDict w.P g = fromDict w.P dO → Usable w g →
      Applied w.P es weights x di dO n g (regridArray w sizeFn ⟨ix, memory, fun e => weights e.shown⟩ x di g m
        (pipeRun w sizeFn ⟨ix, memory, fun e => weights e.shown⟩ h)).1 := by
  obtain ⟨ix, hl, hc, hall⟩ := plain_any w ho f es hv hf hn hu hs weights memory
  refine ⟨ix, hl, fun h hh hv' x di dO m n pi pO ui hm g hg ug => ?_⟩
  rw [regridArray_res, dbFind_same w hw sizeFn _ hc h hh hv' di g ui ug m]
  exact (hall x di dO m n pi pO hm g hg).1

end

section
variable {α : Type} [CommRing α]

/-! ## C133 -/

/-- C133: with an index file of published entries, each with a shape, and documented grids, a regrid at any point of any history comes to what
the specification says. -/
theorem C133_outcome (w : World) (hw : w.Sane) (ho : Enumerates w.order) (sizeFn : Csr α → Nat) (f : IndexFile) (es : List (String × Raw))
    (hv : OneVersion f.version) (hf : f.matrix = some es) (hn : (es.map Prod.fst).Nodup) (hu : ∀ e ∈ es, Index.Usable w.P e.2)
    (hs : ∀ e ∈ es, ∃ shape, GivenShape e.2 shape) (weights : String × Raw → Except Err (Csr α)) (hwf : ∀ r z, weights r = .ok z → z.WF)
    (memory : Entry → Option Int) :
    ∃ ix, load w.P f = .ok ix ∧ ∀ (h : List (PipeOp α)), HistoryUsable w h → HistoryValid h → ∀ (x : Arr α) (di dO : Dict) (m n : List Char),
      GridSpec.Plain w.P di → GridSpec.Plain w.P dO → Usable w di → Usable w dO → Published m n →
      Outcome w.P es weights x di dO n (regridArray w sizeFn ⟨ix, memory, fun e => weights e.shown⟩ x di dO m
        (pipeRun w sizeFn ⟨ix, memory, fun e => weights e.shown⟩ h)).1 := by
  obtain ⟨ix, hl, hall⟩ := outcome_any w hw ho sizeFn f es hv hf hn hu hs weights memory
  refine ⟨ix, hl, fun h hh hv' x di dO m n pi pO ui uo hm => ?_⟩
  have := hall h hh hv' x di dO m n pi pO ui hm dO rfl uo
  revert this
  generalize (regridArray w sizeFn _ x di dO m _).1 = res
  intro this
  cases this with
  | unavailable hf => exact .unavailable hf
  | unreadable r err hf hz => exact .unreadable r err hf hz
  | applied r z shape hfirst hz hshape' =>
    by_cases hfit : x.flat.length = z.cols ∧ shape.prod = z.rows
    · obtain ⟨h1, h2⟩ := hfit
      have hr := (apply_ok z shape x dO dO _).2 ⟨h1, h2, rfl, rfl⟩
      obtain ⟨a, b, c, d⟩ := C46_product z (hwf _ z hz) shape x dO dO _ hr
      rw [hr]
      exact .values _ z shape _ hfirst hz hshape' h1 h2 a b d
    · rw [mismatch z shape x dO (by rcases Classical.not_and_iff_not_or_not.1 hfit with h | h; exact .inl h; exact .inr h)]
      exact .unfitting _ z shape hfirst hz hshape' (Classical.not_and_iff_not_or_not.1 hfit)

theorem arr_ext {shape : List Nat} {y y' : Arr α} (h : y.shape = shape) (h' : y'.shape = shape) (hp : y.Proper) (hp' : y'.Proper)
    (he : ∀ idx, Inside shape idx → y.elem idx = y'.elem idx) : y = y' := by
  obtain ⟨s, l⟩ := y
  obtain ⟨s', l'⟩ := y'
  have h : s = shape := h
  have h' : s' = shape := h'
  rw [h] at hp he
  rw [h'] at hp' he
  rw [h, h']
  congr 1
  have hp : l.length = shape.prod := hp
  have hp' : l'.length = shape.prod := hp'
  refine List.ext_getElem? fun k => ?_
  by_cases hk : k < shape.prod
  · obtain ⟨idx, h1, h2⟩ := C46_all_elements shape k hk
    have := he idx h1
    unfold Arr.elem at this
    rw [h2] at this
    exact this
  · rw [List.getElem?_eq_none (by omega), List.getElem?_eq_none (by omega)]

/-- C133: the specification says one thing. -/
theorem C133_one (P : Py) (es : List (String × Raw)) (weights : String × Raw → Except Err (Csr α)) (x : Arr α) (di dO : Dict) (m : List Char)
    (a b : Except Err (Arr α × Dict)) (ha : Outcome P es weights x di dO m a) (hb : Outcome P es weights x di dO m b) : a = b := by
  cases ha with
  | unavailable hf =>
    cases hb with
    | unavailable => rfl
    | unreadable r err hf' => cases first_unique hf hf'
    | unfitting r z shape hf' => cases first_unique hf hf'
    | values r z shape y hf' => cases first_unique hf hf'
  | unreadable r err hf hw =>
    cases hb with
    | unavailable hf' => cases first_unique hf hf'
    | unreadable r' err' hf' hw' => cases first_unique hf hf'; rw [hw] at hw'; cases hw'; rfl
    | unfitting r' z shape hf' hw' => cases first_unique hf hf'; rw [hw] at hw'; cases hw'
    | values r' z shape y hf' hw' => cases first_unique hf hf'; rw [hw] at hw'; cases hw'
  | unfitting r z shape hf hw hs hn =>
    cases hb with
    | unavailable hf' => cases first_unique hf hf'
    | unreadable r' err' hf' hw' => cases first_unique hf hf'; rw [hw] at hw'; cases hw'
    | unfitting r' z' shape' hf' hw' => rfl
    | values r' z' shape' y hf' hw' hs' hx hz =>
      cases first_unique hf hf'
      rw [hw] at hw'
      cases hw'
      cases shape_unique hs hs'
      rcases hn with h | h
      · exact absurd hx h
      · exact absurd hz h
  | values r z shape y hf hw hs hx hz h1 h2 h3 =>
    cases hb with
    | unavailable hf' => cases first_unique hf hf'
    | unreadable r' err' hf' hw' => cases first_unique hf hf'; rw [hw] at hw'; cases hw'
    | unfitting r' z' shape' hf' hw' hs' hn =>
      cases first_unique hf hf'
      rw [hw] at hw'
      cases hw'
      cases shape_unique hs hs'
      rcases hn with h | h
      · exact absurd hx h
      · exact absurd hz h
    | values r' z' shape' y' hf' hw' hs' hx' hz' h1' h2' h3' =>
      cases first_unique hf hf'
      rw [hw] at hw'
      cases hw'
      cases shape_unique hs hs'
      rw [arr_ext h1 h1' h2 h2' (fun idx hi => by rw [h3 idx hi, h3' idx hi])]

end

/-! ## The hypotheses can be met -/

namespace Demo

/-- An entry of a grid this version does not know, with a shape. -/
def iconShaped : Raw := { iconRaw with output := some (orca (some shape)) }

/-- The index file of the inventory of `Props3`, after an entry of a grid this version does not know. -/
def file : IndexFile := ⟨some (.int 1), some [("i", iconShaped), ("w", raw)]⟩

theorem raw_shape : GivenShape raw [3, 1] := ⟨_, _, rfl, rfl, .inl rfl⟩

theorem raw_answers (P : Py) : Index.Answers P (orca (some shape)) (orca (some shape)) "nearest-neighbour".toList raw :=
  ⟨_, _, .text _ _ rfl, rfl, rfl, orca_matches P _ _ (fun x y h h' => by cases h; cases h'; exact (pyEq_iff _ _).1 rfl),
    orca_matches P _ _ (fun x y h h' => by cases h; cases h'; exact (pyEq_iff _ _).1 rfl), orca_accepted P _, orca_accepted P _⟩

/-- `C133_outcome`, after a history: the values of the weights of the second entry. -/
example (P : Py) : ∃ ix, load P file = .ok ix ∧ ∃ y,
    (regridArray (world P) (fun _ => 50) ⟨ix, fun _ => some 100, fun _ => .ok demo⟩ ⟨[2], [10, 20]⟩ (orca (some shape)) (orca (some shape)) "nn".toList
      (pipeRun (world P) (fun _ => 50) ⟨ix, fun _ => some 100, fun _ => .ok demo⟩ history)).1 = .ok (y, orca (some shape)) ∧
    y.shape = [3, 1] := by
  obtain ⟨ix, hl, h⟩ := C133_outcome (world P) (world_sane P) (fun _ => Iff.rfl) (fun _ => 50) file _ (.inl rfl) rfl (by decide)
    (by
      intro e he
      simp only [List.mem_cons, List.not_mem_nil, or_false] at he
      rcases he with rfl | rfl
      · exact .inr (fun h => icon_unaccepted P h.1)
      · exact .inl ⟨_, _, _, .text _ _ rfl, rfl, rfl, orca_plain P _, orca_plain P _⟩)
    (by
      intro e he
      simp only [List.mem_cons, List.not_mem_nil, or_false] at he
      rcases he with rfl | rfl
      · exact ⟨[3, 1], _, _, rfl, rfl, .inl rfl⟩
      · exact ⟨_, raw_shape⟩)
    (fun _ => .ok demo) (by intro r z h; cases h; exact demo_wf) (fun _ => some 100)
  refine ⟨ix, hl, ?_⟩
  have ho := h history (history_usable P) history_valid ⟨[2], [10, 20]⟩ (orca (some shape)) (orca (some shape)) "nn".toList _ (orca_plain P _)
    (orca_plain P _) (usable P) (usable P) .short
  have hfirst : First (Index.Answers P (orca (some shape)) (orca (some shape)) "nearest-neighbour".toList) [("i", iconShaped), ("w", raw)]
      (some ("w", raw)) := by
    refine .later _ _ _ ?_ (.here _ _ (raw_answers P))
    rintro ⟨i, o, _, hi, _, _, _, ai, _⟩
    cases hi
    exact icon_unaccepted P ai
  revert ho
  generalize (regridArray (α := ℚ) (world P) (fun _ => 50) _ _ _ _ _ _).1 = res
  intro ho
  cases ho with
  | unavailable hf => cases first_unique hf hfirst
  | unreadable r err hf hw => cases hw
  | unfitting r z sh hf hw hs hn =>
    cases first_unique hf hfirst
    cases hw
    cases shape_unique hs raw_shape
    exact absurd hn (by decide)
  | values r z sh y hf hw hs hx hz h1 h2 h3 =>
    cases first_unique hf hfirst
    cases shape_unique hs raw_shape
    exact ⟨y, rfl, h1⟩

/-- `C133_one`: with no entry both are ValueError. -/
example (P : Py) (weights : String × Raw → Except Err (Csr ℚ)) (x : Arr ℚ) (di dO : Dict) (m : List Char) (b : Except Err (Arr ℚ × Dict))
    (hb : Outcome P [] weights x di dO m b) : .error .value = b := C133_one P [] weights x di dO m _ b (.unavailable .nothing) hb

end Demo

end Verif.Regrid

import Verif.Builder.Spec
import Verif.Index.Props
import Verif.GridSpec.Props2
import Verif.Mir.GriddefProps

/-! # C71: building matrices -/

namespace Verif.Builder
open Verif.GridSpec Verif.Index
open Verif.Regrid (Csr)

/-! ### Converters -/

theorem item_of {d : Dict} {k : String} {v : V} (h : d k = some v) : d.item k = .ok v := by
  unfold Dict.item; rw [h]

theorem withGlobal_type (f : Option Bool) (x : MirGrid) : (withGlobal f x).type = x.type := by
  unfold withGlobal; split
  · rfl
  · split <;> rfl

theorem withGlobal_increments (f : Option Bool) (x : MirGrid) : (withGlobal f x).increments = x.increments := by
  unfold withGlobal; split
  · rfl
  · split <;> rfl

theorem withGlobal_bbox (f : Option Bool) (x : MirGrid) : (withGlobal f x).bbox = x.bbox := by
  unfold withGlobal; split
  · rfl
  · split <;> rfl

theorem withGlobal_plain (f : Option Bool) (x : MirGrid) (k : String) (h : k ≠ "global") :
    (withGlobal f x).plain k = x.plain k := by
  unfold withGlobal; split
  · rfl
  · split
    · rfl
    · simp [Dict.set, h]

theorem withGlobal_flag (f : Option Bool) (x : MirGrid) : (withGlobal f x).plain "global" = globalFlag f x := by
  unfold withGlobal globalFlag
  cases f with
  | none => cases h : x.plain "global" <;> simp
  | some b =>
    cases h : x.plain "global" with
    | some v => simp [h]
    | none => cases b <;> simp [Dict.set]

theorem area_of {x : MirGrid} {n w s e : V} (h : BBox x n w s e) : area x.bbox = .ok (.list [n, w, s, e]) := by
  obtain ⟨bb, h0, h1, h2, h3, h4⟩ := h
  rw [h0]
  simp [area, sub, item_of h1, item_of h2, item_of h3, item_of h4, bind, Except.bind, pure, Except.pure]

theorem copyGlobal_areaSpec (x : MirGrid) (grid shape ar : V) :
    copyGlobal x (((empty.set "grid" grid).set "shape" shape).set "area" ar) = areaSpec grid shape ar (x.plain "global") := by
  funext k
  unfold copyGlobal areaSpec
  cases h : x.plain "global" with
  | none =>
    simp only [Dict.set, empty]
    by_cases h1 : k = "grid"
    · subst h1; simp
    · by_cases h2 : k = "shape"
      · subst h2; simp
      · by_cases h3 : k = "area"
        · subst h3; simp
        · simp [h1, h2, h3]
  | some v =>
    simp only [Dict.set, empty]
    by_cases h1 : k = "grid"
    · subst h1; simp
    · by_cases h2 : k = "shape"
      · subst h2; simp
      · by_cases h3 : k = "area"
        · subst h3; simp
        · simp [h1, h2, h3]

theorem sum_ints (xs : List Int) : ∀ a : Int, sum (.int a) (xs.map V.int) = .ok (.int (a + xs.sum)) := by
  induction xs with
  | nil => intro a; simp [sum]
  | cons x xs ih =>
    intro a
    simp only [List.map_cons, sum, add, bind, Except.bind, ih, List.sum_cons]
    congr 2; ring

theorem reducedGG_of (P : Py) (x : MirGrid) (p0 p1 : Int) (rest : List Int) (N n w s e : V)
    (h1 : x.plain "pl" = some (.list ((p0 :: p1 :: rest).map V.int))) (h2 : x.plain "N" = some N) (h3 : BBox x n w s e) :
    reducedGG P x = .ok (areaSpec (.str ((if p1 = p0 + 4 then 'O' else 'N') :: P.pyStr N))
      (.list [.int (p0 :: p1 :: rest).sum]) (.list [n, w, s, e]) (x.plain "global")) := by
  unfold reducedGG
  have hs := sum_ints (p0 :: p1 :: rest) 0
  simp only [zero_add] at hs
  simp only [item_of h1, item_of h2, area_of h3, V.item, V.seq, List.map_cons, bind, Except.bind, pure, Except.pure,
    List.getElem?_cons_succ, List.getElem?_cons_zero, numM, V.num]
  rw [show V.int p0 :: V.int p1 :: List.map V.int rest = (p0 :: p1 :: rest).map V.int from rfl, hs]
  simp only [copyGlobal_areaSpec]
  have : ((p1 : ℚ) - (p0 : ℚ) = 4) = (p1 = p0 + 4) := by
    apply propext
    constructor
    · intro h
      have : ((p1 : ℤ) : ℚ) = ((p0 + 4 : ℤ) : ℚ) := by push_cast; linarith
      exact_mod_cast this
    · rintro rfl; push_cast; ring
  simp only [this]

theorem convert_of (P : Py) (asked : Option Bool) (x : MirGrid) (d : Dict) (h : Describes P asked x d) :
    convert P (withGlobal asked x) = .ok d := by
  have hb : ∀ n w s e, BBox x n w s e → BBox (withGlobal asked x) n w s e := by
    intro n w s e ⟨bb, h0, hr⟩
    exact ⟨bb, by rw [withGlobal_bbox]; exact h0, hr⟩
  cases h with
  | latlon inc we sn nj ni n w s e h0 h1 h2 h3 h4 h5 h6 =>
    unfold convert
    rw [withGlobal_type, h0]
    simp only [if_true]
    unfold regularLL
    rw [withGlobal_increments, h1]
    rw [← withGlobal_plain asked x "nj" (by decide)] at h4
    rw [← withGlobal_plain asked x "ni" (by decide)] at h5
    simp only [sub, item_of h2, item_of h3, item_of h4, item_of h5, area_of (hb _ _ _ _ h6), bind, Except.bind, pure, Except.pure,
      copyGlobal_areaSpec, withGlobal_flag]
  | octahedral p0 rest N n w s e h0 h1 h2 h3 =>
    unfold convert
    rw [withGlobal_type, h0]
    rw [← withGlobal_plain asked x "pl" (by decide)] at h1
    rw [← withGlobal_plain asked x "N" (by decide)] at h2
    simp only [show "reduced_gg".toList ≠ "regular_ll".toList by decide, if_false, if_true]
    rw [reducedGG_of P _ p0 (p0 + 4) rest N n w s e h1 h2 (hb _ _ _ _ h3), withGlobal_flag, if_pos rfl]
  | classical p0 p1 rest N n w s e h0 hp h1 h2 h3 =>
    unfold convert
    rw [withGlobal_type, h0]
    rw [← withGlobal_plain asked x "pl" (by decide)] at h1
    rw [← withGlobal_plain asked x "N" (by decide)] at h2
    simp only [show "reduced_gg".toList ≠ "regular_ll".toList by decide, if_false, if_true]
    rw [reducedGG_of P _ p0 p1 rest N n w s e h1 h2 (hb _ _ _ _ h3), withGlobal_flag, if_neg hp]
  | healpix g o h0 h1 h2 =>
    unfold convert
    rw [withGlobal_type, h0]
    rw [← withGlobal_plain asked x "grid" (by decide)] at h1
    rw [← withGlobal_plain asked x "order" (by decide)] at h2
    simp only [show "healpix".toList ≠ "regular_ll".toList by decide, show "healpix".toList ≠ "reduced_gg".toList by decide,
      if_false, if_true, healpix, item_of h1, item_of h2, bind, Except.bind, pure, Except.pure]
    congr 1
    funext k
    simp only [Dict.set, empty]
    by_cases e1 : k = "grid"
    · subst e1; simp
    · simp [e1]
  | orca t s h0 h1 h2 =>
    unfold convert
    rw [withGlobal_type, h0]
    rw [← withGlobal_plain asked x "unstructuredGridType" (by decide)] at h1
    rw [← withGlobal_plain asked x "unstructuredGridSubtype" (by decide)] at h2
    simp only [show "orca".toList ≠ "regular_ll".toList by decide, show "orca".toList ≠ "reduced_gg".toList by decide,
      show "orca".toList ≠ "healpix".toList by decide,
      if_false, if_true, orca, item_of h1, item_of h2, bind, Except.bind, pure, Except.pure]
    congr 1

/-! ### Interpolation -/

theorem interName_of {i : Inter} {n : List Char} (h : MethodOf i n) : interName i = .ok n := by
  unfold interName
  rcases h with h | ⟨o, h⟩ <;> simp [methodName, h]

/-- The method an index should record for a description: a name, or the options, except for the default options of grid-box-average (numbered 0),
which are recorded as a name. -/
inductive Recorded : Option Method → Option Method → Prop where
  | name (n : List Char) : Recorded (some (.name n)) (some (.name n))
  | default : Recorded (some (.dict (some "grid-box-average".toList) 0)) (some (.name "grid-box-average".toList))
  | options (n : List Char) (o : Nat) (h : ¬(n = "grid-box-average".toList ∧ o = 0)) : Recorded (some (.dict (some n) o)) (some (.dict (some n) o))

/-- Whatever is settled, method name, engine and version stay; the method is recorded (a digest is no method name). -/
theorem settled_of (sha : Inter → List Char) {i : Inter} {n : List Char} (h : MethodOf i n) :
    ∃ i' u, settled sha i = .ok (i', u) ∧ MethodOf i' n ∧ i'.engine = i.engine ∧ i'.version = i.version ∧
      (sha i ≠ n → Recorded i.method i'.method) := by
  have hrec : ∀ u, interUid sha i = .ok u → sha i ≠ n → Recorded i.method (if u ≠ n then i.method else some (.name n)) := by
    intro u hu hs
    unfold interUid at hu
    rw [interName_of h] at hu
    simp only [bind, Except.bind, pure, Except.pure] at hu
    rcases h with h | ⟨o, h⟩
    · rw [h]
      split <;> exact .name n
    · rw [h] at hu ⊢
      simp only at hu
      by_cases hd : n = "grid-box-average".toList ∧ isGridboxDefault (.dict (some n) o) = true
      · rw [if_pos hd] at hu
        cases hu
        obtain ⟨rfl, hd⟩ := hd
        simp [isGridboxDefault, GRIDBOX_OPTS] at hd
        subst hd
        rw [if_neg (by simp)]
        exact .default
      · rw [if_neg hd] at hu
        cases hu
        rw [if_pos hs]
        refine .options n o (fun hn => hd ⟨hn.1, ?_⟩)
        obtain ⟨rfl, rfl⟩ := hn
        decide
  have hu : ∃ u, interUid sha i = .ok u := by
    unfold interUid
    rw [interName_of h]
    simp only [bind, Except.bind, pure, Except.pure]
    rcases h with h | ⟨o, h⟩
    · rw [h]; simp only
      split
      · exact ⟨_, rfl⟩
      · split <;> exact ⟨_, rfl⟩
    · rw [h]; simp only
      split <;> exact ⟨_, rfl⟩
  obtain ⟨u, hu⟩ := hu
  unfold settled
  rw [interName_of h, hu]
  simp only [bind, Except.bind, pure, Except.pure]
  by_cases e : u ≠ n
  · rw [if_pos e]; exact ⟨_, _, rfl, h, rfl, rfl, fun hs => by have := hrec u hu hs; rwa [if_pos e] at this⟩
  · rw [if_neg e]; exact ⟨_, _, rfl, .inl rfl, rfl, rfl, fun hs => by have := hrec u hu hs; rwa [if_neg e] at this⟩

theorem interDir_of {i : Inter} {n e v : List Char} (h : MethodOf i n) (he : i.engine = some e) (hv : i.version = some v) :
    interDir i = .ok (e ++ '_' :: v ++ '_' :: n) := by
  unfold interDir dirName
  rw [he, hv]
  rcases h with h | ⟨o, h⟩ <;> simp [methodName, h, bind, Except.bind, pure, Except.pure]

/-! ### Paths -/

theorem join_slash (a r : List Char) : join a ('/' :: r) = '/' :: r := rfl

theorem join_rel (a b : List Char) (h : b.head? ≠ some '/') : join a b = if a = [] ∨ a.getLast? = some '/' then a ++ b else a ++ '/' :: b := by
  unfold join
  split
  · simp at h
  · rfl

theorem join_assoc (a b c : List Char) : join (join a b) c = join a (join b c) := by
  by_cases hc : c.head? = some '/'
  · cases c with
    | nil => simp at hc
    | cons x r => simp at hc; subst hc; simp [join_slash]
  · by_cases hb : b.head? = some '/'
    · cases b with
      | nil => simp at hb
      | cons x r =>
        simp at hb; subst hb
        rw [join_slash, join_rel _ c hc]
        split <;> simp [join_slash]
    · rw [join_rel _ c hc, join_rel _ c hc, join_rel a b hb]
      cases b with
      | nil =>
        simp only [true_or, if_true, List.nil_append]
        rw [join_rel a c hc]
        by_cases h1 : a = [] ∨ a.getLast? = some '/'
        · simp only [if_pos h1, List.append_nil]
        · simp [if_neg h1]
      | cons x r =>
        have hl : ∀ p : List Char, (p ++ x :: r).getLast? = (x :: r).getLast? := by
          intro p; rw [List.getLast?_append_of_ne_nil _ (by simp)]
        have hl' : ∀ p : List Char, (p ++ '/' :: x :: r).getLast? = (x :: r).getLast? := by
          intro p; rw [List.getLast?_append_of_ne_nil _ (by simp)]; rfl
        have hne : ¬ (x :: r) = [] := by simp
        simp only [List.head?_cons, Option.some.injEq] at hb
        have hh : ∀ q : List Char, (x :: q).head? ≠ some '/' := by intro q; simpa using hb
        by_cases h1 : a = [] ∨ a.getLast? = some '/'
        · simp only [if_pos h1, hl, hne, false_or]
          by_cases h2 : (x :: r).getLast? = some '/'
          · simp only [if_pos h2]
            rw [List.cons_append, join_rel a _ (hh _), if_pos h1]; simp [h2]
          · have : ¬ (a ++ x :: r = [] ∨ (x :: r).getLast? = some '/') := by simp [h2]
            simp only [if_neg h2, if_neg this]
            rw [List.cons_append, join_rel a _ (hh _), if_pos h1]; simp
        · simp only [if_neg h1, hl', hne, false_or]
          by_cases h2 : (x :: r).getLast? = some '/'
          · simp only [if_pos h2]
            rw [List.cons_append, join_rel a _ (hh _), if_neg h1]; simp [h2]
          · have : ¬ (a ++ '/' :: x :: r = [] ∨ (x :: r).getLast? = some '/') := by simp [h2]
            simp only [if_neg h2, if_neg this]
            rw [List.cons_append, join_rel a _ (hh _), if_neg h1]; simp

/-! ### The index -/

theorem upsert_inserted (es : List (String × Raw)) (k : String) (r : Raw) : Inserted es (upsert es k r) k r := by
  induction es with
  | nil => exact .inl ⟨by simp, rfl⟩
  | cons e es ih =>
    obtain ⟨k', r'⟩ := e
    by_cases h : k' = k
    · subst h
      exact .inr ⟨[], r', es, by simp, rfl, by simp [upsert]⟩
    · rcases ih with ⟨h1, h2⟩ | ⟨a, old, b, h1, h2, h3⟩
      · refine .inl ⟨?_, ?_⟩
        · simp only [List.map_cons, List.mem_cons, not_or]; exact ⟨fun e => h e.symm, h1⟩
        · simp only [upsert, if_neg h, h2, List.cons_append]
      · refine .inr ⟨(k', r') :: a, old, b, ?_, by rw [h2]; rfl, ?_⟩
        · simp only [List.map_cons, List.mem_cons, not_or]; exact ⟨fun e => h e.symm, h1⟩
        · simp only [upsert, if_neg h, h3, List.cons_append]

theorem readIndex_of {w : World} {es : List (String × Raw)} (h : Holds w.index es) :
    ∃ v, readIndex w = .ok ⟨v, some es⟩ ∧ OneVersion v := by
  unfold readIndex
  rcases h with ⟨h1, h2⟩ | ⟨f, h1, h2, h3⟩
  · rw [h1, h2]; exact ⟨_, rfl, .inl rfl⟩
  · rw [h1]
    simp only
    rw [if_pos (show pyEq (f.version.getD .none) VERSION = true from (version_iff _).2 h2)]
    exact ⟨f.version, by rw [← h3], h2⟩

/-- The matrix MIR wrote, as scipy sees it. -/
def asCsr (m : Mir.MirMatrix) : Csr Nat := ⟨m.rows, m.cols, m.outer, m.inner, m.data⟩

/-- C71 with the path given as `mir_cached_matrix_to_file` expects it: from a complete description, a whole cached matrix, and an
inventory of the right version (or none), the build adds or replaces the one entry of the description's digest, describing the two
grids, the method with its options, engine and version; and writes the matrix exactly, where lookups read it, and nothing else. -/
theorem C71_entry_partial (P : Py) (D : Digests) (a : Args) (w : World) (x y : MirGrid) (i : Inter) (di dO : Dict)
    (n e v src : List Char) (nnz : Nat) (m : Mir.MirMatrix) (es : List (String × Raw))
    (hx : a.desc.input = some x) (hy : a.desc.output = some y) (hi : a.desc.inter = some i) (hs : a.desc.cacheFile = some src)
    (hz : a.desc.nnz = some nnz) (hdx : Describes P a.globalInput x di) (hdy : Describes P a.globalOutput y dO)
    (hm : MethodOf i n) (he : i.engine = some e) (hv : i.version = some v)
    (hf : w.files src = some (.bytes m.file)) (hw : m.Wf) (hix : Holds w.index es) :
    ∃ ver es' r, makeMatrixPath P D a w =
        (.ok (), ⟨w.files.set (ReadAt a.outputPath (D.key x y i) e v n) (.npz (asCsr m)), some ⟨ver, some es'⟩⟩) ∧
      OneVersion ver ∧ Inserted es es' (D.key x y i) r ∧
      r.input = some di ∧ r.output = some dO ∧ MethodIs r n ∧ r.engine = e ∧ r.version = v ∧
      (D.sha i ≠ n → Recorded i.method r.method) := by
  obtain ⟨i', u, h1, h2, h3, h4, hrec⟩ := settled_of D.sha hm
  have hp : plan D a = .ok ⟨x, y, i', u, D.key x y i, src, ReadAt a.outputPath (D.key x y i) e v n⟩ := by
    unfold plan
    rw [hx, hy, hi, hs]
    simp only [needs, bind, Except.bind, pure, Except.pure, h1, interDir_of h2 (h3.trans he) (h4.trans hv), join_assoc, ReadAt]
  obtain ⟨ver, h5, h6⟩ := readIndex_of hix
  unfold makeMatrixPath makeMatrixWith
  rw [hp]
  simp only
  rw [Mir.C86_exact w.files src _ m hw hf]
  simp only
  obtain ⟨f', ef⟩ : ∃ f', f' = w.files.set (ReadAt a.outputPath (D.key x y i) e v n) (.npz ⟨m.rows, m.cols, m.outer, m.inner, m.data⟩) :=
    ⟨_, rfl⟩
  rw [← ef]
  have hr : readIndex ⟨f', w.index⟩ = .ok ⟨ver, some es⟩ := h5
  have hn : readNpz f' (ReadAt a.outputPath (D.key x y i) e v n) = .ok (asCsr m) := by
    unfold readNpz; rw [ef]; simp only [Mir.Files.set, if_true]; rfl
  unfold record newIndex
  rw [hr]
  simp only [bind, Except.bind, hn]
  unfold newEntry
  rw [convert_of P _ x di hdx, convert_of P _ y dO hdy, hz, h3, h4, he, hv]
  simp only [needs, bind, Except.bind, pure, Except.pure, lift]
  obtain ⟨r, er⟩ : ∃ r : Raw, r = ⟨some di, some dO, i'.method, e, v, D.extra i' u nnz (asCsr m)⟩ := ⟨_, rfl⟩
  rw [← er]
  refine ⟨ver, _, r, by rw [ef]; rfl, h6, upsert_inserted _ _ _, by rw [er], by rw [er], ?_, by rw [er], by rw [er], by rw [er]; exact hrec⟩
  rw [er]
  rcases h2 with h2 | ⟨o, h2⟩
  · exact .text _ _ h2
  · exact .dict _ _ o h2

/-- C71 fails as the code is: the path is given as a string, so every call raises (at the latest when the matrix is to be converted),
and nothing is written. -/
theorem C71_refuted (P : Py) (D : Digests) (a : Args) (w : World) : ∃ e, makeMatrix P D a w = (.error e, w) := by
  unfold makeMatrix makeMatrixWith
  cases plan D a with
  | error e => exact ⟨_, rfl⟩
  | ok p => exact ⟨.mir .attribute, rfl⟩

/-- For a description that has everything it is AttributeError. -/
theorem C71_attribute_refuted (P : Py) (D : Digests) (a : Args) (w : World) (p : Plan) (hp : plan D a = .ok p) :
    makeMatrix P D a w = (.error (.mir .attribute), w) := by
  unfold makeMatrix makeMatrixWith
  rw [hp]; rfl

/-- A build that fails, however, leaves the index as it was. -/
theorem C71_failed (out : List Char → Mir.Output) (P : Py) (D : Digests) (a : Args) (w w' : World) (e : Err)
    (h : makeMatrixWith out P D a w = (.error e, w')) : w'.index = w.index := by
  unfold makeMatrixWith at h
  cases hp : plan D a with
  | error e' => rw [hp] at h; cases h; rfl
  | ok p =>
    rw [hp] at h
    simp only at h
    cases ht : Mir.toFile w.files p.source (out p.target) with
    | mk r f =>
      rw [ht] at h
      cases r with
      | error e' => simp only at h; cases h; rfl
      | ok u =>
        simp only at h
        unfold record at h
        cases hn : newIndex P D a p { w with files := f } with
        | ok g => rw [hn] at h; cases h
        | error e' => rw [hn] at h; cases h; rfl

/-! ### Other entries' files -/

theorem no_slash_suffix (a a' b b' : List Char) (h : a ++ '/' :: b = a' ++ '/' :: b') (hb : '/' ∉ b) (hb' : '/' ∉ b') : b = b' := by
  induction a generalizing a' with
  | nil =>
    cases a' with
    | nil => simpa using h
    | cons c a' =>
      simp only [List.nil_append, List.cons_append, List.cons.injEq] at h
      exact absurd (by rw [h.2]; simp) hb
  | cons c a ih =>
    cases a' with
    | nil =>
      simp only [List.nil_append, List.cons_append, List.cons.injEq] at h
      exact absurd (by rw [← h.2]; simp) hb'
    | cons c' a' =>
      simp only [List.cons_append, List.cons.injEq] at h
      exact ih a' h.2

theorem join_form (a b : List Char) (hb : '/' ∉ b) (ha : a ≠ []) : ∃ c, join a b = c ++ '/' :: b := by
  have : b.head? ≠ some '/' := by
    intro h; exact hb (List.mem_of_mem_head? h)
  rw [join_rel a b this]
  by_cases h : a = [] ∨ a.getLast? = some '/'
  · rw [if_pos h]
    rcases h with h | h
    · exact absurd h ha
    · obtain ⟨c, hc⟩ : ∃ c, a = c ++ ['/'] := by
        have := List.dropLast_append_getLast? '/' h
        exact ⟨_, this.symm⟩
      exact ⟨c, by rw [hc]; simp⟩
  · rw [if_neg h]; exact ⟨a, rfl⟩

theorem readAt_form (root : List Char) (k : String) (e v n : List Char) (hk : '/' ∉ k.toList) :
    ∃ c, ReadAt root k e v n = c ++ '/' :: (k.toList ++ ".npz".toList) := by
  unfold ReadAt
  rw [← join_assoc]
  apply join_form
  · simp only [List.mem_append, not_or]; exact ⟨hk, by decide⟩
  · intro h
    have : ∀ a b : List Char, b ≠ [] → join a b ≠ [] := by
      intro a b hb
      unfold join
      split
      · simp
      · split
        · simp [hb]
        · simp
    exact this _ _ (by simp) h

/-- Matrices of different names are never in the same file: digests have no slash. -/
theorem readAt_apart (root : List Char) (k k' : String) (e v n e' v' n' : List Char) (hk : '/' ∉ k.toList) (hk' : '/' ∉ k'.toList)
    (h : k ≠ k') : ReadAt root k e v n ≠ ReadAt root k' e' v' n' := by
  intro h'
  obtain ⟨c, hc⟩ := readAt_form root k e v n hk
  obtain ⟨c', hc'⟩ := readAt_form root k' e' v' n' hk'
  rw [hc, hc'] at h'
  have := no_slash_suffix _ _ _ _ h' (by simp only [List.mem_append, not_or]; exact ⟨hk, by decide⟩)
    (by simp only [List.mem_append, not_or]; exact ⟨hk', by decide⟩)
  exact h (String.toList_injective (List.append_cancel_right this))

end Verif.Builder

import Verif.Builder.Opened
import Verif.Regrid.Props3

/-! # C128: values computed with a built inventory are MIR's weights times the input -/

namespace Verif.Builder
open Verif.GridSpec Verif.Index
open Verif.Regrid (Csr Inventory Arr Inside offset PipeOp pipeRun HistoryUsable HistoryValid Usable regridArray)
open Finset

/-! ### What is meant -/

section
variable {α : Type}

/-- The weight MIR gives to input point `j` for output point `i`: of the entries of row `i` those in column `j` (repetitions add up). -/
def mirWeight [AddCommMonoid α] (val : Nat → α) (m : Mir.MirMatrix) (i j : Nat) : α :=
  ∑ k ∈ (Ico (m.outer.getD i 0) (m.outer.getD (i + 1) 0)).filter (fun k => m.inner.getD k 0 = j), val (m.data.getD k 0)

/-- A matrix of MIR makes sense: rows follow each other, columns are input points. -/
structure Sensible (m : Mir.MirMatrix) : Prop where
  ordered : ∀ i j a b : Nat, i ≤ j → m.outer[i]? = some a → m.outer[j]? = some b → a ≤ b
  inside : ∀ j ∈ m.inner, j < m.cols

/-- What the request asks for is not what these parts were made for: another method, or another grid. -/
def Apart (P : Py) (order : List String) (qi qo : GS) (n : List Char) (p : Parts) : Prop :=
  p.n ≠ n ∨ (∀ g, fromDict P p.di = .ok g → eq P order g qi = .ok false) ∨
    ((∀ g, fromDict P p.di = .ok g → eq P order g qi = .ok true) ∧ ∀ g, fromDict P p.dO = .ok g → eq P order g qo = .ok false)

/-- The sub-directory of the matrices made with these parts. -/
def folder (p : Parts) : List Char := p.e ++ '_' :: p.v ++ '_' :: p.n

/-- The request asks for what these parts were made for. -/
structure Asks (P : Py) (order : List String) (qi qo : GS) (n : List Char) (p : Parts) (shape : List Nat) : Prop where
  method : p.n = n
  input : ∃ g, fromDict P p.di = .ok g ∧ eq P order g qi = .ok true
  output : ∃ g, fromDict P p.dO = .ok g ∧ eq P order g qo = .ok true ∧
    (g.d "shape" = some (.list (shape.map (fun n => V.int (Int.ofNat n)))) ∨ g.d "shape" = some (.tuple (shape.map (fun n => V.int (Int.ofNat n)))))

/-- What lists the sub-directories of directories (names that do not begin with a dot): all that have a file. -/
def Lists (files : Mir.Files) (dirs : List (List Char)) (subs : List (List Char × List Char)) : Prop :=
  ∀ d ∈ dirs, ∀ n f : List Char, n.head? ≠ some '.' → '/' ∉ n → '/' ∉ f → files (join d (join n f)) ≠ none → (d, n) ∈ subs

/-! ### C129: the directory put together from a build -/

theorem linkAll_spec : ∀ (subs ls : List (List Char × List Char)), (ls.map Prod.fst).Nodup →
    ((linkAll subs ls).1 = true ↔ ((ls ++ subs.map Prod.swap).map Prod.fst).Nodup) ∧
    ((linkAll subs ls).1 = true → (linkAll subs ls).2 = ls ++ subs.map Prod.swap)
  | [], ls, h => by simp [linkAll, h]
  | (d, n) :: r, ls, h => by
    unfold linkAll
    by_cases hn : n ∈ ls.map Prod.fst
    · rw [if_pos hn]
      refine ⟨⟨fun h => (by cases h), fun h' => ?_⟩, fun h => (by cases h)⟩
      rw [List.map_append, List.nodup_append] at h'
      exact absurd rfl (h'.2.2 n hn n (by simp))
    · rw [if_neg hn]
      have hnd : ((ls ++ [(n, d)]).map Prod.fst).Nodup := by
        rw [List.map_append, List.nodup_append]
        refine ⟨h, by simp, ?_⟩
        intro a ha b hb
        simp only [List.map_cons, List.map_nil, List.mem_cons, List.not_mem_nil, or_false] at hb
        subst hb
        rintro rfl
        exact hn ha
      obtain ⟨h1, h2⟩ := linkAll_spec r (ls ++ [(n, d)]) hnd
      have e : ls ++ [(n, d)] ++ r.map Prod.swap = ls ++ ((d, n) :: r).map Prod.swap := by simp
      rw [e] at h1 h2
      exact ⟨h1, h2⟩

/-- C129: from nothing, the directory is put together if and only if there are matrices, no two of their directories have the same name,
and there is an index; and then it has exactly one link for each of the directories, to it, and the index. -/
theorem C129_links (subs : List (List Char × List Char)) (index : Option IndexFile) (t : TestDir) :
    prepare subs index none = (true, t) ↔
      subs ≠ [] ∧ (subs.map Prod.snd).Nodup ∧ ∃ f, index = some f ∧ t = ⟨subs.map Prod.swap, some f⟩ := by
  have hsw : (subs.map Prod.swap).map Prod.fst = subs.map Prod.snd := by
    rw [List.map_map]; rfl
  obtain ⟨h1, h2⟩ := linkAll_spec subs [] (by simp)
  rw [List.nil_append] at h1 h2
  rw [hsw] at h1
  unfold prepare buildTestDir
  show (match linkAll subs [] with
    | (false, ls) => (false, { TestDir.fresh with links := ls })
    | (true, ls) => _) = _ ↔ _
  obtain ⟨⟨b, ls⟩, hl⟩ : ∃ x, linkAll subs [] = x := ⟨_, rfl⟩
  rw [hl] at h1 h2 ⊢
  simp only at h1 h2 ⊢
  cases b with
  | false =>
    simp only [Prod.mk.injEq, Bool.false_eq_true, false_and, false_iff]
    rintro ⟨_, h, _⟩
    exact absurd (h1.2 h) (by simp)
  | true =>
    have hnd := h1.1 rfl
    rw [h2 rfl]
    simp only
    by_cases he : subs = []
    · rw [if_pos he]
      simp [he]
    · rw [if_neg he]
      cases index with
      | none => simp
      | some f =>
        simp only [Prod.mk.injEq, true_and, Option.some.injEq]
        constructor
        · rintro rfl
          exact ⟨he, hnd, f, rfl, rfl⟩
        · rintro ⟨_, _, f', rfl, rfl⟩
          rfl

/-- C129: each of the directories is found through the link with its name, and no other. -/
theorem C129_found (subs : List (List Char × List Char)) (index : Option IndexFile) (t : TestDir) (h : prepare subs index none = (true, t))
    (d n : List Char) : t.places n = some d ↔ (d, n) ∈ subs := by
  obtain ⟨_, h2, f, _, rfl⟩ := (C129_links subs index t).1 h
  unfold TestDir.places
  simp only [Option.map_eq_some_iff]
  constructor
  · rintro ⟨⟨n', d'⟩, h3, rfl⟩
    have h4 := List.mem_of_find?_eq_some h3
    have h5 := List.find?_some h3
    simp only [beq_iff_eq] at h5
    subst h5
    obtain ⟨⟨d2, n2⟩, h6, h7⟩ := List.mem_map.1 h4
    cases h7
    exact h6
  · intro h3
    have hmem : (n, d) ∈ subs.map Prod.swap := List.mem_map.2 ⟨_, h3, rfl⟩
    have hs : ((subs.map Prod.swap).find? (fun l => l.1 == n)).isSome := by
      rw [List.find?_isSome]
      exact ⟨_, hmem, by simp⟩
    obtain ⟨⟨n', d'⟩, h4⟩ := Option.isSome_iff_exists.1 hs
    refine ⟨_, h4, ?_⟩
    have h5 := List.mem_of_find?_eq_some h4
    have h6 := List.find?_some h4
    simp only [beq_iff_eq] at h6
    subst h6
    obtain ⟨⟨d2, n2⟩, h7, h8⟩ := List.mem_map.1 h5
    cases h8
    have := List.inj_on_of_nodup_map h2 h7 h3 rfl
    exact (Prod.ext_iff.1 this).1

/-- C129 fails for a second run: what a failed preparation left behind passes as the directory, without an index and so without any
matrix that could be found — even though by now there is everything; -/
theorem C129_refuted (subs : List (List Char × List Char)) (index : Option IndexFile) (t : TestDir) (h : prepare subs index none = (false, t))
    (subs' : List (List Char × List Char)) (index' : Option IndexFile) {α : Type} (P : Py) (val : Nat → α) (memory : Entry → Option Int) (files : Mir.Files) :
    prepare subs' index' (some t) = (true, t) ∧ opened P val memory t.places files t.index = none := by
  refine ⟨rfl, ?_⟩
  have : t.index = none := by
    have h : buildTestDir subs index .fresh = (false, t) := h
    unfold buildTestDir at h
    obtain ⟨⟨b, ls⟩, hl⟩ : ∃ x, linkAll subs TestDir.fresh.links = x := ⟨_, rfl⟩
    rw [hl] at h
    cases b with
    | false => cases h; rfl
    | true =>
      by_cases he : subs = []
      · simp only [he, if_true] at h
        cases h; rfl
      · simp only [he, if_false] at h
        cases index with
        | none => cases h; rfl
        | some f => cases h
  rw [this]; rfl

/-- ... and an index that was built meanwhile is not seen. -/
theorem C129_stale_refuted (subs : List (List Char × List Char)) (index : Option IndexFile) (t : TestDir) (h : prepare subs index none = (true, t))
    (subs' : List (List Char × List Char)) (index' : Option IndexFile) :
    prepare subs' index' (some t) = (true, t) ∧ t.index = index := by
  obtain ⟨_, _, f, rfl, rfl⟩ := (C129_links subs index t).1 h
  exact ⟨rfl, rfl⟩

/-! ### lemmas -/

theorem numbers_wf (val : Nat → α) (m : Mir.MirMatrix) (hm : m.Wf) (hs : Sensible m) : (numbers val (asCsr m)).WF where
  ptrs := hm.pointers
  start := by
    intro p hp
    have h := hm.first
    rw [List.head?_eq_getElem?] at h
    have : m.outer[0]? = some p := hp
    rw [h] at this
    exact (Option.some.inj this).symm
  mono := hs.ordered
  last := hm.last
  sizes := by
    show m.inner.length = (m.data.map val).length
    rw [List.length_map]
    exact hm.lengths
  inside := hs.inside

theorem numbers_weight [AddCommMonoid α] (val : Nat → α) (h0 : val 0 = 0) (m : Mir.MirMatrix) (i j : Nat) :
    (numbers val (asCsr m)).weight i j = mirWeight val m i j := by
  unfold Csr.weight mirWeight
  refine Finset.sum_congr rfl fun k _ => ?_
  show (m.data.map val).getD k 0 = val (m.data.getD k 0)
  rw [List.getD_eq_getElem?_getD, List.getD_eq_getElem?_getD, List.getElem?_map]
  cases m.data[k]? with
  | none => exact h0.symm
  | some v => rfl

theorem nodup_value {β : Type} {es : List (String × β)} (hn : (es.map Prod.fst).Nodup) {k : String} {a b : β} (ha : (k, a) ∈ es) (hb : (k, b) ∈ es) :
    a = b := by
  induction es with
  | nil => cases ha
  | cons e es ih =>
    simp only [List.map_cons, List.nodup_cons] at hn
    rcases List.mem_cons.1 ha with ha | ha <;> rcases List.mem_cons.1 hb with hb | hb
    · exact (Prod.ext_iff.1 (ha.trans hb.symm)).2
    · exact absurd (List.mem_map.2 ⟨_, hb, (Prod.ext_iff.1 ha).1⟩) hn.1
    · exact absurd (List.mem_map.2 ⟨_, ha, (Prod.ext_iff.1 hb).1⟩) hn.1
    · exact ih hn.2 ha hb

theorem apart_miss (P : Py) (order : List String) (qi qo : GS) (n : List Char) (p : Parts) (k : String) (raw : Raw) (e : Entry)
    (hl : Loaded P k raw e) (hi : raw.input = some p.di) (ho : raw.output = some p.dO) (hm : MethodIs raw p.n)
    (ha : Apart P order qi qo n p) : Miss P order qi qo n e := by
  obtain ⟨_, h2, ⟨d, h3, h4⟩, ⟨d', h5, h6⟩⟩ := hl
  rw [hi] at h3; cases h3
  rw [ho] at h5; cases h5
  refine ⟨p.n, by rw [h2]; exact hm, ?_⟩
  rcases ha with ha | ha | ⟨ha, hb⟩
  · exact .inl ha
  · exact .inr (.inl (ha _ h4))
  · exact .inr (.inr ⟨ha _ h4, hb _ h6⟩)

end

/-! ### C128 -/

section
variable {α : Type} [CommRing α]

/-- C128 for a directory: whenever it has the entry and the matrix of a request, and every other entry was made for something else,
a regrid of values of the right size, at any point of any history of a process that uses the directory as its inventory, gives
MIR's weights times the values, in the shape of the output grid. -/
theorem C128_directory (W : Regrid.World) (hW : W.Sane) (val : Nat → α) (h0 : val 0 = 0) (sizeFn : Csr α → Nat) (memory : Entry → Option Int)
    (D : Digests) (rs : List Request) (parts : Request → Parts) (w : World) (pl : Places)
    (hall : ∀ r ∈ rs, Has D parts w r ∧ pl (folder (parts r)) = some r.dir)
    (hnd : ∀ es, Holds w.index es → (es.map Prod.fst).Nodup ∧ ∀ k ∈ es.map Prod.fst, ∃ r ∈ rs, k = keyOf D (parts r))
    (r : Request) (hr : r ∈ rs) (hm : (parts r).m.Wf) (hs : Sensible (parts r).m)
    (di dO : Dict) (ui : Usable W di) (uo : Usable W dO) (qi qo : GS) (hqi : fromDict W.P di = .ok qi)
    (hqo : fromDict W.P dO = .ok qo) (m : List Char) (shape : List Nat) (hask : Asks W.P W.order qi qo (methodAlias m) (parts r) shape)
    (hap : ∀ r' ∈ rs, keyOf D (parts r') ≠ keyOf D (parts r) → Apart W.P W.order qi qo (methodAlias m) (parts r'))
    (hsh : shape.prod = (parts r).m.rows) :
    ∃ inv, opened W.P val memory pl w.files w.index = some inv ∧
      ∀ h : List (PipeOp α), HistoryUsable W h → HistoryValid h → ∀ x : Arr α, x.flat.length = (parts r).m.cols →
        ∃ y, (regridArray W sizeFn inv x di dO m (pipeRun W sizeFn inv h)).1 = .ok (y, dO) ∧ y.shape = shape ∧
          ∀ idx, Inside shape idx →
            y.elem idx = some (∑ j ∈ range (parts r).m.cols, mirWeight val (parts r).m (offset shape idx) j * x.flat.getD j 0) := by
  obtain ⟨⟨es, raw, hes, h2, h3, h4, h5, h6, h7, h8⟩, hd⟩ := hall r hr
  obtain ⟨hnd, hks⟩ := hnd es hes
  have hraw : ∀ k raw, (k, raw) ∈ es → ∃ r' ∈ rs, k = keyOf D (parts r') ∧ raw.input = some (parts r').di ∧ raw.output = some (parts r').dO ∧
      MethodIs raw (parts r').n := by
    intro k raw hk
    obtain ⟨r', hr', hk'⟩ := hks k (List.mem_map.2 ⟨_, hk, rfl⟩)
    obtain ⟨⟨es', raw', g1, g2, g3, g4, g5, _⟩, _⟩ := hall r' hr'
    rw [holds_det g1 hes, ← hk'] at g2
    rw [nodup_value hnd hk g2]
    exact ⟨r', hr', hk', g3, g4, g5⟩
  rcases hes with ⟨_, hnil⟩ | ⟨f, hf, hv, hfm⟩
  · subst hnil; cases h2
  obtain ⟨ix, hl, hix, _⟩ := C40_kept W.P f es hv hfm hnd
  have hop : opened W.P val memory pl w.files w.index = some ⟨ix, memory, weightsFile val pl w.files⟩ := by
    unfold opened
    simp only [hf, hl]
  refine ⟨_, hop, ?_⟩
  have hc : Index.Clean W.P ix := load_clean W.P f ix (fun es he => by rw [hfm] at he; cases he; exact hnd) hl
  obtain ⟨gi, hgi, hei⟩ := hask.input
  obtain ⟨go, hgo, heo, hshape⟩ := hask.output
  have hin : (keyOf D (parts r), (⟨keyOf D (parts r), gi, go, raw⟩ : Entry)) ∈ ix :=
    (hix _).2 ⟨raw, h2, rfl, rfl, ⟨_, h3, hgi⟩, ⟨_, h4, hgo⟩⟩
  have hhit : Hit W.P W.order qi qo (methodAlias m) (⟨keyOf D (parts r), gi, go, raw⟩ : Entry) := ⟨hask.method ▸ h5, hei, heo⟩
  have hdn : dirName raw = .ok (folder (parts r)) := by
    unfold dirName folder
    simp only [(methodName_ok raw (parts r).n).2 h5, h6, h7, bind, Except.bind, pure, Except.pure]
  have hmp : matrixPath ⟨keyOf D (parts r), gi, go, raw⟩ = .ok (join (folder (parts r)) ((keyOf D (parts r)).toList ++ ".npz".toList)) := by
    unfold matrixPath
    simp only [hdn, bind, Except.bind, pure, Except.pure]
  have hfile : weightsFile val pl w.files ⟨keyOf D (parts r), gi, go, raw⟩ = .ok (numbers val (asCsr (parts r).m)) := by
    unfold weightsFile
    unfold ReadAt at h8
    rw [hmp]
    simp only [hdn, hd]
    unfold folder
    simp only [h8]
  have hans : Regrid.Answers W ix qi qo (methodAlias m) ⟨keyOf D (parts r), gi, go, raw⟩ := by
    obtain ⟨pre, post, hpp⟩ := List.append_of_mem hin
    refine ⟨pre, _, post, hpp, hhit, fun z hz => ?_⟩
    have hzi : z ∈ ix := by rw [hpp]; exact List.mem_append_left _ hz
    obtain ⟨raw', hr1, hr2⟩ := (hix z).1 hzi
    obtain ⟨r', hr', hk', g1, g2, g3⟩ := hraw _ _ hr1
    have hne : z.1 ≠ keyOf D (parts r) := by
      have := hc.nodup
      rw [hpp, List.map_append, List.nodup_append] at this
      exact this.2.2 z.1 (List.mem_map_of_mem hz) _ (List.mem_map.2 ⟨_, List.mem_cons_self, rfl⟩)
    exact apart_miss W.P W.order qi qo _ (parts r') z.1 raw' z.2 hr2 g1 g2 g3 (hap r' hr' (fun h => hne (hk'.trans h)))
  have hshape' : Regrid.shapeOf ⟨keyOf D (parts r), gi, go, raw⟩ = .ok shape := by
    rw [Regrid.C82_shape]
    unfold entryShape Dict.item
    rcases hshape with h | h
    · left; simp only [h]
    · right; simp only [h]
  intro h hu hv' x hx
  obtain ⟨y, hy⟩ := Regrid.C82_succeeds W hW sizeFn ⟨ix, memory, weightsFile val pl w.files⟩ hc h hu hv' x di dO ui uo m qi qo _ _ shape hqi hqo hans hfile hshape'
    hx hsh
  refine ⟨y, hy, ?_⟩
  rw [Regrid.regridArray_res, Regrid.dbFind_same W hW sizeFn _ hc h hu hv' di dO ui uo m,
    (Regrid.findPlain_some W _ di dO m _ shape).2 ⟨qi, qo, _, hqi, hqo, hans, hfile, hshape'⟩] at hy
  obtain ⟨a, _, _, d⟩ := Regrid.C46_product _ (numbers_wf val (parts r).m hm hs) shape x dO dO y hy
  refine ⟨a, fun idx hi => (d idx hi).trans ?_⟩
  simp only [numbers_weight val h0]
  rfl

/-- C128, from MIR to values: a build from nothing, as in `C117_inventory_partial`, put together by the script for it (which finds the directories
of the requests) and opened: the regrid a request of the build was made for gives MIR's weights for that request times the values, at any
point of any history. Partial: with the path given to the builder's converter as it expects it (C71), and without accidental
sharing of files (C117). -/
theorem C128_campaign_partial (W : Regrid.World) (hW : W.Sane) (val : Nat → α) (h0 : val 0 = 0) (sizeFn : Csr α → Nat) (memory : Entry → Option Int)
    (D : Digests) (E : Engines) (rs : List Request) (hn : NoClash rs) (parts : Request → Parts) (delete : Bool)
    (hk : ∀ r ∈ rs, ∀ r' ∈ rs, keyOf D (parts r) = keyOf D (parts r') → r = r') (hsl : ∀ r ∈ rs, '/' ∉ (keyOf D (parts r)).toList)
    (s : Site) (hs : s.Empty) (hix : s.world.index = none) (hall : ∀ r ∈ rs, ∃ d, Own E r d ∧ Complete W.P s.world.files d (parts r))
    (hfo : ∀ r ∈ rs, '/' ∉ folder (parts r) ∧ (folder (parts r)).head? ≠ some '.')
    (r : Request) (hr : r ∈ rs) (hse : Sensible (parts r).m)
    (di dO : Dict) (ui : Usable W di) (uo : Usable W dO) (qi qo : GS) (hqi : fromDict W.P di = .ok qi)
    (hqo : fromDict W.P dO = .ok qo) (m : List Char) (shape : List Nat) (hask : Asks W.P W.order qi qo (methodAlias m) (parts r) shape)
    (hap : ∀ r' ∈ rs, r' ≠ r → Apart W.P W.order qi qo (methodAlias m) (parts r'))
    (hsh : shape.prod = (parts r).m.rows) :
    ∃ s', requests E (makeMatrixPath W.P D) true delete rs s = (.ok (), s') ∧
      ∀ subs t, Lists s'.world.files (rs.map Request.dir) subs → prepare subs s'.world.index none = (true, t) →
        ∃ inv, opened W.P val memory t.places s'.world.files t.index = some inv ∧
          ∀ h : List (PipeOp α), HistoryUsable W h → HistoryValid h → ∀ x : Arr α, x.flat.length = (parts r).m.cols →
            ∃ y, (regridArray W sizeFn inv x di dO m (pipeRun W sizeFn inv h)).1 = .ok (y, dO) ∧ y.shape = shape ∧
              ∀ idx, Inside shape idx →
                y.elem idx = some (∑ j ∈ range (parts r).m.cols, mirWeight val (parts r).m (offset shape idx) j * x.flat.getD j 0) := by
  obtain ⟨s', b1, b2, es, b3, b4, b5⟩ := C117_inventory_partial W.P D E rs hn parts delete hk hsl s hs hix hall
  refine ⟨s', b1, fun subs t hli hp => ?_⟩
  have hti : t.index = s'.world.index := by
    obtain ⟨_, _, f, hf, rfl⟩ := (C129_links _ _ _).1 hp
    exact hf.symm
  rw [hti]
  obtain ⟨d, _, hcr⟩ := hall r hr
  refine C128_directory W hW val h0 sizeFn memory D rs parts s'.world t.places (fun r' hr' => ⟨b2 r' hr', ?_⟩) (fun es' he => ?_) r hr hcr.hw hse
    di dO ui uo qi qo hqi hqo m shape hask (fun r' hr' hne => hap r' hr' (fun h => hne (by rw [h]))) hsh
  · rw [C129_found _ _ _ hp]
    obtain ⟨_, _, _, _, _, _, _, _, _, hf⟩ := b2 r' hr'
    refine hli r'.dir (List.mem_map_of_mem hr') (folder (parts r')) ((keyOf D (parts r')).toList ++ ".npz".toList) (hfo r' hr').2 (hfo r' hr').1 ?_ ?_
    · simp [hsl r' hr']
    · unfold ReadAt at hf
      unfold folder
      rw [hf]
      simp
  · have : es' = es := holds_det he b3
    subst this
    exact ⟨b4, fun k hk => (b5 k).1 hk⟩

end

/-- C128 fails as the code is written: no build comes through, and if nothing was built before there is nothing to open. -/
theorem C128_refuted {α : Type} (P : Py) (D : Digests) (E : Engines) (haveDir delete : Bool) (r : Request) (rs : List Request) (s : Site)
    (hix : s.world.index = none) (val : Nat → α) (memory : Entry → Option Int) (pl : Places) (subs : List (List Char × List Char)) :
    ∃ e s', requests E (makeMatrix P D) haveDir delete (r :: rs) s = (.error e, s') ∧
      opened P val memory pl s'.world.files s'.world.index = none ∧ (prepare subs s'.world.index none).1 = false := by
  obtain ⟨⟨e, h1⟩, h2⟩ := C117_refuted P D E haveDir delete r rs s
  refine ⟨e, _, Prod.ext h1 rfl, ?_, ?_⟩
  · rw [h2, hix]; rfl
  · rw [h2, hix]
    cases h : prepare subs none none with
    | mk b t =>
      cases b with
      | false => rfl
      | true =>
        obtain ⟨_, _, f, hf, _⟩ := (C129_links subs none t).1 h
        cases hf

/-! ### The hypotheses can be met

From 5 to 10 degrees, with two methods; both take every second point. The request is `{'grid': [5, 5]}`, `{'grid': [10, 10]}`. -/

def Bounded (d : Dict) : Prop := ∃ ks : List String, ∀ k, d k ≠ none → k ∈ ks

theorem Bounded.set {d : Dict} (h : Bounded d) (k : String) (v : V) : Bounded (d.set k v) := by
  obtain ⟨ks, h⟩ := h
  refine ⟨k :: ks, fun k' hk => ?_⟩
  unfold Dict.set at hk
  by_cases he : k' = k
  · simp [he]
  · rw [if_neg he] at hk
    exact List.mem_cons_of_mem _ (h k' hk)

theorem Bounded.erase {d : Dict} (h : Bounded d) (k : String) : Bounded (d.erase k) := by
  obtain ⟨ks, h⟩ := h
  refine ⟨ks, fun k' hk => ?_⟩
  unfold Dict.erase at hk
  by_cases he : k' = k
  · rw [if_pos he] at hk; exact absurd rfl hk
  · rw [if_neg he] at hk
    exact h k' hk

theorem Bounded.setDefault {d : Dict} (h : Bounded d) (k : String) (v : V) : Bounded (d.setDefault k v) := by
  unfold Dict.setDefault
  split
  · exact h
  · exact h.set k v

theorem Bounded.start {d : Dict} (h : Bounded d) : Bounded (normalise (withDefaults d)) := by
  obtain ⟨ks, h⟩ := h
  refine ⟨"i_scans_negatively" :: "j_points_consecutive" :: "j_scans_positively" :: ks, fun k hk => ?_⟩
  unfold normalise withDefaults DEFAULTS at hk
  cases hd : d k with
  | some v => simp [h k (by simp [hd])]
  | none =>
    simp only [hd] at hk
    by_cases he : k = "i_scans_negatively" ∨ k = "j_points_consecutive" ∨ k = "j_scans_positively"
    · rcases he with rfl | rfl | rfl <;> simp
    · rw [if_neg he] at hk; exact absurd rfl hk

theorem Bounded.fromDict {P : Py} {d : Dict} (h : Bounded d) (g : GS) (hg : fromDict P d = .ok g) : Bounded g.d := by
  unfold GridSpec.fromDict at hg
  cases hk : infer P TYPES (normalise (withDefaults d)) with
  | error e => simp only [hk, bind, Except.bind] at hg; cases hg
  | ok k =>
    simp only [hk, bind, Except.bind] at hg
    have hs := h.start.set "type" (.str k.name)
    generalize (normalise (withDefaults d)).set "type" (.str k.name) = gs at hg hs
    unfold construct at hg
    cases k with
    | ll =>
      simp only [bind, Except.bind, pure, Except.pure] at hg
      cases ha : llArea gs with
      | error e => simp only [ha] at hg; cases hg
      | ok d' =>
        simp only [ha] at hg
        have hd' : Bounded d' := by
          unfold llArea at ha
          simp only [bind, Except.bind, pure, Except.pure] at ha
          repeat' split at ha
          all_goals first
            | (cases ha; done)
            | (cases ha; first | exact hs | exact (hs.set _ _).set _ _)
        cases hf : flagGlobal (d'.setDefault "area" DEFAULT_AREA) with
        | error e => simp only [hf] at hg; cases hg
        | ok f => simp only [hf] at hg; cases hg; exact hd'.setDefault _ _
    | rgg =>
      simp only [bind, Except.bind, pure, Except.pure] at hg
      cases hf : flagGlobal (gs.setDefault "area" DEFAULT_AREA) with
      | error e => simp only [hf] at hg; cases hg
      | ok f => simp only [hf] at hg; cases hg; exact hs.setDefault _ _
    | healpix =>
      simp only at hg
      cases hg
      refine Bounded.setDefault ?_ _ _
      split
      · exact (hs.erase _).set _ _
      · exact hs
    | orca => cases hg; exact hs

theorem Bounded.items {d : Dict} (h : Bounded d) : ∃ es, Regrid.ItemsOf d es := by
  obtain ⟨ks, h⟩ := h
  refine ⟨ks.dedup.filterMap (fun k => (d k).map (fun v => (k, v))), ?_, fun k v => ?_⟩
  · have : ∀ l : List String, l.Nodup → ((l.filterMap (fun k => (d k).map (fun v => (k, v)))).map Prod.fst).Nodup := by
      intro l
      induction l with
      | nil => simp
      | cons k l ih =>
        intro hn
        rw [List.nodup_cons] at hn
        rw [List.filterMap_cons]
        cases hd : d k with
        | none => simpa using ih hn.2
        | some v =>
          simp only [Option.map_some, List.map_cons, List.nodup_cons]
          refine ⟨?_, ih hn.2⟩
          intro hm
          obtain ⟨⟨a, b⟩, h1, rfl⟩ := List.mem_map.1 hm
          obtain ⟨c, h2, h3⟩ := List.mem_filterMap.1 h1
          cases hc : d c with
          | none => rw [hc] at h3; cases h3
          | some u => rw [hc] at h3; cases h3; exact hn.1 h2
    exact this _ ks.nodup_dedup
  · rw [List.mem_filterMap]
    constructor
    · rintro ⟨c, _, h3⟩
      cases hc : d c with
      | none => rw [hc] at h3; cases h3
      | some u => rw [hc] at h3; cases h3; exact hc
    · intro hd
      exact ⟨k, List.mem_dedup.2 (h k (by simp [hd])), by simp [hd]⟩

theorem usable_of {P : Py} {d : Dict} (h : Bounded d) (hp : Regrid.PlainDict d) : Usable (Regrid.Demo.world P) d := by
  refine ⟨hp, fun g hg => ?_⟩
  obtain ⟨es, he⟩ := (h.fromDict g hg).items
  exact Regrid.Demo.items_spec _ es he

theorem short_usable (P : Py) (i : Int) : Usable (Regrid.Demo.world P) (shortSpec (.int i) (.int i)) := by
  refine usable_of ⟨["grid"], fun k hk => ?_⟩ ?_
  · unfold shortSpec at hk
    by_cases h : k = "grid"
    · simp [h]
    · rw [if_neg h] at hk; exact absurd rfl hk
  · intro k v h
    unfold shortSpec at h
    by_cases hk : k = "grid"
    · rw [if_pos hk] at h
      cases h
      refine .inl (.inr ⟨_, rfl, ?_⟩)
      intro x hx
      simp at hx
      subst hx
      exact trivial
    · rw [if_neg hk] at h; cases h

/-- Every second point of a 37 by 72 grid, 19 by 36 in all, with weight one. -/
def halve : Mir.MirMatrix := ⟨684, 2664, 684, true, 4, 8, List.range 685, (List.range 684).map (fun k => 2 * (k / 36) * 72 + 2 * (k % 36)),
  List.replicate 684 0x3f800000⟩

theorem halve_wf : halve.Wf := by constructor <;> decide +kernel

theorem halve_sensible : Sensible halve where
  ordered := by
    intro i j a b hij ha hb
    simp only [halve, List.getElem?_range', List.getElem?_eq_some_iff, List.getElem_range] at ha hb
    obtain ⟨_, rfl⟩ := ha
    obtain ⟨_, rfl⟩ := hb
    exact hij
  inside := by decide +kernel

def halving (n : String) : Parts := ⟨mirLatLon 5 37 72 355, mirLatLon 10 19 36 350, ⟨some (.name n.toList), some "mir".toList, some "1".toList, 0⟩,
  fullSpec (.int 5) (.int 5) (.list [.int 37, .int 72]) (.int 90) (.int 0) (.int (-90)) (.int 355),
  fullSpec (.int 10) (.int 10) (.list [.int 19, .int 36]) (.int 90) (.int 0) (.int (-90)) (.int 350),
  n.toList, "mir".toList, "1".toList, "cache.mat".toList, 684, halve⟩
def halvingParts (r : Request) : Parts := if r.method = "linear".toList then halving "linear" else halving "nearest-neighbour"
def halvingEngines : Engines := ⟨fun _ => some 0, fun _ _ m => some (descOf (if m = "linear".toList then halving "linear" else halving "nearest-neighbour"))⟩
def halvingDigests : Digests := ⟨fun _ _ i => (match i.method with | some (.name ('l' :: _)) => "a" | _ => "b"), fun _ => [], fun _ _ _ _ => 0⟩
def asked (n : String) : Request := ⟨"5/5".toList, "10/10".toList, n.toList, "b/matrices_".toList ++ n.toList⟩
def bothAsked : List Request := planned "b".toList ["linear".toList, "nearest-neighbour".toList] (makeGridId [(.ll, ["5".toList])])
  (makeGridId [(.ll, ["10".toList])]) []
theorem bothAsked_eq : bothAsked = [asked "linear", asked "nearest-neighbour"] := by decide +kernel
def halvingSite : Site := { emptySite with world := fileWorld "cache.mat".toList (.bytes halve.file) }

theorem halving_complete (P : Py) (n : String) : Complete P halvingSite.world.files (descOf (halving n)) (halving n) where
  hx := rfl
  hy := rfl
  hi := rfl
  hs := rfl
  hz := rfl
  hdx := describes_latlon P 5 37 72 355
  hdy := describes_latlon P 10 19 36 350
  hm := .inl rfl
  he := rfl
  hv := rfl
  hf := fileWorld_has _ _
  hw := halve_wf
  hnpz := show ¬ ".npz".toList <:+ "cache.mat".toList by decide

theorem compareKeys_enumerate : Enumerates COMPARE_KEYS := fun _ => Iff.rfl

/-- What single precision patterns stand for, for the two that occur. -/
def one (b : Nat) : ℚ := if b = 0x3f800000 then 1 else 0

/-- `C128_campaign_partial`, and with it `C128_directory`: the result has the value of every second point, after any history. -/
example (P : Py) (sizeFn : Csr ℚ → Nat) (memory : Entry → Option Int) :
    ∃ s', requests halvingEngines (makeMatrixPath P halvingDigests) true true bothAsked halvingSite = (.ok (), s') ∧
      ∀ subs t, Lists s'.world.files (bothAsked.map Request.dir) subs → prepare subs s'.world.index none = (true, t) →
        ∃ inv, opened P one memory t.places s'.world.files t.index = some inv ∧
          ∀ h : List (PipeOp ℚ), HistoryUsable (Regrid.Demo.world P) h → HistoryValid h → ∀ x : Arr ℚ, x.flat.length = 2664 →
            ∃ y, (regridArray (Regrid.Demo.world P) sizeFn inv x (shortSpec (.int 5) (.int 5)) (shortSpec (.int 10) (.int 10)) "nn".toList
                (pipeRun (Regrid.Demo.world P) sizeFn inv h)).1 = .ok (y, shortSpec (.int 10) (.int 10)) ∧ y.shape = [19, 36] ∧
              ∀ idx, Inside [19, 36] idx →
                y.elem idx = some (∑ j ∈ range 2664, mirWeight one halve (offset [19, 36] idx) j * x.flat.getD j 0) := by
  obtain ⟨qi, gi, a1, a2, _, a4⟩ := C36_short_matches_full P COMPARE_KEYS compareKeys_enumerate 5 (by decide +kernel) (.int 5) (.int 5) (.int 5) (.int 5)
    (.list [.int 37, .int 72]) (.int 90) (.int 0) (.int (-90)) (.int 355) (by decide +kernel) (by decide +kernel) (by decide +kernel)
    (by decide +kernel) (by decide +kernel) (by decide +kernel) (by decide +kernel) (by decide +kernel)
  obtain ⟨qo, go, b1, b2, _, b4⟩ := C36_short_matches_full P COMPARE_KEYS compareKeys_enumerate 10 (by decide +kernel) (.int 10) (.int 10) (.int 10) (.int 10)
    (.list [.int 19, .int 36]) (.int 90) (.int 0) (.int (-90)) (.int 350) (by decide +kernel) (by decide +kernel) (by decide +kernel)
    (by decide +kernel) (by decide +kernel) (by decide +kernel) (by decide +kernel) (by decide +kernel)
  have hp : PlainGrids [(.ll, ["5".toList])] := by unfold PlainGrids; decide +kernel
  have hp' : PlainGrids [(.ll, ["10".toList])] := by unfold PlainGrids; decide +kernel
  have hshape : go.d "shape" = some (.list [.int 19, .int 36]) := by
    obtain ⟨f, hf, _, _, _, fsh, _⟩ := fromDict_full P (.int 10) (.int 10) (.list [.int 19, .int 36]) (.int 90) (.int 0) (.int (-90)) (.int 350)
    rw [b2] at hf
    cases hf
    exact fsh
  refine C128_campaign_partial (Regrid.Demo.world P) (Regrid.Demo.world_sane P) one (by decide +kernel) sizeFn memory halvingDigests halvingEngines
    bothAsked (C117_names _ _ _ _ hp hp' (by decide +kernel)) halvingParts true ?_ ?_ halvingSite ⟨fun _ => rfl, fun _ => rfl, rfl⟩ rfl ?_ ?_
    (asked "nearest-neighbour") ?_ ?_ _ _ (short_usable P 5) (short_usable P 10) qi qo a1 b1 _ _
    ⟨by decide +kernel, ⟨gi, a2, a4⟩, ⟨go, b2, b4, .inl hshape⟩⟩ ?_ ?_
  · rw [bothAsked_eq]; decide +kernel
  · rw [bothAsked_eq]; decide +kernel
  · rw [bothAsked_eq]
    intro r hr
    simp only [List.mem_cons, List.not_mem_nil, or_false] at hr
    rcases hr with rfl | rfl
    · exact ⟨descOf (halving "linear"), ⟨0, rfl, rfl⟩, halving_complete P _⟩
    · exact ⟨descOf (halving "nearest-neighbour"), ⟨0, rfl, rfl⟩, halving_complete P _⟩
  · rw [bothAsked_eq]; decide +kernel
  · rw [bothAsked_eq]; simp
  · exact halve_sensible
  · rw [bothAsked_eq]
    intro r hr hne
    simp only [List.mem_cons, List.not_mem_nil, or_false] at hr
    rcases hr with rfl | rfl
    · exact .inl (by decide +kernel)
    · exact absurd rfl hne
  · decide +kernel

/-- `C128_refuted` -/
example (P : Py) (memory : Entry → Option Int) : ∃ e s', requests halvingEngines (makeMatrix P halvingDigests) true true [asked "linear"] halvingSite = (.error e, s') ∧
    opened P one memory (placed "b".toList) s'.world.files s'.world.index = none ∧ (prepare [("b".toList, "mir_1_linear".toList)] s'.world.index none).1 = false :=
  C128_refuted P halvingDigests halvingEngines true true (asked "linear") [] halvingSite rfl one memory _ _

/-- `C129_links`, `C129_found`, `C129_stale_refuted`; `C129_refuted`: two methods, then a name that is there twice. -/
def bothSubs : List (List Char × List Char) := [("b/matrices_linear".toList, "mir_1_linear".toList), ("b/matrices_nn".toList, "mir_1_nearest-neighbour".toList)]

example : ∃ t, prepare bothSubs (some (holding [])) none = (true, t) ∧ t.places "mir_1_linear".toList = some "b/matrices_linear".toList ∧
    t.places "mir_16_linear".toList = none ∧ prepare [] none (some t) = (true, t) := by
  have h := (C129_links bothSubs (some (holding [])) _).2 ⟨by decide, by decide, _, rfl, rfl⟩
  refine ⟨_, h, (C129_found _ _ _ h _ _).2 (by decide), ?_, (C129_stale_refuted _ _ _ h [] none).1⟩
  rw [Option.eq_none_iff_forall_ne_some]
  intro d hd
  have := (C129_found _ _ _ h _ _).1 hd
  simp [bothSubs] at this

example (P : Py) (memory : Entry → Option Int) (files : Mir.Files) :
    ∃ t, prepare [("a".toList, "mir_1_linear".toList), ("b".toList, "mir_1_linear".toList)] (some (holding [])) none = (false, t) ∧
      prepare bothSubs (some (holding [])) (some t) = (true, t) ∧ opened P one memory t.places files t.index = none :=
  ⟨_, rfl, C129_refuted [("a".toList, "mir_1_linear".toList), ("b".toList, "mir_1_linear".toList)] (some (holding [])) _ rfl _ _ P one memory files⟩

end Verif.Builder

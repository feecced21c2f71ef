import Verif.Xarray.Props

/-! # C74, C95: data arrays and datasets -/

namespace Verif.Xarray

variable {α : Type} [Zero α]

/-! ### The loop over slices -/

theorem mem_ndindex : ∀ (ns l : List Nat), l ∈ ndindex ns ↔ List.Forall₂ (· < ·) l ns
  | [], l => by
    simp only [ndindex, List.mem_singleton]
    constructor
    · rintro rfl; exact .nil
    · intro h; cases h; rfl
  | n :: ns, l => by
    simp only [ndindex, List.mem_flatMap, List.mem_range, List.mem_map]
    constructor
    · rintro ⟨i, hi, a, ha, rfl⟩
      exact .cons hi ((mem_ndindex ns a).1 ha)
    · intro h
      cases h with
      | cons hi ht => exact ⟨_, hi, _, (mem_ndindex ns _).2 ht, rfl⟩

omit [Zero α] in
/-- Every position gets the result of the function on its slice, and all results have one shape. -/
theorem vectorize_ok {G : Type} (f : Method G α) (d : DA α) (ins : List String) (ok : List Nat → Bool) :
    ∀ (ls : List (List Nat)) (acc acc' : List (List Nat × Arr α)) (sh sh' : Option (List Nat)) (g g' : G),
      vectorize f d ins ok ls acc sh g = .ok (acc', sh', g') →
      ∃ new, acc' = acc ++ new ∧ new.map Prod.fst = ls ∧ (∀ s, sh = some s → sh' = some s) ∧ (ls = [] → sh' = sh ∧ g' = g) ∧
        (ls ≠ [] → ∃ x ∈ new, f (d.slice ins x.1) = .ok (x.2, g')) ∧ ∀ x ∈ new, ∃ gx, f (d.slice ins x.1) = .ok (x.2, gx) ∧ sh' = some x.2.shape ∧ ok x.2.shape = true
  | [], acc, acc', sh, sh', g, g', h => by
    simp only [vectorize, Except.ok.injEq, Prod.mk.injEq] at h
    obtain ⟨rfl, rfl, rfl⟩ := h
    exact ⟨[], by simp, rfl, fun s h => h, fun _ => ⟨rfl, rfl⟩, by simp, by simp⟩
  | l :: ls, acc, acc', sh, sh', g, g', h => by
    simp only [vectorize, bind, Except.bind] at h
    cases hf : f (d.slice ins l) with
    | error e => rw [hf] at h; cases h
    | ok r =>
      obtain ⟨a, ga⟩ := r
      rw [hf] at h
      simp only at h
      by_cases hc : (ok a.shape && (sh == none || sh == some a.shape)) = true
      · rw [if_pos hc] at h
        obtain ⟨new, h1, h2, h3, h4, h4', h5⟩ := vectorize_ok f d ins ok ls _ _ _ _ _ _ h
        have hsh := h3 a.shape rfl
        simp only [Bool.and_eq_true, Bool.or_eq_true, beq_iff_eq] at hc
        refine ⟨(l, a) :: new, by rw [h1]; simp, by simp [h2], ?_, by simp, ?_, ?_⟩
        · intro s hs
          rcases hc.2 with h' | h'
          · rw [hs] at h'; cases h'
          · rw [hs] at h'; cases h'; exact hsh
        · intro _
          by_cases he : ls = []
          · rw [(h4 he).2]
            exact ⟨(l, a), by simp, hf⟩
          · obtain ⟨x, hx, hx'⟩ := h4' he
            exact ⟨x, by simp [hx], hx'⟩
        · intro x hx
          rcases List.mem_cons.1 hx with rfl | hx
          · exact ⟨ga, hf, hsh, hc.1⟩
          · exact h5 x hx
      · rw [if_neg hc] at h; cases h

theorem place_get (p : String → Nat) : ∀ (ns : List String) (is : List Nat), ns.length = is.length → ∀ m,
    place p ns is m = if m ∈ ns then (is[ns.idxOf m]?).getD 0 else p m
  | [], is, _, m => by simp [place]
  | n :: ns, [], h, _ => by simp at h
  | n :: ns, i :: is, h, m => by
    simp only [place]
    by_cases hm : m = n
    · subst hm; simp
    · rw [if_neg hm, place_get p ns is (by simpa using h) m]
      simp only [List.mem_cons, hm, false_or]
      rw [List.idxOf_cons_ne _ (Ne.symm hm)]
      simp

theorem place_loop (q : String → Nat) (p : String → Nat) : ∀ (ns : List String) (m : String), m ∈ ns →
    place q ns (ns.map p) m = p m
  | [], m, h => by simp at h
  | n :: ns, m, h => by
    simp only [List.map_cons, place]
    by_cases hm : m = n
    · subst hm; simp
    · rw [if_neg hm]
      exact place_loop q p ns m (by simpa [hm] using h)

theorem place_self (q : String → Nat) : ∀ (ns : List String) (is : List Nat), ns.Nodup → ns.length = is.length → ns.map (place q ns is) = is
  | [], [], _, _ => rfl
  | [], _ :: _, _, h => by simp at h
  | _ :: _, [], _, h => by simp at h
  | n :: ns, i :: is, hn, h => by
    rw [List.nodup_cons] at hn
    simp only [List.map_cons, place, if_true, List.cons.injEq, true_and]
    refine Eq.trans (List.map_congr_left ?_) (place_self q ns is hn.2 (by simpa using h))
    intro m hm
    rw [if_neg (by rintro rfl; exact hn.1 hm)]

omit [Zero α] in
theorem loop_nodup {d : DA α} (h : d.names.Nodup) (ins : List String) : ((d.loop ins).map Prod.fst).Nodup :=
  h.sublist (List.filter_sublist.map _)

omit [Zero α] in
theorem mem_loop (d : DA α) (ins : List String) (x : String × Nat) : x ∈ d.loop ins ↔ x ∈ d.dims ∧ x.1 ∉ ins := by
  unfold DA.loop
  simp

omit [Zero α] in
theorem slice_eq (d : DA α) (hd : Proper d) (ins : List String) (p : String → Nat) :
    d.slice ins ((d.loop ins).map (fun x => p x.1)) = sliceAt d ins p := by
  unfold DA.slice sliceAt
  simp only [Arr.mk.injEq, true_and]
  apply List.map_congr_left
  intro is his
  have hlen : ins.length = is.length := by
    have := ((mem_ndindex _ _).1 his).length_eq
    simpa using this.symm
  apply hd.2
  intro n hn
  rw [place_get _ ins is hlen n]
  by_cases h : n ∈ ins
  · rw [if_pos h, if_pos h]
  · rw [if_neg h, if_neg h]
    have hmem : n ∈ (d.loop ins).map Prod.fst := by
      obtain ⟨x, hx, rfl⟩ := List.mem_map.1 hn
      exact List.mem_map.2 ⟨x, (mem_loop d ins x).2 ⟨hx, h⟩, rfl⟩
    have := place_loop (fun _ => 0) p _ n hmem
    rw [List.map_map] at this
    exact this

theorem lookup_of_keys {α β : Type} [BEq α] [LawfulBEq α] (k : α) : ∀ l : List (α × β), k ∈ l.map Prod.fst → ∃ v, l.lookup k = some v ∧ (k, v) ∈ l
  | [], h => by simp at h
  | (a, b) :: l, h => by
    by_cases e : k = a
    · subst e; exact ⟨b, by simp, by simp⟩
    · obtain ⟨v, h1, h2⟩ := lookup_of_keys k l (by simpa [e] using h)
      refine ⟨v, ?_, by simp [h2]⟩
      rw [List.lookup_cons]
      have : (k == a) = false := by simpa using e
      rw [this]; exact h1

/-- C74: the dimensions that are not geographic are kept with their sizes and in their order, in front of the output dimensions; and
at every position along them the values are those that the interpolation gives for the input values at this position: slices do
not mix. -/
theorem C74_slices {G : Type} (f : Method G α) (g0 g : G) (d o : DA α) (hd : Proper d) (ins outs : List String)
    (h : applyUfunc f g0 d ins outs = .ok (o, g)) :
    ∃ s : List Nat, s.length = outs.length ∧
      o.dims = d.dims.filter (fun x => decide (x.1 ∉ ins)) ++ outs.zip s ∧
      (∀ n ∈ outs, n ∈ d.names → n ∈ ins) ∧
      (∃ p a, Inside d ins p ∧ f (sliceAt d ins p) = .ok (a, g)) ∧
      ∀ p, Inside d ins p → ∃ a ga, f (sliceAt d ins p) = .ok (a, ga) ∧ a.shape = s ∧
        ∀ q, (∀ x ∈ d.dims, x.1 ∉ ins → q x.1 = p x.1) → o.val q = (a.at (outs.map q)).getD 0 := by
  unfold applyUfunc at h
  by_cases hc : (ins.all d.names.contains && ins.Nodup && outs.Nodup && (d.loop ins).all (fun x => !outs.contains x.1)) = true
  · rw [if_pos hc] at h
    simp only [bind, Except.bind] at h
    obtain ⟨ls, els⟩ : ∃ ls, ls = ndindex ((d.loop ins).map Prod.snd) := ⟨_, rfl⟩
    rw [← els] at h
    cases hv : vectorize f d ins (fits d ins outs (ins.all outs.contains && outs.all ins.contains)) ls [] none g0 with
    | error e => rw [hv] at h; cases h
    | ok r =>
      obtain ⟨acc, sh, g'⟩ := r
      rw [hv] at h
      simp only at h
      cases sh with
      | none => cases h
      | some s =>
        simp only [pure, Except.pure, Except.ok.injEq, Prod.mk.injEq] at h
        obtain ⟨ho, rfl⟩ := h
        obtain ⟨new, h1, h2, _, h4, h4', h5⟩ := vectorize_ok f d ins _ ls [] acc none (some s) g0 g' hv
        simp only [List.nil_append] at h1
        subst h1
        have hne : acc ≠ [] := by
          rintro rfl
          simp only [List.map_nil] at h2
          exact absurd (h4 h2.symm).1 (by simp)
        obtain ⟨x0, hx0⟩ := List.exists_mem_of_ne_nil _ hne
        obtain ⟨_, _, e1, e2⟩ := h5 x0 hx0
        have hlen : s.length = outs.length := by
          simp only [Option.some.injEq] at e1
          rw [e1]
          unfold fits at e2
          simp only [Bool.and_eq_true, beq_iff_eq] at e2
          exact e2.1
        refine ⟨s, hlen, ?_, ?_, ?_, ?_⟩
        · rw [← ho]
          show d.loop ins ++ outs.zip s = _
          congr 1
          unfold DA.loop
          apply List.filter_congr
          intro x _
          simp
        · intro n hn hnd
          by_contra hni
          simp only [Bool.and_eq_true, List.all_eq_true] at hc
          obtain ⟨x, hx, rfl⟩ := List.mem_map.1 hnd
          have := hc.2 x ((mem_loop d ins x).2 ⟨hx, hni⟩)
          simp [hn] at this
        · obtain ⟨x, hx, hfx⟩ := h4' (by rw [← h2]; simpa using hne)
          have hxl : x.1 ∈ ls := by rw [← h2]; exact List.mem_map_of_mem hx
          rw [els, mem_ndindex] at hxl
          obtain ⟨p, hp⟩ : ∃ p : String → Nat, (d.loop ins).map (fun y => p y.1) = x.1 :=
            ⟨place (fun _ => 0) ((d.loop ins).map Prod.fst) x.1, by
              have := place_self (fun _ => 0) ((d.loop ins).map Prod.fst) x.1 (loop_nodup hd.1 ins) (by simpa using hxl.length_eq.symm)
              rw [List.map_map] at this
              exact this⟩
          refine ⟨p, x.2, ?_, ?_⟩
          · rw [← hp, List.forall₂_map_left_iff, List.forall₂_map_right_iff, List.forall₂_same] at hxl
            intro y hy hy'
            exact hxl y ((mem_loop d ins y).2 ⟨hy, hy'⟩)
          · rw [← slice_eq d hd ins p, hp]; exact hfx
        · intro p hp
          have hin : (d.loop ins).map (fun x => p x.1) ∈ acc.map Prod.fst := by
            rw [h2, els, mem_ndindex, List.forall₂_map_left_iff, List.forall₂_map_right_iff, List.forall₂_same]
            intro x hx
            exact hp x ((mem_loop d ins x).1 hx).1 ((mem_loop d ins x).1 hx).2
          obtain ⟨a, ha, hmem⟩ := lookup_of_keys _ acc hin
          obtain ⟨ga, b1, b2, _⟩ := h5 _ hmem
          rw [slice_eq d hd ins p] at b1
          simp only [Option.some.injEq] at b2
          refine ⟨a, ga, b1, b2.symm, ?_⟩
          intro q hq
          rw [← ho]
          have : (d.loop ins).map (fun x => q x.1) = (d.loop ins).map (fun x => p x.1) := by
            apply List.map_congr_left
            intro x hx
            exact hq x ((mem_loop d ins x).1 hx).1 ((mem_loop d ins x).1 hx).2
          simp only [stacked, this, ha]
  · rw [if_neg hc] at h; cases h

/-- If the interpolation of one slice fails, the whole call does. -/
theorem C74_failing_slice {G : Type} (f : Method G α) (g0 : G) (d : DA α) (hd : Proper d) (ins outs : List String) (p : String → Nat)
    (hp : Inside d ins p) (e : Err) (hf : f (sliceAt d ins p) = .error e) : ∃ e', applyUfunc f g0 d ins outs = .error e' := by
  cases h : applyUfunc f g0 d ins outs with
  | error e' => exact ⟨e', rfl⟩
  | ok r =>
    obtain ⟨o, g⟩ := r
    obtain ⟨s, _, _, _, _, h4⟩ := C74_slices f g0 g d o hd ins outs h
    obtain ⟨a, ga, h5, _⟩ := h4 p hp
    rw [hf] at h5; cases h5

/-! ### Coordinates -/

theorem checked_ok {g g' : Geo} (h : checked g = .ok g') : g' = g ∧
    ∀ c ∈ g.coords, (∀ n ∈ c.2.dims, ∃ k, HasDim g.dims n k) ∧ c.2.data.length = prod g.dims c.2.dims := by
  unfold checked at h
  split at h
  · rename_i hc
    cases h
    refine ⟨rfl, ?_⟩
    intro c hcm
    rw [List.all_eq_true] at hc
    have := hc c hcm
    simp only [Bool.and_eq_true, List.all_eq_true, beq_iff_eq, Option.isSome_iff_exists] at this
    exact this
  · cases h

/-- The three forms of the geography of a grid. -/
inductive Form (g : Grid) : Geo → Prop
  | points (n : Nat) (lat lon : List ℚ) : g.shape = [n] → g.latlons = .ok (lat, lon) → lat.length = n → lon.length = n →
      Form g ⟨[("values", n)], [("latitude", ⟨["values"], lat⟩), ("longitude", ⟨["values"], lon⟩)]⟩
  | none (n : Nat) : g.shape = [n] → Form g ⟨[("values", n)], []⟩
  | tensor (r c : Nat) (lat lon : List ℚ) : g.shape = [r, c] → lat.length = r → lon.length = c →
      toDistinct g [r, c] = .ok (some (lat, lon)) →
      Form g ⟨[("latitude", r), ("longitude", c)], [("latitude", ⟨["latitude"], lat⟩), ("longitude", ⟨["longitude"], lon⟩)]⟩
  | curvilinear (r c : Nat) (lat lon : List ℚ) : g.shape = [r, c] → g.latlons = .ok (lat, lon) → lat.length = r * c → lon.length = r * c →
      Form g ⟨[("y", r), ("x", c)], [("latitude", ⟨["y", "x"], lat⟩), ("longitude", ⟨["y", "x"], lon⟩)]⟩

/-- C74, coordinates: whenever coordinates are made they have one of three forms, with as many values as their dimensions have points,
and dimensions of the sizes of the grid. -/
theorem C74_coordinates (g : Grid) (geo : Geo) (h : coords g = .ok geo) :
    Form g geo ∧ geo.dims.map Prod.snd = g.shape ∧
      ∀ c ∈ geo.coords, (∀ n ∈ c.2.dims, ∃ k, HasDim geo.dims n k) ∧ c.2.data.length = prod geo.dims c.2.dims := by
  unfold coords at h
  split at h
  · rename_i n hs
    obtain ⟨rfl, hc⟩ := checked_ok h
    refine ⟨?_, ?_, hc⟩
    · unfold unstructured at hc ⊢
      split at hc
      · rename_i la lo hl
        have h1 := (hc _ (List.mem_cons_self ..)).2
        have h2 := (hc _ (List.mem_cons_of_mem _ (List.mem_cons_self ..))).2
        simp only [prod, sizeOf, List.map_cons, List.map_nil, List.lookup_cons_self, Option.getD_some, List.prod_cons, List.prod_nil,
          Nat.mul_one] at h1 h2
        exact .points n la lo hs hl h1 h2
      · exact .none n hs
    · unfold unstructured; split <;> simp [hs]
  · rename_i r c hs
    split at h
    · rename_i geo' ht
      obtain ⟨rfl, hc⟩ := checked_ok h
      unfold tensor at ht
      split at ht
      · rename_i lat lon hd
        split at ht
        · rename_i hl
          cases ht
          obtain ⟨rfl, rfl⟩ := hl
          exact ⟨.tensor _ _ lat lon hs rfl rfl hd, by simp [hs], hc⟩
        · cases ht
      · cases ht
    · simp only [bind, Except.bind] at h
      cases hcv : curvilinear g r c with
      | error e => rw [hcv] at h; cases h
      | ok geo' =>
        rw [hcv] at h
        obtain ⟨rfl, hc⟩ := checked_ok h
        unfold curvilinear at hcv
        simp only [bind, Except.bind] at hcv
        cases hl : g.latlons with
        | error e => rw [hl] at hcv; cases hcv
        | ok ll =>
          obtain ⟨la, lo⟩ := ll
          rw [hl] at hcv
          simp only at hcv
          split at hcv
          · rename_i hlen
            cases hcv
            exact ⟨.curvilinear r c la lo hs hl hlen.1 hlen.2, by simp [hs], hc⟩
          · cases hcv
  · cases h

omit [Zero α] in
theorem attachAll_ok (geo : Geo) (d : DA α) : ∀ cs : List (String × Var), attachAll geo d cs = .ok () → ∀ c ∈ cs, ∀ n ∈ c.2.dims,
    n ∈ d.names ∧ sizeOf geo.dims n = sizeOf d.dims n
  | [], _, c, hc => by simp at hc
  | c :: cs, h, x, hx => by
    simp only [attachAll, bind, Except.bind] at h
    cases ha : attachOne geo d c with
    | error e => rw [ha] at h; cases h
    | ok u =>
      rw [ha] at h
      rcases List.mem_cons.1 hx with rfl | hx
      · unfold attachOne at ha
        split at ha
        · rename_i hc
          rw [List.all_eq_true] at hc
          intro n hn
          have := hc n hn
          simp only [Bool.and_eq_true, beq_iff_eq, List.contains_eq_mem, decide_eq_true_eq] at this
          exact this
        · cases ha
      · exact attachAll_ok geo d cs h x hx

theorem dimsOr_ok {given : Option (List String)} {default : M (List String)} {ns : List String} (h : dimsOr given default = .ok ns) :
    given = some ns ∨ given = none ∧ default = .ok ns := by
  unfold dimsOr at h
  split at h
  · cases h; exact .inl rfl
  · exact .inr ⟨rfl, h⟩

/-- What a successful regrid of a data array consists of. -/
theorem regrid_ok {G : Type} (grid : G → M Grid) (f : Method G α) (out : G) (d o : DA α) (i j : Option (List String))
    (cs : List (String × Var)) (h : regrid grid f out d i j = .ok (o, cs)) :
    ∃ g g' gr' ins outs geo, grid out = .ok g ∧ (i = some ins ∨ i = none ∧ inGeoDims d.names = .ok ins) ∧ (j = some outs ∨ j = none ∧ geoDims g = .ok outs) ∧
      applyUfunc f out d ins outs = .ok (o, g') ∧ grid g' = .ok gr' ∧ coords gr' = .ok geo ∧ cs = geo.coords ∧
      attachAll geo o geo.coords = .ok () := by
  unfold regrid at h
  simp only [bind, Except.bind] at h
  cases h1 : grid out with
  | error e => rw [h1] at h; cases h
  | ok g =>
    rw [h1] at h
    simp only at h
    cases hi : dimsOr i (inGeoDims d.names) with
    | error e => rw [hi] at h; cases h
    | ok ins =>
      rw [hi] at h
      simp only at h
      cases ho : dimsOr j (geoDims g) with
      | error e => rw [ho] at h; cases h
      | ok outs =>
        rw [ho] at h
        simp only at h
        cases h2 : applyUfunc f out d ins outs with
        | error e => rw [h2] at h; cases h
        | ok r =>
          obtain ⟨o', g'⟩ := r
          rw [h2] at h
          simp only at h
          cases h3 : grid g' with
          | error e => rw [h3] at h; cases h
          | ok gr' =>
            rw [h3] at h
            simp only at h
            cases h4 : coords gr' with
            | error e => rw [h4] at h; cases h
            | ok geo =>
              rw [h4] at h
              simp only [addGeo, bind, Except.bind] at h
              cases h5 : attachAll geo o' geo.coords with
              | error e => rw [h5] at h; cases h
              | ok u =>
                rw [h5] at h
                simp only [pure, Except.pure, Except.ok.injEq, Prod.mk.injEq] at h
                obtain ⟨rfl, rfl⟩ := h
                exact ⟨g, g', gr', ins, outs, geo, rfl, dimsOr_ok hi, dimsOr_ok ho, h2, h3, h4, rfl, h5⟩

theorem inGeoDims_ok {names ins : List String} (h : inGeoDims names = .ok ins) : LastDims names ins := by
  unfold inGeoDims at h
  split at h
  · rename_i t ht
    cases h
    exact ⟨.inl rfl, t.reverse, by rw [← List.reverse_inj, ht]; simp⟩
  · rename_i t ht
    cases h
    exact ⟨.inr rfl, t.reverse, by rw [← List.reverse_inj, ht]; simp⟩
  · cases h

theorem geoDims_ok {g : Grid} {outs : List String} (h : geoDims g = .ok outs) : GridDims g outs := by
  unfold geoDims at h
  split at h
  · rename_i h1; cases h; exact .inr ⟨h1, rfl⟩
  · split at h
    · rename_i h1; cases h; exact .inl ⟨h1, rfl⟩
    · cases h

/-- C74 for data arrays that are returned. The dimensions used are those given by the caller, else the last ones and those of the target
grid. The other dimensions are kept in front, and at every position along them the values are those the interpolation gives for the
input at this position. The coordinates are those of a grid the interpolation has reported for one of the slices; each runs along
dimensions of the result and has as many values as these have points. -/
theorem C74_array_partial {G : Type} (grid : G → M Grid) (f : Method G α) (out : G) (d o : DA α) (hd : Proper d) (i j : Option (List String))
    (cs : List (String × Var)) (h : regrid grid f out d i j = .ok (o, cs)) :
    ∃ g ins outs s, grid out = .ok g ∧ (i = some ins ∨ i = none ∧ LastDims d.names ins) ∧ (j = some outs ∨ j = none ∧ GridDims g outs) ∧
      s.length = outs.length ∧ o.dims = d.dims.filter (fun x => decide (x.1 ∉ ins)) ++ outs.zip s ∧
      (∀ p, Inside d ins p → ∃ a ga, f (sliceAt d ins p) = .ok (a, ga) ∧ a.shape = s ∧
        ∀ q, (∀ x ∈ d.dims, x.1 ∉ ins → q x.1 = p x.1) → o.val q = (a.at (outs.map q)).getD 0) ∧
      (∃ p a g' gr' geo, Inside d ins p ∧ f (sliceAt d ins p) = .ok (a, g') ∧ grid g' = .ok gr' ∧ Form gr' geo ∧ cs = geo.coords) ∧
      ∀ c ∈ cs, (∀ n ∈ c.2.dims, n ∈ o.names) ∧ c.2.data.length = prod o.dims c.2.dims := by
  obtain ⟨g, g', gr', ins, outs, geo, e1, e2, e3, e4, e5, h6, rfl, h8⟩ := regrid_ok grid f out d o i j cs h
  obtain ⟨s, k1, k2, _, ⟨p, a, k3, k4⟩, k5⟩ := C74_slices f out g' d o hd ins outs e4
  refine ⟨g, ins, outs, s, e1, e2.imp id (fun h => ⟨h.1, inGeoDims_ok h.2⟩), e3.imp id (fun h => ⟨h.1, geoDims_ok h.2⟩), k1, k2, k5,
    ⟨p, a, g', gr', geo, k3, k4, e5, (C74_coordinates gr' geo h6).1, rfl⟩, ?_⟩
  intro c hc
  have ha := attachAll_ok geo o _ h8 c hc
  obtain ⟨_, _, hco⟩ := C74_coordinates gr' geo h6
  refine ⟨fun n hn => (ha n hn).1, ?_⟩
  rw [(hco c hc).2]
  unfold prod
  congr 1
  apply List.map_congr_left
  intro n hn
  rw [(ha n hn).2]

/-- C74 fails for data arrays on 2-D grids without distinct latitudes and longitudes: whatever the weights give, with the default
dimensions the call raises — the data has dimensions latitude and longitude, the coordinates y and x. -/
theorem C74_curvilinear_refuted {G : Type} (grid : G → M Grid) (f : Method G α) (out : G) (d : DA α) (g : Grid) (r c : Nat)
    (hd : Proper d) (hn : "y" ∉ d.names) (hg : ∀ x, grid x = .ok g) (hs : g.shape = [r, c]) (ht : tensor g r c = none)
    (i : Option (List String)) : ∃ e, regrid grid f out d i none = .error e := by
  cases h : regrid grid f out d i none with
  | error e => exact ⟨e, rfl⟩
  | ok res =>
    exfalso
    obtain ⟨o, cs⟩ := res
    obtain ⟨g1, g', gr', ins, outs, geo, e1, _, e3, e4, e5, e6, rfl, e8⟩ := regrid_ok grid f out d o i none cs h
    rw [hg] at e1 e5
    cases e1; cases e5
    have hgeo : ∃ la lo, geo.coords = [("latitude", ⟨["y", "x"], la⟩), ("longitude", ⟨["y", "x"], lo⟩)] := by
      obtain ⟨hf, _⟩ := C74_coordinates g geo e6
      cases hf with
      | points n lat lon h1 => rw [hs] at h1; cases h1
      | none n h1 => rw [hs] at h1; cases h1
      | tensor r' c' lat lon h1 h2 h3 h4 =>
        rw [hs] at h1; cases h1
        exfalso
        unfold tensor at ht
        rw [h4] at ht
        simp only [h2, h3, and_self, if_true] at ht
        cases ht
      | curvilinear r' c' la lo h1 h2 h3 h4 => exact ⟨la, lo, rfl⟩
    obtain ⟨la, lo, hgeo⟩ := hgeo
    have hy := (attachAll_ok geo o _ e8 ("latitude", ⟨["y", "x"], la⟩) (by rw [hgeo]; simp) "y" (by simp)).1
    rcases e3 with e3 | ⟨_, e3⟩
    · cases e3
    · unfold geoDims at e3
      rw [hs] at e3
      simp only [List.length_cons, List.length_nil, Nat.zero_add, ge_iff_le, le_refl, if_true, Except.ok.injEq] at e3
      subst e3
      obtain ⟨s, _, h2, _⟩ := C74_slices f out g' d o hd ins _ e4
      unfold DA.names at hy
      rw [h2, List.map_append, List.mem_append] at hy
      rcases hy with hy | hy
      · obtain ⟨x, hx, hx'⟩ := List.mem_map.1 hy
        exact hn (List.mem_map.2 ⟨x, (List.mem_filter.1 hx).1, hx'⟩)
      · obtain ⟨x, hx, hx'⟩ := List.mem_map.1 hy
        have := List.of_mem_zip hx
        rw [hx'] at this
        simp at this

omit [Zero α] in
theorem loop_names (d : DA α) (o : DA α) (ins outs : List String) (s : List Nat) (_hl : s.length = outs.length)
    (h2 : o.dims = d.dims.filter (fun x => decide (x.1 ∉ ins)) ++ outs.zip s) (n : String) (hn : n ∈ o.names) :
    n ∈ d.names ∨ n ∈ outs := by
  unfold DA.names at hn
  rw [h2, List.map_append, List.mem_append] at hn
  rcases hn with hn | hn
  · obtain ⟨x, hx, hx'⟩ := List.mem_map.1 hn
    exact .inl (List.mem_map.2 ⟨x, (List.mem_filter.1 hx).1, hx'⟩)
  · obtain ⟨x, hx, hx'⟩ := List.mem_map.1 hn
    have := (List.of_mem_zip hx).1
    rw [hx'] at this
    exact .inr this

/-- C74 fails for the `out_dims` argument too: names other than the standard ones are refused for a data array. -/
theorem C74_out_dims_refuted {G : Type} (grid : G → M Grid) (f : Method G α) (out : G) (d : DA α) (g : Grid) (r c : Nat) (hd : Proper d)
    (hg : ∀ x, grid x = .ok g) (hs : g.shape = [r, c]) (outs : List String)
    (h1 : "latitude" ∉ d.names) (h2 : "latitude" ∉ outs) (h3 : "y" ∉ d.names) (h4 : "y" ∉ outs)
    (i : Option (List String)) : ∃ e, regrid grid f out d i (some outs) = .error e := by
  cases h : regrid grid f out d i (some outs) with
  | error e => exact ⟨e, rfl⟩
  | ok res =>
    exfalso
    obtain ⟨o, cs⟩ := res
    obtain ⟨g1, g', gr', ins, outs', geo, e1, _, e3, e4, e5, e6, rfl, e8⟩ := regrid_ok grid f out d o i (some outs) cs h
    rw [hg] at e1 e5
    cases e1; cases e5
    rcases e3 with e3 | ⟨e3, _⟩
    swap
    · cases e3
    cases e3
    obtain ⟨s, hl, hdims, _⟩ := C74_slices f out g' d o hd ins _ e4
    obtain ⟨hf, _⟩ := C74_coordinates g geo e6
    cases hf with
    | points n lat lon h1 => rw [hs] at h1; cases h1
    | none n h1 => rw [hs] at h1; cases h1
    | tensor r' c' lat lon _ _ _ _ =>
      have hy := (attachAll_ok _ o _ e8 ("latitude", ⟨["latitude"], lat⟩) (by simp) "latitude" (by simp)).1
      rcases loop_names d o ins outs s hl hdims _ hy with hy | hy
      · exact h1 hy
      · exact h2 hy
    | curvilinear r' c' la lo _ _ _ _ =>
      have hy := (attachAll_ok _ o _ e8 ("latitude", ⟨["y", "x"], la⟩) (by simp) "y" (by simp)).1
      rcases loop_names d o ins outs s hl hdims _ hy with hy | hy
      · exact h3 hy
      · exact h4 hy

/-! ### When a data array is returned -/

theorem length_ndindex : ∀ ns : List Nat, (ndindex ns).length = ns.prod
  | [] => rfl
  | n :: ns => by
    simp only [ndindex, List.length_flatMap, List.length_map, length_ndindex ns, List.prod_cons]
    simp

omit [Zero α] in
theorem vectorize_total {G : Type} (f : Method G α) (d : DA α) (ins : List String) (ok : List Nat → Bool) (s : List Nat) (hok : ok s = true)
    (hf : ∀ x : Arr α, x.shape = ins.map d.size → x.data.length = (ins.map d.size).prod → ∃ a g, f x = .ok (a, g) ∧ a.shape = s) :
    ∀ (ls : List (List Nat)) (acc : List (List Nat × Arr α)) (sh : Option (List Nat)) (g : G), (sh = none ∨ sh = some s) →
      (ls = [] → sh = some s) → ∃ acc' g', vectorize f d ins ok ls acc sh g = .ok (acc', some s, g')
  | [], acc, sh, g, _, h2 => ⟨acc, g, by rw [vectorize, h2 rfl]⟩
  | l :: ls, acc, sh, g, h1, _ => by
    obtain ⟨a, ga, e1, e2⟩ := hf (d.slice ins l) rfl (by simp [DA.slice, length_ndindex])
    obtain ⟨acc', g', h⟩ := vectorize_total f d ins ok s hok hf ls (acc ++ [(l, a)]) (some a.shape) ga (.inr (by rw [e2])) (fun _ => by rw [e2])
    refine ⟨acc', g', ?_⟩
    simp only [vectorize, e1, bind, Except.bind]
    rw [if_pos (by rw [e2, hok]; rcases h1 with rfl | rfl <;> simp)]
    exact h

theorem ndindex_ne : ∀ ns : List Nat, (∀ n ∈ ns, 0 < n) → ndindex ns ≠ []
  | [], _ => by simp [ndindex]
  | n :: ns, h => by
    have ih := ndindex_ne ns (fun m hm => h m (by simp [hm]))
    obtain ⟨x, hx⟩ := List.exists_mem_of_ne_nil _ ih
    intro he
    have : (0 :: x) ∈ ndindex (n :: ns) := by
      simp only [ndindex, List.mem_flatMap, List.mem_range, List.mem_map]
      exact ⟨0, h n (by simp), x, hx, rfl⟩
    rw [he] at this
    simp at this

theorem lookup_append_right {β : Type} (k : String) : ∀ (l m : List (String × β)), k ∉ l.map Prod.fst → (l ++ m).lookup k = m.lookup k
  | [], m, _ => rfl
  | (a, b) :: l, m, h => by
    simp only [List.map_cons, List.mem_cons, not_or] at h
    rw [List.cons_append, List.lookup_cons]
    have : (k == a) = false := by simpa using h.1
    rw [this]
    exact lookup_append_right k l m h.2

/-- The grids on which data arrays can be returned: lists of points, and meshes with distinct latitudes and longitudes. -/
def Plain (g : Grid) : Prop := (∃ n, g.shape = [n] ∧ ∀ la lo, g.latlons = .ok (la, lo) → la.length = n ∧ lo.length = n) ∨
  ∃ r c geo, g.shape = [r, c] ∧ tensor g r c = some geo

/-- C74: on these grids a data array whose geographic dimensions are recognised is always returned: if the interpolation works on every
slice, gives arrays of the shape of the grid and reports it, and the other dimensions are not empty and not named like the new ones. -/
theorem C74_returned {G : Type} (grid : G → M Grid) (f : Method G α) (out : G) (d : DA α) (g : Grid) (ins outs : List String)
    (hg : grid out = .ok g) (hp : Plain g) (hi : inGeoDims d.names = .ok ins) (ho : geoDims g = .ok outs)
    (hpos : ∀ x ∈ d.dims, x.1 ∉ ins → 0 < x.2 ∧ x.1 ∉ outs)
    (hf : ∀ x : Arr α, x.shape = ins.map d.size → x.data.length = (ins.map d.size).prod → ∃ a g', f x = .ok (a, g') ∧ a.shape = g.shape ∧ grid g' = .ok g) :
    ∃ o cs, regrid grid f out d none none = .ok (o, cs) ∧
      o.dims = d.dims.filter (fun x => decide (x.1 ∉ ins)) ++ outs.zip g.shape := by
  obtain ⟨hins, hsuf⟩ := inGeoDims_ok hi
  have houts : (outs = ["values"] ∧ g.shape.length = 1) ∨ (outs = ["latitude", "longitude"] ∧ g.shape.length = 2) := by
    unfold geoDims at ho
    rcases hp with ⟨n, hs, _⟩ | ⟨r, c, geo, hs, _⟩
    · rw [hs] at ho ⊢
      simp at ho ⊢
      exact ho.symm
    · rw [hs] at ho ⊢
      simp at ho ⊢
      exact ho.symm
  have hlen : g.shape.length = outs.length := by
    rcases houts with ⟨rfl, h⟩ | ⟨rfl, h⟩ <;> exact h
  have hloop : d.loop ins = d.dims.filter (fun x => decide (x.1 ∉ ins)) := by
    unfold DA.loop
    apply List.filter_congr
    intro x _
    simp
  have hfits : fits d ins outs (ins.all outs.contains && outs.all ins.contains) g.shape = true := by
    unfold fits
    rw [Bool.and_eq_true]
    refine ⟨by rw [hlen]; simp, ?_⟩
    rcases hins with rfl | rfl <;> rcases houts with ⟨rfl, _⟩ | ⟨rfl, _⟩
    · rfl
    · rw [Bool.or_eq_true]; right
      rw [List.all_eq_true]
      intro x hx
      have h := (List.of_mem_zip hx).1
      simp only [List.mem_cons, List.not_mem_nil, or_false] at h
      rcases h with h | h <;> rw [h] <;> rfl
    · rw [Bool.or_eq_true]; right
      rw [List.all_eq_true]
      intro x hx
      have h := (List.of_mem_zip hx).1
      simp only [List.mem_cons, List.not_mem_nil, or_false] at h
      rw [h]; rfl
    · rfl
  have hne : ndindex ((d.loop ins).map Prod.snd) ≠ [] := by
    apply ndindex_ne
    intro n hn
    obtain ⟨x, hx, rfl⟩ := List.mem_map.1 hn
    have := (mem_loop d ins x).1 hx
    exact (hpos x this.1 this.2).1
  obtain ⟨acc, g', hv⟩ := vectorize_total f d ins _ g.shape hfits
    (fun x h1 h2 => (hf x h1 h2).imp fun a h => h.imp fun g' h => ⟨h.1, h.2.1⟩) _ [] none out (.inl rfl) (fun h => absurd h hne)
  have hg' : grid g' = .ok g := by
    obtain ⟨new, -, -, -, -, h, -⟩ := vectorize_ok f d ins _ _ _ _ _ _ _ _ hv
    obtain ⟨x, -, hx⟩ := h hne
    obtain ⟨a, g'', h1, -, h2⟩ := hf (d.slice ins x.1) rfl (by simp [DA.slice, length_ndindex])
    rw [hx] at h1
    cases h1
    exact h2
  have hguard : (ins.all d.names.contains && ins.Nodup && outs.Nodup && (d.loop ins).all (fun x => !outs.contains x.1)) = true := by
    simp only [Bool.and_eq_true, decide_eq_true_eq]
    refine ⟨⟨⟨?_, ?_⟩, ?_⟩, ?_⟩
    · rw [List.all_eq_true]
      intro n hn
      simpa using hsuf.subset hn
    · rcases hins with rfl | rfl <;> simp
    · rcases houts with ⟨rfl, _⟩ | ⟨rfl, _⟩ <;> simp
    · rw [List.all_eq_true]
      intro x hx
      have := (mem_loop d ins x).1 hx
      simpa using (hpos x this.1 this.2).2
  have happ : applyUfunc f out d ins outs = .ok (stacked (d.loop ins) outs g.shape acc, g') := by
    unfold applyUfunc
    rw [if_pos hguard]
    simp only [hv, bind, Except.bind, pure, Except.pure]
  have hdims : (stacked (d.loop ins) outs g.shape acc).dims = d.loop ins ++ outs.zip g.shape := rfl
  have hsize : ∀ n ∈ outs, sizeOf (d.loop ins ++ outs.zip g.shape) n = sizeOf (outs.zip g.shape) n := by
    intro n hn
    unfold sizeOf
    apply lookup_append_right
    intro h
    obtain ⟨x, hx, rfl⟩ := List.mem_map.1 h
    have := (mem_loop d ins x).1 hx
    exact (hpos x this.1 this.2).2 hn
  have hname : ∀ n ∈ outs, n ∈ (stacked (d.loop ins) outs g.shape acc).names := by
    intro n hn
    unfold DA.names
    rw [hdims, List.map_append, List.mem_append]
    right
    rw [List.map_fst_zip (by rw [hlen])]
    exact hn
  obtain ⟨o, eo⟩ : ∃ o, o = stacked (d.loop ins) outs g.shape acc := ⟨_, rfl⟩
  rw [← eo] at happ hdims hname
  have hattach : ∀ geo : Geo, geo.dims = outs.zip g.shape → ∀ cs : List (String × Var), (∀ c ∈ cs, ∀ n ∈ c.2.dims, n ∈ outs) →
      attachAll geo o cs = .ok () := by
    intro geo hgd cs
    induction cs with
    | nil => intro _; rfl
    | cons c cs ih =>
      intro h
      have h1 : attachOne geo o c = .ok () := by
        unfold attachOne
        rw [if_pos]
        rw [List.all_eq_true]
        intro n hn
        have hno := h c (by simp) n hn
        have hnn := hname n hno
        rw [hgd, hdims, hsize n hno]
        simp [hnn]
      simp only [attachAll, h1, bind, Except.bind]
      exact ih (fun c' hc' => h c' (by simp [hc']))
  have hcoords : ∃ geo, coords g = .ok geo ∧ geo.dims = outs.zip g.shape ∧ ∀ c ∈ geo.coords, ∀ n ∈ c.2.dims, n ∈ outs := by
    rcases hp with ⟨n, hs, hl⟩ | ⟨r, c, geo, hs, ht⟩
    · have : outs = ["values"] := by
        rcases houts with ⟨h, _⟩ | ⟨_, h⟩
        · exact h
        · rw [hs] at h; simp at h
      subst this
      unfold coords
      rw [hs]
      simp only
      unfold unstructured
      cases hll : g.latlons with
      | error e => exact ⟨_, rfl, rfl, by simp⟩
      | ok ll =>
        obtain ⟨la, lo⟩ := ll
        obtain ⟨h1, h2⟩ := hl la lo hll
        refine ⟨⟨[("values", n)], [("latitude", ⟨["values"], la⟩), ("longitude", ⟨["values"], lo⟩)]⟩, ?_, rfl, by simp⟩
        simp only
        unfold checked
        rw [if_pos]
        simp [sizeOf, prod, h1, h2]
    · have : outs = ["latitude", "longitude"] := by
        rcases houts with ⟨_, h⟩ | ⟨h, _⟩
        · rw [hs] at h; simp at h
        · exact h
      subst this
      refine ⟨geo, ?_⟩
      unfold coords
      rw [hs]
      simp only [ht]
      unfold tensor at ht
      split at ht
      · split at ht
        · rename_i lat lon _ hl
          cases ht
          refine ⟨?_, by simp [hl.1, hl.2], by simp⟩
          unfold checked
          rw [if_pos]
          simp [sizeOf, prod, List.lookup_cons]
        · cases ht
      · cases ht
  obtain ⟨geo, hc1, hc2, hc3⟩ := hcoords
  refine ⟨o, geo.coords, ?_, by rw [hdims, hloop]⟩
  unfold regrid
  simp only [hg, hg', dimsOr, hi, ho, happ, hc1, addGeo, hattach geo hc2 geo.coords hc3, bind, Except.bind, pure, Except.pure]

/-! ### Datasets -/

/-- C74 for datasets: every variable is regridded on its own — same names, same order, each as `applyUfunc` makes it. -/
theorem C74_dataset {G : Type} (f : Method G α) (ins outs : List String) : ∀ (ds ds' : List (String × DA α)) (g g' : G),
    regridVars f ins outs ds g = .ok (ds', g') →
    List.Forall₂ (fun v v' => v'.1 = v.1 ∧ ∃ g1 g2, applyUfunc f g1 v.2 ins outs = .ok (v'.2, g2)) ds ds'
  | [], ds', g, g', h => by
    simp only [regridVars, Except.ok.injEq, Prod.mk.injEq] at h
    rw [← h.1]; exact .nil
  | (n, v) :: ds, ds', g, g', h => by
    simp only [regridVars, bind, Except.bind] at h
    cases h1 : applyUfunc f g v ins outs with
    | error e => rw [h1] at h; cases h
    | ok r =>
      obtain ⟨v', g1⟩ := r
      rw [h1] at h
      simp only at h
      cases h2 : regridVars f ins outs ds g1 with
      | error e => rw [h2] at h; cases h
      | ok r =>
        obtain ⟨vs', g2⟩ := r
        rw [h2] at h
        simp only [pure, Except.pure, Except.ok.injEq, Prod.mk.injEq] at h
        rw [← h.1]
        exact .cons ⟨rfl, g, g1, h1⟩ (C74_dataset f ins outs ds vs' g1 g2 h2)

/-- What a successful regrid of a dataset consists of. -/
theorem regridDataset_ok {G : Type} (grid : G → M Grid) (f : Method G α) (out : G) (names : List String) (ds ds' : List (String × DA α))
    (i j : Option (List String)) (cs : List (String × Var)) (h : regridDataset grid f out names ds i j = .ok (ds', cs)) :
    ∃ g g' gr' ins outs geo, grid out = .ok g ∧ (i = some ins ∨ i = none ∧ inGeoDims names = .ok ins) ∧
      (j = some outs ∨ j = none ∧ geoDims g = .ok outs) ∧
      regridVars f ins outs ds out = .ok (ds', g') ∧ grid g' = .ok gr' ∧ coords gr' = .ok geo ∧ cs = geo.coords ∧
      attachDataset geo ds' = .ok () := by
  unfold regridDataset at h
  simp only [bind, Except.bind] at h
  cases h1 : grid out with
  | error e => rw [h1] at h; cases h
  | ok g =>
    rw [h1] at h
    simp only at h
    cases hi : dimsOr i (inGeoDims names) with
    | error e => rw [hi] at h; cases h
    | ok ins =>
      rw [hi] at h
      simp only at h
      cases ho : dimsOr j (geoDims g) with
      | error e => rw [ho] at h; cases h
      | ok outs =>
        rw [ho] at h
        simp only at h
        cases h2 : regridVars f ins outs ds out with
        | error e => rw [h2] at h; cases h
        | ok r =>
          obtain ⟨o', g'⟩ := r
          rw [h2] at h
          simp only at h
          cases h3 : grid g' with
          | error e => rw [h3] at h; cases h
          | ok gr' =>
            rw [h3] at h
            simp only at h
            cases h4 : coords gr' with
            | error e => rw [h4] at h; cases h
            | ok geo =>
              rw [h4] at h
              simp only at h
              cases h5 : attachDataset geo o' with
              | error e => rw [h5] at h; cases h
              | ok u =>
                rw [h5] at h
                simp only [pure, Except.pure, Except.ok.injEq, Prod.mk.injEq] at h
                obtain ⟨rfl, rfl⟩ := h
                exact ⟨g, g', gr', ins, outs, geo, rfl, dimsOr_ok hi, dimsOr_ok ho, h2, h3, h4, rfl, h5⟩

/-- The grid kept is that of the last variable. -/
theorem regridVars_grid {G : Type} (f : Method G α) (ins outs : List String) : ∀ (ds ds' : List (String × DA α)) (g g' : G),
    regridVars f ins outs ds g = .ok (ds', g') →
    (ds = [] ∧ g' = g) ∨ ∃ v g1 o, ds.getLast? = some v ∧ applyUfunc f g1 v.2 ins outs = .ok (o, g')
  | [], ds', g, g', h => by
    simp only [regridVars, Except.ok.injEq, Prod.mk.injEq] at h
    exact .inl ⟨rfl, h.2.symm⟩
  | (n, v) :: ds, ds', g, g', h => by
    simp only [regridVars, bind, Except.bind] at h
    cases h1 : applyUfunc f g v ins outs with
    | error e => rw [h1] at h; cases h
    | ok r =>
      obtain ⟨v', g1⟩ := r
      rw [h1] at h
      simp only at h
      cases h2 : regridVars f ins outs ds g1 with
      | error e => rw [h2] at h; cases h
      | ok r =>
        obtain ⟨vs', g2⟩ := r
        rw [h2] at h
        simp only [pure, Except.pure, Except.ok.injEq, Prod.mk.injEq] at h
        obtain ⟨_, rfl⟩ := h
        right
        rcases regridVars_grid f ins outs ds vs' g1 g2 h2 with ⟨rfl, rfl⟩ | ⟨w, g3, o, hw, ho⟩
        · exact ⟨_, _, _, rfl, h1⟩
        · refine ⟨w, g3, o, ?_, ho⟩
          cases ds with
          | nil => simp at hw
          | cons d ds => rw [List.getLast?_cons_cons]; exact hw

/-- C74 for datasets: the variables are the regridded ones, each on its own; the coordinates are those of the grid kept from the last one,
and a variable that has a dimension of a coordinate has it with the size of the coordinate's grid. -/
theorem C74_dataset_coordinates_partial {G : Type} (grid : G → M Grid) (f : Method G α) (out : G) (names : List String)
    (ds ds' : List (String × DA α)) (i j : Option (List String)) (cs : List (String × Var))
    (h : regridDataset grid f out names ds i j = .ok (ds', cs)) :
    ∃ g ins outs dims g' gr', grid out = .ok g ∧ (i = some ins ∨ i = none ∧ LastDims names ins) ∧
      (j = some outs ∨ j = none ∧ GridDims g outs) ∧
      List.Forall₂ (fun v v' => v'.1 = v.1 ∧ ∃ g1 g2, applyUfunc f g1 v.2 ins outs = .ok (v'.2, g2)) ds ds' ∧
      ((ds = [] ∧ g' = out) ∨ ∃ v g1 o, ds.getLast? = some v ∧ applyUfunc f g1 v.2 ins outs = .ok (o, g')) ∧
      grid g' = .ok gr' ∧ Form gr' ⟨dims, cs⟩ ∧
      ∀ c ∈ cs, c.2.data.length = prod dims c.2.dims ∧
        ∀ n ∈ c.2.dims, ∀ v ∈ ds', n ∈ v.2.names → sizeOf v.2.dims n = sizeOf dims n := by
  obtain ⟨g, g', gr', ins, outs, geo, e1, e2, e3, h4, e5, h6, rfl, h8⟩ := regridDataset_ok grid f out names ds ds' i j cs h
  refine ⟨g, ins, outs, geo.dims, g', gr', e1, e2.imp id (fun h => ⟨h.1, inGeoDims_ok h.2⟩), e3.imp id (fun h => ⟨h.1, geoDims_ok h.2⟩),
    C74_dataset f ins outs ds ds' out g' h4, regridVars_grid f ins outs ds ds' out g' h4, e5, (C74_coordinates gr' geo h6).1, ?_⟩
  obtain ⟨_, _, hco⟩ := C74_coordinates gr' geo h6
  intro c hc
  refine ⟨(hco c hc).2, ?_⟩
  intro n hn v hv hnv
  unfold attachDataset at h8
  split at h8
  · rename_i hall
    simp only [List.all_eq_true] at hall
    have := hall c hc n hn v hv
    simp only [Bool.or_eq_true, Bool.not_eq_true', beq_iff_eq] at this
    rcases this with h' | h'
    · simp [hnv] at h'
    · exact h'.symm
  · cases h8

/-- C74 fails for datasets on 2-D grids without distinct latitudes and longitudes: coordinates are attached, but along dimensions that
no variable has. -/
theorem C74_dataset_refuted {G : Type} (grid : G → M Grid) (f : Method G α) (out : G) (names : List String) (ds ds' : List (String × DA α))
    (i : Option (List String)) (cs : List (String × Var)) (g : Grid) (r c : Nat)
    (h : regridDataset grid f out names ds i none = .ok (ds', cs))
    (hd : ∀ v ∈ ds, Proper v.2 ∧ "y" ∉ v.2.names) (hg : ∀ x, grid x = .ok g) (hs : g.shape = [r, c]) (ht : tensor g r c = none) :
    cs ≠ [] ∧ ∀ x ∈ cs, "y" ∈ x.2.dims ∧ ∀ v ∈ ds', "y" ∉ v.2.names := by
  obtain ⟨g1, g', gr', ins, outs, geo, e1, _, e3, e4, e5, e6, rfl, _⟩ := regridDataset_ok grid f out names ds ds' i none cs h
  rw [hg] at e1 e5
  cases e1; cases e5
  have hgeo : ∃ la lo, geo.coords = [("latitude", ⟨["y", "x"], la⟩), ("longitude", ⟨["y", "x"], lo⟩)] := by
    obtain ⟨hf, _⟩ := C74_coordinates g geo e6
    cases hf with
    | points n lat lon h1 => rw [hs] at h1; cases h1
    | none n h1 => rw [hs] at h1; cases h1
    | tensor r' c' lat lon h1 h2 h3 h4 =>
      rw [hs] at h1; cases h1
      exfalso
      unfold tensor at ht
      rw [h4] at ht
      simp only [h2, h3, and_self, if_true] at ht
      cases ht
    | curvilinear r' c' la lo h1 h2 h3 h4 => exact ⟨la, lo, rfl⟩
  obtain ⟨la, lo, hgeo⟩ := hgeo
  have houts : outs = ["latitude", "longitude"] := by
    rcases e3 with e3 | ⟨_, e3⟩
    · cases e3
    · unfold geoDims at e3
      rw [hs] at e3
      simp only [List.length_cons, List.length_nil, Nat.zero_add, ge_iff_le, le_refl, if_true, Except.ok.injEq] at e3
      exact e3.symm
  subst houts
  have hall := C74_dataset f ins _ ds ds' out g' e4
  rw [hgeo]
  refine ⟨by simp, ?_⟩
  intro x hx
  refine ⟨by simp only [List.mem_cons, List.not_mem_nil, or_false] at hx; rcases hx with rfl | rfl <;> simp, ?_⟩
  intro v hv
  obtain ⟨k, hk, rfl⟩ := List.getElem_of_mem hv
  obtain ⟨hlen, hget⟩ := List.forall₂_iff_get.1 hall
  obtain ⟨_, ga, gb, hap⟩ := hget k (hlen ▸ hk) hk
  have hdk := hd (ds[k]'(hlen ▸ hk)) (List.getElem_mem _)
  obtain ⟨s, hl, h2, _⟩ := C74_slices f ga gb _ _ hdk.1 ins _ hap
  intro hy
  rcases loop_names _ _ ins _ s hl h2 "y" hy with h' | h'
  · exact hdk.2 h'
  · simp at h'

/-! ### C95: the input grid -/

/-- C95 fails: with a gridspec attribute on the data, the `grid_spec` given by the caller is not used for the input grid; it is
handed to the interpolation as an option. -/
theorem C95_refuted {G : Type} (a k : G) (acc : Option G) : inGrid (some a) (some k) acc = .ok (a, some k) := rfl

/-- Without that attribute the given grid is used, and no option is left over. -/
theorem C95_used_partial {G : Type} (k : G) (acc : Option G) : inGrid none (some k) acc = .ok (k, none) := rfl

/-- Without either, the accessor's grid is used, or ValueError raised. -/
theorem C95_else_partial {G : Type} (acc : Option G) :
    (∀ g, acc = some g → inGrid none none acc = .ok (g, none)) ∧ (acc = none → inGrid none none acc = .error .value) := by
  constructor
  · rintro g rfl; rfl
  · rintro rfl; rfl

/-! ### Examples -/

/-- Three days on three points. -/
def days : DA := ⟨[("time", 3), ("values", 3)], fun p => (p "time" : ℚ) * 10 + p "values"⟩

/-- A method that keeps the first two points. -/
def firstTwo : Method Unit := fun a => .ok (⟨[2], a.data.take 2⟩, ())

/-- A target of two points. -/
def two : Grid := ⟨[2], .ok ([50, 51], [7, 8])⟩

theorem days_proper : Proper days := by
  refine ⟨by simp [days, DA.names], ?_⟩
  intro p q h
  have h1 := h "time" (by simp [days, DA.names])
  have h2 := h "values" (by simp [days, DA.names])
  simp [days, h1, h2]

example : Plain two := .inl ⟨2, rfl, by
  intro la lo h
  simp only [two, Except.ok.injEq, Prod.mk.injEq] at h
  rw [← h.1, ← h.2]; exact ⟨rfl, rfl⟩⟩

/-- The hypotheses of `C74_returned` hold for it. -/
example : ∃ o cs, regrid (fun _ => .ok two) firstTwo () days none none = .ok (o, cs) ∧ o.dims = [("time", 3), ("values", 2)] := by
  refine C74_returned (fun _ => .ok two) firstTwo () days two ["values"] ["values"] rfl ?_ rfl rfl ?_ ?_
  · refine .inl ⟨2, rfl, ?_⟩
    intro la lo h
    simp only [two, Except.ok.injEq, Prod.mk.injEq] at h
    rw [← h.1, ← h.2]; exact ⟨rfl, rfl⟩
  · simp [days]
  · intro x _ _
    exact ⟨_, _, rfl, rfl, rfl⟩

/-- At day 2 the second point has value 21. -/
example : ∃ o g, applyUfunc firstTwo () days ["values"] ["values"] = .ok (o, g) ∧
    o.val (fun n => if n = "time" then 2 else 1) = 21 := by
  refine ⟨_, _, rfl, ?_⟩
  decide +kernel

/-- A curvilinear target: two rows whose latitudes do not change in equal steps. -/
def bent : Grid := ⟨[2, 3], .ok ([0, 1, 3, 10, 11, 13], [0, 1, 2, 0, 1, 2])⟩

example : tensor bent 2 3 = none := by decide +kernel

/-- A dataset does get there (`C74_dataset_refuted` is not about nothing), a data array does not. -/
example : (regridDataset (fun _ => .ok bent) (fun _ => .ok (⟨[2, 3], [1, 2, 3, 4, 5, 6]⟩, ())) () ["time", "values"] [("t", days)]
    none none).toBool = true := by decide +kernel

example : ∃ e, regrid (fun _ => .ok bent) (fun _ => .ok (⟨[2, 3], [1, 2, 3, 4, 5, 6]⟩, ())) () days none none = .error e :=
  C74_curvilinear_refuted _ _ _ days bent 2 3
    days_proper (by simp [days, DA.names]) (fun _ => rfl) rfl (by decide +kernel) none

/-- `C74_slices` on the days: no new dimension clashes, and day 2 is its own slice. -/
example : ∃ o g, applyUfunc firstTwo () days ["values"] ["values"] = .ok (o, g) ∧
    ∃ a ga, firstTwo (sliceAt days ["values"] (fun _ => 2)) = .ok (a, ga) ∧ o.val (fun n => if n = "time" then 2 else 1) = (a.at [1]).getD 0 := by
  refine ⟨_, _, rfl, ?_⟩
  obtain ⟨s, -, -, -, -, h⟩ := C74_slices firstTwo () () days _ days_proper ["values"] ["values"] rfl
  obtain ⟨a, ga, h1, -, h2⟩ := h (fun _ => 2) (by simp [Inside, days])
  exact ⟨a, ga, h1, h2 (fun n => if n = "time" then 2 else 1) (by simp [days])⟩

/-- `C74_failing_slice`: a method that refuses the slice of day 2. -/
example : ∃ e, applyUfunc (fun a => if a.data.head? = some 20 then .error .value else firstTwo a) () days ["values"] ["values"] = .error e :=
  C74_failing_slice _ () days days_proper ["values"] ["values"] (fun _ => 2) (by simp [Inside, days]) .value
    (if_pos (by decide +kernel))

/-- `C74_coordinates`: a grid of two points, and one of rows and columns. -/
example : ∃ geo, coords two = .ok geo ∧ geo.dims.map Prod.snd = [2] := ⟨_, rfl, (C74_coordinates two _ rfl).2.1⟩
example : ∃ geo, coords bent = .ok geo ∧ Form bent geo := by
  cases h : coords bent with
  | error e =>
    have hb : (coords bent).toBool = true := by decide +kernel
    rw [h] at hb
    cases hb
  | ok geo => exact ⟨geo, rfl, (C74_coordinates bent geo h).1⟩

/-- `C74_array_partial` on the days. -/
example : ∃ o cs, regrid (fun _ => .ok two) firstTwo () days none none = .ok (o, cs) ∧ ∀ c ∈ cs, ∀ n ∈ c.2.dims, n ∈ o.names := by
  refine ⟨_, _, rfl, ?_⟩
  obtain ⟨g, ins, outs, s, -, -, -, -, -, -, -, h⟩ := C74_array_partial (fun _ => .ok two) firstTwo () days _ days_proper none none _ rfl
  exact fun c hc => (h c hc).1

/-- `C74_dataset`, `C74_dataset_coordinates_partial` on a dataset of two variables. -/
example : ∃ ds' cs, regridDataset (fun _ => .ok two) firstTwo () ["time", "values"] [("t", days), ("u", days)] none none = .ok (ds', cs) ∧
    ds'.map Prod.fst = ["t", "u"] := by
  refine ⟨_, _, rfl, ?_⟩
  obtain ⟨g, ins, outs, dims, g', gr', -, -, -, h, -⟩ :=
    C74_dataset_coordinates_partial (fun _ => .ok two) firstTwo () ["time", "values"] [("t", days), ("u", days)] _ none none _ rfl
  rcases h with _ | ⟨h1, _ | ⟨h2, _⟩⟩
  exact congrArg₂ (fun a b => [a, b]) h1.1 h2.1

end Verif.Xarray

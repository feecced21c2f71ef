import Verif.Builder.Props

/-! # C71 (lookups), C72, C93, C94: built and merged inventories answer lookups -/

namespace Verif.Builder
open Verif.GridSpec Verif.Index
open Verif.Regrid (Csr)

theorem inserted_mem {es es' : List (String × Raw)} {k : String} {r : Raw} (h : Inserted es es' k r) : (k, r) ∈ es' := by
  rcases h with ⟨_, rfl⟩ | ⟨a, old, b, _, _, rfl⟩ <;> simp

theorem inserted_nodup {es es' : List (String × Raw)} {k : String} {r : Raw} (h : Inserted es es' k r)
    (hn : (es.map Prod.fst).Nodup) : (es'.map Prod.fst).Nodup := by
  rcases h with ⟨h1, rfl⟩ | ⟨a, old, b, _, rfl, rfl⟩
  · rw [List.map_append, List.nodup_append]
    refine ⟨hn, by simp, ?_⟩
    intro x hx y hy
    simp only [List.map_cons, List.map_nil, List.mem_cons, List.not_mem_nil, or_false] at hy
    subst hy
    rintro rfl
    exact h1 hx
  · simpa using hn

/-- C71, all other entries: what was there under another name is there still, and nothing else came. -/
theorem C71_others (es es' : List (String × Raw)) (k : String) (r : Raw) (h : Inserted es es' k r)
    (hn : (es.map Prod.fst).Nodup) (k' : String) (r' : Raw) :
    (k', r') ∈ es' ↔ (k' = k ∧ r' = r) ∨ (k' ≠ k ∧ (k', r') ∈ es) := by
  rcases h with ⟨h1, rfl⟩ | ⟨a, old, b, h1, rfl, rfl⟩
  · simp only [List.mem_append, List.mem_cons, Prod.mk.injEq, List.not_mem_nil, or_false]
    constructor
    · rintro (h | h)
      · refine .inr ⟨?_, h⟩
        rintro rfl
        exact h1 (List.mem_map.2 ⟨_, h, rfl⟩)
      · exact .inl h
    · rintro (h | h)
      · exact .inr h
      · exact .inl h.2
  · have hb : k ∉ b.map Prod.fst := by
      rw [List.map_append, List.nodup_append] at hn
      simp only [List.map_cons, List.nodup_cons] at hn
      exact hn.2.1.1
    simp only [List.mem_append, List.mem_cons, Prod.mk.injEq]
    have key : ∀ l : List (String × Raw), k ∉ l.map Prod.fst → (k', r') ∈ l → k' ≠ k := by
      rintro l hl h rfl
      exact hl (List.mem_map.2 ⟨_, h, rfl⟩)
    constructor
    · rintro (h | h | h)
      · exact .inr ⟨key a h1 h, .inl h⟩
      · exact .inl h
      · exact .inr ⟨key b hb h, .inr (.inr h)⟩
    · rintro (h | ⟨h, h' | h' | h'⟩)
      · exact .inr (.inl h)
      · exact .inl h'
      · exact absurd h'.1 h
      · exact .inr (.inr h')

/-- C71 with the path given as expected, seen from lookups: once the build is done, the inventory loads, the new entry is in it, and a
request with grids that match the built ones and with its method is answered — provided no other entry makes the comparison
raise. The answer has the method and both grids; if it is the new entry, its matrix is the one built. -/
theorem C71_found_partial (P : Py) (order : List String) (D : Digests) (a : Args) (w : World) (x y : MirGrid) (i : Inter) (di dO : Dict)
    (n e v src : List Char) (nnz : Nat) (m : Mir.MirMatrix) (es : List (String × Raw))
    (hx : a.desc.input = some x) (hy : a.desc.output = some y) (hi : a.desc.inter = some i) (hs : a.desc.cacheFile = some src)
    (hz : a.desc.nnz = some nnz) (hdx : Describes P a.globalInput x di) (hdy : Describes P a.globalOutput y dO)
    (hm : MethodOf i n) (he : i.engine = some e) (hv : i.version = some v)
    (hf : w.files src = some (.bytes m.file)) (hw : m.Wf) (hix : Holds w.index es) (hn : (es.map Prod.fst).Nodup)
    (gi go qi qo : GS) (ri ro : Dict) (hgi : fromDict P di = .ok gi) (hgo : fromDict P dO = .ok go)
    (hqi : fromDict P ri = .ok qi) (hqo : fromDict P ro = .ok qo)
    (hei : eq P order gi qi = .ok true) (heo : eq P order go qo = .ok true) :
    ∃ w' f ix, makeMatrixPath P D a w = (.ok (), w') ∧ w'.index = some f ∧ load P f = .ok ix ∧
      (∃ en, (D.key x y i, en) ∈ ix ∧ en.input = gi ∧ en.output = go ∧ Hit P order qi qo n en ∧
        matrixPath en = .ok (join (e ++ '_' :: v ++ '_' :: n) ((D.key x y i).toList ++ ".npz".toList)) ∧
        ∀ p, matrixPath en = .ok p → w'.files (join a.outputPath p) = some (.npz (asCsr m))) ∧
      ((∀ z ∈ ix, Sound P order qi qo n z.2) → ∃ en, find P order ix ri ro n = .ok (some en) ∧ Hit P order qi qo n en) := by
  obtain ⟨ver, es', r, h1, h2, h3, h4, h5, h6, h7, h8, _⟩ :=
    C71_entry_partial P D a w x y i di dO n e v src nnz m es hx hy hi hs hz hdx hdy hm he hv hf hw hix
  obtain ⟨ix, l1, l2, _⟩ := C40_kept P ⟨ver, some es'⟩ es' h2 rfl (inserted_nodup h3 hn)
  have hin : (D.key x y i, (⟨D.key x y i, gi, go, r⟩ : Entry)) ∈ ix :=
    (l2 _).2 ⟨r, inserted_mem h3, rfl, rfl, ⟨di, h4, hgi⟩, ⟨dO, h5, hgo⟩⟩
  have hhit : Hit P order qi qo n (⟨D.key x y i, gi, go, r⟩ : Entry) := ⟨h6, hei, heo⟩
  have hp : matrixPath (⟨D.key x y i, gi, go, r⟩ : Entry) =
      .ok (join (e ++ '_' :: v ++ '_' :: n) ((D.key x y i).toList ++ ".npz".toList)) := by
    unfold matrixPath dirName
    simp only [(methodName_ok r n).2 h6, h7, h8, bind, Except.bind, pure, Except.pure]
  refine ⟨_, _, ix, h1, rfl, l1, ⟨_, hin, rfl, rfl, hhit, hp, ?_⟩, ?_⟩
  · intro p hp'
    rw [hp] at hp'; cases hp'
    exact if_pos rfl
  · intro hso
    exact (C39_complete P order ix ri ro n qi qo hqi hqo hso).2 ⟨_, hin, hhit⟩

/-- C71, files of the others: the matrix files of all other entries of the inventory are left as they are. -/
theorem C71_others_files_partial (P : Py) (D : Digests) (a : Args) (w : World) (x y : MirGrid) (i : Inter) (di dO : Dict)
    (n e v src : List Char) (nnz : Nat) (m : Mir.MirMatrix) (es : List (String × Raw))
    (hx : a.desc.input = some x) (hy : a.desc.output = some y) (hi : a.desc.inter = some i) (hs : a.desc.cacheFile = some src)
    (hz : a.desc.nnz = some nnz) (hdx : Describes P a.globalInput x di) (hdy : Describes P a.globalOutput y dO)
    (hm : MethodOf i n) (he : i.engine = some e) (hv : i.version = some v)
    (hf : w.files src = some (.bytes m.file)) (hw : m.Wf) (hix : Holds w.index es)
    (hk : '/' ∉ (D.key x y i).toList) (k' : String) (hk' : '/' ∉ k'.toList) (hne : k' ≠ D.key x y i) (e' v' n' : List Char) :
    (makeMatrixPath P D a w).2.files (ReadAt a.outputPath k' e' v' n') = w.files (ReadAt a.outputPath k' e' v' n') := by
  obtain ⟨ver, es', r, h1, _⟩ :=
    C71_entry_partial P D a w x y i di dO n e v src nnz m es hx hy hi hs hz hdx hdy hm he hv hf hw hix
  rw [h1]
  exact if_neg (readAt_apart _ _ _ _ _ _ _ _ _ hk' hk hne)

/-- C71 and C36: a matrix between two listed global lat-lon grids, as MIR describes them, answers the short request
`{'grid': [d, d]}`. -/
theorem C71_short_partial (P : Py) (order : List String) (ho : Enumerates order) (D : Digests) (a : Args) (w : World)
    (x y : MirGrid) (i : Inter) (n e v src : List Char) (nnz : Nat) (m : Mir.MirMatrix) (es : List (String × Raw))
    (d d' : ℚ) (hd : d ∈ LISTED) (hd' : d' ∈ LISTED) (xd xd' yd yd' xs ys xn xw xso xe yn yw yso ye : V)
    (hx : a.desc.input = some x) (hy : a.desc.output = some y) (hi : a.desc.inter = some i) (hs : a.desc.cacheFile = some src)
    (hz : a.desc.nnz = some nnz)
    (hdx : Describes P a.globalInput x (fullSpec xd xd' xs xn xw xso xe))
    (hdy : Describes P a.globalOutput y (fullSpec yd yd' ys yn yw yso ye))
    (h1 : xd.num = some d) (h2 : xd'.num = some d) (h3 : yd.num = some d') (h4 : yd'.num = some d')
    (h5 : xn.num = some (north d)) (h6 : xw.num = some 0) (h7 : xso.num = some (-north d)) (h8 : xe.num = some (east d))
    (k5 : yn.num = some (north d')) (k6 : yw.num = some 0) (k7 : yso.num = some (-north d')) (k8 : ye.num = some (east d'))
    (hm : MethodOf i n) (he : i.engine = some e) (hv : i.version = some v)
    (hf : w.files src = some (.bytes m.file)) (hw : m.Wf) (hix : Holds w.index es) (hn : (es.map Prod.fst).Nodup)
    (q q' p p' : V) (g1 : q.num = some d) (g2 : q'.num = some d) (g3 : p.num = some d') (g4 : p'.num = some d') :
    ∃ w' f ix, makeMatrixPath P D a w = (.ok (), w') ∧ w'.index = some f ∧ load P f = .ok ix ∧
      ∃ qi qo, fromDict P (shortSpec q q') = .ok qi ∧ fromDict P (shortSpec p p') = .ok qo ∧
      ((∀ z ∈ ix, Sound P order qi qo n z.2) →
        ∃ en, find P order ix (shortSpec q q') (shortSpec p p') n = .ok (some en) ∧ Hit P order qi qo n en) := by
  obtain ⟨qi, gi, a1, a2, _, a4⟩ := C36_short_matches_full P order ho d hd q q' xd xd' xs xn xw xso xe g1 g2 h1 h2 h5 h6 h7 h8
  obtain ⟨qo, go, b1, b2, _, b4⟩ := C36_short_matches_full P order ho d' hd' p p' yd yd' ys yn yw yso ye g3 g4 h3 h4 k5 k6 k7 k8
  obtain ⟨w', f, ix, c1, c2, c3, _, c5⟩ := C71_found_partial P order D a w x y i _ _ n e v src nnz m es hx hy hi hs hz hdx hdy hm he hv
    hf hw hix hn gi go qi qo _ _ a2 b2 a1 b1 a4 b4
  exact ⟨w', f, ix, c1, c2, c3, qi, qo, a1, b1, c5⟩

/-! ### C72: merging -/

theorem upsert_of_mem {α : Type} (d : List (String × α)) (k : String) (v : α) (h : k ∈ d.map Prod.fst) :
    (upsert d k v).map Prod.fst = d.map Prod.fst := by
  induction d with
  | nil => simp at h
  | cons e d ih =>
    obtain ⟨k', v'⟩ := e
    unfold upsert
    by_cases hk : k' = k
    · rw [if_pos hk]; simp [hk]
    · rw [if_neg hk]
      simp only [List.map_cons, List.mem_cons] at h
      rcases h with h | h
      · exact absurd h.symm hk
      · simp only [List.map_cons, ih h]

theorem update_disjoint {α : Type} (es ss : List (String × α)) (hn : (es.map Prod.fst).Nodup)
    (hd : ∀ k ∈ es.map Prod.fst, k ∉ ss.map Prod.fst) : update ss es = ss ++ es := by
  unfold update
  induction es generalizing ss with
  | nil => simp
  | cons e es ih =>
    rw [List.foldl_cons, upsert_new ss e.1 e.2 (hd e.1 (by simp))]
    rw [ih]
    · simp
    · exact (List.nodup_cons.1 hn).2
    · intro k hk
      rw [List.map_append, List.mem_append, not_or]
      refine ⟨hd k (List.mem_cons_of_mem _ hk), ?_⟩
      simp only [List.map_cons, List.map_nil, List.mem_cons, List.not_mem_nil, or_false]
      rintro rfl
      exact (List.nodup_cons.1 hn).1 hk

theorem upsert_length_le {α : Type} (d : List (String × α)) (k : String) (v : α) : (upsert d k v).length ≤ d.length + 1 := by
  induction d with
  | nil => simp [upsert]
  | cons e d ih => unfold upsert; split <;> simp only [List.length_cons] <;> omega

theorem update_length_le {α : Type} (es ss : List (String × α)) : (update ss es).length ≤ ss.length + es.length := by
  unfold update
  induction es generalizing ss with
  | nil => simp
  | cons e es ih =>
    rw [List.foldl_cons]
    have := ih (upsert ss e.1 e.2)
    have := upsert_length_le ss e.1 e.2
    simp only [List.length_cons]; omega

theorem update_overlap {α : Type} (es ss : List (String × α)) (k : String) (h1 : k ∈ es.map Prod.fst) (h2 : k ∈ ss.map Prod.fst) :
    (update ss es).length < ss.length + es.length := by
  unfold update
  induction es generalizing ss with
  | nil => simp at h1
  | cons e es ih =>
    rw [List.foldl_cons, List.length_cons]
    simp only [List.map_cons, List.mem_cons] at h1
    rcases h1 with h1 | h1
    · have hl : (upsert ss e.1 e.2).length = ss.length := by
        have := congrArg List.length (upsert_of_mem ss e.1 e.2 (h1 ▸ h2))
        simpa using this
      have := update_length_le es (upsert ss e.1 e.2)
      unfold update at this
      omega
    · have hm : k ∈ (upsert ss e.1 e.2).map Prod.fst := by
        by_cases hk : e.1 ∈ ss.map Prod.fst
        · rw [upsert_of_mem ss e.1 e.2 hk]; exact h2
        · rw [upsert_new ss e.1 e.2 hk, List.map_append, List.mem_append]; exact .inl h2
      have := ih (upsert ss e.1 e.2) h1 hm
      have := upsert_length_le ss e.1 e.2
      omega

/-- C72: a merge succeeds exactly if the two inventories have no name in common, and then the result has the system's entries
followed by the new ones: nothing is lost, nothing replaced. -/
theorem C72_union (s i : IndexFile) (ss es : List (String × Raw)) (hs : s.matrix = some ss) (hi : i.matrix = some es)
    (hn : (es.map Prod.fst).Nodup) (old : Option IndexFile) :
    ((∀ k, k ∈ ss.map Prod.fst → k ∉ es.map Prod.fst) →
      merge (some s) i false old = (.ok (), some ⟨s.version, some (ss ++ es)⟩)) ∧
    ((∃ k, k ∈ ss.map Prod.fst ∧ k ∈ es.map Prod.fst) → ∃ r, merge (some s) i false old = (.error .assertion, r)) := by
  have hc : mergeContent (some s) i = .ok (⟨s.version, some (update ss es)⟩, ss.length + es.length) := by
    unfold mergeContent
    simp only
    rw [hs, hi]; rfl
  unfold merge
  rw [hc]
  simp only [Bool.false_eq_true, if_false, checkFile, needs, lift, bind, Except.bind]
  constructor
  · intro hd
    have : update ss es = ss ++ es := update_disjoint es ss hn (fun k h1 h2 => hd k h2 h1)
    rw [this, if_pos (by simp)]; rfl
  · rintro ⟨k, h1, h2⟩
    have := update_overlap es ss k h2 h1
    rw [if_neg (by omega)]
    exact ⟨_, rfl⟩

/-- Without a system inventory the result is the input. -/
theorem C72_alone (i : IndexFile) (es : List (String × Raw)) (hi : i.matrix = some es) (old : Option IndexFile) :
    merge none i false old = (.ok (), some i) := by
  unfold merge mergeContent checkFile
  rw [hi]
  simp only [needs, lift, bind, Except.bind, pure, Except.pure, Bool.false_eq_true, if_false, hi, if_true]

theorem search_append (P : Py) (order : List String) (gi go : GS) (m : List Char) (a b : Index) :
    search P order gi go m (a ++ b) =
      match search P order gi go m a with
      | .ok none => search P order gi go m b
      | r => r := by
  induction a with
  | nil => rfl
  | cons x a ih =>
    obtain ⟨k, e⟩ := x
    simp only [List.cons_append, search, ih]
    cases matches_ P order e gi go m with
    | error e' => rfl
    | ok c => cases c <;> rfl

/-- C72 for lookups: a merged inventory answers like the system's; where that has no answer, like the other. -/
theorem C72_lookup (P : Py) (order : List String) (s i f : IndexFile) (ss es : List (String × Raw)) (hs : s.matrix = some ss)
    (hi : i.matrix = some es) (hv : OneVersion s.version) (hv' : OneVersion i.version)
    (hn : (ss.map Prod.fst).Nodup) (hn' : (es.map Prod.fst).Nodup)
    (old : Option IndexFile) (h : merge (some s) i false old = (.ok (), some f)) :
    ∃ ix jx fx, load P s = .ok ix ∧ load P i = .ok jx ∧ load P f = .ok fx ∧
      ∀ di dO m, (∀ e, find P order ix di dO m = .ok (some e) → find P order fx di dO m = .ok (some e)) ∧
        (find P order ix di dO m = .ok none → find P order fx di dO m = find P order jx di dO m) := by
  have hd : ∀ k, k ∈ ss.map Prod.fst → k ∉ es.map Prod.fst := by
    intro k h1 h2
    obtain ⟨r, hr⟩ := (C72_union s i ss es hs hi hn' old).2 ⟨k, h1, h2⟩
    rw [hr] at h
    cases h
  have hf := (C72_union s i ss es hs hi hn' old).1 hd
  rw [hf] at h
  cases h
  have hnn : ((ss ++ es).map Prod.fst).Nodup := by
    rw [List.map_append, List.nodup_append]
    exact ⟨hn, hn', fun a h1 b h2 e => hd a h1 (e ▸ h2)⟩
  refine ⟨_, _, _, load_ok P s ss ((version_iff _).2 hv) hs hn, load_ok P i es ((version_iff _).2 hv') hi hn', load_ok P ⟨s.version, some (ss ++ es)⟩ _ ((version_iff _).2 hv) rfl hnn, ?_⟩
  intro di dO m
  rw [List.filterMap_append]
  constructor
  · intro e he
    obtain ⟨gi, go, h1, h2, h3⟩ := (find_ok ..).1 he
    refine (find_ok ..).2 ⟨gi, go, h1, h2, ?_⟩
    rw [search_append, h3]
  · intro he
    obtain ⟨gi, go, h1, h2, h3⟩ := (find_ok ..).1 he
    unfold find
    rw [h1, h2]
    simp only [bind, Except.bind]
    rw [search_append, h3]

/-- A dry run writes nothing. -/
theorem C72_dry (s : Option IndexFile) (i : IndexFile) (old : Option IndexFile) : (merge s i true old).2 = old := by
  unfold merge
  split <;> rfl

/-! ### C93, C94: what a merge does not check -/

/-- C93 fails: when a merge is refused, the result file has been overwritten with the entries that did replace one another. -/
theorem C93_refuted (s i : IndexFile) (ss es : List (String × Raw)) (hs : s.matrix = some ss) (hi : i.matrix = some es)
    (k : String) (h1 : k ∈ ss.map Prod.fst) (h2 : k ∈ es.map Prod.fst) (old : Option IndexFile) :
    merge (some s) i false old = (.error .assertion, some ⟨s.version, some (update ss es)⟩) := by
  have hc : mergeContent (some s) i = .ok (⟨s.version, some (update ss es)⟩, ss.length + es.length) := by
    unfold mergeContent
    simp only
    rw [hs, hi]; rfl
  unfold merge
  rw [hc]
  simp only [Bool.false_eq_true, if_false, checkFile, needs, lift, bind, Except.bind]
  have := update_overlap es ss k h2 h1
  rw [if_neg (by omega)]

/-- C93 holds when an input cannot be read as an inventory: then the result file is left alone. -/
theorem C93_unreadable_partial (s : Option IndexFile) (i : IndexFile) (dry : Bool) (old : Option IndexFile)
    (h : i.matrix = none ∨ ∃ f, s = some f ∧ f.matrix = none) : ∃ e, merge s i dry old = (.error e, old) := by
  have : mergeContent s i = .error .key := by
    unfold mergeContent
    rcases h with h | ⟨f, rfl, h⟩
    · cases s with
      | none => simp only; rw [h]; rfl
      | some f => simp only; rw [h]; cases f.matrix <;> rfl
    · simp only; rw [h]; rfl
  unfold merge
  rw [this]
  exact ⟨_, rfl⟩

/-- C93, exactly: a merge that fails has either found an input without entries and left the result file alone, or found a name in both and
overwritten it. -/
theorem C93_exact (s : Option IndexFile) (i : IndexFile) (hn : ∀ es, i.matrix = some es → (es.map Prod.fst).Nodup) (old r : Option IndexFile)
    (e : Err) (h : merge s i false old = (.error e, r)) :
    (i.matrix = none ∨ ∃ f, s = some f ∧ f.matrix = none) ∧ r = old ∨
      ∃ f ss es k, s = some f ∧ f.matrix = some ss ∧ i.matrix = some es ∧ k ∈ ss.map Prod.fst ∧ k ∈ es.map Prod.fst ∧
        e = .assertion ∧ r = some ⟨f.version, some (update ss es)⟩ := by
  cases hi : i.matrix with
  | none =>
    obtain ⟨e', h'⟩ := C93_unreadable_partial s i false old (.inl hi)
    rw [h'] at h
    cases h
    exact .inl ⟨.inl rfl, rfl⟩
  | some es =>
    rcases s with _ | f
    · rw [C72_alone i es hi old] at h
      cases h
    · cases hf : f.matrix with
      | none =>
        obtain ⟨e', h'⟩ := C93_unreadable_partial (some f) i false old (.inr ⟨f, rfl, hf⟩)
        rw [h'] at h
        cases h
        exact .inl ⟨.inr ⟨f, rfl, hf⟩, rfl⟩
      | some ss =>
        by_cases hd : ∀ k, k ∈ ss.map Prod.fst → k ∉ es.map Prod.fst
        · rw [(C72_union f i ss es hf hi (hn es hi) old).1 hd] at h
          cases h
        · push Not at hd
          obtain ⟨k, h1, h2⟩ := hd
          rw [C93_refuted f i ss es hf hi k h1 h2 old] at h
          cases h
          exact .inr ⟨f, ss, es, k, rfl, hf, rfl, h1, h2, rfl, rfl⟩

/-- C94 fails: an inventory of any version is merged into the system's and its entries then pass for entries of that version. -/
theorem C94_refuted (s : IndexFile) (ss es : List (String × Raw)) (hs : s.matrix = some ss) (hn : (es.map Prod.fst).Nodup)
    (hd : ∀ k, k ∈ ss.map Prod.fst → k ∉ es.map Prod.fst) (v : Option V) (old : Option IndexFile) :
    merge (some s) ⟨v, some es⟩ false old = (.ok (), some ⟨s.version, some (ss ++ es)⟩) :=
  (C72_union s ⟨v, some es⟩ ss es hs rfl hn old).1 hd

/-- C94 holds without a system inventory: the version goes with the entries, and loading the result refuses it. -/
theorem C94_alone_partial (P : Py) (i : IndexFile) (es : List (String × Raw)) (hi : i.matrix = some es)
    (hv : ¬OneVersion i.version) (old : Option IndexFile) :
    ∃ f, (merge none i false old).2 = some f ∧ load P f = .error .value :=
  ⟨i, by rw [C72_alone i es hi], (C40_version P i).2 hv⟩

/-! ### The hypotheses can be met -/

/-- A global lat-lon grid of `d` degrees as MIR describes it, without a "global" flag. -/
def mirLatLon (d nj ni e : Int) : MirGrid where
  type := some "regular_ll".toList
  plain := fun k => if k = "nj" then some (.int nj) else if k = "ni" then some (.int ni) else none
  increments := some (fun k => if k = "west_east" then some (.int d) else if k = "south_north" then some (.int d) else none)
  bbox := some (fun k => if k = "north" then some (.int 90) else if k = "west" then some (.int 0)
    else if k = "south" then some (.int (-90)) else if k = "east" then some (.int e) else none)

/-- An octahedral grid; the first two rows have 20 and 24 points. -/
def mirO : MirGrid where
  type := some "reduced_gg".toList
  plain := fun k => if k = "pl" then some (.list [.int 20, .int 24, .int 24, .int 20]) else if k = "N" then some (.int 2) else none
  increments := none
  bbox := some (fun k => if k = "north" then some (.int 90) else if k = "west" then some (.int 0)
    else if k = "south" then some (.int (-90)) else if k = "east" then some (.int 345) else none)

theorem describes_latlon (P : Py) (d nj ni e : Int) : Describes P (some true) (mirLatLon d nj ni e)
    (fullSpec (.int d) (.int d) (.list [.int nj, .int ni]) (.int 90) (.int 0) (.int (-90)) (.int e)) :=
  .latlon _ (.int d) (.int d) (.int nj) (.int ni) (.int 90) (.int 0) (.int (-90)) (.int e) rfl rfl rfl rfl rfl rfl ⟨_, rfl, rfl, rfl, rfl, rfl⟩

/-- Four rows of 20, 24, 24, 20 points: octahedral, 88 points. -/
example (P : Py) : Describes P none mirO (areaSpec (.str ('O' :: P.pyStr (.int 2))) (.list [.int 88])
    (.list [.int 90, .int 0, .int (-90), .int 345]) none) :=
  .octahedral 20 [24, 20] (.int 2) (.int 90) (.int 0) (.int (-90)) (.int 345) rfl rfl rfl ⟨_, rfl, rfl, rfl, rfl, rfl⟩

def sampleMatrix : Mir.MirMatrix := ⟨3, 2, 3, false, 4, 8, [0, 2, 2, 3], [0, 1, 1], [0x3f000000, 0x3f000000, 0x3f800000]⟩

def sampleArgs (m : Method) : Args where
  desc := ⟨some (mirLatLon 1 181 360 359), some (mirLatLon 2 91 180 358), some ⟨some m, some "mir".toList, some "1".toList, 0⟩,
    some "cache.mat".toList, some 3⟩
  outputPath := "out".toList
  globalInput := some true
  globalOutput := some true

def fileWorld (p : List Char) (c : Mir.Content) : World := ⟨fun q => if q = p then some c else none, none⟩

theorem fileWorld_has (p : List Char) (c : Mir.Content) : (fileWorld p c).files p = some c := by simp [fileWorld]

def sampleWorld : World := fileWorld "cache.mat".toList (.bytes sampleMatrix.file)

theorem sampleWorld_cache : sampleWorld.files "cache.mat".toList = some (.bytes sampleMatrix.file) :=
  fileWorld_has _ _

theorem sampleMatrix_wf : sampleMatrix.Wf := by constructor <;> decide

/-- `C71_short_partial`, and with it `C71_found_partial`, `C71_entry_partial` from which it follows: building a matrix from 1 to 2 degrees
into an empty directory, and asking for it. -/
example (P : Py) (order : List String) (ho : Enumerates order) (D : Digests) :
    ∃ w' f ix, makeMatrixPath P D (sampleArgs (.name "linear".toList)) sampleWorld = (.ok (), w') ∧ w'.index = some f ∧
      load P f = .ok ix ∧ ∃ qi qo, fromDict P (shortSpec (.int 1) (.int 1)) = .ok qi ∧ fromDict P (shortSpec (.int 2) (.int 2)) = .ok qo ∧
      ((∀ z ∈ ix, Sound P order qi qo "linear".toList z.2) →
        ∃ en, find P order ix (shortSpec (.int 1) (.int 1)) (shortSpec (.int 2) (.int 2)) "linear".toList = .ok (some en) ∧
          Hit P order qi qo "linear".toList en) :=
  C71_short_partial P order ho D (sampleArgs (.name "linear".toList)) sampleWorld (mirLatLon 1 181 360 359) (mirLatLon 2 91 180 358)
    ⟨some (.name "linear".toList), some "mir".toList, some "1".toList, 0⟩ "linear".toList "mir".toList "1".toList "cache.mat".toList 3
    sampleMatrix [] 1 2 (by decide +kernel) (by decide +kernel) (.int 1) (.int 1) (.int 2) (.int 2) (.list [.int 181, .int 360])
    (.list [.int 91, .int 180]) (.int 90) (.int 0) (.int (-90)) (.int 359) (.int 90) (.int 0) (.int (-90)) (.int 358)
    rfl rfl rfl rfl rfl (describes_latlon P 1 181 360 359) (describes_latlon P 2 91 180 358)
    (by decide +kernel) (by decide +kernel) (by decide +kernel) (by decide +kernel)
    (by decide +kernel) (by decide +kernel) (by decide +kernel) (by decide +kernel)
    (by decide +kernel) (by decide +kernel) (by decide +kernel) (by decide +kernel)
    (.inl rfl) rfl rfl sampleWorld_cache sampleMatrix_wf (.inl ⟨rfl, rfl⟩) (by simp)
    (.int 1) (.int 1) (.int 2) (.int 2) (by decide +kernel) (by decide +kernel) (by decide +kernel) (by decide +kernel)

/-- The default options of grid-box-average are dropped, other options are kept with a uid. -/
example (sha : Inter → List Char) :
    settled sha ⟨some (.dict (some "grid-box-average".toList) 0), some [], some [], 0⟩ =
      .ok (⟨some (.name "grid-box-average".toList), some [], some [], 0⟩, none) ∧
    (sha ⟨some (.dict (some "linear".toList) 0), some [], some [], 0⟩ ≠ "linear".toList →
      settled sha ⟨some (.dict (some "linear".toList) 0), some [], some [], 0⟩ =
        .ok (⟨some (.dict (some "linear".toList) 0), some [], some [], 0⟩, some (sha ⟨some (.dict (some "linear".toList) 0), some [], some [], 0⟩))) := by
  constructor
  · rfl
  · intro h
    simp only [settled, interUid, interName, methodName, bind, Except.bind, pure, Except.pure]
    rw [if_neg (by decide)]
    simp only [ne_eq]
    rw [if_pos h]

/-- Two inventories with a common name, and two without. -/
example (r : Raw) : (∃ k, k ∈ [("a", r)].map Prod.fst ∧ k ∈ [("b", r), ("a", r)].map Prod.fst) ∧
    (∀ k, k ∈ [("a", r)].map Prod.fst → k ∉ [("b", r)].map Prod.fst) ∧ (([("b", r), ("a", r)] : List (String × Raw)).map Prod.fst).Nodup := by
  refine ⟨⟨"a", by simp⟩, ?_, ?_⟩ <;> simp

/-- `C71_entry_partial`: the matrix is where it is read. -/
example (P : Py) (D : Digests) : ∃ ix : Option IndexFile, makeMatrixPath P D (sampleArgs (.name "linear".toList)) sampleWorld =
    (.ok (), ⟨sampleWorld.files.set (ReadAt "out".toList
      (D.key (mirLatLon 1 181 360 359) (mirLatLon 2 91 180 358) ⟨some (.name "linear".toList), some "mir".toList, some "1".toList, 0⟩)
      "mir".toList "1".toList "linear".toList) (.npz (asCsr sampleMatrix)), ix⟩) := by
  obtain ⟨ver, es', r, h, _⟩ := C71_entry_partial P D (sampleArgs (.name "linear".toList)) sampleWorld (mirLatLon 1 181 360 359) (mirLatLon 2 91 180 358)
    ⟨some (.name "linear".toList), some "mir".toList, some "1".toList, 0⟩ _ _ "linear".toList "mir".toList "1".toList "cache.mat".toList 3
    sampleMatrix [] rfl rfl rfl rfl rfl (describes_latlon P 1 181 360 359) (describes_latlon P 2 91 180 358) (.inl rfl) rfl rfl sampleWorld_cache
    sampleMatrix_wf (.inl ⟨rfl, rfl⟩)
  exact ⟨_, h⟩

/-- `C71_others_files_partial` -/
example (P : Py) (D : Digests) (hD : ∀ x y i, D.key x y i = "b") :
    (makeMatrixPath P D (sampleArgs (.name "linear".toList)) sampleWorld).2.files (ReadAt "out".toList "a" "mir".toList "1".toList "linear".toList) =
      sampleWorld.files (ReadAt "out".toList "a" "mir".toList "1".toList "linear".toList) :=
  C71_others_files_partial P D (sampleArgs (.name "linear".toList)) sampleWorld (mirLatLon 1 181 360 359) (mirLatLon 2 91 180 358)
    ⟨some (.name "linear".toList), some "mir".toList, some "1".toList, 0⟩ _ _ "linear".toList "mir".toList "1".toList "cache.mat".toList 3
    sampleMatrix [] rfl rfl rfl rfl rfl (describes_latlon P 1 181 360 359) (describes_latlon P 2 91 180 358) (.inl rfl) rfl rfl sampleWorld_cache
    sampleMatrix_wf (.inl ⟨rfl, rfl⟩) (by rw [hD]; decide) "a" (by decide) (by rw [hD]; decide) _ _ _

/-- `C71_others`: an entry is replaced, another stays. -/
example (r r' : Raw) : ("a", r) ∈ [("a", r), ("b", r')] :=
  (C71_others [("a", r), ("b", r)] [("a", r), ("b", r')] "b" r' (.inr ⟨[("a", r)], r, [], by simp, rfl, rfl⟩) (by simp) "a" r).2
    (.inr ⟨by decide, by simp⟩)

/-- `C71_failed`, `C71_attribute_refuted`: what really happens with the call as it is written. -/
example (P : Py) (D : Digests) : (makeMatrix P D (sampleArgs (.name "linear".toList)) sampleWorld).2.index = none := by
  obtain ⟨e, he⟩ := C71_refuted P D (sampleArgs (.name "linear".toList)) sampleWorld
  rw [he]
  exact C71_failed _ P D _ sampleWorld _ e he

example (P : Py) (D : Digests) : ∃ p, plan D (sampleArgs (.name "linear".toList)) = .ok p ∧
    makeMatrix P D (sampleArgs (.name "linear".toList)) sampleWorld = (.error (.mir .attribute), sampleWorld) := by
  cases h : plan D (sampleArgs (.name "linear".toList)) with
  | ok p => exact ⟨p, rfl, C71_attribute_refuted P D _ _ p h⟩
  | error e => cases h

/-- An inventory file with these entries. -/
def holding (es : List (String × Raw)) : IndexFile := ⟨some (.int 1), some es⟩

/-- `C72_union`, `C72_alone`, `C93_refuted`, `C93_unreadable_partial` -/
example (r r' : Raw) : merge (some (holding [("a", r)])) (holding [("b", r')]) false none = (.ok (), some (holding [("a", r), ("b", r')])) ∧
    merge none (holding [("a", r)]) false none = (.ok (), some (holding [("a", r)])) ∧
    merge (some (holding [("a", r)])) (holding [("a", r')]) false none = (.error .assertion, some (holding [("a", r')])) ∧
    ∃ e, merge (some ⟨some (.int 1), none⟩) (holding [("a", r')]) false (some (holding [])) = (.error e, some (holding [])) :=
  ⟨(C72_union (holding [("a", r)]) (holding [("b", r')]) _ _ rfl rfl (by simp) none).1 (by simp),
    C72_alone (holding [("a", r)]) _ rfl none,
    C93_refuted (holding [("a", r)]) (holding [("a", r')]) _ _ rfl rfl "a" (by simp) (by simp) none,
    C93_unreadable_partial _ _ _ _ (.inr ⟨_, rfl, rfl⟩)⟩

/-- `C93_exact` -/
example (r r' : Raw) : ∃ k, k ∈ [("a", r)].map Prod.fst ∧ k ∈ [("a", r')].map Prod.fst := by
  have h := C93_refuted (holding [("a", r)]) (holding [("a", r')]) _ _ rfl rfl "a" (by simp) (by simp) none
  rcases C93_exact _ _ (fun es he => by cases he; simp) none _ _ h with ⟨h | ⟨f, h, h'⟩, _⟩ | ⟨f, ss, es, k, h1, h2, h3, h4, h5, _⟩
  · cases h
  · cases h; cases h'
  · cases h1; cases h2; cases h3
    exact ⟨k, h4, h5⟩

/-- `C72_lookup` -/
example (P : Py) (order : List String) : ∃ fx, load P twoFile = .ok fx ∧ ∀ di dO m,
    (∀ e, find P order [("a", entryOf "a" (some (.int 1)))] di dO m = .ok (some e) → find P order fx di dO m = .ok (some e)) := by
  obtain ⟨ix, jx, fx, h1, _, h3, h4⟩ := C72_lookup P order ⟨some (.int 1), some [("a", rawOf (some (.int 1)))]⟩ ⟨some (.int 1), some [("b", rawOf none)]⟩ twoFile
    _ _ rfl rfl (.inl rfl) (.inl rfl) (by simp) (by simp) none rfl
  refine ⟨fx, h3, fun di dO m e he => (h4 di dO m).1 e ?_⟩
  have : load P ⟨some (.int 1), some [("a", rawOf (some (.int 1)))]⟩ = .ok [("a", entryOf "a" (some (.int 1)))] := by
    have hp : ∀ sh, parse P (rawOf sh) = .ok (orcaSpec sh, orcaSpec none) := fun sh =>
      (parse_ok P _ _ _).2 ⟨⟨_, rfl, orca_fromDict P sh⟩, ⟨_, rfl, orca_fromDict P none⟩⟩
    show (if pyEq (.int 1) (.int 1) then _ else _) = _
    rw [if_pos (pyEq_refl _)]
    show Except.ok (loadOne P [] ("a", rawOf (some (.int 1)))) = _
    unfold loadOne
    simp only [hp]
    rfl
  rw [this] at h1
  cases h1
  exact he

/-- `C94_refuted`, `C94_alone_partial` -/
example (P : Py) (r r' : Raw) : merge (some (holding [("a", r)])) ⟨some (.int 2), some [("b", r')]⟩ false none = (.ok (), some (holding [("a", r), ("b", r')])) ∧
    ∃ f, (merge none ⟨some (.int 2), some [("b", r')]⟩ false none).2 = some f ∧ load P f = .error .value :=
  ⟨C94_refuted (holding [("a", r)]) _ [("b", r')] rfl (by simp) (by simp) (some (.int 2)) none,
    C94_alone_partial P ⟨some (.int 2), some [("b", r')]⟩ _ rfl (by simp [OneVersion]) none⟩

end Verif.Builder

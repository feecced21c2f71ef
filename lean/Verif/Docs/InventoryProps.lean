import Verif.Docs.InventoryLemmas
import Verif.Index.Props

/-!
# The inventory pages of the documentation (C104)

Specification: what a page shows of a gridspec, and which sources belong on which page.
-/

namespace Verif.Docs
open Verif.GridSpec
open Verif.Index (Entry Index Raw Method MethodIs Clean Loaded)

variable {K : Type} [DecidableEq K]

/-- `d` shows the gridspec `s`: its grid, with the ordering when the name of the grid begins with `H`, and nothing else. -/
def Shows (d : Dict) (s : GS) : Prop :=
  (∃ g, d "grid" = some g ∧ s.d "grid" = some g) ∧ (∀ k, k ≠ "grid" → k ≠ "ordering" → d k = none) ∧
  (∀ o, d "ordering" = some o → s.d "ordering" = some o ∨ s.d "order" = some o) ∧
  (∀ g, s.d "grid" = some (.str ('H' :: g)) → d "ordering" ≠ none)

/-- The pages of docs/guide/precomputed/inventory and the sources that belong on them. -/
inductive OnPage : List Char → GS → Prop
  | ll (s : GS) : s.kind = .ll → OnPage "regular_ll".toList s
  | orca (s : GS) : s.kind = .orca → OnPage "orca".toList s
  | octahedral (s : GS) (c : Char) (r : List Char) : s.kind = .rgg → s.d "grid" = some (.str (c :: r)) → c ∈ ['O', 'o'] →
      OnPage "reduced_gg_o".toList s
  | reduced (s : GS) (c : Char) (r : List Char) : s.kind = .rgg → s.d "grid" = some (.str (c :: r)) → c ∈ ['N', 'n'] →
      OnPage "reduced_gg".toList s
  | ring (s : GS) : s.kind = .healpix → askedOrder s.d = .str "ring".toList → OnPage "healpix_ring".toList s
  | nested (s : GS) : s.kind = .healpix → askedOrder s.d = .str "nested".toList → OnPage "healpix_nested".toList s

/-- Finer grids first, names in alphabetical order. -/
def InOrder (a b : GS) : Prop :=
  (∀ x y x' y' p q, a.d "grid" = some (.list [x, y]) → b.d "grid" = some (.list [x', y']) → x.num = some p → x'.num = some q → p ≤ q) ∧
  (∀ g g', a.d "grid" = some (.str g) → b.d "grid" = some (.str g') → g.map Char.toNat ≤ g'.map Char.toNat)

/-- The targets of a block, read column by column without the blanks. -/
def Block.targets (b : Block) : List Dict := b.columns.flatten.filterMap id

/-- The block shows the entries `ys`: one source, their targets in order. -/
def BlockOf (b : Block) (ys : Index) : Prop :=
  ys ≠ [] ∧ (∀ y ∈ ys, Shows b.source y.2.input ∧ y.2.input.d "grid" = some b.title) ∧
  List.Forall₂ (fun d (y : String × Entry) => Shows d y.2.output) b.targets ys ∧ ys.Pairwise (fun a b => InOrder a.2.output b.2.output)

/-- The method is given as the text `linear`. -/
def TextLinear (e : Entry) : Prop := e.raw.method = some (.name "linear".toList)

theorem lin_iff (e : Entry) : lin e.raw = true ↔ TextLinear e := by
  unfold lin TextLinear
  cases h : e.raw.method with
  | none => simp
  | some m => cases m <;> simp

theorem toStr_shows (s : GS) (d : Dict) (h : toStr s = .ok d) : Shows d s := by
  unfold toStr at h
  obtain ⟨g, h1, h2⟩ := (bind_ok _ _ _).1 h
  have hg := item_some _ _ _ h1
  have ord : ∀ o, (s.d "ordering" = some o ∨ s.d "order" = some o) →
      Shows (Dict.set (fun k => if k = "grid" then some g else none) "ordering" o) s := by
    intro o ho
    refine ⟨⟨g, by simp [Dict.set], hg⟩, fun k h1 h2 => by simp [Dict.set, h1, h2], ?_, by simp [Dict.set]⟩
    intro o' h
    simp [Dict.set] at h
    subst h; exact ho
  split at h2
  · rename_i r
    split at h2
    · rename_i o ho
      rw [pure_ok] at h2
      subst h2
      exact ord o (Or.inl ho)
    · split at h2
      · rename_i o ho
        rw [pure_ok] at h2
        subst h2
        exact ord o (Or.inr ho)
      · cases h2
  · rename_i hne
    rw [pure_ok] at h2
    subst h2
    refine ⟨⟨g, by simp, hg⟩, fun k h1 h2 => by simp [h1], by simp, ?_⟩
    intro r hr
    rw [hg] at hr
    cases hr
    exact absurd rfl (hne r)

theorem makeBlock_ok (f : Filed) (b : Block) (h : makeBlock f = .ok b) :
    f.source.d "grid" = some b.title ∧ Shows b.source f.source ∧ List.Forall₂ Shows b.targets f.target ∧
    b.columns.length = 3 ∧ ∃ n, (∀ c ∈ b.columns, c.length = n) ∧
      ∃ m, m < 3 ∧ b.columns.flatten = b.targets.map some ++ List.replicate m none := by
  unfold makeBlock at h
  simp only [bind_ok, pure_ok] at h
  obtain ⟨title, h1, src, h2, ts, h3, rfl⟩ := h
  obtain ⟨n, hn, hp, hl⟩ := pad_spec (ts.map some)
  obtain ⟨c1, c2, c3⟩ := columns_flatten (pad COLUMNS (ts.map some)) (by rw [hp]; simpa using hl)
  have ht : (columns (pad COLUMNS (ts.map some))).flatten.filterMap id = ts := by
    rw [c1, hp, List.filterMap_append]
    have e1 : (ts.map some).filterMap id = ts := by simp [List.filterMap_map]
    have e2 : (List.replicate n (none : Option Dict)).filterMap id = [] := by
      rw [List.filterMap_eq_nil_iff]
      intro a ha
      rw [(List.mem_replicate.1 ha).2]; rfl
    rw [e1, e2, List.append_nil]
  refine ⟨item_some _ _ _ h1, toStr_shows _ _ h2, ?_, c2, _, c3, n, hn, ?_⟩
  · unfold Block.targets
    simp only
    rw [ht]
    have := mapM_forall₂ _ _ _ h3
    exact (this.imp (fun a b h => toStr_shows a b h)).flip
  · unfold Block.targets
    simp only
    rw [ht, c1, hp]

theorem inOrder_of_keys (a b : GS) (h : KeysAscend a b) : InOrder a b := by
  obtain ⟨ka, kb, h1, h2, h3⟩ := h
  have hs : ∀ (s : GS) (k : ℚ × (ℚ ⊕ List Char)), sortKey s = .ok k →
      (∀ x y p, s.d "grid" = some (.list [x, y]) → x.num = some p → k.1 = p) ∧
      (∀ g, s.d "grid" = some (.str g) → k = (1000, .inr g)) := by
    intro s k hk
    unfold sortKey at hk
    obtain ⟨g, hg, hk⟩ := (bind_ok _ _ _).1 hk
    have hg := item_some _ _ _ hg
    refine ⟨?_, ?_⟩
    · intro x y p h hx
      rw [hg] at h
      cases h
      simp only [bind_ok, pure_ok] at hk
      obtain ⟨a, ha, _, _, _, _, rfl⟩ := hk
      simp only [numM, hx] at ha
      cases ha; rfl
    · intro g' h
      rw [hg] at h
      cases h
      simp only [pure_ok] at hk
      exact hk.symm
  obtain ⟨a1, a2⟩ := hs a ka h1
  obtain ⟨b1, b2⟩ := hs b kb h2
  refine ⟨?_, ?_⟩
  · intro x y x' y' p q ha hb hx hx'
    have e1 := a1 x y p ha hx
    have e2 := b1 x' y' q hb hx'
    simp only [keyLe, Bool.or_eq_true, Bool.and_eq_true, decide_eq_true_eq] at h3
    rw [e1, e2] at h3
    rcases h3 with h | h
    · exact le_of_lt h
    · exact le_of_eq h.1
  · intro g g' ha hb
    have e1 := a2 g ha
    have e2 := b2 g' hb
    subst e1; subst e2
    simpa [keyLe, sndLe] using h3

/-- The pages that list something. -/
def LISTING : List (List Char) := ["regular_ll".toList, "reduced_gg".toList, "reduced_gg_o".toList, "orca".toList]

theorem kind_name_inj (a b : Kind) (h : a.name = b.name) : a = b := by
  cases a <;> cases b <;> first | rfl | (exfalso; revert h; decide)

theorem rggInspect_head (P : Py) (s : GS) (o : Bool) (n : Int) (h : rggInspect P s = .ok (o, n)) :
    ∃ c r, s.d "grid" = some (.str (c :: r)) ∧ ((o = true ∧ c ∈ ['O', 'o']) ∨ (o = false ∧ c ∈ ['N', 'n'])) := by
  unfold rggInspect at h
  obtain ⟨g, hg, h⟩ := (bind_ok _ _ _).1 h
  have hg := item_some _ _ _ hg
  split at h
  · rename_i _ g' _
    split at h
    · cases h
    · rename_i hm
      have hm : rggMatch P g' = true := by simpa using hm
      obtain ⟨c, x, r, rfl⟩ : ∃ c x r, g' = c :: x :: r := by
        unfold rggMatch at hm
        split at hm
        · exact ⟨_, _, _, rfl⟩
        · cases hm
      have hc : c = 'O' ∨ c = 'o' ∨ c = 'N' ∨ c = 'n' := by
        simp only [rggMatch, Bool.and_eq_true, Bool.or_eq_true, beq_iff_eq] at hm
        tauto
      rw [P.upper_head c (x :: r) (by simpa using hc)] at h
      simp only at h
      split at h
      · cases h
      · split at h
        · cases h
        · simp only [Except.ok.injEq, Prod.mk.injEq] at h
          refine ⟨c, x :: r, hg, ?_⟩
          rcases hc with rfl | rfl | rfl | rfl
          · left; refine ⟨?_, by simp⟩; rw [← h.1]; decide
          · left; refine ⟨?_, by simp⟩; rw [← h.1]; decide
          · right; refine ⟨?_, by simp⟩; rw [← h.1]; decide
          · right; refine ⟨?_, by simp⟩; rw [← h.1]; decide
  · cases h

theorem matchWant_octahedral (P : Py) (s : GS) (b c : Bool) (h : matchWant P s (some (.octahedral b)) = .ok c) (hk : s.kind = .rgg) :
    ∃ o n, rggInspect P s = .ok (o, n) ∧ c = (o == b) := by
  unfold matchWant at h
  rw [hk] at h
  simp only [bind_ok, pure_ok] at h
  obtain ⟨⟨o, n⟩, h1, h2⟩ := h
  exact ⟨o, n, h1, h2.symm⟩

theorem onPage_of_passes (P : Py) (t : List Char) (ht : t ∈ LISTING) (s : GS) (hs : s.d "type" = some (.str s.kind.name))
    (h : Passes P (request t).1 (request t).2 s) : OnPage t s := by
  obtain ⟨h1, h2⟩ := h
  rw [hs] at h1
  simp only [Option.some.injEq, V.str.injEq] at h1
  simp only [LISTING, List.mem_cons, List.not_mem_nil, or_false] at ht
  rcases ht with rfl | rfl | rfl | rfl
  · exact .ll s (kind_name_inj _ .ll (by rw [h1]; decide))
  · have hk : s.kind = .rgg := kind_name_inj _ .rgg (by rw [h1]; decide)
    obtain ⟨o, n, h3, h4⟩ := matchWant_octahedral P s false true h2 hk
    obtain ⟨c, r, h5, h6 | h6⟩ := rggInspect_head P s o n h3
    · rw [h6.1] at h4; cases h4
    · exact .reduced s c r hk h5 h6.2
  · have hk : s.kind = .rgg := kind_name_inj _ .rgg (by rw [h1]; decide)
    obtain ⟨o, n, h3, h4⟩ := matchWant_octahedral P s true true h2 hk
    obtain ⟨c, r, h5, h6 | h6⟩ := rggInspect_head P s o n h3
    · exact .octahedral s c r hk h5 h6.2
    · rw [h6.1] at h4; cases h4
  · exact .orca s (kind_name_inj _ .orca (by rw [h1]; decide))

theorem passes_of_onPage (P : Py) (t : List Char) (ht : t ∈ LISTING) (s : GS) (hs : s.d "type" = some (.str s.kind.name))
    (h : OnPage t s) : s.d "type" = some (.str (request t).1) ∧ matchWant P s (request t).2 ≠ .ok false := by
  rw [hs]
  cases h with
  | ll _ hk => rw [hk]; exact ⟨rfl, by simp [request, matchWant]⟩
  | orca _ hk => rw [hk]; exact ⟨rfl, by simp [request, matchWant]⟩
  | octahedral _ c r hk hg hc =>
    rw [hk]
    refine ⟨rfl, fun h => ?_⟩
    obtain ⟨o, n, h3, h4⟩ := matchWant_octahedral P s true false h hk
    obtain ⟨c', r', h5, h6 | h6⟩ := rggInspect_head P s o n h3
    · rw [h6.1] at h4; cases h4
    · rw [hg] at h5
      cases h5
      have h6 := h6.2
      simp only [List.mem_cons, List.not_mem_nil, or_false] at hc h6
      rcases hc with rfl | rfl <;> revert h6 <;> decide
  | reduced _ c r hk hg hc =>
    rw [hk]
    refine ⟨rfl, fun h => ?_⟩
    obtain ⟨o, n, h3, h4⟩ := matchWant_octahedral P s false false h hk
    obtain ⟨c', r', h5, h6 | h6⟩ := rggInspect_head P s o n h3
    · rw [hg] at h5
      cases h5
      have h6 := h6.2
      simp only [List.mem_cons, List.not_mem_nil, or_false] at hc h6
      rcases hc with rfl | rfl <;> revert h6 <;> decide
    · rw [h6.1] at h4; cases h4
  | ring => exact absurd ht (by decide)
  | nested => exact absurd ht (by decide)

theorem parsed_of_clean (P : Py) (ix : Index) (hc : Clean P ix) : Parsed P ix := by
  intro x hx
  obtain ⟨_, _, ⟨d, _, h1⟩, d', _, h2⟩ := hc.forms x hx
  exact ⟨C31_idempotent P d _ h1, C31_idempotent P d' _ h2⟩

theorem flatten_perm {α β : Type} (f g : α → List β) : ∀ l : List α, (∀ a ∈ l, (f a).Perm (g a)) →
    ((l.map f).flatten).Perm ((l.map g).flatten)
  | [], _ => .refl _
  | a :: l, h => by
    rw [List.map_cons, List.map_cons, List.flatten_cons, List.flatten_cons]
    exact (h a (by simp)).append (flatten_perm f g l (fun b hb => h b (by simp [hb])))

/-- What is filed after `load_matrix_index_file`. -/
theorem loadSpecs_ok (P : Py) (key : Entry → K) (ix : Index) (hp : Parsed P ix) (specs : List (K × Filed))
    (h : loadSpecs P key ix = .ok specs) :
    (specs.map Prod.fst).Nodup ∧ (∀ y ∈ ix, lin y.2.raw = true → key y.2 ∈ specs.map Prod.fst) ∧
    ∀ x ∈ specs, (∃ y ∈ ix, lin y.2.raw = true ∧ key y.2 = x.1 ∧ x.2.source = y.2.input) ∧
      ∃ ys : Index, ys.Perm (under key ix x.1) ∧ ys.map (fun y => y.2.output) = x.2.target ∧ x.2.target.Pairwise KeysAscend := by
  unfold loadSpecs at h
  obtain ⟨c, h1, h2⟩ := (bind_ok _ _ _).1 h
  have hi : Inv key ([] ++ ix) c := collect_inv P key ix [] [] c hp ⟨by simp, by simp, by simp⟩ h1
  rw [List.nil_append] at hi
  have hf := sortAll_forall₂ _ _ h2
  have hkeys : specs.map Prod.fst = c.map Prod.fst := by
    clear hi h1 h2 h
    induction hf with
    | nil => rfl
    | cons h _ ih => rw [List.map_cons, List.map_cons, ih, h.1]
  refine ⟨by rw [hkeys]; exact hi.nodup, by rw [hkeys]; exact hi.all, ?_⟩
  intro x hx
  obtain ⟨y, hy, e1, e2, e3, e4⟩ := forall₂_right hf x hx
  obtain ⟨i1, i2⟩ := hi.filed y hy
  rw [e1, e2]
  refine ⟨i2, ?_⟩
  rw [i1] at e3
  obtain ⟨ys, p1, p2⟩ := perm_map_lift _ _ _ e3
  exact ⟨ys, p1, p2, e4⟩

/-- Equal keys are keys of equal descriptions: the digest is injective and json text determines the description. -/
def Faithful (key : Entry → K) (ix : Index) : Prop :=
  ∀ x ∈ ix, ∀ y ∈ ix, key x.2 = key y.2 → x.2.input.d = y.2.input.d

omit [DecidableEq K] in
theorem same_input (P : Py) (key : Entry → K) (ix : Index) (hp : Parsed P ix) (hk : Faithful key ix) (x y : String × Entry)
    (hx : x ∈ ix) (hy : y ∈ ix) (h : key x.2 = key y.2) : x.2.input = y.2.input := by
  have e := hk x hx y hy h
  have h1 := (hp x hx).1
  have h2 := (hp y hy).1
  rw [e, h2] at h1
  exact (Except.ok.inj h1).symm

/-- **C104**: the pages for latitude-longitude, reduced Gaussian (both kinds) and ORCA sources list each entry whose method is
the text `linear` exactly once, with its target under its source, and nothing else. -/
theorem C104_listed_partial (P : Py) (key : Entry → K) (ix : Index) (hc : Clean P ix) (hk : Faithful key ix) (t : List Char)
    (ht : t ∈ LISTING) (bs : List Block) (h : page P key ix t = .ok bs) :
    ∃ yss : List Index, List.Forall₂ BlockOf bs yss ∧ yss.flatten.Subperm ix ∧
      ∀ x, x ∈ yss.flatten ↔ x ∈ ix ∧ TextLinear x.2 ∧ OnPage t x.2.input := by
  have hp := parsed_of_clean P ix hc
  unfold page at h
  obtain ⟨specs, h1, h2⟩ := (bind_ok _ _ _).1 h
  obtain ⟨s1, s2, s3⟩ := loadSpecs_ok P key ix hp specs h1
  obtain ⟨sel, b1, b2, b3⟩ := buildPage_blocks P _ _ specs bs h2
  have hg : ∃ g : K × Filed → Index, ∀ x ∈ specs, (g x).Perm (under key ix x.1) ∧
      (g x).map (fun y => y.2.output) = x.2.target ∧ x.2.target.Pairwise KeysAscend := by
    classical
    refine ⟨fun x => if hx : x ∈ specs then (s3 x hx).2.choose else [], ?_⟩
    intro x hx
    simp only [dif_pos hx]
    exact (s3 x hx).2.choose_spec
  obtain ⟨g, hg⟩ := hg
  have hmem : ∀ x ∈ sel, ∀ y ∈ g x, y ∈ ix ∧ lin y.2.raw = true ∧ key y.2 = x.1 := by
    intro x hx y hy
    have := (hg x (b1.subset hx)).1.subset hy
    simpa [under] using this
  have htype : ∀ x ∈ ix, x.2.input.d "type" = some (.str x.2.input.kind.name) := fun x hx => fromDict_type P _ _ (hp x hx).1
  have hperm : ((sel.map g).flatten).Perm (ix.filter (fun x => lin x.2.raw && decide (key x.2 ∈ sel.map Prod.fst))) := by
    refine (flatten_perm g (fun x => under key ix x.1) sel (fun x hx => (hg x (b1.subset hx)).1)).trans ?_
    have := under_flatten key ix (sel.map Prod.fst) ((b1.map _).nodup s1)
    rwa [List.map_map] at this
  refine ⟨sel.map g, ?_, ?_, ?_⟩
  · rw [List.forall₂_map_right_iff]
    have hb : ∀ b x, x ∈ specs → x ∈ sel → makeBlock x.2 = .ok b → BlockOf b (g x) := by
      intro b x hx hxs hm
      obtain ⟨g1, g2, g3⟩ := hg x hx
      obtain ⟨⟨z, hz, z1, z2, z3⟩, _⟩ := s3 x hx
      obtain ⟨m1, m2, m3, _⟩ := makeBlock_ok x.2 b hm
      refine ⟨?_, ?_, ?_, ?_⟩
      · intro hnil
        have : z ∈ g x := g1.symm.subset (by simp [under, hz, z1, z2])
        rw [hnil] at this
        cases this
      · intro y hy
        obtain ⟨y1, y2, y3⟩ := hmem x hxs y hy
        have : y.2.input = x.2.source := by
          rw [z3]; exact same_input P key ix hp hk y z y1 hz (by rw [y3, z2])
        rw [this]
        exact ⟨m2, m1⟩
      · rw [← g2, List.forall₂_map_right_iff] at m3
        exact m3
      · rw [← g2, List.pairwise_map] at g3
        exact g3.imp (fun h => inOrder_of_keys _ _ h)
    clear hperm hmem b3
    have hin : ∀ x ∈ sel, x ∈ specs := fun x hx => b1.subset hx
    have hall : List.Forall₂ (fun b x => (x ∈ sel ∧ makeBlock x.2 = .ok b)) bs sel := by
      clear hb hin b1 h h2
      induction b2 with
      | nil => exact .nil
      | cons h _ ih =>
        exact .cons ⟨by simp, h.2⟩ (ih.imp (fun _ _ h => ⟨by simp [h.1], h.2⟩))
    exact hall.imp (fun b x h => hb b x (hin x h.1) h.1 h.2)
  · exact hperm.subperm.trans List.filter_sublist.subperm
  · intro x
    rw [hperm.mem_iff, List.mem_filter, Bool.and_eq_true, decide_eq_true_eq, lin_iff]
    refine and_congr_right (fun hx => and_congr_right (fun hl => ?_))
    constructor
    · intro hkx
      obtain ⟨y, hy, hyk⟩ := List.mem_map.1 hkx
      obtain ⟨⟨z, hz, z1, z2, z3⟩, _⟩ := s3 y (b1.subset hy)
      obtain ⟨b, hb, hps, _⟩ := forall₂_right b2 y hy
      have : x.2.input = y.2.source := by
        rw [z3]; exact same_input P key ix hp hk x z hx hz (by rw [z2, hyk])
      rw [← this] at hps
      exact onPage_of_passes P t ht _ (htype x hx) hps
    · intro ho
      obtain ⟨y, hy, hyk⟩ := List.mem_map.1 (s2 x hx ((lin_iff _).2 hl))
      obtain ⟨⟨z, hz, z1, z2, z3⟩, _⟩ := s3 y hy
      have e : x.2.input = y.2.source := by
        rw [z3]; exact same_input P key ix hp hk x z hx hz (by rw [z2, hyk])
      obtain ⟨p1, p2⟩ := passes_of_onPage P t ht _ (htype x hx) ho
      rw [e] at p1 p2
      rcases b3 y hy with h | h | h
      · exact List.mem_map.2 ⟨y, h, hyk⟩
      · exact absurd p1 h
      · exact absurd h p2

/-- **C104**: three columns of equal height; the blanks, two at most, come last. -/
theorem C104_layout (P : Py) (key : Entry → K) (ix : Index) (t : List Char) (bs : List Block) (h : page P key ix t = .ok bs) :
    ∀ b ∈ bs, b.columns.length = 3 ∧ (∃ n, ∀ c ∈ b.columns, c.length = n) ∧
      ∃ m, m < 3 ∧ b.columns.flatten = b.targets.map some ++ List.replicate m none := by
  intro b hb
  unfold page at h
  obtain ⟨specs, h1, h2⟩ := (bind_ok _ _ _).1 h
  obtain ⟨sel, b1, b2, b3⟩ := buildPage_blocks P _ _ specs bs h2
  obtain ⟨x, hx, _, hm⟩ := forall₂_left b2 b hb
  obtain ⟨_, _, _, m1, n, m2, m3⟩ := makeBlock_ok x.2 b hm
  exact ⟨m1, ⟨n, m2⟩, m3⟩

/-- The two HEALPix pages list nothing, whatever the index. -/
theorem C104_healpix_refuted (P : Py) (key : Entry → K) (ix : Index) (t : List Char)
    (ht : t ∈ ["healpix_ring".toList, "healpix_nested".toList]) (bs : List Block) (h : page P key ix t = .ok bs) : bs = [] := by
  unfold page at h
  obtain ⟨specs, h1, h2⟩ := (bind_ok _ _ _).1 h
  obtain ⟨sel, b1, b2, b3⟩ := buildPage_blocks P _ _ specs bs h2
  have hno : ∀ s, ¬ Passes P (request t).1 (request t).2 s := by
    intro s hs
    have := hs.2
    simp only [List.mem_cons, List.not_mem_nil, or_false] at ht
    rcases ht with rfl | rfl <;> simp [request, matchWant] at this
  cases b2 with
  | nil => rfl
  | cons hh _ => exact absurd hh.1 (hno _)

end Verif.Docs

import Verif.Docs.InventoryProps

/-!
# What the inventory pages show can be asked for (C105); when the pages can be made (C104)

Specification: `Published`, the descriptions found in published inventories (tests/data/local/db/index.json).
-/

namespace Verif.Docs
open Verif.GridSpec
open Verif.Index (Entry Index Raw Method MethodIs Clean Loaded Hit Miss Sound find C39_complete)

variable {K : Type} [DecidableEq K]

/-- `{"grid": g, "shape": shape, "area": [n, w, s, e], "global": 1}` for a named grid. -/
def namedSpec (g : List Char) (shape n w s e : V) : Dict := fun k =>
  if k = "grid" then some (.str g) else if k = "shape" then some shape
  else if k = "area" then some (.list [n, w, s, e]) else if k = "global" then some (.int 1) else none

/-- `{"grid": g, "ordering": o}` -/
def healpixSpec (g o : List Char) : Dict := fun k =>
  if k = "grid" then some (.str g) else if k = "ordering" then some (.str o) else none

/-- `{"grid": g, "shape": shape}` -/
def orcaSpec (g : List Char) (shape : V) : Dict := fun k =>
  if k = "grid" then some (.str g) else if k = "shape" then some shape else none

/-- Descriptions as in the published inventories: global grids, the listed resolutions, grids from longitude 0. -/
inductive Published (P : Py) : Dict → Prop
  | ll (d : ℚ) (x y shape n w s e : V) : d ∈ LISTED → x.num = some d → y.num = some d → n.num = some (north d) → w.num = some 0 →
      s.num = some (-north d) → e.num = some (east d) → Published P (fullSpec x y shape n w s e)
  | rgg (c x : Char) (r : List Char) (m : Int) (shape n w s e : V) (p q u : ℚ) : c ∈ ['O', 'o', 'N', 'n'] → P.C.isDigit x = true →
      P.pyInt (P.upper (x :: r)) = some m → 1 ≤ m → m ≤ 1000000 → n.num = some p → w.num = some 0 → s.num = some q → e.num = some u →
      Published P (namedSpec (c :: x :: r) shape n w s e)
  | healpix (x : Char) (r o : List Char) (m : Int) : P.C.isDigit x = true → P.pyInt (x :: r) = some m → 1 ≤ m → m ≤ 1000000 →
      o ∈ ["ring".toList, "nested".toList] → Published P (healpixSpec ('H' :: x :: r) o)
  | orca (g : List Char) (shape : V) : Supported P .orca (.str g) → Published P (orcaSpec g shape)

def FLAGS : List String := ["i_scans_negatively", "j_points_consecutive", "j_scans_positively"]

/-- Gridspecs whose comparison raises nothing. -/
structure Tame (P : Py) (s : GS) : Prop where
  type : s.d "type" = some (.str s.kind.name)
  flags : ∀ k ∈ FLAGS, s.d k = some (.int 0)
  grid : (s.kind = .ll ∧ ∃ x y p q, s.d "grid" = some (.list [x, y]) ∧ x.num = some p ∧ y.num = some q) ∨
    (s.kind ≠ .ll ∧ ∃ g, s.d "grid" = some (.str g))
  area : s.kind = .ll ∨ s.kind = .rgg → (∃ n w so e, AreaNum s n w so e) ∧ s.gew = some true
  order : s.kind = .healpix → ∃ o, healpixOrder P s = .ok o

theorem compareKeys_total (P : Py) (s t : Dict) : ∀ ks : List String,
    (∀ k ∈ ks, ∃ a b r, s k = some a ∧ t k = some b ∧ compareKey P k a b = .ok r) → ∃ r, compareKeys P s t ks = .ok r
  | [], _ => ⟨true, rfl⟩
  | k :: ks, h => by
    obtain ⟨a, b, r, h1, h2, h3⟩ := h k (by simp)
    obtain ⟨r', hr⟩ := compareKeys_total P s t ks (fun k hk => h k (by simp [hk]))
    have e1 : s.item k = .ok a := (item_ok _ _ _).2 h1
    have e2 : t.item k = .ok b := (item_ok _ _ _).2 h2
    simp only [compareKeys, e1, e2, h3, bind, Except.bind]
    cases r
    · exact ⟨false, rfl⟩
    · exact ⟨r', hr⟩

theorem eqBase_total (P : Py) (order : List String) (ho : Enumerates order) (s t : GS) (hs : Tame P s) (ht : Tame P t) :
    ∃ b, eqBase P order s.d t.d = .ok b ∧ (b = true → s.kind = t.kind) := by
  by_cases hk : s.kind = t.kind
  · have hc : ∃ r, compareKeys P s.d t.d order = .ok r := by
      apply compareKeys_total
      intro k hk'
      have hk' := (ho k).1 hk'
      simp only [COMPARE_KEYS, List.mem_cons, List.not_mem_nil, or_false] at hk'
      rcases hk' with rfl | rfl | rfl | rfl | rfl
      · exact ⟨_, _, true, hs.type, ht.type, by simp [compareKey, hk]⟩
      · rcases hs.grid with ⟨h1, x, y, p, q, hg, hx, hy⟩ | ⟨h1, g, hg⟩
        · rcases ht.grid with ⟨h2, x', y', p', q', hg', hx', hy'⟩ | ⟨h2, g', hg'⟩
          · refine ⟨_, _, close (1 / 1000000) p p' && close (1 / 1000000) q q', hg, hg', ?_⟩
            simp only [compareKey, if_true]
            rw [allclose_pair]
            exact ⟨p, q, p', q', hx, hy, hx', hy', rfl⟩
          · exact absurd (hk ▸ h1) h2
        · rcases ht.grid with ⟨h2, x', y', p', q', hg', hx', hy'⟩ | ⟨h2, g', hg'⟩
          · exact absurd (hk.trans h2) h1
          · exact ⟨_, _, _, hg, hg', rfl⟩
      all_goals exact ⟨_, _, true, hs.flags _ (by simp [FLAGS]), ht.flags _ (by simp [FLAGS]), by simp [compareKey, V.isInt, pyEq_refl]⟩
    obtain ⟨r, hr⟩ := hc
    unfold eqBase
    rw [hr]
    split
    · exact ⟨false, rfl, by simp⟩
    · simp only [bind, Except.bind]
      split
      · exact ⟨_, rfl, fun _ => hk⟩
      · exact ⟨false, rfl, by simp⟩
  · refine ⟨false, ?_, by simp⟩
    unfold eqBase
    rw [hs.type, ht.type]
    have : pyEq (V.str s.kind.name) (V.str t.kind.name) = false := by
      rw [Bool.eq_false_iff]
      intro h
      simp only [pyEq, beq_iff_eq] at h
      exact hk (kind_name_inj _ _ h)
    simp [this]

theorem eq_total (P : Py) (order : List String) (ho : Enumerates order) (s t : GS) (hs : Tame P s) (ht : Tame P t) :
    ∃ b, eq P order s t = .ok b := by
  obtain ⟨b, hb, hk⟩ := eqBase_total P order ho s t hs ht
  have gw : ∀ s : GS, s.gew = some true → isGlobalEw P s = .ok true := fun s h => by unfold isGlobalEw; rw [h]
  cases b with
  | false =>
    refine ⟨false, ?_⟩
    unfold eq
    cases s.kind <;> simp [eqLL, eqRGG, eqHealpix, hb, bind, Except.bind, pure, Except.pure]
  | true =>
    have hk := hk rfl
    unfold eq
    cases hs' : s.kind with
    | ll =>
      obtain ⟨⟨n, w, so, e, ha⟩, g1⟩ := hs.area (Or.inl hs')
      obtain ⟨⟨n', w', so', e', ha'⟩, g2⟩ := ht.area (Or.inl (hk ▸ hs'))
      obtain ⟨s0, s1, s2, _⟩ := coord_of_area s n w so e ha
      obtain ⟨t0, t1, t2, _⟩ := coord_of_area t n' w' so' e' ha'
      obtain ⟨sa, ta, r, a1, a2, hr, _⟩ := sameArea_of_nums DEGREE_EPS s t n w so e n' w' so' e' ha ha'
      simp only [eqLL, hb, (item_ok _ _ _).2 a1, (item_ok _ _ _).2 a2, hr, s0, t0, s2, t2, s1, t1, gw s g1, gw t g2, bind, Except.bind,
        Bool.not_true, Bool.false_eq_true, if_false, pure, Except.pure]
      split
      · exact ⟨_, rfl⟩
      · split
        · exact ⟨_, rfl⟩
        · split
          · exact ⟨_, rfl⟩
          · exact ⟨_, rfl⟩
    | rgg =>
      obtain ⟨⟨n, w, so, e, ha⟩, g1⟩ := hs.area (Or.inr hs')
      obtain ⟨⟨n', w', so', e', ha'⟩, g2⟩ := ht.area (Or.inr (hk ▸ hs'))
      obtain ⟨s0, s1, s2, _⟩ := coord_of_area s n w so e ha
      obtain ⟨t0, t1, t2, _⟩ := coord_of_area t n' w' so' e' ha'
      obtain ⟨sa, ta, r, a1, a2, hr, _⟩ := sameArea_of_nums RGG_EPS s t n w so e n' w' so' e' ha ha'
      simp only [eqRGG, hb, (item_ok _ _ _).2 a1, (item_ok _ _ _).2 a2, hr, s1, t1, gw s g1, gw t g2, bind, Except.bind,
        Bool.not_true, Bool.false_eq_true, if_false, pure, Except.pure]
      split
      · exact ⟨_, rfl⟩
      · exact ⟨_, rfl⟩
    | healpix =>
      obtain ⟨o, h1⟩ := hs.order hs'
      obtain ⟨o', h2⟩ := ht.order (hk ▸ hs')
      simp only [eqHealpix, hb, h1, h2, bind, Except.bind, Bool.not_true, Bool.false_eq_true, if_false, pure, Except.pure]
      exact ⟨_, rfl⟩
    | orca => exact ⟨true, hb⟩

/-- Items that reading a description leaves alone. -/
theorem read_item (P : Py) (d : Dict) (g : GS) (h : fromDict P d = .ok g) (k : String) (hk : Untouched k) (ht : k ≠ "type") (v : V)
    (hv : d k = some v) (hn : tupleToList v = v) : g.d k = some v := by
  rw [fromDict_untouched P d g h k hk ht]
  simp [normalise, withDefaults, hv, hn]

theorem read_flags (P : Py) (d : Dict) (g : GS) (h : fromDict P d = .ok g) (hd : ∀ k ∈ FLAGS, d k = none) :
    ∀ k ∈ FLAGS, g.d k = some (.int 0) := by
  intro k hk
  have hn := hd k hk
  simp only [FLAGS, List.mem_cons, List.not_mem_nil, or_false] at hk
  rcases hk with rfl | rfl | rfl <;>
  · rw [fromDict_untouched P d g h _ (by decide) (by decide)]
    simp [normalise, withDefaults, hn, DEFAULTS, tupleToList]

theorem read_shape (P : Py) (d : Dict) (g : GS) (h : fromDict P d = .ok g) (hd : d "shape" = none) : g.d "shape" = none := by
  rw [fromDict_untouched P d g h _ (by decide) (by decide)]
  simp [normalise, withDefaults, hd, DEFAULTS]

/-- A description given by its name alone matches any description of the same name and kind: base comparison. -/
theorem base_named (P : Py) (order : List String) (ho : Enumerates order) (s t : GS) (g : List Char)
    (h1 : s.d "type" = some (.str s.kind.name)) (h2 : t.d "type" = some (.str t.kind.name)) (hk : s.kind = t.kind)
    (hs : ∀ k ∈ FLAGS, s.d k = some (.int 0)) (ht : ∀ k ∈ FLAGS, t.d k = some (.int 0))
    (hg : s.d "grid" = some (.str g)) (hg' : t.d "grid" = some (.str g)) (hsh : t.d "shape" = none) :
    eqBase P order s.d t.d = .ok true := by
  rw [eqBase_true]
  refine ⟨by rw [h1, h2, hk]; exact pyEq_refl _, ?_, ?_⟩
  · intro k hk'
    have hk' := (ho k).1 hk'
    simp only [COMPARE_KEYS, List.mem_cons, List.not_mem_nil, or_false] at hk'
    rcases hk' with rfl | rfl | rfl | rfl | rfl
    · exact ⟨_, _, h1, h2, by simp [compareKey, hk]⟩
    · exact ⟨_, _, hg, hg', by simp [compareKey]⟩
    all_goals exact ⟨_, _, hs _ (by simp [FLAGS]), ht _ (by simp [FLAGS]), by simp [compareKey, V.isInt, pyEq_refl]⟩
  · unfold shapesDiffer
    rw [hsh]
    cases s.d "shape" <;> rfl

theorem fromDict_kind (P : Py) (d : Dict) (g : GS) (h : fromDict P d = .ok g) (v : V) (k : Kind) (hv : d "grid" = some v)
    (ht : d "type" = none) (hs : Supported P k (asList v)) : g.kind = k := by
  obtain ⟨k', h1, h2⟩ := (fromDict_ok P d g).1 h
  have := (C30_inferred_iff P d v k hv (Or.inl ht)).2 hs
  rw [h1] at this
  cases this
  exact construct_kind _ _ _ h2

theorem item_grid_list (v : V) (h : ∃ a b c d, v = .list [a, b, c, d]) : tupleToList v = v := by
  obtain ⟨a, b, c, d, rfl⟩ := h; rfl

/-- Reduced Gaussian grids: a description with `global` set, or by name alone. -/
theorem fromDict_rgg (P : Py) (d : Dict) (g : List Char) (a : V) (hg : d "grid" = some (.str g)) (ht : d "type" = none)
    (hs : Supported P .rgg (.str g))
    (h : (d "global" = some (.int 1) ∧ d "area" = some a ∧ tupleToList a = a) ∨ (d "global" = none ∧ d "area" = none ∧ a = DEFAULT_AREA)) :
    ∃ s, fromDict P d = .ok s ∧ s.kind = .rgg ∧ s.gew = some true ∧ s.d "area" = some a := by
  have hi : infer P TYPES (normalise (withDefaults d)) = .ok .rgg :=
    (C30_inferred_iff P d (.str g) .rgg hg (Or.inl ht)).2 hs
  set b := (normalise (withDefaults d)).set "type" (.str Kind.rgg.name) with hb
  rcases h with ⟨h1, h2, h3⟩ | ⟨h1, h2, rfl⟩
  · have b1 : b "global" = some (.int 1) := by simp [hb, Dict.set, normalise, withDefaults, h1, tupleToList]
    have b2 : b "area" = some a := by simp [hb, Dict.set, normalise, withDefaults, h2, h3]
    refine ⟨⟨.rgg, b, some true⟩, ?_, rfl, rfl, b2⟩
    rw [fromDict_ok]
    refine ⟨.rgg, hi, ?_⟩
    rw [← hb]
    simp only [construct, bind_ok, pure_ok]
    rw [setDefault_of_some _ _ _ (by rw [b2]; rfl)]
    refine ⟨some true, ?_, rfl⟩
    unfold flagGlobal
    rw [b1]
    simp [V.truthy]
  · have b1 : b "global" = none := by simp [hb, Dict.set, normalise, withDefaults, h1, DEFAULTS]
    have b2 : b "area" = none := by simp [hb, Dict.set, normalise, withDefaults, h2, DEFAULTS]
    have b3 : b.setDefault "area" DEFAULT_AREA = b.set "area" DEFAULT_AREA := by simp [Dict.setDefault, b2]
    refine ⟨⟨.rgg, b.set "area" DEFAULT_AREA, some true⟩, ?_, rfl, rfl, by simp [Dict.set]⟩
    rw [fromDict_ok]
    refine ⟨.rgg, hi, ?_⟩
    rw [← hb]
    simp only [construct, bind_ok, pure_ok]
    rw [b3]
    refine ⟨some true, ?_, rfl⟩
    have e1 : (b.set "area" DEFAULT_AREA) "global" = none := by simpa [Dict.set] using b1
    have e2 : (b.set "area" DEFAULT_AREA).item "area" = .ok DEFAULT_AREA := by simp [Dict.item, Dict.set]
    have e3 : sameArea DEGREE_EPS DEFAULT_AREA DEFAULT_AREA = .ok true := by
      rw [sameArea_true]
      refine ⟨_, _, rfl, rfl, rfl, sameAreaL_refl _ (by norm_num [DEGREE_EPS]) _ ?_⟩
      intro x hx
      simp only [List.mem_cons, List.not_mem_nil, or_false] at hx
      rcases hx with rfl | rfl | rfl | rfl <;> exact ⟨_, rfl⟩
    unfold flagGlobal
    rw [e1]
    simp only [Option.getD_none, V.truthy, bne_self_eq_false, Bool.false_eq_true, if_false, e2, e3, bind, Except.bind, if_true, pure, Except.pure]

theorem fromDict_healpix (P : Py) (d : Dict) (g : List Char) (hg : d "grid" = some (.str g)) (ht : d "type" = none)
    (hs : Supported P .healpix (.str g)) : ∃ s, fromDict P d = .ok s := by
  have hi := (C30_inferred_iff P d (.str g) .healpix hg (Or.inl ht)).2 hs
  simp only [fromDict_ok]
  exact ⟨_, .healpix, hi, rfl⟩

theorem fromDict_orca (P : Py) (d : Dict) (g : List Char) (hg : d "grid" = some (.str g)) (ht : d "type" = none)
    (hs : Supported P .orca (.str g)) : ∃ s, fromDict P d = .ok s := by
  have hi := (C30_inferred_iff P d (.str g) .orca hg (Or.inl ht)).2 hs
  simp only [fromDict_ok]
  exact ⟨_, .orca, hi, rfl⟩

theorem construct_keeps (k : Kind) (hk : k ≠ .healpix) (gs : Dict) (g : GS) (h : construct k gs = .ok g) (x : String)
    (h1 : x ≠ "global") (h2 : x ≠ "area") : g.d x = gs x := by
  cases k with
  | ll =>
    simp only [construct, bind_ok, pure_ok] at h
    obtain ⟨d, hd, f, hf, rfl⟩ := h
    have e : d x = gs x := by
      unfold llArea at hd
      split at hd
      · simp only [bind_ok, pure_ok] at hd
        obtain ⟨_, _, _, _, _, _, _, _, rfl⟩ := hd
        simp [Dict.set, h1, h2]
      · rw [pure_ok] at hd; rw [hd]
    simp only [Dict.setDefault]
    split
    · exact e
    · simp [Dict.set, h2, e]
  | rgg =>
    simp only [construct, bind_ok, pure_ok] at h
    obtain ⟨f, hf, rfl⟩ := h
    simp only [Dict.setDefault]
    split
    · rfl
    · simp [Dict.set, h2]
  | healpix => exact absurd rfl hk
  | orca =>
    simp only [construct, ok_ok] at h
    subst h; rfl

theorem read_keeps (P : Py) (d : Dict) (g : GS) (h : fromDict P d = .ok g) (hk : g.kind ≠ .healpix) (x : String)
    (hx : x = "order" ∨ x = "ordering") (hd : d x = none) : g.d x = none := by
  obtain ⟨k, _, h2⟩ := (fromDict_ok P d g).1 h
  have hkk := construct_kind _ _ _ h2
  rw [hkk] at hk
  rw [construct_keeps k hk _ g h2 x (by rcases hx with rfl | rfl <;> decide) (by rcases hx with rfl | rfl <;> decide)]
  rcases hx with rfl | rfl <;> simp [Dict.set, normalise, withDefaults, hd, DEFAULTS]

/-- Only the name is shown. -/
theorem shown_plain (sd : Dict) (s : GS) (v : V) (h : Shows sd s) (hv : s.d "grid" = some v) (h1 : s.d "order" = none)
    (h2 : s.d "ordering" = none) : sd = fun k => if k = "grid" then some v else none := by
  obtain ⟨⟨g, g1, g2⟩, a2, a3, _⟩ := h
  rw [hv] at g2
  cases g2
  funext k
  by_cases hk : k = "grid"
  · subst hk; simp [g1]
  · by_cases hk2 : k = "ordering"
    · subst hk2
      cases ho : sd "ordering" with
      | none => simp
      | some o =>
        rcases a3 o ho with h | h
        · rw [h2] at h; cases h
        · rw [h1] at h; cases h
    · simp [hk, a2 k hk hk2]

theorem healpix_read (P : Py) (d : Dict) (s : GS) (h : fromDict P d = .ok s) (hk : s.kind = .healpix) (o : List Char)
    (ho : d "ordering" = some (.str o)) : s.d "order" = some (.str o) ∧ s.d "ordering" = none := by
  obtain ⟨k, _, hc⟩ := (fromDict_ok P d s).1 h
  have := construct_kind _ _ _ hc
  rw [hk] at this; subst this
  simp only [construct, ok_ok] at hc
  subst hc
  have e : ((normalise (withDefaults d)).set "type" (.str Kind.healpix.name)) "ordering" = some (.str o) := by
    simp [Dict.set, normalise, withDefaults, ho, tupleToList]
  rw [e]
  simp only [Dict.setDefault]
  split <;> simp [Dict.set, Dict.erase]

theorem rgg_match (P : Py) (order : List String) (s t : GS) (hb : eqBase P order s.d t.d = .ok true) (hk : s.kind = .rgg)
    (n w so e n' w' so' e' : ℚ) (ha : AreaNum s n w so e) (ha' : AreaNum t n' w' so' e') (g1 : s.gew = some true)
    (g2 : t.gew = some true) (hw : w = w') : eq P order s t = .ok true := by
  unfold eq
  rw [hk]
  simp only
  rw [eqRGG_true]
  obtain ⟨_, s1, _, _⟩ := coord_of_area s n w so e ha
  obtain ⟨_, t1, _, _⟩ := coord_of_area t n' w' so' e' ha'
  obtain ⟨sa, ta, r, a1, a2, hr, _⟩ := sameArea_of_nums RGG_EPS s t n w so e n' w' so' e' ha ha'
  refine ⟨hb, sa, ta, a1, a2, ?_⟩
  cases r
  · right
    refine ⟨hr, by unfold isGlobalEw; rw [g1], by unfold isGlobalEw; rw [g2], w, w', s1, t1, ?_⟩
    rw [hw]
    simp [RGG_EPS]
  · left; exact hr

/-- What is shown of a published description is read again, and matches. -/
theorem shown_matches (P : Py) (order : List String) (ho : Enumerates order) (d : Dict) (hp : Published P d) (s : GS)
    (hs : fromDict P d = .ok s) (sd : Dict) (hsd : Shows sd s) :
    Tame P s ∧ ∃ t, fromDict P sd = .ok t ∧ Tame P t ∧ eq P order s t = .ok true := by
  have htype := fromDict_type P d s hs
  cases hp with
  | ll q x y shape n w so e hq hx hy hn hw hso he =>
    obtain ⟨g, f, h1, h2, _, h4⟩ := C36_short_matches_full P order ho q hq x y x y shape n w so e hx hy hx hy hn hw hso he
    obtain ⟨f', e1, fk, fw, fg, _, fa, ff⟩ := fromDict_full P x y shape n w so e
    obtain ⟨g', e2, gk, gw, gg, _, _, ga, gf⟩ := fromDict_short P x y q hq hx hy
    rw [hs] at h2 e1; cases h2; cases e1
    rw [h1] at e2; cases e2
    have hsp : sd = shortSpec x y :=
      shown_plain sd s _ hsd fg (read_keeps P _ s hs (by rw [fk]; decide) _ (Or.inl rfl) (by simp [fullSpec]))
        (read_keeps P _ s hs (by rw [fk]; decide) _ (Or.inr rfl) (by simp [fullSpec]))
    refine ⟨⟨htype, ff, Or.inl ⟨fk, x, y, q, q, fg, hx, hy⟩, fun _ => ⟨⟨_, _, _, _, _, _, _, _, fa, hn, hw, hso, he⟩, fw⟩, ?_⟩, g,
      by rw [hsp]; exact h1, ⟨fromDict_type P _ g h1, gf, Or.inl ⟨gk, x, y, q, q, gg, hx, hy⟩,
        fun _ => ⟨⟨_, _, _, _, _, _, _, _, ga, rfl, rfl, rfl, rfl⟩, gw⟩, ?_⟩, h4⟩
    · intro h; rw [fk] at h; cases h
    · intro h; rw [gk] at h; cases h
  | rgg c x r m shape n w so e p q u hc hx hm hm1 hm2 hn hw hso he =>
    have hsup : Supported P .rgg (.str (c :: x :: r)) := .rgg c x r hc hx
    obtain ⟨s', e1, sk, sw, sa⟩ := fromDict_rgg P (namedSpec (c :: x :: r) shape n w so e) _ (.list [n, w, so, e])
      (by simp [namedSpec]) (by simp [namedSpec]) hsup (Or.inl ⟨by simp [namedSpec], by simp [namedSpec], rfl⟩)
    rw [hs] at e1; cases e1
    have sg : s.d "grid" = some (.str (c :: x :: r)) := read_item P _ s hs _ (by decide) (by decide) _ (by simp [namedSpec]) rfl
    have hsp := shown_plain sd s _ hsd sg (read_keeps P _ s hs (by rw [sk]; decide) _ (Or.inl rfl) (by simp [namedSpec]))
        (read_keeps P _ s hs (by rw [sk]; decide) _ (Or.inr rfl) (by simp [namedSpec]))
    obtain ⟨t, ht, tk, tw, ta⟩ := fromDict_rgg P sd (c :: x :: r) DEFAULT_AREA (by simp [hsp]) (by simp [hsp]) hsup
      (Or.inr ⟨by simp [hsp], by simp [hsp], rfl⟩)
    have tg : t.d "grid" = some (.str (c :: x :: r)) := read_item P _ t ht _ (by decide) (by decide) _ (by simp [hsp]) rfl
    have sf := read_flags P _ s hs (by intro k hk; simp only [FLAGS, List.mem_cons, List.not_mem_nil, or_false] at hk; rcases hk with rfl | rfl | rfl <;> simp [namedSpec])
    have tf := read_flags P _ t ht (by intro k hk; simp only [FLAGS, List.mem_cons, List.not_mem_nil, or_false] at hk; rcases hk with rfl | rfl | rfl <;> simp [hsp])
    have as : AreaNum s p 0 q u := ⟨_, _, _, _, sa, hn, hw, hso, he⟩
    have at_ : AreaNum t 90 0 (-90) 360 := ⟨_, _, _, _, ta, by simp [V.num], by simp [V.num], by simp [V.num], by simp [V.num]⟩
    have ttype := fromDict_type P _ t ht
    refine ⟨⟨htype, sf, Or.inr ⟨by rw [sk]; decide, _, sg⟩, fun _ => ⟨⟨_, _, _, _, as⟩, sw⟩, by rw [sk]; intro h; cases h⟩, t, ht,
      ⟨ttype, tf, Or.inr ⟨by rw [tk]; decide, _, tg⟩, fun _ => ⟨⟨_, _, _, _, at_⟩, tw⟩, by rw [tk]; intro h; cases h⟩, ?_⟩
    exact rgg_match P order s t (base_named P order ho s t _ htype ttype (by rw [sk, tk]) sf tf sg tg
      (read_shape P _ t ht (by simp [hsp]))) sk _ _ _ _ _ _ _ _ as at_ sw tw rfl
  | healpix x r o m hx hm hm1 hm2 hO =>
    have hsup : Supported P .healpix (.str ('H' :: x :: r)) := .healpix 'H' x r (by simp) hx
    have sk : s.kind = .healpix := fromDict_kind P _ s hs (.str ('H' :: x :: r)) .healpix (by simp [healpixSpec]) (by simp [healpixSpec]) hsup
    obtain ⟨s1, s2⟩ := healpix_read P _ s hs sk o (by simp [healpixSpec])
    have sg : s.d "grid" = some (.str ('H' :: x :: r)) := read_item P _ s hs _ (by decide) (by decide) _ (by simp [healpixSpec]) rfl
    have hsp : sd = healpixSpec ('H' :: x :: r) o := by
      obtain ⟨⟨g, g1, g2⟩, a2, a3, a4⟩ := hsd
      rw [sg] at g2
      cases g2
      funext k
      by_cases hk : k = "grid"
      · subst hk; simp [g1, healpixSpec]
      · by_cases hk2 : k = "ordering"
        · subst hk2
          cases ho' : sd "ordering" with
          | none => exact absurd ho' (a4 _ sg)
          | some o' =>
            rcases a3 o' ho' with h | h
            · rw [s2] at h; cases h
            · rw [s1] at h; cases h; simp [healpixSpec]
        · simp [healpixSpec, hk, hk2, a2 k hk hk2]
    have hord : healpixOrder P s = .ok o := by
      have := healpixOrder_of_wf P s 'H' x r m (.str o) sg (by simp) hx hm hm1 hm2 (by rw [s1]; rfl)
      rw [this]
      simp only [List.mem_cons, List.not_mem_nil, or_false] at hO
      simp only
      rw [if_pos hO]
    have sf := read_flags P _ s hs (by intro k hk; simp only [FLAGS, List.mem_cons, List.not_mem_nil, or_false] at hk; rcases hk with rfl | rfl | rfl <;> simp [healpixSpec])
    have tame : Tame P s := ⟨htype, sf, Or.inr ⟨by rw [sk]; decide, _, sg⟩, (by rw [sk]; rintro (h | h) <;> cases h), fun _ => ⟨o, hord⟩⟩
    refine ⟨tame, s, by rw [hsp]; exact hs, tame, ?_⟩
    unfold eq
    rw [sk]
    simp only
    rw [eqHealpix_true]
    exact ⟨base_named P order ho s s _ htype htype rfl sf sf sg sg (read_shape P _ s hs (by simp [healpixSpec])), o, hord, hord⟩
  | orca g shape hsup =>
    have sk : s.kind = .orca := fromDict_kind P _ s hs (.str g) .orca (by simp [orcaSpec]) (by simp [orcaSpec]) hsup
    have sg : s.d "grid" = some (.str g) := read_item P _ s hs _ (by decide) (by decide) _ (by simp [orcaSpec]) rfl
    have hsp := shown_plain sd s _ hsd sg (read_keeps P _ s hs (by rw [sk]; decide) _ (Or.inl rfl) (by simp [orcaSpec]))
        (read_keeps P _ s hs (by rw [sk]; decide) _ (Or.inr rfl) (by simp [orcaSpec]))
    obtain ⟨t, ht⟩ := fromDict_orca P sd g (by simp [hsp]) (by simp [hsp]) hsup
    have tk : t.kind = .orca := fromDict_kind P _ t ht (.str g) .orca (by simp [hsp]) (by simp [hsp]) hsup
    have tg : t.d "grid" = some (.str g) := read_item P _ t ht _ (by decide) (by decide) _ (by simp [hsp]) rfl
    have sf := read_flags P _ s hs (by intro k hk; simp only [FLAGS, List.mem_cons, List.not_mem_nil, or_false] at hk; rcases hk with rfl | rfl | rfl <;> simp [orcaSpec])
    have tf := read_flags P _ t ht (by intro k hk; simp only [FLAGS, List.mem_cons, List.not_mem_nil, or_false] at hk; rcases hk with rfl | rfl | rfl <;> simp [hsp])
    have ttype := fromDict_type P _ t ht
    refine ⟨⟨htype, sf, Or.inr ⟨by rw [sk]; decide, _, sg⟩, (by rw [sk]; rintro (h | h) <;> cases h), by rw [sk]; intro h; cases h⟩, t, ht,
      ⟨ttype, tf, Or.inr ⟨by rw [tk]; decide, _, tg⟩, (by rw [tk]; rintro (h | h) <;> cases h), by rw [tk]; intro h; cases h⟩, ?_⟩
    unfold eq
    rw [sk]
    exact base_named P order ho s t _ htype ttype (by rw [sk, tk]) sf tf sg tg (read_shape P _ t ht (by simp [hsp]))

/-- Every block shows entries of the index: one source, its targets. -/
theorem block_entries (P : Py) (key : Entry → K) (ix : Index) (hc : Clean P ix) (hk : Faithful key ix) (t : List Char)
    (bs : List Block) (h : page P key ix t = .ok bs) (b : Block) (hb : b ∈ bs) (d : Dict) (hd : d ∈ b.targets) :
    ∃ y ∈ ix, TextLinear y.2 ∧ Shows b.source y.2.input ∧ Shows d y.2.output := by
  have hp := parsed_of_clean P ix hc
  unfold page at h
  obtain ⟨specs, h1, h2⟩ := (bind_ok _ _ _).1 h
  obtain ⟨s1, s2, s3⟩ := loadSpecs_ok P key ix hp specs h1
  obtain ⟨sel, b1, b2, b3⟩ := buildPage_blocks P _ _ specs bs h2
  obtain ⟨x, hx, _, hm⟩ := forall₂_left b2 b hb
  obtain ⟨⟨z, hz, z1, z2, z3⟩, ys, g1, g2, g3⟩ := s3 x (b1.subset hx)
  obtain ⟨m1, m2, m3, _⟩ := makeBlock_ok x.2 b hm
  rw [← g2, List.forall₂_map_right_iff] at m3
  obtain ⟨y, hy, hsy⟩ := forall₂_left m3 d hd
  have := g1.subset hy
  simp only [under, List.mem_filter, Bool.and_eq_true, decide_eq_true_eq] at this
  obtain ⟨y1, y2, y3⟩ := this
  refine ⟨y, y1, (lin_iff _).1 y2, ?_, hsy⟩
  have : y.2.input = x.2.source := by
    rw [z3]; exact same_input P key ix hp hk y z y1 hz (by rw [y3, z2])
  rw [this]; exact m2

/-- All entries are described as in the published inventories, and have a method. -/
def AllPublished (P : Py) (ix : Index) : Prop :=
  ∀ x ∈ ix, (∃ d, x.2.raw.input = some d ∧ Published P d) ∧ (∃ d, x.2.raw.output = some d ∧ Published P d) ∧ ∃ m, MethodIs x.2.raw m

theorem toStr_total (P : Py) (d : Dict) (hp : Published P d) (s : GS) (hs : fromDict P d = .ok s) : ∃ sd, toStr s = .ok sd := by
  have other : ∀ v, d "grid" = some v → tupleToList v = v → (∀ r, v ≠ .str ('H' :: r)) → ∃ sd, toStr s = .ok sd := by
    intro v hv ht hne
    have sg := read_item P d s hs "grid" (by decide) (by decide) v hv ht
    unfold toStr
    rw [(item_ok _ _ _).2 sg]
    simp only [bind, Except.bind]
    exact ⟨_, rfl⟩
  cases hp with
  | ll q x y shape n w so e => exact other (.list [x, y]) (by simp [fullSpec]) rfl (by simp)
  | rgg c x r m shape n w so e p q u hc =>
    refine other (.str (c :: x :: r)) (by simp [namedSpec]) rfl ?_
    intro r' h
    simp only [V.str.injEq, List.cons.injEq] at h
    rw [h.1] at hc
    revert hc; decide
  | healpix x r o m hx =>
    have sk : s.kind = .healpix := fromDict_kind P _ s hs (.str ('H' :: x :: r)) .healpix (by simp [healpixSpec]) (by simp [healpixSpec])
      (.healpix 'H' x r (by simp) hx)
    obtain ⟨s1, s2⟩ := healpix_read P _ s hs sk o (by simp [healpixSpec])
    have sg : s.d "grid" = some (.str ('H' :: x :: r)) := read_item P _ s hs _ (by decide) (by decide) _ (by simp [healpixSpec]) rfl
    unfold toStr
    rw [(item_ok _ _ _).2 sg]
    simp only [bind, Except.bind, s1, s2]
    exact ⟨_, rfl⟩
  | orca g shape hsup =>
    refine other (.str g) (by simp [orcaSpec]) rfl ?_
    intro r h
    cases h
    generalize hv : V.str ('H' :: r) = v at hsup
    cases hsup with
    | orca pre ds tail c hpre =>
      simp only [V.str.injEq, List.mem_cons, List.not_mem_nil, or_false] at hv hpre
      rcases hpre with rfl | rfl
      · simp at hv
      · simp at hv

theorem sortKey_total (P : Py) (d : Dict) (hp : Published P d) (s : GS) (hs : fromDict P d = .ok s) : ∃ k, sortKey s = .ok k := by
  cases hp with
  | ll q x y shape n w so e hq hx hy =>
    have sg : s.d "grid" = some (.list [x, y]) := read_item P _ s hs _ (by decide) (by decide) _ (by simp [fullSpec]) rfl
    unfold sortKey
    rw [(item_ok _ _ _).2 sg]
    simp [bind, Except.bind, numM, hx, hy, V.item, V.seq, pure, Except.pure]
  | rgg c x r m shape n w so e =>
    have sg : s.d "grid" = some (.str (c :: x :: r)) := read_item P _ s hs _ (by decide) (by decide) _ (by simp [namedSpec]) rfl
    unfold sortKey
    rw [(item_ok _ _ _).2 sg]
    exact ⟨_, rfl⟩
  | healpix x r o m hx =>
    have sg : s.d "grid" = some (.str ('H' :: x :: r)) := read_item P _ s hs _ (by decide) (by decide) _ (by simp [healpixSpec]) rfl
    unfold sortKey
    rw [(item_ok _ _ _).2 sg]
    exact ⟨_, rfl⟩
  | orca g shape hsup =>
    have sg : s.d "grid" = some (.str g) := read_item P _ s hs _ (by decide) (by decide) _ (by simp [orcaSpec]) rfl
    unfold sortKey
    rw [(item_ok _ _ _).2 sg]
    exact ⟨_, rfl⟩

theorem matchWant_total (P : Py) (d : Dict) (hp : Published P d) (s : GS) (hs : fromDict P d = .ok s) (w : Option Want) :
    ∃ b, matchWant P s w = .ok b := by
  have other : s.kind ≠ .rgg → ∃ b, matchWant P s w = .ok b := by
    intro hk
    unfold matchWant
    cases w with
    | none => exact ⟨_, rfl⟩
    | some w =>
      cases w with
      | octahedral b => cases h : s.kind <;> simp_all
      | ordering o => exact ⟨_, rfl⟩
  cases hp with
  | ll q x y shape n w so e =>
    exact other (by rw [fromDict_kind P _ s hs (.list [x, y]) .ll (by simp [fullSpec]) (by simp [fullSpec]) (.ll x y)]; decide)
  | rgg c x r m shape n w' so e p q u hc hx hm hm1 hm2 =>
    have sk := fromDict_kind P _ s hs (.str (c :: x :: r)) .rgg (by simp [namedSpec]) (by simp [namedSpec]) (.rgg c x r hc hx)
    have sg : s.d "grid" = some (.str (c :: x :: r)) := read_item P _ s hs _ (by decide) (by decide) _ (by simp [namedSpec]) rfl
    have hmatch : rggMatch P (c :: x :: r) = true := by
      simp only [List.mem_cons, List.not_mem_nil, or_false] at hc
      simp only [rggMatch, hx, Bool.and_true, Bool.or_eq_true, beq_iff_eq]; tauto
    have hi : ∃ o, rggInspect P s = .ok (o, m) := by
      unfold rggInspect
      rw [(item_ok _ _ _).2 sg]
      simp only [bind, Except.bind, hmatch, Bool.not_true, Bool.false_eq_true, if_false, P.upper_head c (x :: r) hc, hm]
      have : (decide (m < 1) || decide (m > 1000000)) = false := by
        simp only [Bool.or_eq_false_iff, decide_eq_false_iff_not]; omega
      rw [this]
      exact ⟨_, rfl⟩
    obtain ⟨o, hi⟩ := hi
    unfold matchWant
    cases w with
    | none => exact ⟨_, rfl⟩
    | some w =>
      cases w with
      | octahedral b => simp [sk, hi, bind, Except.bind, pure, Except.pure]
      | ordering o => exact ⟨_, rfl⟩
  | healpix x r o m hx =>
    exact other (by rw [fromDict_kind P _ s hs (.str ('H' :: x :: r)) .healpix (by simp [healpixSpec]) (by simp [healpixSpec])
      (.healpix 'H' x r (by simp) hx)]; decide)
  | orca g shape hsup =>
    exact other (by rw [fromDict_kind P _ s hs (.str g) .orca (by simp [orcaSpec]) (by simp [orcaSpec]) hsup]; decide)

theorem mapM_total {α β : Type} (f : α → M β) : ∀ l : List α, (∀ a ∈ l, ∃ b, f a = .ok b) → ∃ l', l.mapM f = .ok l'
  | [], _ => ⟨[], rfl⟩
  | a :: l, h => by
    obtain ⟨b, hb⟩ := h a (by simp)
    obtain ⟨l', hl⟩ := mapM_total f l (fun a ha => h a (by simp [ha]))
    exact ⟨b :: l', by simp [List.mapM_cons, hb, hl, bind, Except.bind, pure, Except.pure]⟩

theorem collect_total (P : Py) (key : Entry → K) : ∀ (ix : Index) (acc : List (K × Filed)), Parsed P ix →
    (∀ x ∈ ix, ∃ m, MethodIs x.2.raw m) → ∃ res, collect P key ix acc = .ok res
  | [], acc, _, _ => ⟨acc, rfl⟩
  | (n, e) :: ix, acc, hp, hm => by
    obtain ⟨p1, p2⟩ := hp (n, e) (by simp)
    obtain ⟨m, h⟩ := hm (n, e) (by simp)
    have hb : ∃ b, isLinear e.raw = .ok b := by
      unfold isLinear
      cases h with
      | text h => rw [h]; exact ⟨_, rfl⟩
      | dict o h => rw [h]; exact ⟨_, rfl⟩
    obtain ⟨b, hb⟩ := hb
    have ih := fun acc => collect_total P key ix acc (fun x hx => hp x (by simp [hx])) (fun x hx => hm x (by simp [hx]))
    simp only at p1 p2
    simp only [collect, p1, p2, hb, bind, Except.bind]
    split
    · exact ih _
    · exact ih _

omit [DecidableEq K] in
theorem sortAll_total : ∀ c : List (K × Filed), (∀ x ∈ c, ∀ t ∈ x.2.target, ∃ k, sortKey t = .ok k) → ∃ s, sortAll c = .ok s
  | [], _ => ⟨[], rfl⟩
  | (k, f) :: r, h => by
    obtain ⟨s, hs⟩ := sortAll_total r (fun x hx => h x (by simp [hx]))
    have ht : ∃ ts, sortTargets f.target = .ok ts := by
      unfold sortTargets
      obtain ⟨ks, hks⟩ := mapM_total (fun t => do
        let k ← sortKey t
        return (k, t)) f.target (by
          intro t ht
          obtain ⟨k, hk⟩ := h (k, f) (by simp) t ht
          exact ⟨(k, t), by simp [hk, bind, Except.bind, pure, Except.pure]⟩)
      exact ⟨_, by rw [hks]; rfl⟩
    obtain ⟨ts, ht⟩ := ht
    exact ⟨_, by simp only [sortAll, ht, hs, bind, Except.bind]; rfl⟩

omit [DecidableEq K] in
theorem buildPage_total (P : Py) (type : List Char) (w : Option Want) : ∀ specs : List (K × Filed),
    (∀ x ∈ specs, (∃ v, x.2.source.d "type" = some v) ∧ (∃ b, matchWant P x.2.source w = .ok b) ∧ (∃ v, x.2.source.d "grid" = some v) ∧
      (∃ sd, toStr x.2.source = .ok sd) ∧ ∀ t ∈ x.2.target, ∃ sd, toStr t = .ok sd) → ∃ bs, buildPage P type w specs = .ok bs
  | [], _ => ⟨[], rfl⟩
  | (k, f) :: r, h => by
    obtain ⟨bs, hbs⟩ := buildPage_total P type w r (fun x hx => h x (by simp [hx]))
    obtain ⟨⟨v, hv⟩, ⟨b, hb⟩, ⟨g, hg⟩, ⟨sd, hsd⟩, ht⟩ := h (k, f) (by simp)
    obtain ⟨ts, hts⟩ := mapM_total toStr f.target ht
    simp only at hv hb hg hsd
    simp only [buildPage, (item_ok _ _ _).2 hv, bind, Except.bind, hbs, hb]
    have hm : ∃ blk, makeBlock f = .ok blk := by
      unfold makeBlock
      exact ⟨_, by rw [(item_ok _ _ _).2 hg, hsd, hts]; rfl⟩
    obtain ⟨blk, hm⟩ := hm
    split
    · exact ⟨_, rfl⟩
    · split
      · rw [hm]; exact ⟨_, rfl⟩
      · exact ⟨_, rfl⟩

theorem published_grid (P : Py) (d : Dict) (hp : Published P d) (s : GS) (hs : fromDict P d = .ok s) : ∃ v, s.d "grid" = some v := by
  obtain ⟨k, hk⟩ := sortKey_total P d hp s hs
  unfold sortKey at hk
  obtain ⟨v, hv, _⟩ := (bind_ok _ _ _).1 hk
  exact ⟨v, item_some _ _ _ hv⟩

/-- **C104**: for an inventory with published descriptions every page can be made. -/
theorem C104_made_partial (P : Py) (key : Entry → K) (ix : Index) (hc : Clean P ix) (ha : AllPublished P ix) (t : List Char) :
    ∃ bs, page P key ix t = .ok bs := by
  have hp := parsed_of_clean P ix hc
  obtain ⟨c, hcol⟩ := collect_total P key ix [] hp (fun x hx => (ha x hx).2.2)
  have hi : Inv key ([] ++ ix) c := collect_inv P key ix [] [] c hp ⟨by simp, by simp, by simp⟩ hcol
  rw [List.nil_append] at hi
  have hin : ∀ y ∈ ix, ∃ d, Published P d ∧ fromDict P d = .ok y.2.input := by
    intro y hy
    obtain ⟨d, h1, h2⟩ := (ha y hy).1
    obtain ⟨_, _, ⟨d', e1, e2⟩, _⟩ := hc.forms y hy
    rw [h1] at e1; cases e1
    exact ⟨d, h2, e2⟩
  have hout : ∀ y ∈ ix, ∃ d, Published P d ∧ fromDict P d = .ok y.2.output := by
    intro y hy
    obtain ⟨d, h1, h2⟩ := (ha y hy).2.1
    obtain ⟨_, _, _, ⟨d', e1, e2⟩⟩ := hc.forms y hy
    rw [h1] at e1; cases e1
    exact ⟨d, h2, e2⟩
  have htarget : ∀ x ∈ c, ∀ g ∈ x.2.target, ∃ d, Published P d ∧ fromDict P d = .ok g := by
    intro x hx g hg
    rw [(hi.filed x hx).1] at hg
    obtain ⟨y, hy, rfl⟩ := List.mem_map.1 hg
    exact hout y (List.mem_filter.1 hy).1
  obtain ⟨specs, hs⟩ := sortAll_total c (fun x hx g hg => by
    obtain ⟨d, h1, h2⟩ := htarget x hx g hg
    exact sortKey_total P d h1 g h2)
  have hf := sortAll_forall₂ _ _ hs
  have hb := buildPage_total P (request t).1 (request t).2 specs (by
    intro x hx
    obtain ⟨x0, hx0, e1, e2, e3, _⟩ := forall₂_right hf x hx
    obtain ⟨_, y, hy, _, _, hsrc⟩ := hi.filed x0 hx0
    rw [e2, hsrc]
    obtain ⟨d, h1, h2⟩ := hin y hy
    refine ⟨⟨_, fromDict_type P d _ h2⟩, matchWant_total P d h1 _ h2 _, published_grid P d h1 _ h2, toStr_total P d h1 _ h2, ?_⟩
    intro g hg
    obtain ⟨d', h1', h2'⟩ := htarget x0 hx0 g (e3.subset hg)
    exact toStr_total P d' h1' g h2')
  obtain ⟨bs, hb⟩ := hb
  refine ⟨bs, ?_⟩
  unfold page loadSpecs
  simp only [hcol, hs, bind, Except.bind]
  exact hb

/-- **C105**: whatever a page shows of a published inventory, the source and a target with the method `linear`, is a request
that the inventory answers. -/
theorem C105_usable_partial (P : Py) (order : List String) (ho : Enumerates order) (key : Entry → K) (ix : Index) (hc : Clean P ix)
    (hk : Faithful key ix) (ha : AllPublished P ix) (t : List Char) (bs : List Block) (h : page P key ix t = .ok bs)
    (b : Block) (hb : b ∈ bs) (d : Dict) (hd : d ∈ b.targets) :
    ∃ gi go e, fromDict P b.source = .ok gi ∧ fromDict P d = .ok go ∧ find P order ix b.source d "linear".toList = .ok (some e) ∧
      Hit P order gi go "linear".toList e := by
  have hin : ∀ y ∈ ix, ∃ d, Published P d ∧ fromDict P d = .ok y.2.input := by
    intro y hy
    obtain ⟨d, h1, h2⟩ := (ha y hy).1
    obtain ⟨_, _, ⟨d', e1, e2⟩, _⟩ := hc.forms y hy
    rw [h1] at e1; cases e1
    exact ⟨d, h2, e2⟩
  have hout : ∀ y ∈ ix, ∃ d, Published P d ∧ fromDict P d = .ok y.2.output := by
    intro y hy
    obtain ⟨d, h1, h2⟩ := (ha y hy).2.1
    obtain ⟨_, _, _, ⟨d', e1, e2⟩⟩ := hc.forms y hy
    rw [h1] at e1; cases e1
    exact ⟨d, h2, e2⟩
  have tame : ∀ d s, Published P d → fromDict P d = .ok s → Tame P s := by
    intro d s h1 h2
    obtain ⟨sd, hsd⟩ := toStr_total P d h1 s h2
    exact (shown_matches P order ho d h1 s h2 sd (toStr_shows _ _ hsd)).1
  obtain ⟨y, hy, hl, hs1, hs2⟩ := block_entries P key ix hc hk t bs h b hb d hd
  obtain ⟨di, i1, i2⟩ := hin y hy
  obtain ⟨dO, o1, o2⟩ := hout y hy
  obtain ⟨_, gi, gi1, gi2, gi3⟩ := shown_matches P order ho di i1 _ i2 _ hs1
  obtain ⟨_, go, go1, go2, go3⟩ := shown_matches P order ho dO o1 _ o2 _ hs2
  have hsound : ∀ x ∈ ix, Sound P order gi go "linear".toList x.2 := by
    intro x hx
    obtain ⟨m, hm⟩ := (ha x hx).2.2
    obtain ⟨di', i1', i2'⟩ := hin x hx
    obtain ⟨dO', o1', o2'⟩ := hout x hx
    obtain ⟨b1, hb1⟩ := eq_total P order ho x.2.input gi (tame _ _ i1' i2') gi2
    obtain ⟨b2, hb2⟩ := eq_total P order ho x.2.output go (tame _ _ o1' o2') go2
    by_cases hme : m = "linear".toList
    · subst hme
      cases b1
      · exact Or.inr ⟨_, hm, Or.inr (Or.inl hb1)⟩
      · cases b2
        · exact Or.inr ⟨_, hm, Or.inr (Or.inr ⟨hb1, hb2⟩)⟩
        · exact Or.inl ⟨hm, hb1, hb2⟩
    · exact Or.inr ⟨m, hm, Or.inl hme⟩
  obtain ⟨e, e1, e2⟩ := (C39_complete P order ix b.source d "linear".toList gi go gi1 go1 hsound).2
    ⟨y, hy, .text _ _ hl, gi3, go3⟩
  exact ⟨gi, go, e, gi1, go1, e1, e2⟩

/-! ### witnesses -/

/-- An entry with the given descriptions. -/
def mk (name : String) (di dO : Dict) (gi go : GS) (m : Method) : String × Entry :=
  (name, ⟨name, gi, go, ⟨some di, some dO, some m, "mir".toList, "1".toList, 0⟩⟩)

theorem single_clean (P : Py) (name : String) (di dO : Dict) (gi go : GS) (m : Method) (h1 : fromDict P di = .ok gi)
    (h2 : fromDict P dO = .ok go) : Clean P [mk name di dO gi go m] := by
  refine ⟨by simp [mk], ?_⟩
  intro x hx
  rw [List.mem_singleton] at hx
  subst hx
  exact ⟨rfl, rfl, ⟨di, rfl, h1⟩, dO, rfl, h2⟩

omit [DecidableEq K] in
theorem single_faithful (key : Entry → K) (x : String × Entry) : Faithful key [x] := by
  intro y hy z hz _
  rw [List.mem_singleton] at hy hz
  rw [hy, hz]

/-- What the page of a single `linear` entry is. -/
theorem page_single (P : Py) (key : Entry → K) (name : String) (di dO : Dict) (gi go : GS) (h1 : fromDict P di = .ok gi)
    (h2 : fromDict P dO = .ok go) (k : ℚ × (ℚ ⊕ List Char)) (hk : sortKey go = .ok k) (t : List Char)
    (ht : gi.kind.name = (request t).1) (hm : matchWant P gi (request t).2 = .ok true) :
    page P key [mk name di dO gi go (.name "linear".toList)] t = do
      let b ← makeBlock ⟨gi, [go]⟩
      return [b] := by
  have e1 := C31_idempotent P di gi h1
  have e2 := C31_idempotent P dO go h2
  have hty := fromDict_type P di gi h1
  have hs : sortTargets [go] = .ok [go] := by
    simp [sortTargets, List.mapM_cons, hk, bind, Except.bind, pure, Except.pure]
  have hl : isLinear (mk name di dO gi go (.name "linear".toList)).2.raw = .ok true := by simp [isLinear, mk]
  have hcol : collect P key [mk name di dO gi go (.name "linear".toList)] [] =
      .ok [(key (mk name di dO gi go (.name "linear".toList)).2, ⟨gi, [go]⟩)] := by
    show (do
      let a ← fromDict P gi.d
      let b ← fromDict P go.d
      let c ← isLinear (mk name di dO gi go (.name "linear".toList)).2.raw
      if c then collect P key [] (file [] (key (mk name di dO gi go (.name "linear".toList)).2) a b) else collect P key [] []) = _
    rw [e1, e2, hl]
    rfl
  unfold page loadSpecs
  rw [hcol]
  simp only [bind, Except.bind, sortAll, hs, pure, Except.pure]
  rw [ht] at hty
  simp only [buildPage, (item_ok _ _ _).2 hty, bind, Except.bind, hm, pyEq, BEq.rfl, Bool.not_true, Bool.false_eq_true, if_false, if_true]
  cases makeBlock ⟨gi, [go]⟩ <;> rfl

/-- A degree grid and an ORCA grid. -/
def degree : Dict := fullSpec (.int 1) (.int 1) (.list [.int 181, .int 360]) (.int 90) (.int 0) (.int (-90)) (.int 359)

theorem degree_published (P : Py) : Published P degree := by
  refine .ll 1 _ _ _ _ _ _ _ (by decide +kernel) (by simp [V.num]) (by simp [V.num]) ?_ (by simp [V.num]) ?_ ?_
  · have : north 1 = 90 := by decide +kernel
    rw [this]; simp [V.num]
  · have : north 1 = 90 := by decide +kernel
    rw [this]; simp [V.num]
  · have : east 1 = 359 := by decide +kernel
    rw [this]; simp [V.num]

/-- A HEALPix entry in ring ordering, published and linear, belongs on the ring page: the page is empty. -/
theorem C104_ring_refuted (key : Entry → K) : ∃ (ix : Index) (x : String × Entry), Clean asciiPy ix ∧ AllPublished asciiPy ix ∧
    x ∈ ix ∧ TextLinear x.2 ∧ OnPage "healpix_ring".toList x.2.input ∧ page asciiPy key ix "healpix_ring".toList = .ok [] := by
  have hp : Published asciiPy (healpixSpec "H8".toList "ring".toList) := .healpix '8' [] _ 8 (by decide) (by decide) (by decide) (by decide) (by simp)
  obtain ⟨gi, h1⟩ := fromDict_healpix asciiPy (healpixSpec "H8".toList "ring".toList) "H8".toList (by simp [healpixSpec]) (by simp [healpixSpec])
    (.healpix 'H' '8' [] (by simp) (by decide))
  obtain ⟨go, h2, _⟩ := fromDict_full asciiPy (.int 1) (.int 1) (.list [.int 181, .int 360]) (.int 90) (.int 0) (.int (-90)) (.int 359)
  have hc := single_clean asciiPy "a" _ _ gi go (.name "linear".toList) h1 h2
  have ha : AllPublished asciiPy [mk "a" (healpixSpec "H8".toList "ring".toList) degree gi go (.name "linear".toList)] := by
    intro x hx
    rw [List.mem_singleton] at hx
    subst hx
    exact ⟨⟨_, rfl, hp⟩, ⟨_, rfl, degree_published _⟩, _, .text _ _ rfl⟩
  have sk := fromDict_kind asciiPy _ gi h1 (.str "H8".toList) .healpix (by simp [healpixSpec]) (by simp [healpixSpec])
    (.healpix 'H' '8' [] (by simp) (by decide))
  obtain ⟨s1, s2⟩ := healpix_read asciiPy _ gi h1 sk "ring".toList (by simp [healpixSpec])
  obtain ⟨bs, hbs⟩ := C104_made_partial asciiPy key _ hc ha "healpix_ring".toList
  have hnil := C104_healpix_refuted asciiPy key _ _ (by simp) bs hbs
  subst hnil
  refine ⟨_, _, hc, ha, List.mem_singleton.2 rfl, rfl, .ring _ sk ?_, hbs⟩
  simp [askedOrder, mk, s1, s2]

/-- An entry whose method is `linear` with options: it answers requests (`MethodIs`) but no page lists it. -/
theorem C104_options_refuted (P : Py) (key : Entry → K) : ∃ (ix : Index) (x : String × Entry), Clean P ix ∧ AllPublished P ix ∧
    x ∈ ix ∧ MethodIs x.2.raw "linear".toList ∧ OnPage "regular_ll".toList x.2.input ∧ page P key ix "regular_ll".toList = .ok [] := by
  obtain ⟨g, h, hk, _⟩ := fromDict_full P (.int 1) (.int 1) (.list [.int 181, .int 360]) (.int 90) (.int 0) (.int (-90)) (.int 359)
  have hc := single_clean P "a" _ _ g g (.dict (some "linear".toList) 0) h h
  refine ⟨_, _, hc, ?_, List.mem_singleton.2 rfl, .dict _ _ 0 rfl, .ll _ hk, ?_⟩
  · intro x hx
    rw [List.mem_singleton] at hx
    subst hx
    exact ⟨⟨_, rfl, degree_published _⟩, ⟨_, rfl, degree_published _⟩, _, .dict _ _ 0 rfl⟩
  · have e1 := C31_idempotent P _ g h
    have hl : isLinear (mk "a" degree degree g g (.dict (some "linear".toList) 0)).2.raw = .ok false := by simp [isLinear, mk]
    have hcol : collect P key [mk "a" degree degree g g (.dict (some "linear".toList) 0)] [] = .ok [] := by
      show (do
        let a ← fromDict P g.d
        let b ← fromDict P g.d
        let c ← isLinear (mk "a" degree degree g g (.dict (some "linear".toList) 0)).2.raw
        if c then collect P key [] (file [] (key (mk "a" degree degree g g (.dict (some "linear".toList) 0)).2) a b) else collect P key [] []) = _
      rw [e1, hl]
      rfl
    unfold page loadSpecs
    show (do
      let specs ← (do
        let c ← collect P key [mk "a" degree degree g g (.dict (some "linear".toList) 0)] []
        sortAll c)
      buildPage P _ _ specs) = _
    rw [hcol]
    rfl

/-- One target `{"grid": "H8"}` (accepted by `from_dict`: ring is the default) and the page of its source cannot be made. -/
theorem C104_made_refuted (key : Entry → K) : ∃ ix : Index, Clean asciiPy ix ∧ page asciiPy key ix "regular_ll".toList = .error .value := by
  obtain ⟨g, h, hk, _, hg, _⟩ := fromDict_full asciiPy (.int 1) (.int 1) (.list [.int 181, .int 360]) (.int 90) (.int 0) (.int (-90)) (.int 359)
  have hf : ∃ s, fromDict asciiPy (fun k => if k = "grid" then some (.str "H8".toList) else none) = .ok s :=
    fromDict_healpix asciiPy _ "H8".toList (by simp) (by simp) (.healpix 'H' '8' [] (by simp) (by decide))
  obtain ⟨s, hs⟩ := hf
  have sk := fromDict_kind asciiPy _ s hs (.str "H8".toList) .healpix (by simp) (by simp) (.healpix 'H' '8' [] (by simp) (by decide))
  have sg : s.d "grid" = some (.str "H8".toList) := read_item asciiPy _ s hs _ (by decide) (by decide) _ (by simp) rfl
  have so : s.d "order" = none ∧ s.d "ordering" = none := by
    obtain ⟨k, _, hc⟩ := (fromDict_ok asciiPy _ s).1 hs
    have := construct_kind _ _ _ hc
    rw [sk] at this; subst this
    simp only [construct, ok_ok] at hc
    subst hc
    constructor <;> simp [Dict.set, Dict.setDefault, normalise, withDefaults, DEFAULTS]
  refine ⟨[mk "a" degree (fun k => if k = "grid" then some (.str "H8".toList) else none) g s (.name "linear".toList)],
    single_clean asciiPy "a" _ _ g s _ h hs, ?_⟩
  have hkey : sortKey s = .ok (1000, .inr "H8".toList) := by
    unfold sortKey
    rw [(item_ok _ _ _).2 sg]
    rfl
  rw [page_single asciiPy key "a" degree _ g s h hs _ hkey _ (by rw [hk]; decide) rfl]
  have ht : toStr s = .error .value := by
    unfold toStr
    rw [(item_ok _ _ _).2 sg]
    simp [bind, Except.bind, so.1, so.2]
  have hgs : ∃ sd, toStr g = .ok sd := toStr_total asciiPy _ (degree_published _) g h
  obtain ⟨sd, hgs⟩ := hgs
  unfold makeBlock
  rw [(item_ok _ _ _).2 hg, hgs]
  simp [bind, Except.bind, List.mapM_cons, ht]

/-- A source that is not global: the page shows `{"grid": [1, 1]}`, and that is not found. -/
theorem C105_area_refuted (P : Py) (order : List String) (key : Entry → K) :
    ∃ (ix : Index) (bs : List Block) (b : Block) (d : Dict), Clean P ix ∧ page P key ix "regular_ll".toList = .ok bs ∧ b ∈ bs ∧
      d ∈ b.targets ∧ ∀ e, find P order ix b.source d "linear".toList ≠ .ok (some e) := by
  let sub : Dict := fun k => if k = "grid" then some (.list [.int 1, .int 1])
    else if k = "area" then some (.list [.int 50, .int 0, .int 0, .int 50]) else none
  have hs : ∃ s, fromDict P sub = .ok s ∧ s.kind = .ll ∧ s.d "area" = some (.list [.int 50, .int 0, .int 0, .int 50]) := by
    have hi : infer P TYPES (normalise (withDefaults sub)) = .ok .ll :=
      (C30_inferred_iff P sub (.list [.int 1, .int 1]) .ll (by simp [sub]) (Or.inl (by simp [sub]))).2 (.ll _ _)
    set b := (normalise (withDefaults sub)).set "type" (.str Kind.ll.name) with hb
    have b1 : b "global" = none := by simp [hb, Dict.set, normalise, withDefaults, sub, DEFAULTS]
    have b2 : b "area" = some (.list [.int 50, .int 0, .int 0, .int 50]) := by
      simp [hb, Dict.set, normalise, withDefaults, sub, tupleToList]
    refine ⟨⟨.ll, b, none⟩, ?_, rfl, b2⟩
    rw [fromDict_ok]
    refine ⟨.ll, hi, ?_⟩
    rw [← hb]
    simp only [construct, llArea, b1, b2, Option.isNone_some, Bool.and_false, Bool.false_eq_true, if_false, bind_ok, pure_ok]
    refine ⟨_, rfl, none, ?_, ?_⟩
    · rw [setDefault_of_some _ _ _ (by rw [b2]; rfl)]
      unfold flagGlobal
      rw [b1]
      have : sameArea DEGREE_EPS (.list [.int 50, .int 0, .int 0, .int 50]) DEFAULT_AREA = .ok false := by
        simp [sameArea, DEFAULT_AREA, V.seq, sameAreaL, sameCoord, numM, V.num, bind, Except.bind, pure, Except.pure, DEGREE_EPS]
        norm_num
      simp [V.truthy, (item_ok _ _ _).2 b2, bind, Except.bind, this, pure, Except.pure]
    · rw [setDefault_of_some _ _ _ (by rw [b2]; rfl)]
  obtain ⟨s, hs, sk, sa⟩ := hs
  obtain ⟨g, h, hk, _, hg, _⟩ := fromDict_full P (.int 1) (.int 1) (.list [.int 181, .int 360]) (.int 90) (.int 0) (.int (-90)) (.int 359)
  have sg : s.d "grid" = some (.list [.int 1, .int 1]) := read_item P _ s hs _ (by decide) (by decide) _ (by simp [sub]) rfl
  obtain ⟨k, hkey⟩ := sortKey_total P _ (degree_published P) g h
  have hc := single_clean P "a" sub degree s g (.name "linear".toList) hs h
  have hts : toStr s = .ok (shortSpec (.int 1) (.int 1)) := by
    unfold toStr
    rw [(item_ok _ _ _).2 sg]
    rfl
  obtain ⟨sd, htg⟩ := toStr_total P _ (degree_published P) g h
  have hblk : ∃ b, makeBlock ⟨s, [g]⟩ = .ok b ∧ b.source = shortSpec (.int 1) (.int 1) := by
    unfold makeBlock
    rw [(item_ok _ _ _).2 sg, hts]
    simp [bind, Except.bind, List.mapM_cons, htg, pure, Except.pure]
  obtain ⟨b, hb, hsrc⟩ := hblk
  have hpage := page_single P key "a" sub degree s g hs h k hkey "regular_ll".toList (by rw [sk]; decide) rfl
  rw [hb] at hpage
  obtain ⟨_, _, m3, _⟩ := makeBlock_ok _ b hb
  obtain ⟨d, hd, _⟩ := forall₂_right m3 g (by simp)
  refine ⟨_, [b], b, d, hc, hpage, by simp, hd, ?_⟩
  intro e he
  rw [hsrc] at he
  obtain ⟨gi, go, hi, hgo, hse⟩ := (Verif.Index.find_ok ..).1 he
  have hfind := (Verif.Index.C39_first_match P order _ _ _ _ gi go hi hgo e).1 he
  obtain ⟨pre, k', post, h1, h2, _⟩ := hfind
  have hmem : (k', e) ∈ [mk "a" sub degree s g (.name "linear".toList)] := by rw [h1]; simp
  rw [List.mem_singleton] at hmem
  have hee : e.input = s := by
    have := congrArg Prod.snd hmem
    simp only [mk] at this
    rw [this]
  have heq := h2.2.1
  rw [hee] at heq
  obtain ⟨gi', e1, e2, _, _, _, _, ga, _⟩ := fromDict_short P (.int 1) (.int 1) 1 (by decide +kernel) (by simp [V.num]) (by simp [V.num])
  rw [hi] at e1; cases e1
  unfold eq at heq
  rw [sk] at heq
  simp only at heq
  rw [eqLL_true] at heq
  have north1 : north 1 = 90 := by decide +kernel
  have as : AreaNum s 50 0 0 50 := ⟨_, _, _, _, sa, by simp [V.num], by simp [V.num], by simp [V.num], by simp [V.num]⟩
  have ag : AreaNum gi (north 1) 0 (-north 1) (east 1) := ⟨_, _, _, _, ga, rfl, by simp [V.num], rfl, rfl⟩
  rw [north1] at ag
  obtain ⟨s0, _⟩ := coord_of_area s _ _ _ _ as
  obtain ⟨t0, _⟩ := coord_of_area gi _ _ _ _ ag
  obtain ⟨sa', ta', r, a1, a2, hr, hri⟩ := sameArea_of_nums DEGREE_EPS s gi _ _ _ _ _ _ _ _ as ag
  obtain ⟨_, x, y, hx, hy, hor⟩ := heq
  rw [a1] at hx; rw [a2] at hy
  cases hx; cases hy
  rcases hor with h | ⟨_, sn, tn, ss, ts, c1, c2, _, _, hlt, _⟩
  · rw [hr] at h
    cases h
    have := (hri.1 rfl).1
    norm_num [DEGREE_EPS] at this
  · rw [s0] at c1; rw [t0] at c2
    cases c1; cases c2
    norm_num [DEGREE_EPS] at hlt

/-- A nested HEALPix target whose name is written with a small letter is shown without its ordering: asking for it asks for
ring. -/
theorem C105_ordering_refuted (order : List String) (key : Entry → K) :
    ∃ (ix : Index) (bs : List Block) (b : Block) (d : Dict), Clean asciiPy ix ∧ page asciiPy key ix "regular_ll".toList = .ok bs ∧ b ∈ bs ∧
      d ∈ b.targets ∧ ∀ e, find asciiPy order ix b.source d "linear".toList ≠ .ok (some e) := by
  have hsup : Supported asciiPy .healpix (.str "h8".toList) := .healpix 'h' '8' [] (by simp) (by decide)
  obtain ⟨s, hs⟩ := fromDict_healpix asciiPy (healpixSpec "h8".toList "nested".toList) "h8".toList (by simp [healpixSpec])
    (by simp [healpixSpec]) hsup
  have sk := fromDict_kind asciiPy _ s hs (.str "h8".toList) .healpix (by simp [healpixSpec]) (by simp [healpixSpec]) hsup
  have sg : s.d "grid" = some (.str "h8".toList) := read_item asciiPy _ s hs _ (by decide) (by decide) _ (by simp [healpixSpec]) rfl
  obtain ⟨g, h, hk, _, hg, _⟩ := fromDict_full asciiPy (.int 1) (.int 1) (.list [.int 181, .int 360]) (.int 90) (.int 0) (.int (-90)) (.int 359)
  have hc := single_clean asciiPy "a" degree _ g s (.name "linear".toList) h hs
  have hkey : sortKey s = .ok (1000, .inr "h8".toList) := by
    unfold sortKey
    rw [(item_ok _ _ _).2 sg]
    rfl
  have hts : toStr s = .ok (fun k => if k = "grid" then some (.str "h8".toList) else none) := by
    unfold toStr
    rw [(item_ok _ _ _).2 sg]
    rfl
  obtain ⟨sd, htg⟩ := toStr_total asciiPy _ (degree_published _) g h
  have hblk : ∃ b, makeBlock ⟨g, [s]⟩ = .ok b ∧ b.targets = [fun k => if k = "grid" then some (.str "h8".toList) else none] := by
    unfold makeBlock
    rw [(item_ok _ _ _).2 hg, htg]
    refine ⟨_, by rw [List.mapM_cons, hts]; rfl, ?_⟩
    rfl
  obtain ⟨b, hb, htar⟩ := hblk
  have hpage := page_single asciiPy key "a" degree _ g s h hs _ hkey "regular_ll".toList (by rw [hk]; decide) rfl
  rw [hb] at hpage
  refine ⟨_, [b], b, _, hc, hpage, by simp, by rw [htar]; exact List.mem_singleton.2 rfl, ?_⟩
  intro e he
  obtain ⟨gi, go, hi, hgo, _⟩ := (Verif.Index.find_ok ..).1 he
  obtain ⟨pre, k', post, h1, h2, _⟩ := (Verif.Index.C39_first_match asciiPy order _ _ _ _ gi go hi hgo e).1 he
  have hmem : (k', e) ∈ [mk "a" degree (healpixSpec "h8".toList "nested".toList) g s (.name "linear".toList)] := by rw [h1]; simp
  rw [List.mem_singleton] at hmem
  have hee : e.output = s := by
    have := congrArg Prod.snd hmem
    simp only [mk] at this
    rw [this]
  have heq := h2.2.2
  rw [hee] at heq
  have := C37_orderings_apart asciiPy order _ _ s go hs hgo sk heq
  simp [askedOrder, healpixSpec] at this

/-- The hypotheses of C104 and C105 hold of an inventory with an entry between two global grids, and its page has a block. -/
theorem single_page (P : Py) (key : Entry → K) : ∃ ix bs, Clean P ix ∧ Faithful key ix ∧ AllPublished P ix ∧
    page P key ix "regular_ll".toList = .ok bs ∧ bs.length = 1 ∧ ∀ b ∈ bs, b.targets.length = 1 := by
  obtain ⟨g, h, hk, _, hg, _⟩ := fromDict_full P (.int 1) (.int 1) (.list [.int 181, .int 360]) (.int 90) (.int 0) (.int (-90)) (.int 359)
  obtain ⟨k, hkey⟩ := sortKey_total P _ (degree_published P) g h
  obtain ⟨sd, htg⟩ := toStr_total P _ (degree_published P) g h
  have hblk : ∃ b, makeBlock ⟨g, [g]⟩ = .ok b := by
    unfold makeBlock
    rw [(item_ok _ _ _).2 hg, htg]
    exact ⟨_, by rw [List.mapM_cons, htg]; rfl⟩
  obtain ⟨b, hb⟩ := hblk
  have hpage := page_single P key "a" degree degree g g h h k hkey "regular_ll".toList (by rw [hk]; decide) rfl
  rw [hb] at hpage
  refine ⟨_, [b], single_clean P "a" degree degree g g _ h h, single_faithful key _, ?_, hpage, rfl, ?_⟩
  · intro x hx
    rw [List.mem_singleton] at hx
    subst hx
    exact ⟨⟨_, rfl, degree_published _⟩, ⟨_, rfl, degree_published _⟩, _, .text _ _ rfl⟩
  · intro b' hb'
    rw [List.mem_singleton.1 hb']
    obtain ⟨_, _, m3, _⟩ := makeBlock_ok _ b hb
    exact m3.length_eq

/-- `C104_listed_partial`, `C104_layout`, `C104_made_partial`, `C105_usable_partial` for this inventory. -/
example (P : Py) (order : List String) (ho : Enumerates order) (key : Entry → K) : ∃ ix bs, page P key ix "regular_ll".toList = .ok bs ∧
    (∃ yss : List Index, List.Forall₂ BlockOf bs yss ∧ yss.length = 1) ∧ (∀ b ∈ bs, b.columns.length = 3) ∧
    (∃ bs', page P key ix "orca".toList = .ok bs') ∧
    ∃ b ∈ bs, ∃ d ∈ b.targets, ∃ e, find P order ix b.source d "linear".toList = .ok (some e) := by
  obtain ⟨ix, bs, hc, hf, ha, hp, hl, ht⟩ := single_page P key
  obtain ⟨yss, h1, _⟩ := C104_listed_partial P key ix hc hf _ (by simp [LISTING]) bs hp
  refine ⟨ix, bs, hp, ⟨yss, h1, h1.length_eq ▸ hl⟩, fun b hb => (C104_layout P key ix _ bs hp b hb).1, C104_made_partial P key ix hc ha _, ?_⟩
  obtain ⟨b, hb⟩ := List.length_pos_iff_exists_mem.1 (show 0 < bs.length by omega)
  obtain ⟨d, hd⟩ := List.length_pos_iff_exists_mem.1 (show 0 < b.targets.length by rw [ht b hb]; decide)
  obtain ⟨_, _, e, _, _, h, _⟩ := C105_usable_partial P order ho key ix hc hf ha _ bs hp b hb d hd
  exact ⟨b, hb, d, hd, e, h⟩

end Verif.Docs

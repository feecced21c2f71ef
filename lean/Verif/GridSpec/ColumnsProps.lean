import Verif.GridSpec.Props2

/-!
# Matching lat-lon grids and their meridians (C163, C79)

A lat-lon grid has a meridian every `dx` degrees, from the western to the eastern limit of its area.  Weights are stored for
a number of points; so grids that match should have equally many meridians.  Specification: `Span` and `Meridians` only speak
about the limits and the increment.
-/

namespace Verif.GridSpec

/-! ## Specification -/

/-- Going east from `w` to `e` as they are written covers `d` degrees, at most one turn. -/
def Span (w e d : ℚ) : Prop := ((w ≤ e ∧ d = e - w) ∨ (e < w ∧ d = e - w + 360)) ∧ 0 ≤ d ∧ d ≤ 360

/-- From `w` to `e` there are `n` meridians, `x` degrees apart: one in the west, the last one in the east. -/
def Meridians (w e x : ℚ) (n : ℕ) : Prop := 1 ≤ n ∧ ∃ d, Span w e d ∧ (n - 1 : ℚ) * x = d

/-- `{'grid': [x, y], 'area': [n, w, s, e]}` -/
def areaSpec (x y n w s e : V) : Dict := fun k =>
  if k = "grid" then some (.list [x, y]) else if k = "area" then some (.list [n, w, s, e]) else none

/-! ## From the dict to the spec -/

theorem fromDict_area (P : Py) (x y a b c d : V) (n w so e : ℚ) (ha : a.num = some n) (hb : b.num = some w) (hc : c.num = some so)
    (hd : d.num = some e) :
    ∃ g, fromDict P (areaSpec x y a b c d) = .ok g ∧ g.kind = .ll ∧
      g.gew = (if |n - 90| < 1 / 100000000 ∧ |w| < 1 / 100000000 ∧ |so + 90| < 1 / 100000000 ∧ |e - 360| < 1 / 100000000
        then some true else none) ∧
      g.d "grid" = some (.list [x, y]) ∧ g.d "shape" = none ∧ g.d "area" = some (.list [a, b, c, d]) ∧
      (∀ k ∈ ["i_scans_negatively", "j_points_consecutive", "j_scans_positively"], g.d k = some (.int 0)) := by
  have hi : infer P TYPES (normalise (withDefaults (areaSpec x y a b c d))) = .ok .ll := by
    rw [C30_inferred_iff P _ (.list [x, y]) .ll (by simp [areaSpec]) (Or.inl (by simp [areaSpec]))]
    exact .ll x y
  set B := (normalise (withDefaults (areaSpec x y a b c d))).set "type" (.str Kind.ll.name) with hB
  have h1 : B "global" = none := by simp [hB, Dict.set, normalise, withDefaults, areaSpec, DEFAULTS]
  have h2 : B "area" = some (.list [a, b, c, d]) := by simp [hB, Dict.set, normalise, withDefaults, areaSpec, tupleToList]
  have hs : AreaNum ⟨.ll, B, none⟩ n w so e := ⟨a, b, c, d, h2, ha, hb, hc, hd⟩
  have ht : AreaNum ⟨.ll, (fun k => if k = "area" then some DEFAULT_AREA else none), none⟩ 90 0 (-90) 360 :=
    ⟨.int 90, .int 0, .int (-90), .int 360, rfl, by simp [V.num], by simp [V.num], by simp [V.num], by simp [V.num]⟩
  obtain ⟨sa, ta, r, e1, e2, hr, hri⟩ := sameArea_of_nums DEGREE_EPS _ _ _ _ _ _ _ _ _ _ hs ht
  have e1 : B "area" = some sa := e1
  have e2 : some DEFAULT_AREA = some ta := e2
  rw [h2] at e1; cases e1
  cases e2
  have hf : flagGlobal B = .ok (if r then some true else none) := by
    unfold flagGlobal
    rw [h1]
    simp [V.truthy, (item_ok _ _ _).2 h2, hr, bind, Except.bind, pure, Except.pure]
  refine ⟨⟨.ll, B, if r then some true else none⟩, ?_, rfl, ?_, ?_, ?_, h2, ?_⟩
  · rw [fromDict_ok]
    refine ⟨.ll, hi, ?_⟩
    simp only [construct, llArea, ← hB, h1, h2, Option.isNone_some, Bool.and_false, Bool.false_eq_true, if_false]
    simp only [bind_ok, pure_ok]
    refine ⟨_, rfl, (if r then some true else none), ?_, ?_⟩
    · rw [setDefault_of_some _ _ _ (by rw [h2]; rfl)]; exact hf
    · rw [setDefault_of_some _ _ _ (by rw [h2]; rfl)]
  · have : (r = true) ↔ (|n - 90| < 1 / 100000000 ∧ |w| < 1 / 100000000 ∧ |so + 90| < 1 / 100000000 ∧ |e - 360| < 1 / 100000000) := by
      rw [hri]; simp [DEGREE_EPS]
    simp only [this]
  · simp [hB, Dict.set, normalise, withDefaults, areaSpec, tupleToList]
  · simp [hB, Dict.set, normalise, withDefaults, areaSpec, DEFAULTS]
  · intro k hk
    simp only [List.mem_cons, List.not_mem_nil, or_false] at hk
    rcases hk with rfl | rfl | rfl <;> simp [hB, Dict.set, normalise, withDefaults, areaSpec, tupleToList, DEFAULTS]

/-! ## C79 -/

/-- Where west and east are different meridians, the computed globality says whether one more increment closes the circle. -/
theorem C79_closes_partial (P : Py) (s : GS) (w e x d : ℚ) (hw : coord s 1 = .ok w) (he : coord s 3 = .ok e) (hx : dx P s = .ok x)
    (hg : s.gew = none) (hd : Eastward w e d) (h0 : 1 / 100000000 ≤ d) (h1 : d ≤ 360 - 1 / 100000000) :
    isGlobalEw P s = .ok true ↔ |360 - d - x| < 1 / 100000000 := by
  rw [C79_computed P s w e x d hw he hx hg hd]
  have a : ¬ d < 1 / 100000000 := not_lt.2 h0
  have b : ¬ 360 - d < 1 / 100000000 := by linarith
  rw [Except.ok.injEq, decide_eq_true_iff]
  exact ⟨fun h => by rcases h with h | h | h <;> first | exact absurd h a | exact absurd h b | exact h, fun h => Or.inr (Or.inr h)⟩

/-- A strip on one meridian counts as going all the way round, whatever the increment. -/
theorem C79_refuted (P : Py) (x y : V) (p : ℚ) (hx : x.num = some p) (n s : ℤ) (m : ℤ) :
    ∃ g, fromDict P (areaSpec x y (.int n) (.int m) (.int s) (.int m)) = .ok g ∧ Eastward (m : ℚ) m 0 ∧ isGlobalEw P g = .ok true := by
  obtain ⟨g, h1, h2, h3, h4, _, h5, _⟩ := fromDict_area P x y (.int n) (.int m) (.int s) (.int m) n m s m rfl rfl rfl rfl
  have hE : Eastward (m : ℚ) m 0 := ⟨⟨0, by simp⟩, le_refl _, by norm_num⟩
  refine ⟨g, h1, hE, ?_⟩
  have ha : AreaNum g n m s m := ⟨_, _, _, _, h5, rfl, rfl, rfl, rfl⟩
  obtain ⟨_, c1, _, c3⟩ := coord_of_area g _ _ _ _ ha
  have hn : g.gew = none := by
    rw [h3, if_neg]
    rintro ⟨_, q1, _, q2⟩
    rw [abs_lt] at q1 q2
    linarith [q1.2, q2.1]
  rw [C79_computed P g m m |p| 0 c1 c3 ((C79_increment P g).1 x y p h2 h4 hx) hn hE]
  simp

/-! ## C163 -/

theorem eq_ll (P : Py) (order : List String) (s t : GS) (hk : s.kind = .ll) : eq P order s t = eqLL P order s t := by
  unfold eq
  rw [hk]

theorem normaliseLon_turns (m : ℤ) : normaliseLon (360 * m) 0 = 0 :=
  (C35_normalise (360 * m) 0 0).2 ⟨⟨-m, by push_cast; ring⟩, by norm_num, by norm_num⟩

theorem eq_of_global (P : Py) (order : List String) (a b : GS) (n w so e n' w' so' e' : ℚ) (ha : AreaNum a n w so e)
    (hb : AreaNum b n' w' so' e') (hn : n = n') (hso : so = so') (hw : w = 0) (hw' : w' = 0) (hk : a.kind = .ll)
    (hbase : eqBase P order a.d b.d = .ok true) (ga : isGlobalEw P a = .ok true) (gb : isGlobalEw P b = .ok true) :
    eq P order a b = .ok true := by
  subst hn; subst hso; subst hw; subst hw'
  obtain ⟨sa, ta, q, e1, e2, hq, _⟩ := sameArea_of_nums DEGREE_EPS a b _ _ _ _ _ _ _ _ ha hb
  obtain ⟨p0, p1, p2, _⟩ := coord_of_area a _ _ _ _ ha
  obtain ⟨q0, q1, q2, _⟩ := coord_of_area b _ _ _ _ hb
  rw [eq_ll P order a b hk, eqLL_true]
  refine ⟨hbase, sa, ta, e1, e2, ?_⟩
  cases q with
  | true => exact Or.inl hq
  | false => exact Or.inr ⟨hq, _, _, _, _, p0, q0, p2, q2, by simp [DEGREE_EPS], by simp [DEGREE_EPS], ga, gb, _, _, p1, q1, by simp [DEGREE_EPS]⟩

theorem north_bounds : ∀ r ∈ LISTED, 0 ≤ north r ∧ 0 < r ∧ 36 ≤ ⌈360 / r⌉ := by decide +kernel

/-- The global grid of a listed resolution matches every description whose eastern limit is at the western one, any number of
turns further: the strip on the meridian 0 (`m = 0`, one meridian) and the closed circle (`m = 1`, its last meridian
being the first one again).  The global grid has `⌈360 / r⌉` meridians, at least 36. -/
theorem C163_refuted (P : Py) (order : List String) (ho : Enumerates order) (r : ℚ) (hr : r ∈ LISTED) (m : ℤ) :
    ∃ s t, fromDict P (areaSpec (.flt r) (.flt r) (.flt (north r)) (.int 0) (.flt (-north r)) (.int (360 * m))) = .ok s ∧
      fromDict P (shortSpec (.flt r) (.flt r)) = .ok t ∧ AreaNum t (north r) 0 (-north r) (east r) ∧
      eq P order s t = .ok true ∧ eq P order t s = .ok true ∧
      Meridians 0 0 r 1 ∧ Meridians 0 (east r) r ⌈360 / r⌉.toNat ∧ 36 ≤ ⌈360 / r⌉.toNat := by
  obtain ⟨s, hs, hk, hgw, hg, hsh, ha, hf⟩ := fromDict_area P (.flt r) (.flt r) (.flt (north r)) (.int 0) (.flt (-north r)) (.int (360 * m))
    (north r) 0 (-north r) (360 * m) rfl (by simp [V.num]) rfl (by simp [V.num])
  obtain ⟨t, ht, hk', hgw', hg', hsh', _, ha', hf'⟩ := fromDict_short P (.flt r) (.flt r) r hr rfl rfl
  have as : AreaNum s (north r) 0 (-north r) (360 * m) := ⟨_, _, _, _, ha, rfl, by simp [V.num], rfl, by simp [V.num]⟩
  have at' : AreaNum t (north r) 0 (-north r) (east r) := ⟨_, _, _, _, ha', rfl, by simp [V.num], rfl, rfl⟩
  obtain ⟨s0, s1, s2, s3⟩ := coord_of_area s _ _ _ _ as
  obtain ⟨t0, t1, t2, t3⟩ := coord_of_area t _ _ _ _ at'
  have n0 : normaliseLon 0 0 = 0 := by simpa using normaliseLon_turns 0
  have gs : isGlobalEw P s = .ok true := by
    by_cases h : |north r - 90| < 1 / 100000000 ∧ |(0 : ℚ)| < 1 / 100000000 ∧ |-north r + 90| < 1 / 100000000 ∧
        |((360 * m : ℤ) : ℚ) - 360| < 1 / 100000000
    · have : s.gew = some true := by rw [hgw]; push_cast at h ⊢; rw [if_pos h]
      simp [isGlobalEw, this]
    · have : s.gew = none := by rw [hgw]; push_cast at h ⊢; rw [if_neg h]
      simp [isGlobalEw, this, computeGlobalEw, s1, s3, bind, Except.bind, n0, normaliseLon_turns m, FULL_GLOBE_EPS, pure, Except.pure]
  have gt : isGlobalEw P t = .ok true := by simp [isGlobalEw, hgw']
  have hst := fromDict_type P _ s hs
  have htt := fromDict_type P _ t ht
  rw [hk] at hst
  rw [hk'] at htt
  have hac : allclose [.flt r, .flt r] [.flt r, .flt r] = .ok true := by
    rw [allclose_pair]
    refine ⟨r, r, r, r, rfl, rfl, rfl, rfl, ?_⟩
    have : (0 : ℚ) ≤ 1 / 1000000 + 1 / 100000 * |r| := by positivity
    have hcl : close (1 / 1000000) r r = true := by
      unfold close
      rw [sub_self, abs_zero]
      exact decide_eq_true this
    rw [hcl]; rfl
  obtain ⟨b1, b2, b3⟩ := north_bounds r hr
  refine ⟨s, t, hs, ht, at', ?_, ?_, ?_, ?_, ?_⟩
  · exact eq_of_global P order s t _ _ _ _ _ _ _ _ as at' rfl rfl rfl rfl hk
      ((eqBase_ll P order ho s t _ _ _ _ hst htt hg hg' hf hf' (by rw [hsh]; intro a b h; cases h)).2 hac) gs gt
  · exact eq_of_global P order t s _ _ _ _ _ _ _ _ at' as rfl rfl rfl rfl hk'
      ((eqBase_ll P order ho t s _ _ _ _ htt hst hg' hg hf' hf (by rw [hsh']; intro a b h; cases h)).2 hac) gt gs
  · exact ⟨le_refl _, 0, ⟨Or.inl ⟨le_refl _, by norm_num⟩, le_refl _, by norm_num⟩, by norm_num⟩
  · have hc : ((⌈360 / r⌉.toNat : ℕ) : ℚ) = (⌈360 / r⌉ : ℤ) := by
      have : ((⌈360 / r⌉.toNat : ℕ) : ℤ) = ⌈360 / r⌉ := Int.toNat_of_nonneg (by omega)
      exact_mod_cast this
    have hlt : (⌈360 / r⌉ : ℚ) < 360 / r + 1 := Int.ceil_lt_add_one _
    have h36 : (36 : ℚ) ≤ (⌈360 / r⌉ : ℤ) := by exact_mod_cast b3
    have he : 0 ≤ east r := by
      unfold east
      apply mul_nonneg b2.le
      linarith
    have he' : east r ≤ 360 := by
      unfold east
      have : (⌈360 / r⌉ : ℚ) - 1 ≤ 360 / r := by linarith
      calc r * ((⌈360 / r⌉ : ℚ) - 1) ≤ r * (360 / r) := mul_le_mul_of_nonneg_left this b2.le
        _ = 360 := by field_simp
    refine ⟨by omega, east r, ⟨Or.inl ⟨he, by ring⟩, he, he'⟩, ?_⟩
    rw [hc]
    unfold east
    ring
  · omega

/-- Two matching lat-lon grids of increments of a 40th of a degree or more have equally many meridians, if each of them has at least
two, none of them twice (the last is short of a whole turn by a 40th of a degree at least), and a grid said to be global in its
description (or of a listed resolution, without an area) really closes the circle with one more increment. -/
theorem C163_columns_partial (P : Py) (order : List String) (ho : Enumerates order) (s t : GS) (hk : s.kind = .ll) (hk' : t.kind = .ll)
    (x y x' y' : V) (p q p' q' : ℚ)
    (hg : s.d "grid" = some (.list [x, y])) (hg' : t.d "grid" = some (.list [x', y']))
    (hx : x.num = some p) (hy : y.num = some q) (hx' : x'.num = some p') (hy' : y'.num = some q')
    (n w so e n' w' so' e' : ℚ) (hs : AreaNum s n w so e) (ht : AreaNum t n' w' so' e') (d d' : ℚ)
    (hd : Span w e d) (hd' : Span w' e' d') (hw : d ≤ 360 - 1 / 40) (hw' : d' ≤ 360 - 1 / 40)
    (hp : 1 / 40 ≤ p) (hp' : 1 / 40 ≤ p')
    (hf : s.gew = none ∨ |360 - d - p| < 1 / 100000000) (hf' : t.gew = none ∨ |360 - d' - p'| < 1 / 100000000)
    (k k' : ℕ) (h2 : 2 ≤ k) (h2' : 2 ≤ k') (hm : (k - 1 : ℚ) * p = d) (hm' : (k' - 1 : ℚ) * p' = d')
    (h : eq P order s t = .ok true) : k = k' := by
  -- the increments are close to one another
  have hcl : |p - p'| ≤ 1 / 1000000 + 1 / 100000 * p' := by
    have hb := (eqBase_true P order s.d t.d).1 (eq_true_base P order s t h)
    obtain ⟨a, b, ha, hb, hab⟩ := hb.2.1 "grid" ((ho "grid").2 (by simp [COMPARE_KEYS]))
    rw [hg] at ha; cases ha
    rw [hg'] at hb; cases hb
    have hab : allclose [x, y] [x', y'] = .ok true := hab
    rw [allclose_pair] at hab
    obtain ⟨a1, a2, a3, a4, e1, e2, e3, e4, hc⟩ := hab
    rw [hx] at e1; rw [hy] at e2; rw [hx'] at e3; rw [hy'] at e4
    cases e1; cases e2; cases e3; cases e4
    have hc := hc.symm
    rw [Bool.and_eq_true] at hc
    have hc := hc.1
    unfold close at hc
    rw [decide_eq_true_iff, abs_of_nonneg (by linarith : (0 : ℚ) ≤ p')] at hc
    exact hc
  have hp0 : 0 < p := by linarith
  have hp0' : 0 < p' := by linarith
  have k2 : (2 : ℚ) ≤ k := by exact_mod_cast h2
  have k2' : (2 : ℚ) ≤ k' := by exact_mod_cast h2'
  have dlow : 1 / 40 ≤ d := by rw [← hm]; nlinarith
  have dlow' : 1 / 40 ≤ d' := by rw [← hm']; nlinarith
  have est : Span w e d → 1 / 40 ≤ d → d ≤ 360 - 1 / 40 → Eastward w e d := by
    rintro ⟨h1 | h1, h2, h3⟩ h4 h5
    · exact ⟨⟨0, by rw [h1.2]; simp⟩, h2, by linarith⟩
    · exact ⟨⟨1, by rw [h1.2]; push_cast; ring⟩, h2, by linarith⟩
  have est' : Span w' e' d' → 1 / 40 ≤ d' → d' ≤ 360 - 1 / 40 → Eastward w' e' d' := by
    rintro ⟨h1 | h1, h2, h3⟩ h4 h5
    · exact ⟨⟨0, by rw [h1.2]; simp⟩, h2, by linarith⟩
    · exact ⟨⟨1, by rw [h1.2]; push_cast; ring⟩, h2, by linarith⟩
  obtain ⟨_, s1, _, s3⟩ := coord_of_area s _ _ _ _ hs
  obtain ⟨_, t1, _, t3⟩ := coord_of_area t _ _ _ _ ht
  -- widths in whole increments differ by very little
  have key : |((k : ℚ) - k') * p| < 1 / 40 := by
    have hdd : |d - d'| ≤ 2 / 100000000 + |p - p'| := by
      have hne := (eqLL_true P order s t).1 (by rw [eq_ll P order s t hk] at h; exact h)
      obtain ⟨_, sa, ta, e1, e2, hne⟩ := hne
      obtain ⟨sa', ta', r, e1', e2', hr, hri⟩ := sameArea_of_nums DEGREE_EPS s t _ _ _ _ _ _ _ _ hs ht
      rw [e1] at e1'; cases e1'
      rw [e2] at e2'; cases e2'
      rcases hne with hsame | ⟨_, _, _, _, _, _, _, _, _, _, _, gs, gt, _⟩
      · rw [hr] at hsame; cases hsame
        obtain ⟨_, hww, _, hee⟩ := hri.1 rfl
        simp only [DEGREE_EPS] at hww hee
        have hpp := abs_nonneg (p - p')
        rw [abs_lt] at hww hee
        rw [abs_le]
        rcases hd with ⟨⟨_, hd⟩ | ⟨_, hd⟩, _, _⟩ <;> rcases hd' with ⟨⟨_, hd'⟩ | ⟨_, hd'⟩, _, _⟩ <;>
          constructor <;> linarith [hww.1, hww.2, hee.1, hee.2]
      · have c1 : |360 - d - p| < 1 / 100000000 := by
          rcases hf with hf | hf
          · exact (C79_closes_partial P s w e p d s1 s3 (by rw [(C79_increment P s).1 x y p hk hg hx, abs_of_pos hp0]) hf
              (est hd dlow hw) (by linarith) (by linarith)).1 gs
          · exact hf
        have c2 : |360 - d' - p'| < 1 / 100000000 := by
          rcases hf' with hf' | hf'
          · exact (C79_closes_partial P t w' e' p' d' t1 t3 (by rw [(C79_increment P t).1 x' y' p' hk' hg' hx', abs_of_pos hp0']) hf'
              (est' hd' dlow' hw') (by linarith) (by linarith)).1 gt
          · exact hf'
        rw [abs_lt] at c1 c2
        have a1 := le_abs_self (p - p')
        have a2 := neg_abs_le (p - p')
        rw [abs_le]
        constructor <;> linarith [c1.1, c1.2, c2.1, c2.2]
    have hk1 : (0 : ℚ) ≤ k' - 1 := by linarith
    have hcount : (k' - 1 : ℚ) ≤ 14400 := by nlinarith
    have hple : p' ≤ 360 := by nlinarith
    have hprod : (k' - 1 : ℚ) * |p - p'| ≤ 18 / 1000 := by
      calc (k' - 1 : ℚ) * |p - p'| ≤ (k' - 1) * (1 / 1000000 + 1 / 100000 * p') := mul_le_mul_of_nonneg_left hcl hk1
        _ = (k' - 1) * (1 / 1000000) + 1 / 100000 * ((k' - 1) * p') := by ring
        _ ≤ 14400 * (1 / 1000000) + 1 / 100000 * 360 := by rw [hm']; linarith
        _ = 18 / 1000 := by norm_num
    have hrw : ((k : ℚ) - k') * p = (d - d') + (k' - 1) * (p' - p) := by rw [← hm, ← hm']; ring
    rw [hrw]
    calc |(d - d') + (k' - 1) * (p' - p)| ≤ |d - d'| + |(k' - 1 : ℚ) * (p' - p)| := abs_add_le _ _
      _ = |d - d'| + (k' - 1) * |p - p'| := by rw [abs_mul, abs_of_nonneg hk1, abs_sub_comm p' p]
      _ < 1 / 40 := by linarith
  by_contra hne
  have h1 : (1 : ℚ) ≤ |(k : ℚ) - k'| := by
    have : (1 : ℤ) ≤ |(k : ℤ) - k'| := Int.one_le_abs (by omega)
    exact_mod_cast this
  rw [abs_mul, abs_of_pos hp0] at key
  nlinarith

/-- The grid of `k` meridians that closes the circle, from pole to pole. -/
def circle (k : ℚ) : Dict := areaSpec (.flt (360 / k)) (.flt (360 / k)) (.int 90) (.int 0) (.int (-90)) (.flt (360 - 360 / k))

/-- With finer increments the number of meridians is not settled by a match: a hundredth of a degree, that is 36000 meridians,
matches 36001 meridians. -/
theorem C163_fine_refuted (P : Py) (order : List String) (ho : Enumerates order) :
    ∃ s t, fromDict P (circle 36000) = .ok s ∧ fromDict P (circle 36001) = .ok t ∧ eq P order s t = .ok true ∧
      Meridians 0 (360 - 360 / 36000) (360 / 36000) 36000 ∧ Meridians 0 (360 - 360 / 36001) (360 / 36001) 36001 := by
  obtain ⟨s, hs, hk, hgw, hg, hsh, ha, hf⟩ := fromDict_area P (.flt (360 / 36000)) (.flt (360 / 36000)) (.int 90) (.int 0) (.int (-90))
    (.flt (360 - 360 / 36000)) 90 0 (-90) (360 - 360 / 36000) rfl (by simp [V.num]) (by simp [V.num]) rfl
  obtain ⟨t, ht, hk', hgw', hg', hsh', ha', hf'⟩ := fromDict_area P (.flt (360 / 36001)) (.flt (360 / 36001)) (.int 90) (.int 0) (.int (-90))
    (.flt (360 - 360 / 36001)) 90 0 (-90) (360 - 360 / 36001) rfl (by simp [V.num]) (by simp [V.num]) rfl
  have as : AreaNum s 90 0 (-90) (360 - 360 / 36000) := ⟨_, _, _, _, ha, rfl, by simp [V.num], by simp [V.num], rfl⟩
  have at' : AreaNum t 90 0 (-90) (360 - 360 / 36001) := ⟨_, _, _, _, ha', rfl, by simp [V.num], by simp [V.num], rfl⟩
  obtain ⟨_, c1, _, c3⟩ := coord_of_area s _ _ _ _ as
  obtain ⟨_, c1', _, c3'⟩ := coord_of_area t _ _ _ _ at'
  have hn : s.gew = none := by rw [hgw, if_neg]; norm_num [abs_lt]
  have hn' : t.gew = none := by rw [hgw', if_neg]; norm_num [abs_lt]
  have gs : isGlobalEw P s = .ok true :=
    (C79_closes_partial P s 0 (360 - 360 / 36000) (360 / 36000) (360 - 360 / 36000) c1 c3
      (by rw [(C79_increment P s).1 _ _ (360 / 36000) hk hg rfl, abs_of_pos (by norm_num)]) hn
      ⟨⟨0, by norm_num⟩, by norm_num, by norm_num⟩ (by norm_num) (by norm_num)).2 (by norm_num)
  have gt : isGlobalEw P t = .ok true :=
    (C79_closes_partial P t 0 (360 - 360 / 36001) (360 / 36001) (360 - 360 / 36001) c1' c3'
      (by rw [(C79_increment P t).1 _ _ (360 / 36001) hk' hg' rfl, abs_of_pos (by norm_num)]) hn'
      ⟨⟨0, by norm_num⟩, by norm_num, by norm_num⟩ (by norm_num) (by norm_num)).2 (by norm_num)
  have hst := fromDict_type P _ s hs
  have htt := fromDict_type P _ t ht
  rw [hk] at hst
  rw [hk'] at htt
  have hac : allclose [.flt (360 / 36000), .flt (360 / 36000)] [.flt (360 / 36001), .flt (360 / 36001)] = .ok true := by
    rw [allclose_pair]
    refine ⟨_, _, _, _, rfl, rfl, rfl, rfl, ?_⟩
    have hcl : close (1 / 1000000) (360 / 36000) (360 / 36001) = true := by
      unfold close
      apply decide_eq_true
      rw [abs_of_pos (by norm_num), abs_of_pos (by norm_num)]
      norm_num
    rw [hcl]; rfl
  refine ⟨s, t, hs, ht, ?_, ?_, ?_⟩
  · exact eq_of_global P order s t _ _ _ _ _ _ _ _ as at' rfl rfl rfl rfl hk
      ((eqBase_ll P order ho s t _ _ _ _ hst htt hg hg' hf hf' (by rw [hsh]; intro a b h; cases h)).2 hac) gs gt
  · exact ⟨by norm_num, _, ⟨Or.inl ⟨by norm_num, rfl⟩, by norm_num, by norm_num⟩, by norm_num⟩
  · exact ⟨by norm_num, _, ⟨Or.inl ⟨by norm_num, rfl⟩, by norm_num, by norm_num⟩, by norm_num⟩

/-! ## Examples -/

/-- The closed circle of one degree, with 361 meridians, matches the global grid of one degree, with 360. -/
example (P : Py) (order : List String) (ho : Enumerates order) : Meridians 0 360 1 361 ∧
    ∃ s t, fromDict P (areaSpec (.flt 1) (.flt 1) (.flt (north 1)) (.int 0) (.flt (-north 1)) (.int (360 * 1))) = .ok s ∧
      fromDict P (shortSpec (.flt 1) (.flt 1)) = .ok t ∧ eq P order s t = .ok true ∧ Meridians 0 (east 1) 1 360 := by
  refine ⟨⟨by norm_num, 360, ⟨Or.inl ⟨by norm_num, by norm_num⟩, by norm_num, le_refl _⟩, by norm_num⟩, ?_⟩
  obtain ⟨s, t, h1, h2, _, h3, _, _, h4, _⟩ := C163_refuted P order ho 1 (by decide +kernel) 1
  have : ⌈(360 : ℚ) / 1⌉.toNat = 360 := by decide +kernel
  rw [this] at h4
  exact ⟨s, t, h1, h2, h3, h4⟩

/-- `C79_refuted`: the meridian of Greenwich at two degrees. -/
example (P : Py) : ∃ g, fromDict P (areaSpec (.int 2) (.int 2) (.int 90) (.int 0) (.int (-90)) (.int 0)) = .ok g ∧ isGlobalEw P g = .ok true := by
  obtain ⟨g, h, _, h'⟩ := C79_refuted P (.int 2) (.int 2) 2 rfl 90 (-90) 0
  exact ⟨g, h, h'⟩

/-- `C79_closes_partial`: half a circle does not close, 0 to 358 at two degrees does. -/
example (P : Py) : ∃ g g', fromDict P (areaSpec (.int 2) (.int 2) (.int 90) (.int 0) (.int (-90)) (.int 180)) = .ok g ∧
    fromDict P (areaSpec (.int 2) (.int 2) (.int 90) (.int 0) (.int (-90)) (.int 358)) = .ok g' ∧
    ¬ isGlobalEw P g = .ok true ∧ isGlobalEw P g' = .ok true := by
  obtain ⟨g, h1, h2, h3, h4, _, h5, _⟩ := fromDict_area P (.int 2) (.int 2) (.int 90) (.int 0) (.int (-90)) (.int 180) 90 0 (-90) 180
    rfl (by simp [V.num]) (by simp [V.num]) rfl
  obtain ⟨g', h1', h2', h3', h4', _, h5', _⟩ := fromDict_area P (.int 2) (.int 2) (.int 90) (.int 0) (.int (-90)) (.int 358) 90 0 (-90) 358
    rfl (by simp [V.num]) (by simp [V.num]) rfl
  obtain ⟨_, c1, _, c3⟩ := coord_of_area g 90 0 (-90) 180 ⟨_, _, _, _, h5, rfl, by simp [V.num], by simp [V.num], rfl⟩
  obtain ⟨_, c1', _, c3'⟩ := coord_of_area g' 90 0 (-90) 358 ⟨_, _, _, _, h5', rfl, by simp [V.num], by simp [V.num], rfl⟩
  have hn : g.gew = none := by rw [h3, if_neg]; norm_num [abs_lt]
  have hn' : g'.gew = none := by rw [h3', if_neg]; norm_num [abs_lt]
  refine ⟨g, g', h1, h1', ?_, ?_⟩
  · rw [C79_closes_partial P g 0 180 2 180 c1 c3 (by rw [(C79_increment P g).1 _ _ 2 h2 h4 rfl]; norm_num) hn
      ⟨⟨0, by norm_num⟩, by norm_num, by norm_num⟩ (by norm_num) (by norm_num)]
    norm_num [abs_lt]
  · rw [C79_closes_partial P g' 0 358 2 358 c1' c3' (by rw [(C79_increment P g').1 _ _ 2 h2' h4' rfl]; norm_num) hn'
      ⟨⟨0, by norm_num⟩, by norm_num, by norm_num⟩ (by norm_num) (by norm_num)]
    norm_num [abs_lt]

/-- `C163_columns_partial`: the grid of two degrees with its area matches the one of its resolution only; both have 180 meridians. -/
example (P : Py) (order : List String) (ho : Enumerates order) :
    ∃ s t, fromDict P (areaSpec (.int 2) (.int 2) (.int 90) (.int 0) (.int (-90)) (.int 358)) = .ok s ∧
      fromDict P (shortSpec (.int 2) (.int 2)) = .ok t ∧ eq P order s t = .ok true ∧ Meridians 0 358 2 180 ∧
      ∀ k k' : ℕ, 2 ≤ k → 2 ≤ k' → (k - 1 : ℚ) * 2 = 358 → (k' - 1 : ℚ) * 2 = 358 → k = k' := by
  obtain ⟨s, hs, hk, hgw, hg, hsh, ha, hf⟩ := fromDict_area P (.int 2) (.int 2) (.int 90) (.int 0) (.int (-90)) (.int 358) 90 0 (-90) 358
    rfl (by simp [V.num]) (by simp [V.num]) rfl
  obtain ⟨t, ht, hk', hgw', hg', hsh', _, ha', hf'⟩ := fromDict_short P (.int 2) (.int 2) 2 (by decide +kernel) rfl rfl
  have hn : north 2 = 90 := by decide +kernel
  have he : east 2 = 358 := by decide +kernel
  rw [hn, he] at ha'
  have as : AreaNum s 90 0 (-90) 358 := ⟨_, _, _, _, ha, rfl, by simp [V.num], by simp [V.num], rfl⟩
  have at' : AreaNum t 90 0 (-90) 358 := ⟨_, _, _, _, ha', rfl, by simp [V.num], rfl, rfl⟩
  have hst := fromDict_type P _ s hs
  have htt := fromDict_type P _ t ht
  rw [hk] at hst
  rw [hk'] at htt
  obtain ⟨sa, ta, r, e1, e2, hr, hri⟩ := sameArea_of_nums DEGREE_EPS s t _ _ _ _ _ _ _ _ as at'
  have heq : eq P order s t = .ok true := by
    rw [eq_ll P order s t hk, eqLL_true]
    refine ⟨?_, sa, ta, e1, e2, Or.inl ?_⟩
    · rw [eqBase_ll P order ho s t _ _ _ _ hst htt hg hg' hf hf' (by rw [hsh]; intro a b h; cases h), allclose_pair]
      exact ⟨2, 2, 2, 2, rfl, rfl, rfl, rfl, by norm_num [close]⟩
    · rw [hr, hri.2 (by norm_num [DEGREE_EPS])]
  have span : Span 0 358 358 := ⟨Or.inl ⟨by norm_num, by norm_num⟩, by norm_num, by norm_num⟩
  refine ⟨s, t, hs, ht, heq, ⟨by norm_num, 358, span, by norm_num⟩, ?_⟩
  intro k k' h2 h2' hm hm'
  exact C163_columns_partial P order ho s t hk hk' _ _ _ _ 2 2 2 2 hg hg' rfl rfl rfl rfl _ _ _ _ _ _ _ _ as at' 358 358 span span
    (by norm_num) (by norm_num) (by norm_num) (by norm_num) (Or.inr (by norm_num)) (Or.inr (by norm_num)) k k' h2 h2' hm hm' heq

end Verif.GridSpec

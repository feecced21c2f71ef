import Verif.GridSpec.Props2

/-!
# Which descriptions of grids are accepted and which match (C131)

Specification: relations on what the two dicts say; nothing of the matching functions of the model is used in them.
-/

namespace Verif.GridSpec
open Verif.Humanize

/-! ## Specification -/

/-- The entries of a sequence. -/
inductive Items : V → List V → Prop
  | list (xs : List V) : Items (.list xs) xs
  | tuple (xs : List V) : Items (.tuple xs) xs
  | str (s : List Char) : Items (.str s) (s.map (fun c => .str [c]))

/-- Values that count as false. -/
inductive Falsy : V → Prop
  | none : Falsy .none
  | bool : Falsy (.bool false)
  | int : Falsy (.int 0)
  | flt : Falsy (.flt 0)
  | str : Falsy (.str [])
  | list : Falsy (.list [])
  | tuple : Falsy (.tuple [])

/-- Close to numpy: the relative part is measured on the second number. -/
def Close (atol p q : ℚ) : Prop := |p - q| ≤ atol + 1 / 100000 * |q|

/-- Types that the comparison tells apart. -/
inductive PyType where
  | text | list | float | integer | other
  deriving DecidableEq

def pyType : V → PyType
  | .str _ => .text
  | .list _ => .list
  | .flt _ => .float
  | .int _ => .integer
  | .bool _ => .integer
  | .none => .other
  | .tuple _ => .other

/-- Two values of a scanning flag agree. -/
inductive Agree (P : Py) : V → V → Prop
  | text (s : List Char) : Agree P (.str s) (.str s)
  | lists (as bs : List V) (h : Equal (.list as) (.list bs)) : Agree P (.list as) (.list bs)
  | floats (p q : ℚ) (h : Close (1 / 100000000) p q) : Agree P (.flt p) (.flt q)
  | integers (a b : V) (q : ℚ) (ta : pyType a = .integer) (tb : pyType b = .integer) (ha : Number a q) (hb : Number b q) : Agree P a b
  | printed (a b : V) (ht : pyType a ≠ pyType b ∨ pyType a = .other) (h : P.pyStr a = P.pyStr b) : Agree P a b

/-- Two values of `grid` agree: names whatever their case, lists of numbers within the tolerance, one number standing for many. -/
inductive GridAgree (P : Py) : V → V → Prop
  | names (a b : List Char) (h : P.lower a = P.lower b) : GridAgree P (.str a) (.str b)
  | numbers (as bs : List V) (ps qs : List ℚ) (ha : List.Forall₂ Number as ps) (hb : List.Forall₂ Number bs qs)
      (h : List.Forall₂ (Close (1 / 1000000)) ps qs ∨ (∃ p, ps = [p] ∧ ∀ q ∈ qs, Close (1 / 1000000) p q) ∨
        ∃ q, qs = [q] ∧ ∀ p ∈ ps, Close (1 / 1000000) p q) : GridAgree P (.list as) (.list bs)
  | others (a b : V) (h1 : ¬(pyType a = .text ∧ pyType b = .text)) (h2 : ¬(pyType a = .list ∧ pyType b = .list)) (h : Agree P a b) :
      GridAgree P a b

/-- Names of the types. -/
def typeName : Kind → String
  | .ll => "regular_ll"
  | .rgg => "reduced_gg"
  | .healpix => "healpix"
  | .orca => "orca"

/-- The type of grid a dict describes: the one it names, or the one its grid is of. -/
inductive IsKind (P : Py) (d : Dict) (k : Kind) : Prop
  | named (h : d "type" = some (.str (typeName k).toList))
  | inferred (ht : d "type" = none ∨ d "type" = some .none) (g : V) (hg : d "grid" = some g) (h : Supported P k (asList g))

/-- The area of the whole globe. -/
def GLOBE : V := .list [.int 90, .int 0, .int (-90), .int 360]

/-- The area a dict describes: the one given; for lat-lon grids without area and `global`, that of the global grid where the resolution
is listed; the globe otherwise. -/
inductive AreaOf (k : Kind) (d : Dict) : V → Prop
  | given (a : V) (h : d "area" = some a) : AreaOf k d (asList a)
  | whole (h : d "area" = none) (hk : k ≠ .ll ∨ d "global" ≠ none) : AreaOf k d GLOBE
  | listed (hk : k = .ll) (h : d "area" = none) (hg : d "global" = none) (g : V) (xs : List V) (x y : V) (r : ℚ)
      (hgrid : asked d "grid" = some g) (hi : Items g (x :: y :: xs)) (hx : Number x r) (hy : Number y r) (hr : r ∈ LISTED) :
      AreaOf k d (.list [.flt (north r), .int 0, .flt (-north r), .flt (east r)])
  | unlisted (hk : k = .ll) (h : d "area" = none) (hg : d "global" = none) (g : V) (xs : List V) (x y : V)
      (hgrid : asked d "grid" = some g) (hi : Items g (x :: y :: xs)) (hx : pyType x ≠ .list) (hy : pyType y ≠ .list)
      (hr : ¬∃ r ∈ LISTED, Number x r ∧ Number y r) : AreaOf k d GLOBE

/-- Two numbers less than `eps` apart. -/
inductive Near (eps : ℚ) (x y : V) : Prop
  | mk (p q : ℚ) (hx : Number x p) (hy : Number y q) (h : |p - q| < eps)

/-- Two areas are the same up to `eps`. -/
inductive Together (eps : ℚ) (a b : V) : Prop
  | mk (xs ys : List V) (ha : Items a xs) (hb : Items b ys) (h : List.Forall₂ (Near eps) xs ys)

/-- Two lists differ, with nothing but numbers up to where they do. -/
inductive Apart (eps : ℚ) : List V → List V → Prop
  | here (x y : V) (p q : ℚ) (xs ys : List V) (hx : Number x p) (hy : Number y q) (h : ¬|p - q| < eps) : Apart eps (x :: xs) (y :: ys)
  | later (x y : V) (xs ys : List V) (h : Near eps x y) (hr : Apart eps xs ys) : Apart eps (x :: xs) (y :: ys)

/-- Two areas are seen to differ. -/
inductive Differ (eps : ℚ) (a b : V) : Prop
  | mk (xs ys : List V) (ha : Items a xs) (hb : Items b ys) (h : xs.length ≠ ys.length ∨ Apart eps xs ys)

/-- An edge of the area: 0 north, 1 west, 2 south, 3 east. -/
inductive Edge (k : Kind) (d : Dict) (i : Nat) (q : ℚ) : Prop
  | mk (a : V) (xs : List V) (x : V) (ha : AreaOf k d a) (hx : Items a xs) (hi : xs[i]? = some x) (hq : Number x q)

/-- The grid is known to go round the globe: it says so, by `global` or by leaving out both `global` and the area, or has the area of the globe. -/
inductive Flagged (k : Kind) (d : Dict) : Prop
  | said (v : V) (h : d "global" = some v) (hv : ¬Falsy v)
  | short (hk : k = .ll) (h : d "global" = none) (ha : d "area" = none)
  | globe (a : V) (ha : AreaOf k d a) (h : Together (1 / 100000000) a GLOBE)

/-- The increment in longitude. -/
inductive Increment (P : Py) (d : Dict) : Kind → ℚ → Prop
  | ll (g x : V) (xs : List V) (q : ℚ) (hg : asked d "grid" = some g) (hi : Items g (x :: xs)) (hx : Number x q) : Increment P d .ll |q|
  | rgg (g : List Char) (o : Char) (r : List Char) (n : Int) (hg : asked d "grid" = some (.str g)) (hs : Supported P .rgg (.str g))
      (hu : P.upper g = o :: r) (hn : P.pyInt r = some n) (h1 : 1 ≤ n) (h2 : n ≤ 1000000) :
      Increment P d .rgg (360 / (if o = 'O' then 4 * n + 16 else 4 * n))

/-- The grid goes round the globe: as known, or because west and east meet or are one increment short of it. -/
inductive GoesRound (P : Py) (k : Kind) (d : Dict) : Prop
  | flagged (h : Flagged k d)
  | meets (w e a : ℚ) (hw : Edge k d 1 w) (he : Edge k d 3 e) (ha : Eastward w e a) (h : a < 1 / 100000000 ∨ 360 - a < 1 / 100000000)
  | increment (w e a x : ℚ) (hw : Edge k d 1 w) (he : Edge k d 3 e) (ha : Eastward w e a) (hx : Increment P d k x)
      (h : |360 - a - x| < 1 / 100000000)

/-- The wests are the same up to whole turns and `eps` (measured between 0 and 360). -/
inductive WestTogether (eps : ℚ) (k : Kind) (d e : Dict) : Prop
  | mk (w w' u u' : ℚ) (hw : Edge k d 1 w) (hw' : Edge k e 1 w') (hu : Congruent w u ∧ 0 ≤ u ∧ u < 360) (hu' : Congruent w' u' ∧ 0 ≤ u' ∧ u' < 360)
      (h : |u - u'| < eps)

/-- An edge is the same up to `eps`. -/
inductive EdgeTogether (eps : ℚ) (k : Kind) (d e : Dict) (i : Nat) : Prop
  | mk (p q : ℚ) (hp : Edge k d i p) (hq : Edge k e i q) (h : |p - q| < eps)

/-- What all types have in common. -/
structure Common (P : Py) (d e : Dict) : Prop where
  grid : ∃ a b, asked d "grid" = some a ∧ asked e "grid" = some b ∧ GridAgree P a b
  flags : ∀ k ∈ ["i_scans_negatively", "j_points_consecutive", "j_scans_positively"],
    ∃ a b, asked d k = some a ∧ asked e k = some b ∧ Agree P a b
  shape : ∀ a b, d "shape" = some a → e "shape" = some b → Equal (asList a) (asList b)

/-- A HEALPix name with its number, and the order. -/
inductive HealpixOrder (P : Py) (d : Dict) (o : List Char) : Prop
  | mk (c x : Char) (r : List Char) (n : Int) (hg : asked d "grid" = some (.str (c :: x :: r))) (hc : c ∈ ['H', 'h'])
      (hx : P.C.isDigit x = true) (hn : P.pyInt (x :: r) = some n) (h1 : 1 ≤ n) (h2 : n ≤ 1000000)
      (hv : o ∈ ["ring".toList, "nested".toList]) (ho : askedOrder d = .str o)

/-- Two dicts describe the same grid. -/
inductive Matches (P : Py) (d e : Dict) : Prop
  | orca (hd : IsKind P d .orca) (he : IsKind P e .orca) (h : Common P d e)
  | healpix (hd : IsKind P d .healpix) (he : IsKind P e .healpix) (h : Common P d e) (o : List Char) (ho : HealpixOrder P d o)
      (ho' : HealpixOrder P e o)
  | rggSame (hd : IsKind P d .rgg) (he : IsKind P e .rgg) (h : Common P d e) (a b : V) (ha : AreaOf .rgg d a) (hb : AreaOf .rgg e b)
      (hab : Together (12 / 100) a b)
  | rggGlobal (hd : IsKind P d .rgg) (he : IsKind P e .rgg) (h : Common P d e) (a b : V) (ha : AreaOf .rgg d a) (hb : AreaOf .rgg e b)
      (hab : Differ (12 / 100) a b) (gd : GoesRound P .rgg d) (ge : GoesRound P .rgg e) (hw : WestTogether (12 / 100) .rgg d e)
  | llSame (hd : IsKind P d .ll) (he : IsKind P e .ll) (h : Common P d e) (a b : V) (ha : AreaOf .ll d a) (hb : AreaOf .ll e b)
      (hab : Together (1 / 100000000) a b)
  | llGlobal (hd : IsKind P d .ll) (he : IsKind P e .ll) (h : Common P d e) (a b : V) (ha : AreaOf .ll d a) (hb : AreaOf .ll e b)
      (hab : Differ (1 / 100000000) a b) (hn : EdgeTogether (1 / 100000000) .ll d e 0) (hs : EdgeTogether (1 / 100000000) .ll d e 2)
      (gd : GoesRound P .ll d) (ge : GoesRound P .ll e) (hw : WestTogether (1 / 100000000) .ll d e)

/-! ## Values -/

theorem seq_iff (v : V) (xs : List V) : v.seq = .ok xs ↔ Items v xs := by
  constructor
  · intro h
    cases v <;> simp only [V.seq, reduceCtorEq, Except.ok.injEq] at h
    · subst h; exact .str _
    · subst h; exact .list _
    · subst h; exact .tuple _
  · rintro ⟨⟩ <;> rfl

theorem items_unique {v : V} {xs ys : List V} (h : Items v xs) (h' : Items v ys) : xs = ys := by
  rw [← seq_iff] at h h'
  rw [h] at h'
  exact Except.ok.inj h'

theorem truthy_iff (v : V) : v.truthy = true ↔ ¬Falsy v := by
  constructor
  · rintro h ⟨⟩ <;> simp [V.truthy] at h
  · intro h
    cases v with
    | none => exact absurd .none h
    | bool b => cases b with
      | false => exact absurd .bool h
      | true => rfl
    | int i =>
      by_cases hi : i = 0
      · subst hi; exact absurd .int h
      · simp [V.truthy, hi]
    | flt q =>
      by_cases hi : q = 0
      · subst hi; exact absurd .flt h
      · simp [V.truthy, hi]
    | str s => cases s with
      | nil => exact absurd .str h
      | cons => rfl
    | list s => cases s with
      | nil => exact absurd .list h
      | cons => rfl
    | tuple s => cases s with
      | nil => exact absurd .tuple h
      | cons => rfl

theorem close_iff (atol p q : ℚ) : close atol p q = true ↔ Close atol p q := by
  unfold close Close
  rw [decide_eq_true_iff]

theorem isInt_iff (v : V) : v.isInt = true ↔ pyType v = .integer := by
  cases v <;> simp [V.isInt, pyType]

theorem agree_iff (P : Py) (k : String) (hk : k ≠ "grid") (a b : V) : compareKey P k a b = .ok true ↔ Agree P a b := by
  have hint : ∀ a b : V, pyType a = .integer → pyType b = .integer → (pyEq a b = true ↔ Agree P a b) := by
    intro a b ta tb
    rw [pyEq_iff]
    constructor
    · intro h
      cases h with
      | num ha hb => exact .integers a b _ ta tb ha hb
      | _ => cases ta
    · intro h
      cases h with
      | integers _ _ _ _ _ ha hb => exact .num ha hb
      | printed _ _ ht _ =>
        rcases ht with ht | ht
        · exact absurd (ta.trans tb.symm) ht
        · rw [ta] at ht; cases ht
      | _ => cases ta
  have hpr : ∀ a b : V, pyType a ≠ pyType b ∨ pyType a = .other → (P.pyStr a = P.pyStr b ↔ Agree P a b) := by
    intro a b ht
    constructor
    · exact .printed a b ht
    · intro h
      cases h with
      | printed _ _ _ h => exact h
      | integers _ _ _ ta tb _ _ =>
        rcases ht with ht | ht
        · exact absurd (ta.trans tb.symm) ht
        · rw [ta] at ht; cases ht
      | _ => rcases ht with ht | ht <;> simp [pyType] at ht
  have hl : ∀ as bs : List V, pyEqL as bs = true ↔ Agree P (.list as) (.list bs) := by
    intro as bs
    have : pyEqL as bs = pyEq (.list as) (.list bs) := by simp [pyEq]
    rw [this, pyEq_iff]
    constructor
    · exact .lists as bs
    · intro h
      cases h with
      | lists _ _ h => exact h
      | integers _ _ _ ta _ _ _ => cases ta
      | printed _ _ ht _ => rcases ht with ht | ht <;> simp [pyType] at ht
  have hs : ∀ x y : List Char, x = y ↔ Agree P (.str x) (.str y) := by
    intro x y
    constructor
    · rintro rfl; exact .text x
    · intro h
      cases h with
      | text => rfl
      | integers _ _ _ ta _ _ _ => cases ta
      | printed _ _ ht _ => rcases ht with ht | ht <;> simp [pyType] at ht
  have hf : ∀ p q : ℚ, close (1 / 100000000) p q = true ↔ Agree P (.flt p) (.flt q) := by
    intro p q
    rw [close_iff]
    constructor
    · exact .floats p q
    · intro h
      cases h with
      | floats _ _ h => exact h
      | integers _ _ _ ta _ _ _ => cases ta
      | printed _ _ ht _ => rcases ht with ht | ht <;> simp [pyType] at ht
  cases a <;> cases b <;>
    simp only [compareKey, if_neg hk, V.isInt, Bool.and_self, Bool.and_false, Bool.and_true, Bool.false_eq_true, ↓reduceIte, Except.ok.injEq] <;>
    first
    | exact hint _ _ rfl rfl
    | exact hl _ _
    | exact hf _ _
    | exact beq_iff_eq.trans (hs _ _)
    | exact beq_iff_eq.trans (hpr _ _ (.inr rfl))
    | (refine beq_iff_eq.trans (hpr _ _ (.inl ?_)); intro h; cases h)

theorem nums_iff (xs : List V) (ps : List ℚ) : nums xs = .ok ps ↔ List.Forall₂ Number xs ps := by
  induction xs generalizing ps with
  | nil =>
    simp only [nums, ok_ok]
    constructor
    · rintro rfl; exact .nil
    · rintro ⟨⟩; rfl
  | cons x xs ih =>
    simp only [nums, bind_ok, pure_ok, numM_ok, num_iff, ih]
    constructor
    · rintro ⟨q, hq, qs, hqs, rfl⟩
      exact .cons hq hqs
    · rintro ⟨⟩
      exact ⟨_, by assumption, _, by assumption, rfl⟩

theorem zip_close (ps qs : List ℚ) (hl : ps.length = qs.length) :
    ((ps.zip qs).all (fun p => close (1 / 1000000) p.1 p.2)) = true ↔ List.Forall₂ (Close (1 / 1000000)) ps qs := by
  induction ps generalizing qs with
  | nil =>
    cases qs with
    | nil => simp
    | cons => simp at hl
  | cons p ps ih =>
    cases qs with
    | nil => simp at hl
    | cons q qs =>
      simp only [List.zip_cons_cons, List.all_cons, Bool.and_eq_true, close_iff, List.forall₂_cons]
      rw [ih qs (by simpa using hl)]

theorem allclose_iff (as bs : List V) : allclose as bs = .ok true ↔ ∃ ps qs, List.Forall₂ Number as ps ∧ List.Forall₂ Number bs qs ∧
    (List.Forall₂ (Close (1 / 1000000)) ps qs ∨ (∃ p, ps = [p] ∧ ∀ q ∈ qs, Close (1 / 1000000) p q) ∨
        ∃ q, qs = [q] ∧ ∀ p ∈ ps, Close (1 / 1000000) p q) := by
  unfold allclose
  simp only [bind_ok, nums_iff]
  refine exists_congr fun ps => ?_
  rw [← exists_and_left]
  refine exists_congr fun qs => and_congr_right fun _ => and_congr_right fun _ => ?_
  by_cases hl : ps.length = qs.length
  · rw [if_pos hl, pure_ok, zip_close ps qs hl]
    constructor
    · exact .inl
    · rintro (h | ⟨p, rfl, h⟩ | ⟨q, rfl, h⟩)
      · exact h
      · obtain ⟨q, rfl⟩ := List.length_eq_one_iff.mp hl.symm
        exact .cons (h q (by simp)) .nil
      · obtain ⟨p, rfl⟩ := List.length_eq_one_iff.mp hl
        exact .cons (h p (by simp)) .nil
  · rw [if_neg hl]
    have hn : ¬List.Forall₂ (Close (1 / 1000000)) ps qs := fun h => hl h.length_eq
    by_cases h1 : ∃ p, ps = [p]
    · obtain ⟨p, rfl⟩ := h1
      simp only [pure_ok, List.all_eq_true, close_iff]
      constructor
      · exact fun h => .inr (.inl ⟨p, rfl, h⟩)
      · rintro (h | ⟨p', hp, h⟩ | ⟨q, rfl, h⟩)
        · exact absurd h hn
        · cases hp; exact h
        · exact absurd rfl hl
    · by_cases h2 : ∃ q, qs = [q]
      · obtain ⟨q, rfl⟩ := h2
        suffices hp : ((pure (ps.all (fun x => close (1 / 1000000) x q)) : M Bool) = .ok true) ↔
            (List.Forall₂ (Close (1 / 1000000)) ps [q] ∨ (∃ p, ps = [p] ∧ ∀ q' ∈ [q], Close (1 / 1000000) p q') ∨
              ∃ q', [q] = [q'] ∧ ∀ p ∈ ps, Close (1 / 1000000) p q') by
          rcases ps with _ | ⟨p, _ | ⟨p', ps⟩⟩
          · exact hp
          · exact absurd ⟨p, rfl⟩ h1
          · exact hp
        simp only [pure_ok, List.all_eq_true, close_iff]
        constructor
        · exact fun h => .inr (.inr ⟨q, rfl, h⟩)
        · rintro (h | ⟨p', hp, h⟩ | ⟨q', hq, h⟩)
          · exact absurd h hn
          · exact absurd ⟨p', hp⟩ h1
          · cases hq; exact h
      · constructor
        · intro h
          exfalso
          rcases ps with _ | ⟨p, _ | ⟨p', ps⟩⟩
          · rcases qs with _ | ⟨q, _ | ⟨q', qs⟩⟩
            · exact hl rfl
            · exact h2 ⟨q, rfl⟩
            · cases h
          · exact h1 ⟨p, rfl⟩
          · rcases qs with _ | ⟨q, _ | ⟨q', qs⟩⟩
            · cases h
            · exact h2 ⟨q, rfl⟩
            · cases h
        · rintro (h | ⟨p', hp, h⟩ | ⟨q', hq, h⟩)
          · exact absurd h hn
          · exact absurd ⟨p', hp⟩ h1
          · exact absurd ⟨q', hq⟩ h2

theorem gridAgree_iff (P : Py) (a b : V) : compareKey P "grid" a b = .ok true ↔ GridAgree P a b := by
  have hrest : ¬(pyType a = .text ∧ pyType b = .text) → ¬(pyType a = .list ∧ pyType b = .list) →
      (Agree P a b ↔ GridAgree P a b) := by
    intro h1 h2
    constructor
    · exact .others a b h1 h2
    · intro h
      cases h with
      | names => exact absurd ⟨rfl, rfl⟩ h1
      | numbers => exact absurd ⟨rfl, rfl⟩ h2
      | others _ _ _ _ h => exact h
  by_cases h1 : pyType a = .text ∧ pyType b = .text
  · cases a <;> simp only [pyType, reduceCtorEq, false_and] at h1
    cases b <;> simp only [reduceCtorEq, and_false] at h1
    simp only [compareKey, ↓reduceIte, Except.ok.injEq, beq_iff_eq]
    constructor
    · exact .names _ _
    · intro h
      cases h with
      | names _ _ h => exact h
      | others _ _ h => exact absurd ⟨rfl, rfl⟩ h
  · by_cases h2 : pyType a = .list ∧ pyType b = .list
    · cases a <;> simp only [pyType, reduceCtorEq, false_and] at h2
      cases b <;> simp only [reduceCtorEq, and_false] at h2
      simp only [compareKey, ↓reduceIte, allclose_iff]
      constructor
      · rintro ⟨ps, qs, ha, hb, h⟩
        exact .numbers _ _ ps qs ha hb h
      · intro h
        cases h with
        | numbers _ _ ps qs ha hb h => exact ⟨ps, qs, ha, hb, h⟩
        | others _ _ _ h => exact absurd ⟨rfl, rfl⟩ h
    · rw [← hrest h1 h2, ← agree_iff P "x" (by decide)]
      cases a <;> cases b <;> first
        | rfl
        | exact absurd ⟨rfl, rfl⟩ h1
        | exact absurd ⟨rfl, rfl⟩ h2

/-! ## Types -/

theorem typeName_eq (k : Kind) : (typeName k).toList = k.name := by cases k <;> rfl

theorem infer_iff (P : Py) (d : Dict) (k : Kind) : infer P TYPES (normalise (withDefaults d)) = .ok k ↔ IsKind P d k := by
  by_cases ht : d "type" = none ∨ d "type" = some .none
  · have hrest : IsKind P d k ↔ ∃ g, d "grid" = some g ∧ Supported P k (asList g) := by
      constructor
      · rintro (h | ⟨_, g, hg, h⟩)
        · rw [h] at ht
          simp at ht
        · exact ⟨g, hg, h⟩
      · rintro ⟨g, hg, h⟩
        exact .inferred ht g hg h
    rw [hrest]
    cases hg : d "grid" with
    | some g => rw [C30_inferred_iff P d g k hg ht]; simp
    | none =>
      have h1 : ((normalise (withDefaults d)) "type").getD .none = .none := by
        rcases ht with h | h <;> simp [normalise, withDefaults, h, DEFAULTS, tupleToList]
      have h2 : (normalise (withDefaults d)).item "grid" = .error .key := by
        simp [Dict.item, normalise, withDefaults, hg, DEFAULTS]
      unfold infer
      rw [h1]
      simp [h2, bind, Except.bind]
  · rw [not_or] at ht
    obtain ⟨v, hv⟩ := Option.ne_none_iff_exists'.mp ht.1
    have hvn : v ≠ .none := fun h => ht.2 (by rw [hv, h])
    have hrest : IsKind P d k ↔ v = .str k.name := by
      rw [← typeName_eq]
      constructor
      · rintro (h | ⟨h, _⟩)
        · rw [hv] at h; exact Option.some.inj h
        · rcases h with h | h <;> rw [hv] at h
          · cases h
          · exact absurd (Option.some.inj h) hvn
      · rintro rfl
        exact .named hv
    rw [hrest]
    have h1 : ((normalise (withDefaults d)) "type").getD .none = tupleToList v := by
      simp [normalise, withDefaults, hv]
    unfold infer
    rw [h1]
    cases v <;> simp only [tupleToList, reduceCtorEq] <;> simp only [ne_eq, not_true_eq_false, reduceCtorEq] at hvn
    rename_i s
    cases hk : kindOf s with
    | some k' =>
      simp only [ok_ok, V.str.injEq]
      have hs : k'.name = s := by
        have := List.find?_some hk
        simpa using this
      constructor
      · rintro rfl; exact hs.symm
      · rintro rfl
        exact kind_name_inj _ _ hs
    | none =>
      simp only [reduceCtorEq, V.str.injEq, false_iff]
      rintro rfl
      rw [kindOf_name] at hk
      cases hk

theorem kind_iff (P : Py) (d : Dict) (s : GS) (hs : fromDict P d = .ok s) (k : Kind) : IsKind P d k ↔ s.kind = k := by
  obtain ⟨k', h1, h2⟩ := (fromDict_ok P d s).1 hs
  rw [← infer_iff, construct_kind _ _ _ h2, h1, ok_ok]

/-! ## What all types have in common -/

theorem common_iff (P : Py) (order : List String) (ho : Enumerates order) (d e : Dict) (s t : GS) (hs : fromDict P d = .ok s)
    (ht : fromDict P e = .ok t) : eqBase P order s.d t.d = .ok true ↔ s.kind = t.kind ∧ Common P d e := by
  rw [eqBase_true]
  have h1 : pyEq ((s.d "type").getD (.str [])) ((t.d "type").getD (.str [])) = true ↔ s.kind = t.kind := by
    rw [fromDict_type P d s hs, fromDict_type P e t ht]
    simp only [Option.getD_some, pyEq, beq_iff_eq]
    exact ⟨kind_name_inj _ _, fun h => by rw [h]⟩
  have h3 : shapesDiffer s.d t.d = false ↔ ∀ a b, d "shape" = some a → e "shape" = some b → Equal (asList a) (asList b) := by
    unfold shapesDiffer
    rw [asked_eq P d s hs _ (by decide) (by decide), asked_eq P e t ht _ (by decide) (by decide)]
    cases ha : d "shape" with
    | none => simp [asked, ha]
    | some a =>
      cases hb : e "shape" with
      | none => simp [asked, ha, hb]
      | some b =>
        simp only [asked, ha, hb, Bool.not_eq_false', pyEq_iff, Option.some.injEq]
        constructor
        · rintro h _ _ rfl rfl; exact h
        · exact fun h => h a b rfl rfl
  rw [h1, h3]
  have hE : ∀ p : String → Prop, (∀ k ∈ order, p k) ↔ p "type" ∧ p "grid" ∧ p "i_scans_negatively" ∧ p "j_points_consecutive" ∧
      p "j_scans_positively" := by
    intro p
    constructor
    · intro h
      exact ⟨h _ ((ho _).2 (by decide)), h _ ((ho _).2 (by decide)), h _ ((ho _).2 (by decide)), h _ ((ho _).2 (by decide)),
        h _ ((ho _).2 (by decide))⟩
    · rintro ⟨a, b, c, d, e⟩ k hk
      have := (ho k).1 hk
      simp only [COMPARE_KEYS, List.mem_cons, List.not_mem_nil, or_false] at this
      rcases this with rfl | rfl | rfl | rfl | rfl <;> assumption
  rw [hE]
  have hfl : ∀ k, Untouched k → k ≠ "type" → k ≠ "grid" → ((∃ a b, s.d k = some a ∧ t.d k = some b ∧ compareKey P k a b = .ok true) ↔
      ∃ a b, asked d k = some a ∧ asked e k = some b ∧ Agree P a b) := by
    intro k hu hk hg
    rw [asked_eq P d s hs _ hu hk, asked_eq P e t ht _ hu hk]
    simp only [agree_iff P k hg]
  have hgr : (∃ a b, s.d "grid" = some a ∧ t.d "grid" = some b ∧ compareKey P "grid" a b = .ok true) ↔
      ∃ a b, asked d "grid" = some a ∧ asked e "grid" = some b ∧ GridAgree P a b := by
    rw [asked_eq P d s hs _ (by decide) (by decide), asked_eq P e t ht _ (by decide) (by decide)]
    simp only [gridAgree_iff]
  have hty : s.kind = t.kind → ∃ a b, s.d "type" = some a ∧ t.d "type" = some b ∧ compareKey P "type" a b = .ok true := by
    intro h
    refine ⟨_, _, fromDict_type P d s hs, fromDict_type P e t ht, ?_⟩
    simp [compareKey, h]
  rw [hgr, hfl "i_scans_negatively" (by decide) (by decide) (by decide), hfl "j_points_consecutive" (by decide) (by decide) (by decide),
    hfl "j_scans_positively" (by decide) (by decide) (by decide)]
  constructor
  · rintro ⟨hk, ⟨_, hg, f1, f2, f3⟩, hsh⟩
    refine ⟨hk, hg, ?_, hsh⟩
    intro k hk
    simp only [List.mem_cons, List.not_mem_nil, or_false] at hk
    rcases hk with rfl | rfl | rfl <;> assumption
  · rintro ⟨hk, hg, hf, hsh⟩
    exact ⟨hk, ⟨hty hk, hg, hf _ (by simp), hf _ (by simp), hf _ (by simp)⟩, hsh⟩

/-! ## Areas -/

theorem near_iff (eps : ℚ) (x y : V) : sameCoord eps x y = .ok true ↔ Near eps x y := by
  rw [sameCoord_ok]
  simp only [num_iff]
  constructor
  · rintro ⟨p, q, hp, hq, h⟩
    exact ⟨p, q, hp, hq, of_decide_eq_true h.symm⟩
  · rintro ⟨p, q, hp, hq, h⟩
    exact ⟨p, q, hp, hq, (decide_eq_true h).symm⟩

theorem far_iff (eps : ℚ) (x y : V) : sameCoord eps x y = .ok false ↔ ∃ p q, Number x p ∧ Number y q ∧ ¬|p - q| < eps := by
  rw [sameCoord_ok]
  simp only [num_iff]
  refine exists_congr fun p => exists_congr fun q => and_congr_right fun _ => and_congr_right fun _ => ?_
  rw [eq_comm, decide_eq_false_iff_not]

theorem sameAreaL_true_iff (eps : ℚ) (xs ys : List V) (hl : xs.length = ys.length) :
    sameAreaL eps xs ys = .ok true ↔ List.Forall₂ (Near eps) xs ys := by
  induction xs generalizing ys with
  | nil =>
    cases ys with
    | nil => simp [sameAreaL]
    | cons => simp at hl
  | cons x xs ih =>
    cases ys with
    | nil => simp at hl
    | cons y ys =>
      simp only [sameAreaL, bind_ok, ite_ok, pure_ok, List.forall₂_cons]
      rw [← ih ys (by simpa using hl), ← near_iff]
      constructor
      · rintro ⟨b, hb, ⟨rfl, h⟩ | ⟨_, h⟩⟩
        · exact ⟨hb, h⟩
        · cases h
      · rintro ⟨hb, h⟩
        exact ⟨true, hb, .inl ⟨rfl, h⟩⟩

theorem sameAreaL_false_iff (eps : ℚ) (xs ys : List V) : sameAreaL eps xs ys = .ok false ↔ Apart eps xs ys := by
  induction xs generalizing ys with
  | nil =>
    cases ys <;> simp only [sameAreaL, ok_ok] <;> exact ⟨fun h => (by cases h), fun h => (by cases h)⟩
  | cons x xs ih =>
    cases ys with
    | nil => simp only [sameAreaL, ok_ok]; exact ⟨fun h => (by cases h), fun h => (by cases h)⟩
    | cons y ys =>
      simp only [sameAreaL, bind_ok, ite_ok, pure_ok, ih]
      constructor
      · rintro ⟨b, hb, ⟨rfl, h⟩ | ⟨h', _⟩⟩
        · exact .later x y xs ys ((near_iff eps x y).1 hb) h
        · obtain rfl : b = false := by simpa using h'
          obtain ⟨p, q, hp, hq, h⟩ := (far_iff eps x y).1 hb
          exact .here x y p q xs ys hp hq h
      · intro h
        cases h with
        | here _ _ p q _ _ hx hy h => exact ⟨false, (far_iff eps x y).2 ⟨p, q, hx, hy, h⟩, .inr ⟨by simp, trivial⟩⟩
        | later _ _ _ _ h hr => exact ⟨true, (near_iff eps x y).2 h, .inl ⟨rfl, hr⟩⟩

theorem together_iff (eps : ℚ) (a b : V) : sameArea eps a b = .ok true ↔ Together eps a b := by
  rw [sameArea_true]
  simp only [seq_iff]
  constructor
  · rintro ⟨xs, ys, ha, hb, hl, h⟩
    exact ⟨xs, ys, ha, hb, (sameAreaL_true_iff eps xs ys hl).1 h⟩
  · rintro ⟨xs, ys, ha, hb, h⟩
    exact ⟨xs, ys, ha, hb, h.length_eq, (sameAreaL_true_iff eps xs ys h.length_eq).2 h⟩

theorem differ_iff (eps : ℚ) (a b : V) : sameArea eps a b = .ok false ↔ Differ eps a b := by
  unfold sameArea
  simp only [bind_ok, ite_ok, pure_ok, seq_iff, sameAreaL_false_iff]
  constructor
  · rintro ⟨xs, ha, ys, hb, ⟨_, h⟩ | ⟨h, _⟩⟩
    · exact ⟨xs, ys, ha, hb, .inr h⟩
    · exact ⟨xs, ys, ha, hb, .inl h⟩
  · rintro ⟨xs, ys, ha, hb, h⟩
    refine ⟨xs, ha, ys, hb, ?_⟩
    by_cases hl : xs.length = ys.length
    · rcases h with h | h
      · exact absurd hl h
      · exact .inl ⟨hl, h⟩
    · exact .inr ⟨hl, trivial⟩

theorem table_listed : ∀ e ∈ GLOBAL_AREAS, e.1 ∈ LISTED := by decide +kernel

theorem globalArea_iff (x y a : V) : globalArea x y = .ok a ↔
    (∃ r ∈ LISTED, Number x r ∧ Number y r ∧ a = .list [.flt (north r), .int 0, .flt (-north r), .flt (east r)]) ∨
    (pyType x ≠ .list ∧ pyType y ≠ .list ∧ (¬∃ r ∈ LISTED, Number x r ∧ Number y r) ∧ a = GLOBE) := by
  by_cases hr : ∃ r ∈ LISTED, Number x r ∧ Number y r
  · obtain ⟨r, hm, hx, hy⟩ := hr
    rw [globalArea_listed x y r hm ((num_iff _ _).2 hx) ((num_iff _ _).2 hy), ok_ok]
    constructor
    · rintro rfl
      exact .inl ⟨r, hm, hx, hy, rfl⟩
    · rintro (⟨r', _, hx', _, rfl⟩ | ⟨_, _, h, _⟩)
      · rw [← num_iff] at hx hx'
        rw [hx] at hx'
        cases hx'
        rfl
      · exact absurd ⟨r, hm, hx, hy⟩ h
  · have hnone : ∀ p q, x.num = some p → y.num = some q → GLOBAL_AREAS.find? (fun e => e.1 == p && e.1 == q) = none := by
      intro p q hp hq
      rw [List.find?_eq_none]
      intro e he h
      simp only [Bool.and_eq_true, beq_iff_eq] at h
      exact hr ⟨e.1, table_listed e he, (num_iff _ _).1 (by rw [h.1]; exact hp), (num_iff _ _).1 (by rw [h.2]; exact hq)⟩
    have key : globalArea x y = if pyType x = .list ∨ pyType y = .list then .error .type else .ok GLOBE := by
      unfold globalArea
      cases x <;> cases y <;> simp only [pyType, reduceCtorEq, or_true, true_or, or_false, ↓reduceIte] <;>
        first
        | rfl
        | (simp only [V.num]; rfl)
        | (simp only [V.num] at hnone ⊢; rw [hnone _ _ rfl rfl]; rfl)
    rw [key]
    by_cases hl : pyType x = .list ∨ pyType y = .list
    · rw [if_pos hl]
      simp only [reduceCtorEq, false_iff]
      rintro (⟨r, hm, hx, hy, _⟩ | ⟨h1, h2, _⟩)
      · exact hr ⟨r, hm, hx, hy⟩
      · rcases hl with h | h
        · exact h1 h
        · exact h2 h
    · rw [if_neg hl, ok_ok]
      rw [not_or] at hl
      constructor
      · rintro rfl
        exact .inr ⟨hl.1, hl.2, hr, rfl⟩
      · rintro (⟨r, hm, hx, hy, _⟩ | ⟨_, _, _, rfl⟩)
        · exact absurd ⟨r, hm, hx, hy⟩ hr
        · rfl

theorem item_iff (v : V) (i : Nat) (x : V) : v.item i = .ok x ↔ ∃ xs, Items v xs ∧ xs[i]? = some x := by
  unfold V.item
  cases h : v.seq with
  | error e =>
    simp only [reduceCtorEq, false_iff]
    rintro ⟨xs, hx, _⟩
    rw [← seq_iff, h] at hx
    cases hx
  | ok xs =>
    have hx := (seq_iff v xs).1 h
    cases hi : xs[i]? with
    | none =>
      constructor
      · intro h
        simp only [hi] at h
        cases h
      · rintro ⟨ys, hy, h⟩
        rw [← items_unique hx hy, hi] at h
        cases h
    | some y =>
      simp only [hi, ok_ok]
      constructor
      · rintro rfl; exact ⟨xs, hx, hi⟩
      · rintro ⟨ys, hy, h⟩
        rw [← items_unique hx hy, hi] at h
        exact Option.some.inj h

/-- What the constructors start from. -/
def base (k : Kind) (d : Dict) : Dict := (normalise (withDefaults d)).set "type" (.str k.name)

theorem base_eq (k : Kind) (d : Dict) (x : String) (hx : x ≠ "type") : base k d x = asked d x := by
  unfold base asked normalise withDefaults
  simp only [Dict.set, if_neg hx]
  cases d x with
  | some v => simp [tupleToList_eq]
  | none =>
    simp only [DEFAULTS, List.mem_cons, List.not_mem_nil, or_false]
    split <;> rfl

theorem asked_map (d : Dict) (x : String) (hx : x ∉ ["i_scans_negatively", "j_points_consecutive", "j_scans_positively"]) :
    asked d x = (d x).map asList := by
  unfold asked
  cases d x with
  | some v => rfl
  | none => simp only [if_neg hx]; rfl

/-- What `flagGlobal` needs of the area. -/
theorem flag_iff (d : Dict) (a : V) (ha : d "area" = some a) (f : Option Bool) : flagGlobal d = .ok f ↔
    ((∃ v, d "global" = some v ∧ ¬Falsy v) ∧ f = some true) ∨
    (¬(∃ v, d "global" = some v ∧ ¬Falsy v) ∧
      ((Together (1 / 100000000) a GLOBE ∧ f = some true) ∨ (Differ (1 / 100000000) a GLOBE ∧ f = none))) := by
  have ht : ((d "global").getD (.int 0)).truthy = true ↔ ∃ v, d "global" = some v ∧ ¬Falsy v := by
    cases h : d "global" with
    | none => simp [V.truthy]
    | some v => simp [truthy_iff]
  unfold flagGlobal
  by_cases h : ∃ v, d "global" = some v ∧ ¬Falsy v
  · rw [if_pos (ht.2 h), ok_ok]
    constructor
    · rintro rfl; exact .inl ⟨h, rfl⟩
    · rintro (⟨_, rfl⟩ | ⟨hn, _⟩)
      · rfl
      · exact absurd h hn
  · rw [if_neg (fun hh => h (ht.1 hh))]
    simp only [bind_ok, item_ok, pure_ok, ha, Option.some.injEq, exists_eq_left']
    constructor
    · rintro ⟨b, hb, rfl⟩
      refine .inr ⟨h, ?_⟩
      cases b with
      | true => exact .inl ⟨(together_iff _ _ _).1 hb, rfl⟩
      | false => exact .inr ⟨(differ_iff _ _ _).1 hb, rfl⟩
    · rintro (⟨hh, _⟩ | ⟨_, ⟨hb, rfl⟩ | ⟨hb, rfl⟩⟩)
      · exact absurd hh h
      · exact ⟨true, (together_iff _ _ _).2 hb, rfl⟩
      · exact ⟨false, (differ_iff _ _ _).2 hb, rfl⟩

/-- The description can be used for a lat-lon or reduced Gaussian grid: it says it is global, or its area can be compared with the globe. -/
inductive Readable (k : Kind) (d : Dict) : Prop
  | said (v a : V) (h : d "global" = some v) (hv : ¬Falsy v) (ha : AreaOf k d a)
  | short (hk : k = .ll) (h : d "global" = none) (h' : d "area" = none) (a : V) (ha : AreaOf k d a)
  | same (a : V) (ha : AreaOf k d a) (h : Together (1 / 100000000) a GLOBE)
  | differ (a : V) (ha : AreaOf k d a) (h : Differ (1 / 100000000) a GLOBE)

theorem falsy_asList (v : V) : Falsy (asList v) ↔ Falsy v := by
  cases v with
  | tuple xs =>
    constructor
    · intro h; cases h; exact .tuple
    · intro h; cases h; exact .list
  | _ => exact Iff.rfl

theorem said_iff (d : Dict) : (∃ v, asked d "global" = some v ∧ ¬Falsy v) ↔ ∃ v, d "global" = some v ∧ ¬Falsy v := by
  rw [asked_map d "global" (by decide)]
  cases d "global" with
  | none => simp
  | some v => simp [falsy_asList]

theorem area_unique {k : Kind} {d : Dict} {a b : V} (ha : AreaOf k d a) (hb : AreaOf k d b) : a = b := by
  have hit : ∀ {g g' x y x' y' : V} {xs xs' : List V}, asked d "grid" = some g → asked d "grid" = some g' → Items g (x :: y :: xs) →
      Items g' (x' :: y' :: xs') → x = x' ∧ y = y' := by
    intro g g' x y x' y' xs xs' h h' hi hi'
    rw [h] at h'
    cases h'
    have := items_unique hi hi'
    simp only [List.cons.injEq] at this
    exact ⟨this.1, this.2.1⟩
  cases ha with
  | given a h =>
    cases hb with
    | given b h' => rw [h] at h'; cases h'; rfl
    | whole h' => rw [h] at h'; cases h'
    | listed _ h' => rw [h] at h'; cases h'
    | unlisted _ h' => rw [h] at h'; cases h'
  | whole h hk =>
    cases hb with
    | given b h' => rw [h] at h'; cases h'
    | whole => rfl
    | unlisted => rfl
    | listed hk' _ hg => rcases hk with hk | hk <;> contradiction
  | listed hk h hg g xs x y r hgrid hi hx hy hr =>
    cases hb with
    | given b h' => rw [h] at h'; cases h'
    | whole _ hk' => rcases hk' with hk' | hk' <;> contradiction
    | listed _ _ _ g' xs' x' y' r' hgrid' hi' hx' hy' hr' =>
      obtain ⟨rfl, rfl⟩ := hit hgrid hgrid' hi hi'
      rw [← num_iff] at hx hx'
      rw [hx] at hx'
      cases hx'
      rfl
    | unlisted _ _ _ g' xs' x' y' hgrid' hi' _ _ hr' =>
      obtain ⟨rfl, rfl⟩ := hit hgrid hgrid' hi hi'
      exact absurd ⟨r, hr, hx, hy⟩ hr'
  | unlisted hk h hg g xs x y hgrid hi _ _ hr =>
    cases hb with
    | given b h' => rw [h] at h'; cases h'
    | whole => rfl
    | unlisted => rfl
    | listed _ _ _ g' xs' x' y' r' hgrid' hi' hx' hy' hr' =>
      obtain ⟨rfl, rfl⟩ := hit hgrid hgrid' hi hi'
      exact absurd ⟨r', hr', hx', hy'⟩ hr

/-- The constructors of lat-lon and reduced Gaussian grids. -/
theorem construct_iff (k : Kind) (hk : k = .ll ∨ k = .rgg) (d : Dict) (s : GS) (h : construct k (base k d) = .ok s) :
    (∃ a, s.d "area" = some a ∧ AreaOf k d a) ∧ Readable k d ∧ (Flagged k d → s.gew = some true) ∧ (¬Flagged k d → s.gew = none) := by
  have hA := asked_map d "area" (by decide)
  have hG := asked_map d "global" (by decide)
  have bA := base_eq k d "area" (by decide)
  have bG := base_eq k d "global" (by decide)
  have bgrid := base_eq k d "grid" (by decide)
  -- what follows from the dict and area the flag is computed from
  have fin : ∀ (d' : Dict) (a : V) (f : Option Bool), d' "area" = some a → AreaOf k d a →
      ((∃ v, d' "global" = some v ∧ ¬Falsy v) ↔ (∃ v, d "global" = some v ∧ ¬Falsy v) ∨ (k = .ll ∧ d "global" = none ∧ d "area" = none)) →
      flagGlobal d' = .ok f → Readable k d ∧ (Flagged k d → f = some true) ∧ (¬Flagged k d → f = none) := by
    intro d' a f ha hof hsaid hf
    rw [flag_iff d' a ha] at hf
    rcases hf with ⟨hs, rfl⟩ | ⟨hs, ⟨ht, rfl⟩ | ⟨ht, rfl⟩⟩
    · rcases hsaid.1 hs with ⟨v, hv, hvf⟩ | ⟨h1, h2, h3⟩
      · exact ⟨.said v a hv hvf hof, fun _ => rfl, fun hn => absurd (.said v hv hvf) hn⟩
      · exact ⟨.short h1 h2 h3 a hof, fun _ => rfl, fun hn => absurd (.short h1 h2 h3) hn⟩
    · exact ⟨.same a hof ht, fun _ => rfl, fun hn => absurd (.globe a hof ht) hn⟩
    · refine ⟨.differ a hof ht, ?_, fun _ => rfl⟩
      rintro (⟨v, hv, hvf⟩ | ⟨h1, h2, h3⟩ | ⟨b, hb, htb⟩)
      · exact absurd (hsaid.2 (.inl ⟨v, hv, hvf⟩)) hs
      · exact absurd (hsaid.2 (.inr ⟨h1, h2, h3⟩)) hs
      · rw [area_unique hb hof, ← together_iff] at htb
        rw [← differ_iff, htb] at ht
        cases ht
  -- area given or the globe
  have plain : (k ≠ .ll ∨ d "global" ≠ none ∨ d "area" ≠ none) → ∀ f, flagGlobal ((base k d).setDefault "area" DEFAULT_AREA) = .ok f →
      (∃ a, ((base k d).setDefault "area" DEFAULT_AREA) "area" = some a ∧ AreaOf k d a) ∧
      Readable k d ∧ (Flagged k d → f = some true) ∧ (¬Flagged k d → f = none) := by
    intro hne f hf
    have hglob : ((base k d).setDefault "area" DEFAULT_AREA) "global" = asked d "global" := by
      unfold Dict.setDefault
      split
      · exact bG
      · simp only [Dict.set, if_neg (show "global" ≠ "area" by decide)]; exact bG
    have hsaid : (∃ v, ((base k d).setDefault "area" DEFAULT_AREA) "global" = some v ∧ ¬Falsy v) ↔
        (∃ v, d "global" = some v ∧ ¬Falsy v) ∨ (k = .ll ∧ d "global" = none ∧ d "area" = none) := by
      rw [hglob, said_iff]
      constructor
      · exact .inl
      · rintro (h | ⟨h1, h2, h3⟩)
        · exact h
        · rcases hne with h | h | h <;> contradiction
    cases ha : d "area" with
    | some a =>
      have harea : ((base k d).setDefault "area" DEFAULT_AREA) "area" = some (asList a) := by
        rw [setDefault_of_some _ _ _ (by rw [bA, hA, ha]; rfl), bA, hA, ha]; rfl
      exact ⟨⟨_, harea, .given a ha⟩, fin _ _ f harea (.given a ha) hsaid hf⟩
    | none =>
      have harea : ((base k d).setDefault "area" DEFAULT_AREA) "area" = some GLOBE := by
        unfold Dict.setDefault
        rw [bA, hA, ha]
        simp only [Option.map_none, Option.isSome_none, Bool.false_eq_true, ↓reduceIte, Dict.set]
        rfl
      have hw : AreaOf k d GLOBE := by
        refine .whole ha ?_
        rcases hne with h | h | h
        · exact .inl h
        · exact .inr h
        · exact absurd ha h
      exact ⟨⟨_, harea, hw⟩, fin _ _ f harea hw hsaid hf⟩
  rcases hk with rfl | rfl
  · simp only [construct, bind_ok, pure_ok] at h
    obtain ⟨d1, hd1, f, hf, rfl⟩ := h
    by_cases hsh : d "global" = none ∧ d "area" = none
    · have hc : ((base .ll d "global").isNone && (base .ll d "area").isNone) = true := by
        rw [bG, bA, hG, hA, hsh.1, hsh.2]; rfl
      unfold llArea at hd1
      rw [if_pos hc] at hd1
      simp only [bind_ok, pure_ok, item_ok, item_iff] at hd1
      obtain ⟨g, hg, x, ⟨xs, hxs, hx⟩, y, ⟨ys, hys, hy⟩, a, ha, rfl⟩ := hd1
      rw [bgrid] at hg
      have := items_unique hxs hys
      subst this
      obtain ⟨rest, rfl⟩ : ∃ rest, xs = x :: y :: rest := by
        rcases xs with _ | ⟨x', _ | ⟨y', rest⟩⟩
        · cases hx
        · cases hy
        · cases hx; cases hy; exact ⟨rest, rfl⟩
      have hof : AreaOf .ll d a := by
        rcases (globalArea_iff x y a).1 ha with ⟨r, hm, hx, hy, rfl⟩ | ⟨h1, h2, h3, rfl⟩
        · exact .listed rfl hsh.2 hsh.1 g rest x y r hg hxs hx hy hm
        · exact .unlisted rfl hsh.2 hsh.1 g rest x y hg hxs h1 h2 h3
      have e : ((((base .ll d).set "global" (.int 1)).set "area" a).setDefault "area" DEFAULT_AREA) =
          (((base .ll d).set "global" (.int 1)).set "area" a) := setDefault_of_some _ _ _ (by simp [Dict.set])
      rw [e] at hf ⊢
      have harea : (((base .ll d).set "global" (.int 1)).set "area" a) "area" = some a := by simp [Dict.set]
      refine ⟨⟨a, harea, hof⟩, fin _ a f harea hof ?_ hf⟩
      constructor
      · exact fun _ => .inr ⟨rfl, hsh.1, hsh.2⟩
      · exact fun _ => ⟨.int 1, by simp [Dict.set], fun h => by cases h⟩
    · have hc : ¬((base .ll d "global").isNone && (base .ll d "area").isNone) = true := by
        rw [bG, bA, hG, hA]
        intro h
        simp only [Option.isNone_map, Bool.and_eq_true, Option.isNone_iff_eq_none] at h
        exact hsh h
      unfold llArea at hd1
      rw [if_neg hc, pure_ok] at hd1
      subst hd1
      apply plain _ f hf
      by_cases hh : d "global" = none
      · exact .inr (.inr (fun h => hsh ⟨hh, h⟩))
      · exact .inr (.inl hh)
  · simp only [construct, bind_ok, pure_ok] at h
    obtain ⟨f, hf, rfl⟩ := h
    exact plain (.inl (by decide)) f hf

theorem fromDict_base (P : Py) (d : Dict) (s : GS) : fromDict P d = .ok s ↔ ∃ k, IsKind P d k ∧ construct k (base k d) = .ok s := by
  rw [fromDict_ok]
  simp only [infer_iff]
  rfl

theorem area_iff (P : Py) (d : Dict) (s : GS) (hs : fromDict P d = .ok s) (hk : s.kind = .ll ∨ s.kind = .rgg) (a : V) :
    s.d "area" = some a ↔ AreaOf s.kind d a := by
  obtain ⟨k, h1, h2⟩ := (fromDict_base P d s).1 hs
  have := construct_kind _ _ _ h2
  subst this
  obtain ⟨⟨b, hb, hof⟩, _⟩ := construct_iff s.kind hk d s h2
  constructor
  · intro h
    rw [hb] at h
    cases h
    exact hof
  · intro h
    rw [hb, area_unique hof h]

theorem edge_iff (P : Py) (d : Dict) (s : GS) (hs : fromDict P d = .ok s) (hk : s.kind = .ll ∨ s.kind = .rgg) (i : Nat) (q : ℚ) :
    coord s i = .ok q ↔ Edge s.kind d i q := by
  unfold coord
  simp only [bind_ok, item_ok, numM_ok, num_iff, item_iff, area_iff P d s hs hk]
  constructor
  · rintro ⟨a, ha, x, ⟨xs, hxs, hx⟩, hq⟩
    exact ⟨a, xs, x, ha, hxs, hx, hq⟩
  · rintro ⟨a, xs, x, ha, hxs, hx, hq⟩
    exact ⟨a, ha, x, ⟨xs, hxs, hx⟩, hq⟩

theorem increment_iff (P : Py) (d : Dict) (s : GS) (hs : fromDict P d = .ok s) (hk : s.kind = .ll ∨ s.kind = .rgg) (x : ℚ) :
    dx P s = .ok x ↔ Increment P d s.kind x := by
  have hg := asked_eq P d s hs "grid" (by decide) (by decide)
  unfold dx
  rcases hk with hk | hk <;> rw [hk]
  · simp only [bind_ok, item_ok, numM_ok, num_iff, item_iff, pure_ok, hg]
    constructor
    · rintro ⟨g, hg, v, ⟨xs, hxs, hv⟩, q, hq, rfl⟩
      rcases xs with _ | ⟨v', xs⟩
      · cases hv
      · cases hv
        exact .ll g v xs q hg hxs hq
    · intro h
      cases h with
      | ll g v xs q hg hxs hq => exact ⟨g, hg, v, ⟨_, hxs, rfl⟩, q, hq, rfl⟩
  · have hins : ∀ o n, rggInspect P s = .ok (o, n) ↔ ∃ g c r, asked d "grid" = some (.str g) ∧ Supported P .rgg (.str g) ∧
        P.upper g = c :: r ∧ P.pyInt r = some n ∧ 1 ≤ n ∧ n ≤ 1000000 ∧ o = (c == 'O') := by
      intro o n
      unfold rggInspect
      simp only [bind_ok, item_ok, hg]
      constructor
      · rintro ⟨v, hv, h⟩
        cases v <;> simp only [reduceCtorEq] at h
        rename_i g
        by_cases hm : rggMatch P g = true
        · simp only [hm, Bool.not_true, Bool.false_eq_true, ↓reduceIte] at h
          cases hu : P.upper g with
          | nil => rw [hu] at h; cases h
          | cons c r =>
            rw [hu] at h
            simp only at h
            cases hp : P.pyInt r with
            | none => rw [hp] at h; cases h
            | some m =>
              rw [hp] at h
              simp only [Bool.or_eq_true, decide_eq_true_eq] at h
              by_cases hb : m < 1 ∨ m > 1000000
              · rw [if_pos hb] at h; cases h
              · rw [if_neg hb] at h
                cases h
                exact ⟨g, c, r, hv, (typeMatch_iff P .rgg (.str g)).1 hm, hu, hp, by omega, by omega, rfl⟩
        · simp [hm] at h
      · rintro ⟨g, c, r, hv, hsup, hu, hp, h1, h2, rfl⟩
        refine ⟨_, hv, ?_⟩
        have hm : rggMatch P g = true := (typeMatch_iff P .rgg (.str g)).2 hsup
        simp only [hm, Bool.not_true, Bool.false_eq_true, ↓reduceIte, hu, hp, Bool.or_eq_true, decide_eq_true_eq]
        rw [if_neg (by omega)]
    constructor
    · intro h
      simp only [bind_ok, pure_ok] at h
      obtain ⟨⟨o, n⟩, hi, rfl⟩ := h
      obtain ⟨g, c, r, hv, hsup, hu, hp, h1, h2, rfl⟩ := (hins o n).1 hi
      have := Increment.rgg g c r n hv hsup hu hp h1 h2
      by_cases hc : c = 'O' <;> simpa [FULL_GLOBE, hc] using this
    · intro h
      cases h with
      | rgg g c r n hv hsup hu hp h1 h2 =>
        have := (hins (c == 'O') n).2 ⟨g, c, r, hv, hsup, hu, hp, h1, h2, rfl⟩
        simp only [bind_ok, pure_ok]
        refine ⟨_, this, ?_⟩
        by_cases hc : c = 'O' <;> simp [FULL_GLOBE, hc]

theorem eastward_exists (w e : ℚ) : ∃ a, Eastward w e a := by
  obtain ⟨h1, h2, h3⟩ := normaliseLon_spec (e - w) 0
  exact ⟨_, h1, h2, by linarith⟩

theorem eastward_unique {w e a b : ℚ} (ha : Eastward w e a) (hb : Eastward w e b) : a = b :=
  congruent_unique (m := 0) ha.1 hb.1 ⟨ha.2.1, by linarith [ha.2.2]⟩ ⟨hb.2.1, by linarith [hb.2.2]⟩

theorem eastward_norm {w e d : ℚ} (hd : Eastward w e d) :
    (if normaliseLon e 0 < normaliseLon w 0 then normaliseLon e 0 + FULL_GLOBE else normaliseLon e 0) - normaliseLon w 0 = d := by
  obtain ⟨⟨j, hj⟩, a1, a2⟩ := normaliseLon_spec w 0
  obtain ⟨⟨k, hk⟩, b1, b2⟩ := normaliseLon_spec e 0
  obtain ⟨hd1, hd2, hd3⟩ := hd
  have hc : ∀ m : ℤ, Congruent (e - w) (normaliseLon e 0 - normaliseLon w 0 + 360 * m) := by
    intro m
    refine ⟨k - j + m, ?_⟩
    rw [hj, hk]; push_cast; ring
  split
  · rename_i hlt
    have h1 : Congruent (e - w) (normaliseLon e 0 + FULL_GLOBE - normaliseLon w 0) := by
      have := hc 1
      convert this using 1
      simp only [FULL_GLOBE]; push_cast; ring
    refine congruent_unique (m := 0) h1 hd1 ?_ ⟨hd2, by linarith⟩
    refine ⟨?_, ?_⟩ <;> simp only [FULL_GLOBE] <;> linarith
  · have h1 : Congruent (e - w) (normaliseLon e 0 - normaliseLon w 0) := by
      have := hc 0
      simpa using this
    refine congruent_unique (m := 0) h1 hd1 ?_ ⟨hd2, by linarith⟩
    refine ⟨?_, ?_⟩ <;> linarith

theorem round_iff (P : Py) (d : Dict) (s : GS) (hs : fromDict P d = .ok s) (hk : s.kind = .ll ∨ s.kind = .rgg) :
    isGlobalEw P s = .ok true ↔ GoesRound P s.kind d := by
  obtain ⟨k, h1, h2⟩ := (fromDict_base P d s).1 hs
  have := construct_kind _ _ _ h2
  subst this
  obtain ⟨-, -, hf, hnf⟩ := construct_iff s.kind hk d s h2
  by_cases hfl : Flagged s.kind d
  · unfold isGlobalEw
    rw [hf hfl]
    simp only [true_iff]
    exact .flagged hfl
  · have hrest : GoesRound P s.kind d ↔ ∃ w e a, Edge s.kind d 1 w ∧ Edge s.kind d 3 e ∧ Eastward w e a ∧
        (a < 1 / 100000000 ∨ 360 - a < 1 / 100000000 ∨ ∃ x, Increment P d s.kind x ∧ |360 - a - x| < 1 / 100000000) := by
      constructor
      · rintro (h | ⟨w, e, a, hw, he, ha, h | h⟩ | ⟨w, e, a, x, hw, he, ha, hx, h⟩)
        · exact absurd h hfl
        · exact ⟨w, e, a, hw, he, ha, .inl h⟩
        · exact ⟨w, e, a, hw, he, ha, .inr (.inl h)⟩
        · exact ⟨w, e, a, hw, he, ha, .inr (.inr ⟨x, hx, h⟩)⟩
      · rintro ⟨w, e, a, hw, he, ha, h | h | ⟨x, hx, h⟩⟩
        · exact .meets w e a hw he ha (.inl h)
        · exact .meets w e a hw he ha (.inr h)
        · exact .increment w e a x hw he ha hx h
    rw [hrest]
    unfold isGlobalEw
    rw [hnf hfl]
    simp only
    unfold computeGlobalEw
    simp only [bind_ok, edge_iff P d s hs hk]
    have hdec : ∀ a : ℚ, 0 ≤ a → a < 360 → ((if |a| < FULL_GLOBE_EPS then (pure true : M Bool)
        else if |a - FULL_GLOBE| < FULL_GLOBE_EPS then pure true
        else do
          let x ← dx P s
          return decide (|FULL_GLOBE - a - x| < FULL_GLOBE_EPS)) = .ok true ↔
        (a < 1 / 100000000 ∨ 360 - a < 1 / 100000000 ∨ ∃ x, Increment P d s.kind x ∧ |360 - a - x| < 1 / 100000000)) := by
      intro a h0 h1
      have e1 : |a| = a := abs_of_nonneg h0
      have e2 : |a - FULL_GLOBE| = 360 - a := by
        simp only [FULL_GLOBE]; rw [abs_of_neg (by linarith)]; ring
      rw [e1, e2]
      simp only [ite_ok, bind_ok, pure_ok, increment_iff P d s hs hk, decide_eq_true_eq, and_true]
      simp only [FULL_GLOBE_EPS, FULL_GLOBE]
      constructor
      · rintro (h | ⟨_, h | ⟨_, x, hx, h⟩⟩)
        · exact .inl h
        · exact .inr (.inl h)
        · exact .inr (.inr ⟨x, hx, h⟩)
      · intro h
        by_cases c1 : a < 1 / 100000000
        · exact .inl c1
        · by_cases c2 : 360 - a < 1 / 100000000
          · exact .inr ⟨c1, .inl c2⟩
          · rcases h with h | h | h
            · exact absurd h c1
            · exact absurd h c2
            · exact .inr ⟨c1, .inr ⟨c2, h⟩⟩
    constructor
    · rintro ⟨w, hw, e, he, h⟩
      obtain ⟨a, ha⟩ := eastward_exists w e
      refine ⟨w, e, a, hw, he, ha, ?_⟩
      rw [eastward_norm ha] at h
      exact (hdec a ha.2.1 ha.2.2).1 h
    · rintro ⟨w, e, a, hw, he, ha, h⟩
      refine ⟨w, hw, e, he, ?_⟩
      rw [eastward_norm ha]
      exact (hdec a ha.2.1 ha.2.2).2 h

theorem healpixOrder_iff (P : Py) (d : Dict) (s : GS) (hs : fromDict P d = .ok s) (hk : s.kind = .healpix) (o : List Char) :
    healpixOrder P s = .ok o ↔ HealpixOrder P d o := by
  have hg := asked_eq P d s hs "grid" (by decide) (by decide)
  constructor
  · intro h
    obtain ⟨h1, h2⟩ := healpixOrder_asked P d s o hs hk h
    have hv : o ∈ ["ring".toList, "nested".toList] := by
      rcases h2 with rfl | rfl <;> simp
    unfold healpixOrder at h
    simp only [bind_ok, item_ok, hg] at h
    obtain ⟨v, hv', h⟩ := h
    cases v <;> simp only [reduceCtorEq] at h
    rename_i g
    by_cases hm : healpixMatch P g = true
    · simp only [hm, Bool.not_true, Bool.false_eq_true, ↓reduceIte] at h
      cases hp : P.pyInt (g.drop 1) with
      | none => rw [hp] at h; cases h
      | some n =>
        rw [hp] at h
        simp only at h
        have hsup := (typeMatch_iff P .healpix (.str g)).1 hm
        cases hsup with
        | healpix c x r hc hx =>
          refine ⟨c, x, r, n, hv', hc, hx, hp, ?_, ?_, hv, h1⟩ <;>
          · split at h
            · simp only [ite_ok, reduceCtorEq, and_false, false_or] at h
              have := h.2.1
              simp only [Bool.or_eq_true, decide_eq_true_eq] at this
              omega
            · cases h
    · simp [hm] at h
  · rintro ⟨c, x, r, n, hgr, hc, hx, hn, h1, h2, hv, ho⟩
    rw [← hg] at hgr
    have hkey := healpix_order_key P d s hs hk
    rw [ho] at hkey
    rw [healpixOrder_of_wf P s c x r n (.str o) hgr hc hx hn h1 h2 hkey]
    simp only [List.mem_cons, List.not_mem_nil, or_false] at hv
    simp only [if_pos hv]

/-! ## C131 -/

/-- C131: two descriptions match exactly if they say the same of the grid, in the sense of `Matches`; whatever the order in which the set
of compared keys is gone through. -/
theorem C131_exact (P : Py) (order : List String) (ho : Enumerates order) (d e : Dict) (s t : GS) (hs : fromDict P d = .ok s)
    (ht : fromDict P e = .ok t) : eq P order s t = .ok true ↔ Matches P d e := by
  have kd := kind_iff P d s hs
  have ke := kind_iff P e t ht
  have hc := common_iff P order ho d e s t hs ht
  constructor
  · intro h
    have hb := hc.1 (eq_true_base P order s t h)
    obtain ⟨hk, hcom⟩ := hb
    unfold eq at h
    cases hkind : s.kind with
    | orca => exact .orca ((kd _).2 hkind) ((ke _).2 (hk ▸ hkind)) hcom
    | healpix =>
      rw [hkind] at h
      obtain ⟨_, o, h1, h2⟩ := (eqHealpix_true P order s t).1 h
      exact .healpix ((kd _).2 hkind) ((ke _).2 (hk ▸ hkind)) hcom o ((healpixOrder_iff P d s hs hkind o).1 h1)
        ((healpixOrder_iff P e t ht (hk ▸ hkind) o).1 h2)
    | rgg =>
      have hkt : t.kind = .rgg := hk ▸ hkind
      rw [hkind] at h
      obtain ⟨_, sa, ta, hsa, hta, h⟩ := (eqRGG_true P order s t).1 h
      rw [area_iff P d s hs (.inr hkind), hkind] at hsa
      rw [area_iff P e t ht (.inr hkt), hkt] at hta
      rcases h with h | ⟨h, gs, gt, w, w', hw, hw', hlt⟩
      · exact .rggSame ((kd _).2 hkind) ((ke _).2 hkt) hcom sa ta hsa hta ((together_iff _ _ _).1 h)
      · rw [round_iff P d s hs (.inr hkind), hkind] at gs
        rw [round_iff P e t ht (.inr hkt), hkt] at gt
        rw [edge_iff P d s hs (.inr hkind), hkind] at hw
        rw [edge_iff P e t ht (.inr hkt), hkt] at hw'
        have hn := normaliseLon_spec w 0
        have hn' := normaliseLon_spec w' 0
        exact .rggGlobal ((kd _).2 hkind) ((ke _).2 hkt) hcom sa ta hsa hta ((differ_iff _ _ _).1 h) gs gt
          ⟨w, w', _, _, hw, hw', ⟨hn.1, hn.2.1, by linarith [hn.2.2]⟩, ⟨hn'.1, hn'.2.1, by linarith [hn'.2.2]⟩, hlt⟩
    | ll =>
      have hkt : t.kind = .ll := hk ▸ hkind
      rw [hkind] at h
      obtain ⟨_, sa, ta, hsa, hta, h⟩ := (eqLL_true P order s t).1 h
      rw [area_iff P d s hs (.inl hkind), hkind] at hsa
      rw [area_iff P e t ht (.inl hkt), hkt] at hta
      rcases h with h | ⟨h, sn, tn, ss, ts, hsn, htn, hss, hts, hnn, hss', gs, gt, w, w', hw, hw', hlt⟩
      · exact .llSame ((kd _).2 hkind) ((ke _).2 hkt) hcom sa ta hsa hta ((together_iff _ _ _).1 h)
      · rw [round_iff P d s hs (.inl hkind), hkind] at gs
        rw [round_iff P e t ht (.inl hkt), hkt] at gt
        rw [edge_iff P d s hs (.inl hkind), hkind] at hw hsn hss
        rw [edge_iff P e t ht (.inl hkt), hkt] at hw' htn hts
        have hn := normaliseLon_spec w 0
        have hn' := normaliseLon_spec w' 0
        exact .llGlobal ((kd _).2 hkind) ((ke _).2 hkt) hcom sa ta hsa hta ((differ_iff _ _ _).1 h) ⟨sn, tn, hsn, htn, hnn⟩
          ⟨ss, ts, hss, hts, hss'⟩ gs gt
          ⟨w, w', _, _, hw, hw', ⟨hn.1, hn.2.1, by linarith [hn.2.2]⟩, ⟨hn'.1, hn'.2.1, by linarith [hn'.2.2]⟩, hlt⟩
  · have hnorm : ∀ {w u : ℚ}, Congruent w u ∧ 0 ≤ u ∧ u < 360 → normaliseLon w 0 = u := by
      intro w u h
      exact (C35_normalise w 0 u).2 ⟨h.1, h.2.1, by linarith [h.2.2]⟩
    intro h
    cases h with
    | orca hd he h =>
      have h1 := (kd _).1 hd
      have h2 := (ke _).1 he
      unfold eq
      rw [h1]
      exact hc.2 ⟨h1.trans h2.symm, h⟩
    | healpix hd he h o hod hoe =>
      have h1 := (kd _).1 hd
      have h2 := (ke _).1 he
      unfold eq
      rw [h1]
      exact (eqHealpix_true P order s t).2 ⟨hc.2 ⟨h1.trans h2.symm, h⟩, o, (healpixOrder_iff P d s hs h1 o).2 hod,
        (healpixOrder_iff P e t ht h2 o).2 hoe⟩
    | rggSame hd he h a b ha hb hab =>
      have h1 := (kd _).1 hd
      have h2 := (ke _).1 he
      unfold eq
      rw [h1]
      refine (eqRGG_true P order s t).2 ⟨hc.2 ⟨h1.trans h2.symm, h⟩, a, b, ?_, ?_, .inl ((together_iff _ _ _).2 hab)⟩
      · rw [area_iff P d s hs (.inr h1), h1]; exact ha
      · rw [area_iff P e t ht (.inr h2), h2]; exact hb
    | rggGlobal hd he h a b ha hb hab gd ge hw =>
      have h1 := (kd _).1 hd
      have h2 := (ke _).1 he
      obtain ⟨w, w', u, u', hw, hw', hu, hu', hlt⟩ := hw
      unfold eq
      rw [h1]
      refine (eqRGG_true P order s t).2 ⟨hc.2 ⟨h1.trans h2.symm, h⟩, a, b, ?_, ?_, .inr ⟨(differ_iff _ _ _).2 hab, ?_, ?_, w, w', ?_, ?_, ?_⟩⟩
      · rw [area_iff P d s hs (.inr h1), h1]; exact ha
      · rw [area_iff P e t ht (.inr h2), h2]; exact hb
      · rw [round_iff P d s hs (.inr h1), h1]; exact gd
      · rw [round_iff P e t ht (.inr h2), h2]; exact ge
      · rw [edge_iff P d s hs (.inr h1), h1]; exact hw
      · rw [edge_iff P e t ht (.inr h2), h2]; exact hw'
      · rw [hnorm hu, hnorm hu']; exact hlt
    | llSame hd he h a b ha hb hab =>
      have h1 := (kd _).1 hd
      have h2 := (ke _).1 he
      unfold eq
      rw [h1]
      refine (eqLL_true P order s t).2 ⟨hc.2 ⟨h1.trans h2.symm, h⟩, a, b, ?_, ?_, .inl ((together_iff _ _ _).2 hab)⟩
      · rw [area_iff P d s hs (.inl h1), h1]; exact ha
      · rw [area_iff P e t ht (.inl h2), h2]; exact hb
    | llGlobal hd he h a b ha hb hab hn hsth gd ge hw =>
      have h1 := (kd _).1 hd
      have h2 := (ke _).1 he
      obtain ⟨w, w', u, u', hw, hw', hu, hu', hlt⟩ := hw
      obtain ⟨n, n', hn, hn', hnn⟩ := hn
      obtain ⟨m, m', hm, hm', hmm⟩ := hsth
      unfold eq
      rw [h1]
      refine (eqLL_true P order s t).2 ⟨hc.2 ⟨h1.trans h2.symm, h⟩, a, b, ?_, ?_, .inr ⟨(differ_iff _ _ _).2 hab, n, n', m, m', ?_, ?_, ?_, ?_,
        hnn, hmm, ?_, ?_, w, w', ?_, ?_, ?_⟩⟩
      · rw [area_iff P d s hs (.inl h1), h1]; exact ha
      · rw [area_iff P e t ht (.inl h2), h2]; exact hb
      · rw [edge_iff P d s hs (.inl h1), h1]; exact hn
      · rw [edge_iff P e t ht (.inl h2), h2]; exact hn'
      · rw [edge_iff P d s hs (.inl h1), h1]; exact hm
      · rw [edge_iff P e t ht (.inl h2), h2]; exact hm'
      · rw [round_iff P d s hs (.inl h1), h1]; exact gd
      · rw [round_iff P e t ht (.inl h2), h2]; exact ge
      · rw [edge_iff P d s hs (.inl h1), h1]; exact hw
      · rw [edge_iff P e t ht (.inl h2), h2]; exact hw'
      · rw [hnorm hu, hnorm hu']; exact hlt

/-- A description that is readable is made into a gridspec. -/
theorem construct_of_readable (k : Kind) (hk : k = .ll ∨ k = .rgg) (d : Dict) (h : Readable k d) : ∃ s, construct k (base k d) = .ok s := by
  have hA := asked_map d "area" (by decide)
  have hG := asked_map d "global" (by decide)
  have bA := base_eq k d "area" (by decide)
  have bG := base_eq k d "global" (by decide)
  have bgrid := base_eq k d "grid" (by decide)
  obtain ⟨a, hof, hcase⟩ : ∃ a, AreaOf k d a ∧ ((∃ v, d "global" = some v ∧ ¬Falsy v) ∨ (k = .ll ∧ d "global" = none ∧ d "area" = none) ∨
      Together (1 / 100000000) a GLOBE ∨ Differ (1 / 100000000) a GLOBE) := by
    cases h with
    | said v a h hv ha => exact ⟨a, ha, .inl ⟨v, h, hv⟩⟩
    | short hk h h' a ha => exact ⟨a, ha, .inr (.inl ⟨hk, h, h'⟩)⟩
    | same a ha h => exact ⟨a, ha, .inr (.inr (.inl h))⟩
    | differ a ha h => exact ⟨a, ha, .inr (.inr (.inr h))⟩
  have flag : ∀ d' : Dict, d' "area" = some a → ((∃ v, d "global" = some v ∧ ¬Falsy v) ∨ (k = .ll ∧ d "global" = none ∧ d "area" = none) →
      ∃ v, d' "global" = some v ∧ ¬Falsy v) → ∃ f, flagGlobal d' = .ok f := by
    intro d' ha hg
    by_cases hs : ∃ v, d' "global" = some v ∧ ¬Falsy v
    · exact ⟨some true, (flag_iff d' a ha _).2 (.inl ⟨hs, rfl⟩)⟩
    · rcases hcase with h | h | h | h
      · exact absurd (hg (.inl h)) hs
      · exact absurd (hg (.inr h)) hs
      · exact ⟨some true, (flag_iff d' a ha _).2 (.inr ⟨hs, .inl ⟨h, rfl⟩⟩)⟩
      · exact ⟨none, (flag_iff d' a ha _).2 (.inr ⟨hs, .inr ⟨h, rfl⟩⟩)⟩
  have plain : (k ≠ .ll ∨ d "global" ≠ none ∨ d "area" ≠ none) → ∃ f, flagGlobal ((base k d).setDefault "area" DEFAULT_AREA) = .ok f := by
    intro hne
    have hglob : ((base k d).setDefault "area" DEFAULT_AREA) "global" = asked d "global" := by
      unfold Dict.setDefault
      split
      · exact bG
      · simp only [Dict.set, if_neg (show "global" ≠ "area" by decide)]; exact bG
    apply flag
    · cases ha : d "area" with
      | some b =>
        rw [setDefault_of_some _ _ _ (by rw [bA, hA, ha]; rfl), bA, hA, ha, area_unique hof (.given b ha)]; rfl
      | none =>
        have hw : AreaOf k d GLOBE := by
          refine .whole ha ?_
          rcases hne with h | h | h
          · exact .inl h
          · exact .inr h
          · exact absurd ha h
        rw [area_unique hof hw]
        unfold Dict.setDefault
        rw [bA, hA, ha]
        simp only [Option.map_none, Option.isSome_none, Bool.false_eq_true, ↓reduceIte, Dict.set]
        rfl
    · rw [hglob, said_iff]
      rintro (h | ⟨h1, h2, h3⟩)
      · exact h
      · rcases hne with h | h | h <;> contradiction
  rcases hk with rfl | rfl
  · by_cases hsh : d "global" = none ∧ d "area" = none
    · have hc : ((base .ll d "global").isNone && (base .ll d "area").isNone) = true := by
        rw [bG, bA, hG, hA, hsh.1, hsh.2]; rfl
      obtain ⟨g, x, y, rest, hg, hi, hga⟩ : ∃ g x y rest, asked d "grid" = some g ∧ Items g (x :: y :: rest) ∧ globalArea x y = .ok a := by
        cases hof with
        | given b h => rw [hsh.2] at h; cases h
        | whole _ hk => rcases hk with hk | hk
                        · exact absurd rfl hk
                        · exact absurd hsh.1 hk
        | listed _ _ _ g xs x y r hg hi hx hy hr =>
          exact ⟨g, x, y, xs, hg, hi, (globalArea_iff x y _).2 (.inl ⟨r, hr, hx, hy, rfl⟩)⟩
        | unlisted _ _ _ g xs x y hg hi hx hy hr =>
          exact ⟨g, x, y, xs, hg, hi, (globalArea_iff x y _).2 (.inr ⟨hx, hy, hr, rfl⟩)⟩
      have hl : llArea (base .ll d) = .ok (((base .ll d).set "global" (.int 1)).set "area" a) := by
        unfold llArea
        rw [if_pos hc]
        simp only [bind_ok, pure_ok, item_ok, item_iff, bgrid]
        exact ⟨g, hg, x, ⟨_, hi, rfl⟩, y, ⟨_, hi, rfl⟩, a, hga, rfl⟩
      have e : ((((base .ll d).set "global" (.int 1)).set "area" a).setDefault "area" DEFAULT_AREA) =
          (((base .ll d).set "global" (.int 1)).set "area" a) := setDefault_of_some _ _ _ (by simp [Dict.set])
      obtain ⟨f, hf⟩ := flag (((base .ll d).set "global" (.int 1)).set "area" a) (by simp [Dict.set])
        (fun _ => ⟨.int 1, by simp [Dict.set], fun h => by cases h⟩)
      refine ⟨⟨.ll, (((base .ll d).set "global" (.int 1)).set "area" a).setDefault "area" DEFAULT_AREA, f⟩, ?_⟩
      simp only [construct, bind_ok, pure_ok]
      exact ⟨_, hl, f, by rw [e]; exact hf, rfl⟩
    · have hc : ¬((base .ll d "global").isNone && (base .ll d "area").isNone) = true := by
        rw [bG, bA, hG, hA]
        intro h
        simp only [Option.isNone_map, Bool.and_eq_true, Option.isNone_iff_eq_none] at h
        exact hsh h
      have hl : llArea (base .ll d) = .ok (base .ll d) := by
        unfold llArea
        rw [if_neg hc]; rfl
      obtain ⟨f, hf⟩ := plain (by
        by_cases hh : d "global" = none
        · exact .inr (.inr (fun h => hsh ⟨hh, h⟩))
        · exact .inr (.inl hh))
      refine ⟨⟨.ll, (base .ll d).setDefault "area" DEFAULT_AREA, f⟩, ?_⟩
      simp only [construct, bind_ok, pure_ok]
      exact ⟨_, hl, f, hf, rfl⟩
  · obtain ⟨f, hf⟩ := plain (.inl (by decide))
    refine ⟨⟨.rgg, (base .rgg d).setDefault "area" DEFAULT_AREA, f⟩, ?_⟩
    simp only [construct, bind_ok, pure_ok]
    exact ⟨f, hf, rfl⟩

/-- C131: the descriptions that are accepted: those of one of the four types; for lat-lon and reduced Gaussian grids the area has to be
readable too. -/
theorem C131_accepted (P : Py) (d : Dict) :
    (∃ s, fromDict P d = .ok s) ↔ ∃ k, IsKind P d k ∧ (k = .ll ∨ k = .rgg → Readable k d) := by
  constructor
  · rintro ⟨s, hs⟩
    obtain ⟨k, h1, h2⟩ := (fromDict_base P d s).1 hs
    exact ⟨k, h1, fun hk => (construct_iff k hk d s h2).2.1⟩
  · rintro ⟨k, h1, h2⟩
    have : ∃ s, construct k (base k d) = .ok s := by
      cases k with
      | ll => exact construct_of_readable .ll (.inl rfl) d (h2 (.inl rfl))
      | rgg => exact construct_of_readable .rgg (.inr rfl) d (h2 (.inr rfl))
      | healpix => exact ⟨_, rfl⟩
      | orca => exact ⟨_, rfl⟩
    obtain ⟨s, hs⟩ := this
    exact ⟨s, (fromDict_base P d s).2 ⟨k, h1, hs⟩⟩

/-- How a description without usable type is refused: TypeError for a type that is a list, ValueError for another type or a grid of no
type, KeyError without grid. -/
inductive Refusal (d : Dict) : Err → Prop
  | list (xs : List V) (h : d "type" = some (.list xs) ∨ d "type" = some (.tuple xs)) : Refusal d .type
  | other (v : V) (h : d "type" = some v) (hv : v ≠ .none) (hl : ∀ xs, v ≠ .list xs ∧ v ≠ .tuple xs) : Refusal d .value
  | nothing (ht : d "type" = none ∨ d "type" = some .none) (hg : d "grid" = none) : Refusal d .key
  | unfit (ht : d "type" = none ∨ d "type" = some .none) (g : V) (hg : d "grid" = some g) : Refusal d .value

/-- C131: how a description without usable type is refused. -/
theorem C131_refused (P : Py) (d : Dict) (hn : ∀ k, ¬IsKind P d k) (err : Err) : fromDict P d = .error err ↔ Refusal d err := by
  suffices h : ∃ err, fromDict P d = .error err ∧ Refusal d err by
    obtain ⟨x, h1, h2⟩ := h
    constructor
    · intro h
      rw [h1] at h
      cases h
      exact h2
    · intro h
      rw [h1]
      congr 1
      cases h2 with
      | list xs h' =>
        cases h with
        | list => rfl
        | other v hv _ hl =>
          rcases h' with h' | h' <;> (rw [h'] at hv; cases hv)
          · exact absurd rfl (hl xs).1
          · exact absurd rfl (hl xs).2
        | nothing ht => rcases h' with h' | h' <;> rcases ht with ht | ht <;> (rw [h'] at ht; cases ht)
        | unfit ht => rcases h' with h' | h' <;> rcases ht with ht | ht <;> (rw [h'] at ht; cases ht)
      | other v hv hne hl =>
        cases h with
        | list xs h' =>
          rcases h' with h' | h' <;> (rw [h'] at hv; cases hv)
          · exact absurd rfl (hl xs).1
          · exact absurd rfl (hl xs).2
        | other => rfl
        | nothing ht => rcases ht with ht | ht <;> (rw [hv] at ht; cases ht); exact absurd rfl hne
        | unfit => rfl
      | nothing ht hg =>
        cases h with
        | list xs h' => rcases h' with h' | h' <;> rcases ht with ht | ht <;> (rw [h'] at ht; cases ht)
        | other v hv hne => rcases ht with ht | ht <;> (rw [hv] at ht; cases ht); exact absurd rfl hne
        | nothing => rfl
        | unfit _ g hg' => rw [hg] at hg'; cases hg'
      | unfit ht g hg =>
        cases h with
        | list xs h' => rcases h' with h' | h' <;> rcases ht with ht | ht <;> (rw [h'] at ht; cases ht)
        | other => rfl
        | nothing _ hg' => rw [hg] at hg'; cases hg'
        | unfit => rfl
  have hfail : ∀ err, infer P TYPES (normalise (withDefaults d)) = .error err → fromDict P d = .error err := by
    intro err h
    simp only [fromDict, h, bind, Except.bind]
  have step : ∀ err, infer P TYPES (normalise (withDefaults d)) = .error err → Refusal d err → ∃ err, fromDict P d = .error err ∧ Refusal d err :=
    fun err h h' => ⟨err, hfail err h, h'⟩
  by_cases ht : d "type" = none ∨ d "type" = some .none
  · have h1 : ((normalise (withDefaults d)) "type").getD .none = .none := by
      rcases ht with h | h <;> simp [normalise, withDefaults, h, DEFAULTS, tupleToList]
    cases hg : d "grid" with
    | none =>
      refine step .key ?_ (.nothing ht hg)
      have h2 : (normalise (withDefaults d)).item "grid" = .error .key := by
        simp [Dict.item, normalise, withDefaults, hg, DEFAULTS]
      unfold infer
      rw [h1]
      simp [h2, bind, Except.bind]
    | some g =>
      refine step .value ?_ (.unfit ht g hg)
      have h2 : (normalise (withDefaults d)).item "grid" = .ok (asList g) := by
        rw [item_ok]; simp [normalise, withDefaults, hg, tupleToList_eq]
      have h3 : TYPES.find? (fun k => typeMatch P k (asList g)) = none := by
        rw [List.find?_eq_none]
        intro k _ h
        exact hn k (.inferred ht g hg ((typeMatch_iff P k _).1 h))
      unfold infer
      rw [h1]
      simp only [h2, bind, Except.bind, h3]
  · rw [not_or] at ht
    obtain ⟨v, hv⟩ := Option.ne_none_iff_exists'.mp ht.1
    have h1 : ((normalise (withDefaults d)) "type").getD .none = tupleToList v := by
      simp [normalise, withDefaults, hv]
    cases v with
    | none => exact absurd hv ht.2
    | str s =>
      refine step .value ?_ (.other _ hv (by simp) (fun xs => ⟨by simp, by simp⟩))
      have : kindOf s = none := by
        cases hk : kindOf s with
        | none => rfl
        | some k =>
          have hs : k.name = s := by
            have := List.find?_some hk
            simpa using this
          exact absurd (.named (by rw [hv, typeName_eq, hs])) (hn k)
      unfold infer
      rw [h1]
      simp only [tupleToList, this]
    | list xs => exact step .type (by unfold infer; rw [h1]; rfl) (.list xs (.inl hv))
    | tuple xs => exact step .type (by unfold infer; rw [h1]; rfl) (.list xs (.inr hv))
    | bool b => exact step .value (by unfold infer; rw [h1]; rfl) (.other _ hv (by simp) (fun xs => ⟨by simp, by simp⟩))
    | int b => exact step .value (by unfold infer; rw [h1]; rfl) (.other _ hv (by simp) (fun xs => ⟨by simp, by simp⟩))
    | flt b => exact step .value (by unfold infer; rw [h1]; rfl) (.other _ hv (by simp) (fun xs => ⟨by simp, by simp⟩))

/-! ## The hypotheses can be met -/

/-- A one-degree grid with an area of its own. -/
def oneDegree (w e : ℤ) : Dict := fun k =>
  if k = "grid" then some (.tuple [.int 1, .flt 1]) else if k = "area" then some (.list [.int 90, .int w, .int (-90), .int e]) else none

theorem oneDegree_kind (P : Py) (w e : ℤ) : IsKind P (oneDegree w e) .ll :=
  .inferred (.inl rfl) _ rfl (.ll _ _)

theorem oneDegree_area (w e : ℤ) : AreaOf .ll (oneDegree w e) (.list [.int 90, .int w, .int (-90), .int e]) :=
  AreaOf.given (k := .ll) (d := oneDegree w e) (.list [.int 90, .int w, .int (-90), .int e]) rfl

theorem oneDegree_edge (w e : ℤ) (i : Nat) (z : ℤ) (h : [V.int 90, .int w, .int (-90), .int e][i]? = some (.int z)) :
    Edge .ll (oneDegree w e) i z := ⟨_, _, _, oneDegree_area w e, .list _, h, .int _⟩

/-- 0 to 359 is not the area of the globe, so the grid is accepted as it stands. -/
theorem oneDegree_ok (P : Py) (w e : ℤ) (h : 1 ≤ |e - 360|) : ∃ s, fromDict P (oneDegree w e) = .ok s := by
  refine (C131_accepted P _).2 ⟨.ll, oneDegree_kind P w e, fun _ => .differ _ (oneDegree_area w e) ⟨_, _, .list _, .list _, .inr ?_⟩⟩
  have he : ¬|((e : ℤ) : ℚ) - ((360 : ℤ) : ℚ)| < 1 / 100000000 := by
    have h1 : (1 : ℚ) ≤ |(e : ℚ) - 360| := by exact_mod_cast h
    have h2 : (((360 : ℤ)) : ℚ) = 360 := by norm_num
    rw [h2]
    intro h3
    norm_num at h3
    linarith
  refine .later _ _ _ _ ⟨90, 90, .int 90, .int 90, by norm_num⟩ ?_
  by_cases hw : |(w : ℚ) - ((0 : ℤ) : ℚ)| < 1 / 100000000
  · refine .later _ _ _ _ ⟨w, _, .int w, .int 0, hw⟩ (.later _ _ _ _ ⟨_, _, .int (-90), .int (-90), by norm_num⟩
      (.here _ _ _ _ _ _ (.int e) (.int 360) he))
  · exact .here _ _ _ _ _ _ (.int w) (.int 0) hw

/-- `C131_accepted`, `C131_exact`: the grids from 0 to 359 and from 360 to 719 have different areas; both go round the globe from one west,
so they match. -/
example (P : Py) (order : List String) (ho : Enumerates order) :
    ∃ s t, fromDict P (oneDegree 0 359) = .ok s ∧ fromDict P (oneDegree 360 719) = .ok t ∧ eq P order s t = .ok true := by
  obtain ⟨s, hs⟩ := oneDegree_ok P 0 359 (by decide)
  obtain ⟨t, ht⟩ := oneDegree_ok P 360 719 (by decide)
  refine ⟨s, t, hs, ht, (C131_exact P order ho _ _ s t hs ht).2 ?_⟩
  have round : ∀ w : ℤ, GoesRound P .ll (oneDegree w (w + 359)) := fun w =>
    .increment w ((w + 359 : ℤ) : ℚ) 359 |((1 : ℤ) : ℚ)| (oneDegree_edge w _ 1 w rfl) (oneDegree_edge w _ 3 (w + 359) rfl)
      ⟨⟨0, by push_cast; ring⟩, by norm_num, by norm_num⟩ (.ll (.list [.int 1, .flt 1]) (.int 1) [.flt 1] _ rfl (.list _) (.int 1)) (by norm_num)
  refine .llGlobal (oneDegree_kind P _ _) (oneDegree_kind P _ _) ?_ _ _ (oneDegree_area _ _) (oneDegree_area _ _) ⟨_, _, .list _, .list _, .inr ?_⟩
    ⟨_, _, oneDegree_edge _ _ 0 90 rfl, oneDegree_edge _ _ 0 90 rfl, by norm_num⟩
    ⟨_, _, oneDegree_edge _ _ 2 (-90) rfl, oneDegree_edge _ _ 2 (-90) rfl, by norm_num⟩ (round 0) (round 360)
    ⟨_, _, 0, 0, oneDegree_edge 0 359 1 0 rfl, oneDegree_edge 360 719 1 360 rfl, ⟨⟨0, by norm_num⟩, by norm_num, by norm_num⟩,
      ⟨⟨-1, by norm_num⟩, by norm_num, by norm_num⟩, by norm_num⟩
  · refine ⟨⟨_, _, rfl, rfl, .numbers _ _ [1, 1] [1, 1] ?_ ?_ (.inl ?_)⟩, ?_, ?_⟩
    · exact .cons (by simpa using Number.int 1) (.cons (.flt 1) .nil)
    · exact .cons (by simpa using Number.int 1) (.cons (.flt 1) .nil)
    · exact .cons (by norm_num [Close]) (.cons (by norm_num [Close]) .nil)
    · intro k hk
      simp only [List.mem_cons, List.not_mem_nil, or_false] at hk
      rcases hk with rfl | rfl | rfl <;> exact ⟨.int 0, .int 0, rfl, rfl, .integers _ _ _ rfl rfl (.int 0) (.int 0)⟩
    · intro a b h; cases h
  · exact .later _ _ _ _ ⟨_, _, .int 90, .int 90, by norm_num⟩ (.here _ _ _ _ _ _ (.int 0) (.int 360) (by norm_num))

/-- `C131_exact`, the other way: a west that differs by one degree is seen. -/
example (P : Py) (order : List String) (ho : Enumerates order) (s t : GS) (hs : fromDict P (oneDegree 0 359) = .ok s)
    (ht : fromDict P (oneDegree 1 360) = .ok t) : eq P order s t ≠ .ok true := by
  have edge : ∀ (w e : ℤ) (i : Nat) (q : ℚ), Edge .ll (oneDegree w e) i q → ∃ x, [V.int 90, .int w, .int (-90), .int e][i]? = some x ∧ Number x q := by
    rintro w e i q ⟨a, xs, x, ha, hx, hi, hq⟩
    have := area_unique ha (oneDegree_area w e)
    subst this
    cases hx
    exact ⟨x, hi, hq⟩
  have west : ∀ (w e : ℤ) (q : ℚ), Edge .ll (oneDegree w e) 1 q → q = w := by
    intro w e q h
    obtain ⟨x, h1, h2⟩ := edge w e 1 q h
    simp only [List.getElem?_cons_succ, List.getElem?_cons_zero, Option.some.injEq] at h1
    subst h1
    cases h2
    rfl
  have kinds : ∀ w e k, IsKind P (oneDegree w e) k → k = .ll := by
    rintro w e k (h | ⟨_, g, hg, h⟩)
    · cases h
    · cases hg; cases h; rfl
  rw [ne_eq, C131_exact P order ho _ _ s t hs ht]
  intro h
  cases h with
  | orca hd => cases kinds _ _ _ hd
  | healpix hd => cases kinds _ _ _ hd
  | rggSame hd => cases kinds _ _ _ hd
  | rggGlobal hd => cases kinds _ _ _ hd
  | llSame _ _ _ a b ha hb hab =>
    have := area_unique ha (oneDegree_area _ _)
    subst this
    have := area_unique hb (oneDegree_area _ _)
    subst this
    obtain ⟨xs, ys, h1, h2, h⟩ := hab
    cases h1; cases h2
    cases h with
    | cons _ h =>
      cases h with
      | cons h _ =>
        obtain ⟨p, q, hp, hq, h⟩ := h
        cases hp; cases hq
        norm_num at h
  | llGlobal _ _ _ a b _ _ _ _ _ _ _ hw =>
    obtain ⟨w, w', u, u', hw, hw', ⟨⟨m, hm⟩, h1, h2⟩, ⟨⟨n, hn⟩, h3, h4⟩, h⟩ := hw
    have e1 := west _ _ _ hw
    have e2 := west _ _ _ hw'
    subst e1; subst e2
    have hu : u = 0 := by
      have : normaliseLon ((0 : ℤ) : ℚ) 0 = u := (C35_normalise _ _ _).2 ⟨⟨m, hm⟩, h1, by linarith⟩
      have h0 : normaliseLon ((0 : ℤ) : ℚ) 0 = 0 := (C35_normalise _ _ _).2 ⟨⟨0, by norm_num⟩, by norm_num, by norm_num⟩
      exact this.symm.trans h0
    have hu' : u' = 1 := by
      have : normaliseLon ((1 : ℤ) : ℚ) 0 = u' := (C35_normalise _ _ _).2 ⟨⟨n, hn⟩, h3, by linarith⟩
      have h0 : normaliseLon ((1 : ℤ) : ℚ) 0 = 1 := (C35_normalise _ _ _).2 ⟨⟨0, by norm_num⟩, by norm_num, by norm_num⟩
      exact this.symm.trans h0
    rw [hu, hu'] at h
    norm_num at h

/-- `C131_refused`: an unknown type is refused with ValueError even where the grid is a good one, a list as type with TypeError, an empty
description with KeyError. -/
example (P : Py) : let d : Dict := fun k => if k = "grid" then some (.list [.int 1, .int 1]) else if k = "type" then some (.str "mercator".toList) else none
    fromDict P d = .error .value := by
  intro d
  refine (C131_refused P d ?_ .value).2 (.other (.str "mercator".toList) rfl (by simp) (fun xs => ⟨by simp, by simp⟩))
  rintro k (h | ⟨h | h, _⟩)
  · have h : "mercator".toList = (typeName k).toList := V.str.inj (Option.some.inj h)
    revert h; cases k <;> decide
  · cases h
  · cases h
example (P : Py) : let d : Dict := fun k => if k = "type" then some (.tuple [.str "regular_ll".toList]) else none
    fromDict P d = .error .type := by
  intro d
  refine (C131_refused P d ?_ .type).2 (.list _ (.inr rfl))
  rintro k (h | ⟨h | h, _⟩) <;> cases h
example (P : Py) : fromDict P (fun _ => none) = .error .key := by
  refine (C131_refused P _ ?_ .key).2 (.nothing (.inl rfl) rfl)
  rintro k (h | ⟨_, g, h, _⟩) <;> cases h

end Verif.GridSpec

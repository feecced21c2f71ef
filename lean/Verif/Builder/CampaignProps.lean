import Verif.Builder.Campaign

/-! # C117: every request of a build gets its own matrix -/

namespace Verif.Builder
open Verif.GridSpec Verif.Index

/-! ### Specification -/

/-- The description that belongs to a request: MIR's, from the data of the source grid, to the target grid, with the method. -/
def Own (E : Engines) (r : Request) (d : Desc) : Prop := ∃ g, E.mars r.src = some g ∧ E.mir g r.target r.method = some d

/-- No two requests of a build share a data file or a description file by accident. -/
def NoClash (rs : List Request) : Prop := ∀ r ∈ rs, ∀ r' ∈ rs,
  (gribFile r.src = gribFile r'.src → r.src = r'.src) ∧
  (jsonFile r = jsonFile r' → r.src = r'.src ∧ r.target = r'.target ∧ r.method = r'.method)

/-- Nothing was built yet: no data, no descriptions. -/
def Site.Empty (s : Site) : Prop := (∀ p, s.grib p = none) ∧ (∀ p, s.json p = none) ∧ s.built = []

/-- Numbers as written in build_db.py: digits, and for lat-lon a point; other grids: names that start with another letter and have
none of the letters that are replaced. -/
def Plain : Kind → List Char → Prop
  | .ll, t => t ≠ [] ∧ ∀ c ∈ t, c.isDigit = true ∨ c = '.'
  | .other, t => (∃ c r, t = c :: r ∧ c.isDigit = false ∧ c ∉ ['.', 'O', 'N', 'H', 'h']) ∧ ∀ c ∈ t, c ∉ ['n', 'o', 'f', '/', '-']
  | _, t => t ≠ [] ∧ ∀ c ∈ t, c.isDigit = true

/-! ### Provenance -/

/-- Everything on the site that concerns requests of the build is theirs. -/
structure Clean (E : Engines) (rs : List Request) (s : Site) : Prop where
  grib : ∀ r ∈ rs, ∀ g, s.grib (gribFile r.src) = some g → E.mars r.src = some g
  json : ∀ r ∈ rs, ∀ d, s.json (jsonFile r) = some d → Own E r d
  built : ∀ x ∈ s.built, Own E x.1 x.2

theorem getGrib_spec (E : Engines) (rs : List Request) (hn : NoClash rs) (r : Request) (hr : r ∈ rs) (s : Site) (h : Clean E rs s) :
    Clean E rs (getGrib E r s).2 ∧ (getGrib E r s).2.built = s.built ∧ (getGrib E r s).2.json = s.json ∧
    (getGrib E r s).2.runs = s.runs ∧ (getGrib E r s).2.world = s.world ∧ ∀ g, (getGrib E r s).1 = .ok g → E.mars r.src = some g := by
  unfold getGrib
  cases hg : s.grib (gribFile r.src) with
  | some g =>
    refine ⟨h, rfl, rfl, rfl, rfl, ?_⟩
    intro g' hg'
    cases hg'
    exact h.grib r hr g hg
  | none =>
    cases hm : E.mars r.src with
    | none => exact ⟨h, rfl, rfl, rfl, rfl, fun g hg => by cases hg⟩
    | some g =>
      refine ⟨⟨?_, h.json, h.built⟩, rfl, rfl, rfl, rfl, fun g' hg' => by cases hg'; rfl⟩
      intro r' hr' g' hg'
      simp only [put] at hg'
      by_cases hp : gribFile r'.src = gribFile r.src
      · rw [if_pos hp] at hg'
        cases hg'
        rw [((hn r' hr' r hr).1 hp), hm]
      · rw [if_neg hp] at hg'
        exact h.grib r' hr' g' hg'

theorem runMir_spec (E : Engines) (rs : List Request) (hn : NoClash rs) (r : Request) (hr : r ∈ rs) (s : Site) (h : Clean E rs s)
    (g : Nat) (hg : E.mars r.src = some g) :
    Clean E rs (runMir E r g s) ∧ (runMir E r g s).built = s.built ∧ (runMir E r g s).world = s.world ∧
    (∀ d, E.mir g r.target r.method = some d → (runMir E r g s).json (jsonFile r) = some d) := by
  unfold runMir
  cases hj : s.json (jsonFile r) with
  | some d =>
    refine ⟨h, rfl, rfl, ?_⟩
    intro d' hd'
    obtain ⟨g', h1, h2⟩ := h.json r hr d hj
    rw [hg] at h1; cases h1
    rw [h2] at hd'; cases hd'
    exact hj
  | none =>
    refine ⟨⟨h.grib, ?_, h.built⟩, rfl, rfl, fun d hd => by simp [put, hd]⟩
    intro r' hr' d hd
    simp only [put] at hd
    by_cases hp : jsonFile r' = jsonFile r
    · rw [if_pos hp] at hd
      obtain ⟨h1, h2, h3⟩ := (hn r' hr' r hr).2 hp
      exact ⟨g, by rw [h1]; exact hg, by rw [h2, h3]; exact hd⟩
    · rw [if_neg hp] at hd
      exact h.json r' hr' d hd

theorem handIn_spec (E : Engines) (rs : List Request) (mk : Args → World → Except Err Unit × World) (r : Request) (hr : r ∈ rs) (s : Site)
    (h : Clean E rs s) : Clean E rs (handIn mk r s).2 ∧ (handIn mk r s).2.json = s.json ∧
    (((handIn mk r s).2.built = s.built ∧ ∃ e, (handIn mk r s).1 = .error e) ∨ ∃ d, (handIn mk r s).2.built = s.built ++ [(r, d)]) := by
  unfold handIn
  cases hj : s.json (jsonFile r) with
  | none => exact ⟨h, rfl, .inl ⟨rfl, _, rfl⟩⟩
  | some d =>
    have hb : ∀ w, Clean E rs { s with world := w, built := s.built ++ [(r, d)] } := by
      intro w
      refine ⟨h.grib, h.json, ?_⟩
      intro x hx
      rcases List.mem_append.1 hx with hx | hx
      · exact h.built x hx
      · simp only [List.mem_cons, List.not_mem_nil, or_false] at hx
        subst hx
        exact h.json r hr d hj
    generalize hmk : mk ⟨d, r.dir, some true, some true⟩ s.world = m
    obtain ⟨e, w⟩ := m
    simp only [hmk]
    cases e with
    | ok u => exact ⟨hb w, rfl, .inr ⟨d, rfl⟩⟩
    | error e => exact ⟨hb w, rfl, .inr ⟨d, rfl⟩⟩

theorem request_spec (E : Engines) (rs : List Request) (hn : NoClash rs) (mk : Args → World → Except Err Unit × World) (haveDir delete : Bool)
    (r : Request) (hr : r ∈ rs) (s : Site) (h : Clean E rs s) : Clean E rs (request E mk haveDir delete r s).2 ∧
    (((request E mk haveDir delete r s).2.built = s.built ∧ ∃ e, (request E mk haveDir delete r s).1 = .error e) ∨
      ∃ d, (request E mk haveDir delete r s).2.built = s.built ++ [(r, d)]) := by
  unfold request
  cases haveDir with
  | false => exact ⟨h, .inl ⟨rfl, _, rfl⟩⟩
  | true =>
    simp only [if_true]
    obtain ⟨h1, h2, -, -, -, h5⟩ := getGrib_spec E rs hn r hr s h
    generalize getGrib E r s = x at *
    obtain ⟨e, s1⟩ := x
    cases e with
    | error e => exact ⟨h1, .inl ⟨h2, _, rfl⟩⟩
    | ok g =>
      obtain ⟨k1, k2, -, -⟩ := runMir_spec E rs hn r hr s1 h1 g (h5 g rfl)
      obtain ⟨l1, l2, l3⟩ := handIn_spec E rs mk r hr _ k1
      simp only
      generalize handIn mk r (runMir E r g s1) = x at *
      obtain ⟨e, s2⟩ := x
      simp only at h2 k2 l1 l2 l3
      rw [k2, h2] at l3
      cases e with
      | error e => exact ⟨l1, l3.imp (fun h => ⟨h.1, e, rfl⟩) id⟩
      | ok u =>
        have l3' : ∃ d, s2.built = s.built ++ [(r, d)] := by
          rcases l3 with ⟨_, e, he⟩ | l3
          · cases he
          · exact l3
        cases delete with
        | false => exact ⟨l1, .inr l3'⟩
        | true =>
          refine ⟨⟨l1.grib, ?_, l1.built⟩, .inr l3'⟩
          intro r' hr' d hd
          simp only [put, if_true] at hd
          by_cases hp : jsonFile r' = jsonFile r
          · rw [if_pos hp] at hd; cases hd
          · rw [if_neg hp] at hd; exact l1.json r' hr' d hd

theorem requests_spec (E : Engines) (all : List Request) (hn : NoClash all) (mk : Args → World → Except Err Unit × World) (haveDir delete : Bool)
    (rs : List Request) (hr : ∀ r ∈ rs, r ∈ all) (s : Site) (h : Clean E all s) :
    Clean E all (requests E mk haveDir delete rs s).2 ∧
    (∃ done, (requests E mk haveDir delete rs s).2.built.map Prod.fst = s.built.map Prod.fst ++ done ∧ done <+: rs ∧
      ((requests E mk haveDir delete rs s).1 = .ok () → done = rs)) := by
  induction rs generalizing s with
  | nil => exact ⟨h, [], by simp [requests], List.nil_prefix, fun _ => rfl⟩
  | cons r rs ih =>
    obtain ⟨h1, h2⟩ := request_spec E all hn mk haveDir delete r (hr r (by simp)) s h
    unfold requests
    generalize request E mk haveDir delete r s = x at *
    obtain ⟨e, s1⟩ := x
    cases e with
    | error e =>
      refine ⟨h1, ?_⟩
      rcases h2 with ⟨h2, _⟩ | ⟨d, h2⟩
      · exact ⟨[], by simp only at h2; rw [h2]; simp, List.nil_prefix, fun h => by cases h⟩
      · exact ⟨[r], by simp only at h2; rw [h2]; simp, by simp, fun h => by cases h⟩
    | ok u =>
      obtain ⟨k1, done, k2, k3, k4⟩ := ih (fun r' hr' => hr r' (by simp [hr'])) s1 h1
      refine ⟨k1, r :: done, ?_, by simpa using k3, fun h => by rw [k4 h]⟩
      rcases h2 with ⟨_, e, he⟩ | ⟨d, h2⟩
      · cases he
      · simp only at h2 ⊢
        rw [k2, h2]; simp

theorem Site.Empty.clean {E : Engines} {rs : List Request} {s : Site} (h : s.Empty) : Clean E rs s := by
  refine ⟨fun r _ g hg => ?_, fun r _ d hd => ?_, fun x hx => ?_⟩
  · rw [h.1] at hg; cases hg
  · rw [h.2.1] at hd; cases hd
  · rw [h.2.2] at hx; cases hx

/-- C117: in a build from nothing whose requests do not share files by accident, whatever the builder makes of it: the builder is
handed, for each request in order up to the first failure, MIR's description of exactly that request. Partial: the data and
description files are those of this build, and the names apart. -/
theorem C117_own_partial (E : Engines) (rs : List Request) (hn : NoClash rs) (mk : Args → World → Except Err Unit × World) (haveDir delete : Bool)
    (s : Site) (hs : s.Empty) :
    (∀ x ∈ (requests E mk haveDir delete rs s).2.built, Own E x.1 x.2) ∧
    (requests E mk haveDir delete rs s).2.built.map Prod.fst <+: rs ∧
    ((requests E mk haveDir delete rs s).1 = .ok () → (requests E mk haveDir delete rs s).2.built.map Prod.fst = rs) := by
  obtain ⟨h1, done, h2, h3, h4⟩ := requests_spec E rs hn mk haveDir delete rs (fun _ h => h) s hs.clean
  rw [hs.2.2] at h2
  simp only [List.map_nil, List.nil_append] at h2
  exact ⟨h1.built, by rw [h2]; exact h3, fun h => by rw [h2]; exact h4 h⟩

/-! ### Names -/

theorem replace_id (a b : Char) (s : List Char) (h : a ∉ s) : replace a b s = s := by
  unfold replace
  conv => rhs; rw [← List.map_id s]
  apply List.map_congr_left
  intro c hc
  have : c ≠ a := fun h' => h (by rw [← h']; exact hc)
  rw [if_neg this]; rfl

theorem adjust_append (s t : List Char) : adjustName (s ++ t) = adjustName s ++ adjustName t := by
  simp [adjustName, replace]

theorem adjust_id (s : List Char) (h : ∀ c ∈ s, c ∉ ['n', 'o', 'f', '/']) : adjustName s = s := by
  have key : ∀ a ∈ ['n', 'o', 'f', '/'], a ∉ s := fun a ha hs => h a hs ha
  unfold adjustName
  rw [replace_id 'n' _ s (key _ (by simp)), replace_id 'o' _ s (key _ (by simp)), replace_id 'f' _ s (key _ (by simp)),
    replace_id '/' _ s (key _ (by simp))]

/-- The label of a grid of each kind. -/
def labelOf : Kind → List Char → List Char
  | .ll, g => g ++ 'x' :: g
  | .oRgg, g => 'O' :: g
  | .nRgg, g => 'N' :: g
  | .hRing, g => 'H' :: g ++ "_ring".toList
  | .hNested, g => 'H' :: g ++ "_nested".toList
  | .other, g => g

theorem digit_ok (c : Char) (h : c.isDigit = true ∨ c = '.') : c ∉ ['n', 'o', 'f', '/', '-', 'x', '_', 'O', 'N', 'H', 'h'] := by
  intro hc
  simp only [List.mem_cons, List.not_mem_nil, or_false] at hc
  rcases h with h | rfl
  · rcases hc with rfl | rfl | rfl | rfl | rfl | rfl | rfl | rfl | rfl | rfl | rfl <;> revert h <;> decide
  · revert hc; decide

theorem digits_ok (t : List Char) (h : ∀ c ∈ t, c.isDigit = true) : ∀ c ∈ t, c ∉ ['n', 'o', 'f', '/', '-', 'x', '_', 'O', 'N', 'H', 'h'] :=
  fun c hc => digit_ok c (.inl (h c hc))

theorem fixed_of (t : List Char) (h : ∀ c ∈ t, c ∉ ['n', 'o', 'f', '/', '-', 'x', '_', 'O', 'N', 'H', 'h']) :
    ∀ c ∈ t, c ∉ ['n', 'o', 'f', '/'] := by
  intro c hc h'
  refine h c hc ?_
  simp only [List.mem_cons, List.not_mem_nil, or_false] at h' ⊢
  tauto

theorem looks_head (c : Char) (r : List Char) (h : c ≠ 'H') (h' : c ≠ 'h') : looksHealpix (c :: r) = false := by
  simp only [looksHealpix]
  have h1 : (c == 'H') = false := by simpa using h
  have h2 : (c == 'h') = false := by simpa using h'
  rw [h1, h2]; rfl

theorem takeDigits (t r : List Char) (u : Char) (h : ∀ c ∈ t, c.isDigit = true) (hu : u.isDigit = false) :
    (t ++ u :: r).takeWhile Char.isDigit = t ∧ (t ++ u :: r).dropWhile Char.isDigit = u :: r := by
  induction t with
  | nil => simp [hu]
  | cons c t ih =>
    obtain ⟨h1, h2⟩ := ih (fun c hc => h c (by simp [hc]))
    simp [h c (by simp), h1, h2]

theorem looks_healpix (t r : List Char) (l : Char) (h : ∀ c ∈ t, c.isDigit = true) (hne : t ≠ []) (hl : ('A' ≤ l && l ≤ 'z') = true) :
    looksHealpix ('H' :: t ++ '_' :: l :: r) = true := by
  show (('H' == 'H' || 'H' == 'h') && !((t ++ '_' :: l :: r).takeWhile Char.isDigit).isEmpty &&
      (match (t ++ '_' :: l :: r).dropWhile Char.isDigit with
       | u :: l :: _ => u == '_' && ('A' ≤ l && l ≤ 'z')
       | _ => false)) = true
  obtain ⟨h1, h2⟩ := takeDigits t (l :: r) '_' h (by decide)
  rw [h1, h2]
  simp only [hl]
  cases t with
  | nil => exact absurd rfl hne
  | cons c t => rfl

theorem label_eq (k : Kind) (t : List Char) (h : Plain k t) : label (makeGrid k t) = labelOf k t := by
  cases k with
  | ll =>
    obtain ⟨hne, hc⟩ := h
    cases t with
    | nil => exact absurd rfl hne
    | cons c r =>
      have hd := digit_ok c (hc c (by simp))
      have hl : looksHealpix ((c :: r) ++ '/' :: (c :: r)) = false :=
        looks_head c _ (fun h => hd (by simp [h])) (fun h => hd (by simp [h]))
      show label ((c :: r) ++ '/' :: (c :: r)) = (c :: r) ++ 'x' :: (c :: r)
      unfold label
      rw [hl]
      simp only [Bool.false_eq_true, if_false]
      have : adjustName (c :: r) = c :: r := adjust_id _ (fixed_of _ (fun c' hc' => digit_ok c' (hc c' hc')))
      rw [adjust_append, this, show '/' :: (c :: r) = ['/'] ++ (c :: r) from rfl, adjust_append, this]
      rfl
  | oRgg =>
    obtain ⟨hne, hc⟩ := h
    show label ('O' :: t) = 'O' :: t
    unfold label
    rw [looks_head 'O' t (by decide) (by decide)]
    simp only [Bool.false_eq_true, if_false]
    rw [show 'O' :: t = ['O'] ++ t from rfl, adjust_append, adjust_id t (fixed_of _ (digits_ok t hc))]
    rfl
  | nRgg =>
    obtain ⟨hne, hc⟩ := h
    show label ('N' :: t) = 'N' :: t
    unfold label
    rw [looks_head 'N' t (by decide) (by decide)]
    simp only [Bool.false_eq_true, if_false]
    rw [show 'N' :: t = ['N'] ++ t from rfl, adjust_append, adjust_id t (fixed_of _ (digits_ok t hc))]
    rfl
  | hRing =>
    obtain ⟨hne, hc⟩ := h
    show label ('H' :: t ++ "_ring".toList) = 'H' :: t ++ "_ring".toList
    unfold label
    rw [show "_ring".toList = '_' :: 'r' :: "ing".toList from by decide, looks_healpix t _ 'r' hc hne (by decide)]
    rfl
  | hNested =>
    obtain ⟨hne, hc⟩ := h
    show label ('H' :: t ++ "_nested".toList) = 'H' :: t ++ "_nested".toList
    unfold label
    rw [show "_nested".toList = '_' :: 'n' :: "ested".toList from by decide, looks_healpix t _ 'n' hc hne (by decide)]
    rfl
  | other =>
    obtain ⟨⟨c, r, rfl, h1, h2⟩, h3⟩ := h
    show label (c :: r) = c :: r
    unfold label
    rw [looks_head c r (fun h => h2 (by simp [h])) (fun h => h2 (by simp [h]))]
    simp only [Bool.false_eq_true, if_false]
    apply adjust_id
    intro c' hc' h'
    refine h3 c' hc' ?_
    simp only [List.mem_cons, List.not_mem_nil, or_false] at h' ⊢
    tauto

/-- No label has a dash or a slash. -/
theorem labelOf_free (k : Kind) (t : List Char) (h : Plain k t) : '-' ∉ labelOf k t ∧ '/' ∉ labelOf k t := by
  have key : ∀ t : List Char, (∀ c ∈ t, c ∉ ['n', 'o', 'f', '/', '-', 'x', '_', 'O', 'N', 'H', 'h']) → '-' ∉ t ∧ '/' ∉ t :=
    fun t h => ⟨fun hm => h _ hm (by simp), fun hm => h _ hm (by simp)⟩
  cases k with
  | ll =>
    obtain ⟨a, b⟩ := key t (fun c hc => digit_ok c (h.2 c hc))
    simp [labelOf, a, b]
  | oRgg => obtain ⟨a, b⟩ := key t (digits_ok t h.2); simp [labelOf, a, b]
  | nRgg => obtain ⟨a, b⟩ := key t (digits_ok t h.2); simp [labelOf, a, b]
  | hRing => obtain ⟨a, b⟩ := key t (digits_ok t h.2); simp [labelOf, a, b]
  | hNested => obtain ⟨a, b⟩ := key t (digits_ok t h.2); simp [labelOf, a, b]
  | other => exact ⟨fun hm => h.2 _ hm (by simp), fun hm => h.2 _ hm (by simp)⟩

/-- The kind, from the first character of the label (ring and nested together). -/
def cls (c : Char) : Nat := if c.isDigit ∨ c = '.' then 0 else if c = 'O' then 1 else if c = 'N' then 2 else if c = 'H' then 3 else 4

def code : Kind → Nat
  | .ll => 0
  | .oRgg => 1
  | .nRgg => 2
  | .hRing => 3
  | .hNested => 3
  | .other => 4

theorem labelOf_head (k : Kind) (t : List Char) (h : Plain k t) : ∃ c r, labelOf k t = c :: r ∧ cls c = code k := by
  cases k with
  | ll =>
    obtain ⟨hne, hc⟩ := h
    cases t with
    | nil => exact absurd rfl hne
    | cons c r => exact ⟨c, _, rfl, if_pos (hc c (by simp))⟩
  | oRgg => exact ⟨_, _, rfl, by decide⟩
  | nRgg => exact ⟨_, _, rfl, by decide⟩
  | hRing => exact ⟨_, _, rfl, by decide⟩
  | hNested => exact ⟨_, _, rfl, by decide⟩
  | other =>
    obtain ⟨⟨c, r, rfl, h1, h2⟩, _⟩ := h
    refine ⟨c, r, rfl, ?_⟩
    simp only [List.mem_cons, List.not_mem_nil, or_false, not_or] at h2
    obtain ⟨a, b, c', d, _⟩ := h2
    simp [cls, h1, a, b, c', d, code]

theorem split_at (u : Char) (a b a' b' : List Char) (h : a ++ u :: b = a' ++ u :: b') (ha : u ∉ a) (ha' : u ∉ a') : a = a' ∧ b = b' := by
  induction a generalizing a' with
  | nil =>
    cases a' with
    | nil => simpa using h
    | cons c a' =>
      simp only [List.nil_append, List.cons_append, List.cons.injEq] at h
      exact absurd (by simp [h.1]) ha'
  | cons c a ih =>
    cases a' with
    | nil =>
      simp only [List.nil_append, List.cons_append, List.cons.injEq] at h
      exact absurd (by simp [h.1]) ha
    | cons c' a' =>
      simp only [List.cons_append, List.cons.injEq] at h
      obtain ⟨h1, h2⟩ := ih a' h.2 (fun hm => ha (by simp [hm])) (fun hm => ha' (by simp [hm]))
      exact ⟨by rw [h.1, h1], h2⟩

theorem labelOf_inj (k k' : Kind) (t t' : List Char) (h : Plain k t) (h' : Plain k' t') (he : labelOf k t = labelOf k' t') : k = k' ∧ t = t' := by
  have hcode : code k = code k' := by
    obtain ⟨c, r, h1, h2⟩ := labelOf_head k t h
    obtain ⟨c', r', h1', h2'⟩ := labelOf_head k' t' h'
    rw [h1, h1'] at he
    cases he
    rw [← h2, ← h2']
  have last : ∀ (a b : List Char) (c d : Char), a ++ [c] = b ++ [d] → c = d := by
    intro a b c d h
    have := congrArg List.getLast? h
    simpa using this
  have hx : ∀ t : List Char, (∀ c ∈ t, c.isDigit = true ∨ c = '.') → 'x' ∉ t := fun t h hm => digit_ok 'x' (h _ hm) (by simp)
  cases k <;> cases k' <;> simp only [code] at hcode <;> first | omega | skip
  · exact ⟨rfl, (split_at 'x' _ _ _ _ he (hx _ h.2) (hx _ h'.2)).1⟩
  · exact ⟨rfl, (List.cons.inj he).2⟩
  · exact ⟨rfl, (List.cons.inj he).2⟩
  · exact ⟨rfl, List.append_cancel_right (List.cons.inj he).2⟩
  · exfalso
    have h1 : ('H' :: t ++ "_rin".toList) ++ ['g'] = ('H' :: t' ++ "_neste".toList) ++ ['d'] := by
      simpa [labelOf] using he
    exact absurd (last _ _ _ _ h1) (by decide)
  · exfalso
    have h1 : ('H' :: t ++ "_neste".toList) ++ ['d'] = ('H' :: t' ++ "_rin".toList) ++ ['g'] := by
      simpa [labelOf] using he
    exact absurd (last _ _ _ _ h1) (by decide)
  · exact ⟨rfl, List.append_cancel_right (List.cons.inj he).2⟩
  · exact ⟨rfl, he⟩

/-- Grids of a build, all written plainly. -/
def PlainGrids (grids : List (Kind × List (List Char))) : Prop := ∀ e ∈ grids, ∀ t ∈ e.2, Plain e.1 t

theorem mem_makeGridId (grids : List (Kind × List (List Char))) (g : List Char) :
    g ∈ makeGridId grids ↔ ∃ e ∈ grids, ∃ t ∈ e.2, makeGrid e.1 t = g := by
  simp [makeGridId]

/-- C117: what is asked of MIR by build_db.py: every pair of different grids, with every method, and the extra pairs. -/
theorem C117_planned (root : List Char) (methods ins outs : List (List Char)) (extra : List (List Char × List Char)) (r : Request) :
    r ∈ planned root methods ins outs extra ↔ r.method ∈ methods ∧ r.dir = join root ("matrices_".toList ++ r.method) ∧
      ((r.src ∈ ins ∧ r.target ∈ outs ∧ r.src ≠ r.target) ∨ (r.src, r.target) ∈ extra) := by
  simp only [planned, plannedFor, List.mem_flatMap, List.mem_append, List.mem_map, List.mem_filter, decide_eq_true_eq]
  constructor
  · rintro ⟨m, hm, ⟨i, hi, o, ⟨ho, hne⟩, rfl⟩ | ⟨e, he, rfl⟩⟩
    · exact ⟨hm, rfl, .inl ⟨hi, ho, hne⟩⟩
    · exact ⟨hm, rfl, .inr he⟩
  · rintro ⟨hm, hd, ⟨hi, ho, hne⟩ | he⟩
    · exact ⟨_, hm, .inl ⟨_, hi, _, ⟨ho, hne⟩, by rw [← hd]⟩⟩
    · exact ⟨_, hm, .inr ⟨_, he, by rw [← hd]⟩⟩

theorem join_ne (a b : List Char) (hb : b ≠ []) : join a b ≠ [] := by
  unfold join
  split
  · simp
  · split <;> simp [hb]

/-- C117: with grids written as in build_db.py and methods without a slash, no two requests share a file. -/
theorem C117_names (root : List Char) (methods : List (List Char)) (ins outs : List (Kind × List (List Char)))
    (hi : PlainGrids ins) (ho : PlainGrids outs) (hm : ∀ m ∈ methods, '/' ∉ m) :
    NoClash (planned root methods (makeGridId ins) (makeGridId outs) []) := by
  have split : ∀ r ∈ planned root methods (makeGridId ins) (makeGridId outs) [],
      ∃ k t k' t', Plain k t ∧ Plain k' t' ∧ r.src = makeGrid k t ∧ r.target = makeGrid k' t' ∧ '/' ∉ r.method ∧ r.dir ≠ [] := by
    intro r hr
    obtain ⟨h1, h2, ⟨h3, h4, -⟩ | h⟩ := (C117_planned _ _ _ _ _ r).1 hr
    · obtain ⟨e, he, t, ht, e1⟩ := (mem_makeGridId _ _).1 h3
      obtain ⟨e', he', t', ht', e1'⟩ := (mem_makeGridId _ _).1 h4
      refine ⟨e.1, t, e'.1, t', hi e he t ht, ho e' he' t' ht', e1.symm, e1'.symm, hm _ h1, ?_⟩
      rw [h2]
      apply join_ne
      simp
    · simp at h
  intro r hr r' hr'
  obtain ⟨k, t, l, u, p1, p2, e1, e2, m1, d1⟩ := split r hr
  obtain ⟨k', t', l', u', p1', p2', e1', e2', m1', d1'⟩ := split r' hr'
  have srcs : label r.src = label r'.src → r.src = r'.src := by
    rw [e1, e1', label_eq _ _ p1, label_eq _ _ p1']
    intro h
    obtain ⟨rfl, rfl⟩ := labelOf_inj _ _ _ _ p1 p1' h
    rfl
  have tgts : label r.target = label r'.target → r.target = r'.target := by
    rw [e2, e2', label_eq _ _ p2, label_eq _ _ p2']
    intro h
    obtain ⟨rfl, rfl⟩ := labelOf_inj _ _ _ _ p2 p2' h
    rfl
  have free : ∀ (k : Kind) (t : List Char), Plain k t → '-' ∉ label (makeGrid k t) ∧ '/' ∉ label (makeGrid k t) := by
    intro k t h; rw [label_eq k t h]; exact labelOf_free k t h
  have s1 := free _ _ p1; have s2 := free _ _ p2; have s1' := free _ _ p1'; have s2' := free _ _ p2'
  rw [← e1] at s1; rw [← e2] at s2; rw [← e1'] at s1'; rw [← e2'] at s2'
  refine ⟨fun h => srcs ?_, fun h => ?_⟩
  · unfold gribFile at h
    have n1 : '/' ∉ label r.src ++ ".grib".toList := by simp [s1.2]
    have n1' : '/' ∉ label r'.src ++ ".grib".toList := by simp [s1'.2]
    obtain ⟨c, hc⟩ := join_form "grib".toList _ n1 (by decide)
    obtain ⟨c', hc'⟩ := join_form "grib".toList _ n1' (by decide)
    rw [hc, hc'] at h
    exact List.append_cancel_right (no_slash_suffix _ _ _ _ h n1 n1')
  · unfold jsonFile at h
    have n1 : '/' ∉ jsonName r ++ ".json".toList := by simp [jsonName, s1.2, s2.2, m1]
    have n1' : '/' ∉ jsonName r' ++ ".json".toList := by simp [jsonName, s1'.2, s2'.2, m1']
    obtain ⟨c, hc⟩ := join_form r.dir _ n1 d1
    obtain ⟨c', hc'⟩ := join_form r'.dir _ n1' d1'
    rw [hc, hc'] at h
    have hn := List.append_cancel_right (no_slash_suffix _ _ _ _ h n1 n1')
    unfold jsonName at hn
    simp only [List.append_assoc, List.cons_append] at hn
    obtain ⟨a, b⟩ := split_at '-' _ _ _ _ hn s2.1 s2'.1
    obtain ⟨c, d⟩ := split_at '-' _ _ _ _ b s1.1 s1'.1
    exact ⟨srcs c, tgts a, d⟩

/-! ### What is repeated, and what is not -/

theorem request_keeps (E : Engines) (mk : Args → World → Except Err Unit × World) (haveDir : Bool) (r : Request) (s : Site) (p : List Char) :
    (∀ g, s.grib p = some g → (request E mk haveDir false r s).2.grib p = some g) ∧
    (∀ d, s.json p = some d → (request E mk haveDir false r s).2.json p = some d) := by
  have hg : (∀ g, s.grib p = some g → (getGrib E r s).2.grib p = some g) ∧ (getGrib E r s).2.json = s.json := by
    unfold getGrib
    cases hj : s.grib (gribFile r.src) with
    | some g => exact ⟨fun _ h => h, rfl⟩
    | none =>
      cases E.mars r.src with
      | none => exact ⟨fun _ h => h, rfl⟩
      | some g =>
        refine ⟨fun g' h => ?_, rfl⟩
        simp only [put]
        rw [if_neg (by rintro rfl; rw [hj] at h; cases h)]; exact h
  have hr : ∀ g s, (runMir E r g s).grib = s.grib ∧ ∀ d, s.json p = some d → (runMir E r g s).json p = some d := by
    intro g s
    unfold runMir
    cases hj : s.json (jsonFile r) with
    | some d => exact ⟨rfl, fun _ h => h⟩
    | none =>
      refine ⟨rfl, fun d h => ?_⟩
      simp only [put]
      rw [if_neg (by rintro rfl; rw [hj] at h; cases h)]; exact h
  have hh : ∀ s, (handIn mk r s).2.grib = s.grib ∧ (handIn mk r s).2.json = s.json := by
    intro s
    unfold handIn
    cases s.json (jsonFile r) with
    | none => exact ⟨rfl, rfl⟩
    | some d =>
      generalize hmk : mk ⟨d, r.dir, some true, some true⟩ s.world = m
      obtain ⟨e, w⟩ := m
      simp only [hmk]
      cases e <;> exact ⟨rfl, rfl⟩
  unfold request
  cases haveDir with
  | false => exact ⟨fun _ h => h, fun _ h => h⟩
  | true =>
    simp only [if_true]
    generalize getGrib E r s = x at *
    obtain ⟨e, s1⟩ := x
    cases e with
    | error e => exact ⟨hg.1, fun d h => by rw [hg.2]; exact h⟩
    | ok g =>
      simp only
      have hh' := hh (runMir E r g s1)
      have hr' := hr g s1
      generalize handIn mk r (runMir E r g s1) = x at *
      obtain ⟨e, s2⟩ := x
      simp only at hh' hg
      have : (∀ g, s.grib p = some g → s2.grib p = some g) ∧ (∀ d, s.json p = some d → s2.json p = some d) := by
        refine ⟨fun g h => ?_, fun d h => ?_⟩
        · rw [hh'.1, hr'.1]; exact hg.1 g h
        · rw [hh'.2]; exact hr'.2 d (by rw [hg.2]; exact h)
      cases e <;> exact this

/-- After a request that came through, its data and its description are there. -/
theorem request_done (E : Engines) (mk : Args → World → Except Err Unit × World) (haveDir : Bool) (r : Request) (s : Site)
    (h : (request E mk haveDir false r s).1 = .ok ()) :
    (∃ g, (request E mk haveDir false r s).2.grib (gribFile r.src) = some g) ∧
    (∃ d, (request E mk haveDir false r s).2.json (jsonFile r) = some d) := by
  unfold request at h ⊢
  cases haveDir with
  | false => cases h
  | true =>
    simp only [if_true] at h ⊢
    have hg : ∀ g, (getGrib E r s).1 = .ok g → ∃ g, (getGrib E r s).2.grib (gribFile r.src) = some g := by
      unfold getGrib
      cases hj : s.grib (gribFile r.src) with
      | some g => exact fun _ _ => ⟨g, hj⟩
      | none =>
        cases E.mars r.src with
        | none => intro g h; cases h
        | some g => exact fun _ _ => ⟨g, by simp [put]⟩
    generalize getGrib E r s = x at *
    obtain ⟨e, s1⟩ := x
    cases e with
    | error e => cases h
    | ok g =>
      obtain ⟨g', hg'⟩ := hg g rfl
      have hr : (runMir E r g s1).grib = s1.grib := by unfold runMir; cases s1.json (jsonFile r) <;> rfl
      simp only at h ⊢
      generalize runMir E r g s1 = s2 at *
      unfold handIn at h ⊢
      cases hj : s2.json (jsonFile r) with
      | none => rw [hj] at h; cases h
      | some d =>
        rw [hj] at h
        simp only at h ⊢
        generalize hmk : mk ⟨d, r.dir, some true, some true⟩ s2.world = m at *
        obtain ⟨e, w⟩ := m
        cases e with
        | error e => cases h
        | ok u => exact ⟨⟨g', by simp only [Bool.false_eq_true, if_false]; rw [hr]; exact hg'⟩, ⟨d, by simpa using hj⟩⟩

/-- The data and the descriptions of all the requests are there. -/
def Ready (rs : List Request) (s : Site) : Prop := ∀ r ∈ rs, (∃ g, s.grib (gribFile r.src) = some g) ∧ ∃ d, s.json (jsonFile r) = some d

theorem requests_ready (E : Engines) (mk : Args → World → Except Err Unit × World) (haveDir : Bool) (rs : List Request) (s : Site)
    (h : (requests E mk haveDir false rs s).1 = .ok ()) :
    Ready rs (requests E mk haveDir false rs s).2 ∧
    ∀ p, (∀ g, s.grib p = some g → (requests E mk haveDir false rs s).2.grib p = some g) ∧
      ∀ d, s.json p = some d → (requests E mk haveDir false rs s).2.json p = some d := by
  induction rs generalizing s with
  | nil => exact ⟨fun r hr => (by cases hr), fun p => ⟨fun _ h => h, fun _ h => h⟩⟩
  | cons r rs ih =>
    have hk := request_keeps E mk haveDir r s
    have hd := request_done E mk haveDir r s
    unfold requests at h ⊢
    generalize request E mk haveDir false r s = x at *
    obtain ⟨e, s1⟩ := x
    cases e with
    | error e => cases h
    | ok u =>
      obtain ⟨h1, h2⟩ := ih s1 h
      refine ⟨fun r' hr' => ?_, fun p => ⟨fun g hg => (h2 p).1 g ((hk p).1 g hg), fun d hd => (h2 p).2 d ((hk p).2 d hd)⟩⟩
      rcases List.mem_cons.1 hr' with rfl | hr'
      · obtain ⟨⟨g, hg⟩, ⟨d, hd⟩⟩ := hd rfl
        exact ⟨⟨g, (h2 _).1 g hg⟩, ⟨d, (h2 _).2 d hd⟩⟩
      · exact h1 r' hr'

/-- C117: where all data and descriptions are there, neither MARS nor MIR is asked (whatever the two would say), and no file of theirs changes. -/
theorem requests_quiet (E : Engines) (mk : Args → World → Except Err Unit × World) (haveDir : Bool) (rs : List Request) (s : Site)
    (h : Ready rs s) : (requests E mk haveDir false rs s).2.runs = s.runs ∧ (requests E mk haveDir false rs s).2.grib = s.grib ∧
      (requests E mk haveDir false rs s).2.json = s.json := by
  induction rs generalizing s with
  | nil => exact ⟨rfl, rfl, rfl⟩
  | cons r rs ih =>
    obtain ⟨⟨g, hg⟩, ⟨d, hd⟩⟩ := h r (by simp)
    have hq : (request E mk haveDir false r s).2.runs = s.runs ∧ (request E mk haveDir false r s).2.grib = s.grib ∧
        (request E mk haveDir false r s).2.json = s.json := by
      unfold request getGrib
      cases haveDir with
      | false => exact ⟨rfl, rfl, rfl⟩
      | true =>
        simp only [if_true, hg]
        have : runMir E r g s = s := by unfold runMir; rw [hd]
        rw [this]
        unfold handIn
        rw [hd]
        simp only
        generalize hmk : mk ⟨d, r.dir, some true, some true⟩ s.world = m
        obtain ⟨e, w⟩ := m
        cases e <;> exact ⟨rfl, rfl, rfl⟩
    unfold requests
    generalize request E mk haveDir false r s = x at *
    obtain ⟨e, s1⟩ := x
    cases e with
    | error e => exact hq
    | ok u =>
      obtain ⟨a, b, c⟩ := ih s1 (fun r' hr' => by rw [hq.2.1, hq.2.2]; exact h r' (by simp [hr']))
      exact ⟨by rw [a]; exact hq.1, by rw [b]; exact hq.2.1, by rw [c]; exact hq.2.2⟩

/-- C117: a build that is started again after it came through asks nothing more of MIR, and keeps its data and descriptions,
whatever has become of MARS, MIR and the builder meanwhile. -/
theorem C117_again (E E' : Engines) (mk mk' : Args → World → Except Err Unit × World) (haveDir haveDir' : Bool) (rs : List Request) (s : Site)
    (h : (requests E mk haveDir false rs s).1 = .ok ()) :
    (requests E' mk' haveDir' false rs (requests E mk haveDir false rs s).2).2.runs = (requests E mk haveDir false rs s).2.runs ∧
    (requests E' mk' haveDir' false rs (requests E mk haveDir false rs s).2).2.json = (requests E mk haveDir false rs s).2.json :=
  let q := requests_quiet E' mk' haveDir' rs _ (requests_ready E mk haveDir rs s h).1
  ⟨q.1, q.2.2⟩

end Verif.Builder

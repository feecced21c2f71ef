import Verif.Index.Props2

/-! # C99: a method given by name means its default options -/

namespace Verif.Index
open Verif.GridSpec

/-- The weights of the entry were made with the method of that name, without options. -/
def DefaultOptions (r : Raw) (m : List Char) : Prop := r.method = some (.name m)

/-- C99 (part): when the index has no weights made with options of that method, those found have none. -/
theorem C99_plain_partial (P : Py) (order : List String) (ix : Index) (di dO : Dict) (m : List Char) (e : Entry)
    (h : find P order ix di dO m = .ok (some e)) (hno : ∀ x ∈ ix, ∀ o, x.2.raw.method ≠ some (.dict (some m) o)) : DefaultOptions e.raw m := by
  obtain ⟨gi, go, _, _, hs⟩ := (find_ok ..).1 h
  obtain ⟨pre, k, post, hix, hh, _⟩ := (search_some ..).1 hs
  have hm : (k, e) ∈ ix := by rw [hix]; simp
  cases hh.1 with
  | text he => exact he
  | dict o he => exact absurd he (hno _ hm o)

/-- C99 (exact): a request by name gets weights made with options iff an entry with options comes first among those for these grids and
this name, wherever entries for the default options are. -/
theorem C99_exact (P : Py) (order : List String) (ix : Index) (di dO : Dict) (gi go : GS) (hi : fromDict P di = .ok gi) (ho : fromDict P dO = .ok go)
    (m : List Char) :
    (∃ e, find P order ix di dO m = .ok (some e) ∧ ¬DefaultOptions e.raw m) ↔
      ∃ pre k e post o, ix = pre ++ (k, e) :: post ∧ e.raw.method = some (.dict (some m) o) ∧ eq P order e.input gi = .ok true ∧
        eq P order e.output go = .ok true ∧ ∀ x ∈ pre, Miss P order gi go m x.2 := by
  constructor
  · rintro ⟨e, h, hd⟩
    obtain ⟨pre, k, post, hix, hh, hp⟩ := (C39_first_match P order ix di dO m gi go hi ho e).1 h
    obtain ⟨h1, h2, h3⟩ := hh
    cases h1 with
    | text he => exact absurd he hd
    | dict o he => exact ⟨pre, k, e, post, o, hix, he, h2, h3, hp⟩
  · rintro ⟨pre, k, e, post, o, hix, he, h2, h3, hp⟩
    refine ⟨e, (C39_first_match P order ix di dO m gi go hi ho e).2 ⟨pre, k, post, hix, ⟨.dict _ _ o he, h2, h3⟩, hp⟩, fun hd => ?_⟩
    unfold DefaultOptions at hd
    rw [he] at hd
    cases hd

/-- Weights made with options. -/
def withOptions : Raw := ⟨some (orca none), some (orca none), some (.dict (some "linear".toList) 7), "mir".toList, "1".toList, 0⟩
def without : Raw := { withOptions with method := some (.name "linear".toList) }

def optionFile : IndexFile := ⟨some (.int 1), some [("a", withOptions), ("b", without)]⟩

/-- C99 refuted: an index with weights for the default options after weights for others; a request by name gets the ones with options. -/
theorem C99_refuted (P : Py) (order : List String) (ho : Enumerates order) : ∃ ix e e', load P optionFile = .ok ix ∧
    find P order ix (orca none) (orca none) "linear".toList = .ok (some e) ∧ ¬DefaultOptions e.raw "linear".toList ∧
    ("b", e') ∈ ix ∧ DefaultOptions e'.raw "linear".toList ∧ Hit P order (orcaSpec none) (orcaSpec none) "linear".toList e' := by
  have hp : ∀ r : Raw, r.input = some (orca none) → r.output = some (orca none) → parse P r = .ok (orcaSpec none, orcaSpec none) := fun r h1 h2 =>
    (parse_ok P r _ _).2 ⟨⟨_, h1, orca_fromDict P _⟩, ⟨_, h2, orca_fromDict P _⟩⟩
  have heq : eq P order (orcaSpec none) (orcaSpec none) = .ok true := by
    rw [orca_eq P order ho, orca_shapes]; simp
  refine ⟨[("a", ⟨"a", orcaSpec none, orcaSpec none, withOptions⟩), ("b", ⟨"b", orcaSpec none, orcaSpec none, without⟩)],
    ⟨"a", orcaSpec none, orcaSpec none, withOptions⟩, ⟨"b", orcaSpec none, orcaSpec none, without⟩, ?_, ?_, ?_, ?_, rfl, ?_⟩
  · unfold load
    rw [if_pos (by decide)]
    simp [optionFile, loadOne, hp withOptions rfl rfl, hp without rfl rfl, upsert]
  · exact (C39_first_match P order _ _ _ _ _ _ (orca_fromDict P _) (orca_fromDict P _) _).2
      ⟨[], "a", _, rfl, ⟨.dict _ _ 7 rfl, heq, heq⟩, by simp⟩
  · intro h; cases h
  · simp
  · exact ⟨.text _ _ rfl, heq, heq⟩

/-- An index without options, with a request that is answered. -/
theorem plain_found (P : Py) (order : List String) (ho : Enumerates order) :
    find P order [("b", ⟨"b", orcaSpec none, orcaSpec none, without⟩)] (orca none) (orca none) "linear".toList = .ok (some ⟨"b", orcaSpec none, orcaSpec none, without⟩) ∧
    ∀ x ∈ [("b", (⟨"b", orcaSpec none, orcaSpec none, without⟩ : Entry))], ∀ o, x.2.raw.method ≠ some (.dict (some "linear".toList) o) := by
  have heq : eq P order (orcaSpec none) (orcaSpec none) = .ok true := by
    rw [orca_eq P order ho, orca_shapes]; simp
  refine ⟨(C39_first_match P order _ _ _ _ _ _ (orca_fromDict P _) (orca_fromDict P _) _).2 ⟨[], "b", _, rfl, ⟨.text _ _ rfl, heq, heq⟩, by simp⟩, ?_⟩
  intro x hx o h
  simp at hx
  subst hx
  cases h

/-- `C99_exact`: the grids of the index above are accepted, and the entry with options is first. -/
example (P : Py) (order : List String) (ho : Enumerates order) :
    ∃ e, find P order [("a", ⟨"a", orcaSpec none, orcaSpec none, withOptions⟩), ("b", ⟨"b", orcaSpec none, orcaSpec none, without⟩)]
      (orca none) (orca none) "linear".toList = .ok (some e) ∧ ¬DefaultOptions e.raw "linear".toList := by
  have heq : eq P order (orcaSpec none) (orcaSpec none) = .ok true := by
    rw [orca_eq P order ho, orca_shapes]; simp
  exact (C99_exact P order _ _ _ _ _ (orca_fromDict P _) (orca_fromDict P _) _).2 ⟨[], "a", _, _, 7, rfl, rfl, heq, heq, by simp⟩

/-- `C99_plain_partial` -/
example (P : Py) (order : List String) (ho : Enumerates order) : DefaultOptions without "linear".toList :=
  C99_plain_partial P order _ _ _ _ _ (plain_found P order ho).1 (plain_found P order ho).2

end Verif.Index

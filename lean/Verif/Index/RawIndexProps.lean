import Verif.Index.RawIndex

/-! # C171: what is found in a raw subset -/

namespace Verif.Index
open Verif.GridSpec

/-- The entry is compared without an exception and is not the one asked for. -/
def NotIt (rest : GS → Dict → M Bool) (P : Py) (order : List String) (gi go : GS) (m : List Char) (r : Raw) : Prop :=
  matchesRaw rest P order r gi go m = .ok false

/-- The entry has the method and both grids, key by key. -/
def IsIt (rest : GS → Dict → M Bool) (P : Py) (order : List String) (gi go : GS) (m : List Char) (r : Raw) : Prop :=
  methodName r = .ok m ∧ ∃ i o, r.input = some i ∧ r.output = some o ∧ eqDict rest P order gi i = .ok true ∧ eqDict rest P order go o = .ok true

theorem matchesRaw_true (rest : GS → Dict → M Bool) (P : Py) (order : List String) (r : Raw) (gi go : GS) (m : List Char) :
    matchesRaw rest P order r gi go m = .ok true ↔ IsIt rest P order gi go m r := by
  unfold matchesRaw IsIt
  cases methodName r with
  | error e => simp [bind, Except.bind]
  | ok n =>
    by_cases hn : n = m
    · subst hn
      cases r.input with
      | none => simp [bind, Except.bind]
      | some i =>
        cases hi : eqDict rest P order gi i with
        | error e => simp [bind, Except.bind, hi]
        | ok a =>
          cases a with
          | false => simp [bind, Except.bind, hi, pure, Except.pure]
          | true =>
            cases r.output with
            | none => simp [bind, Except.bind, hi]
            | some o => simp [bind, Except.bind, hi]
    · simp [bind, Except.bind, hn, pure, Except.pure]

/-- C171 (exact): an entry is found in a raw subset iff both grids of the request can be read, it has the method and both grids as they are written
in the file, and every entry before it is compared without an exception and differs. -/
theorem C171_exact (rest : GS → Dict → M Bool) (P : Py) (order : List String) (rs : List (String × Raw)) (di dO : Dict) (m : List Char) (r : Raw) :
    findRaw rest P order rs di dO m = .ok (some r) ↔
      ∃ gi go, fromDict P di = .ok gi ∧ fromDict P dO = .ok go ∧ ∃ pre k post, rs = pre ++ (k, r) :: post ∧
        IsIt rest P order gi go m r ∧ ∀ x ∈ pre, NotIt rest P order gi go m x.2 := by
  have key : ∀ gi go, searchRaw rest P order gi go m rs = .ok (some r) ↔ ∃ pre k post, rs = pre ++ (k, r) :: post ∧
      IsIt rest P order gi go m r ∧ ∀ x ∈ pre, NotIt rest P order gi go m x.2 := by
    intro gi go
    induction rs with
    | nil => simp [searchRaw]
    | cons x rs ih =>
      obtain ⟨k, r'⟩ := x
      unfold searchRaw
      constructor
      · intro h
        rw [bind_ok] at h
        obtain ⟨b, hb, h⟩ := h
        cases b with
        | true =>
          simp only [if_true, pure, Except.pure, Except.ok.injEq, Option.some.injEq] at h
          subst h
          exact ⟨[], k, rs, rfl, (matchesRaw_true ..).1 hb, by simp⟩
        | false =>
          simp only [Bool.false_eq_true, if_false] at h
          obtain ⟨pre, k', post, h1, h2, h3⟩ := ih.1 h
          refine ⟨(k, r') :: pre, k', post, by rw [h1]; rfl, h2, fun x hx => ?_⟩
          rcases List.mem_cons.1 hx with rfl | hx
          · exact hb
          · exact h3 x hx
      · rintro ⟨pre, k', post, h1, h2, h3⟩
        rw [bind_ok]
        cases pre with
        | nil =>
          cases h1
          exact ⟨true, (matchesRaw_true ..).2 h2, rfl⟩
        | cons y pre =>
          cases h1
          refine ⟨false, h3 _ List.mem_cons_self, ?_⟩
          simp only [Bool.false_eq_true, if_false]
          exact ih.2 ⟨pre, k', post, rfl, h2, fun x hx => h3 x (List.mem_cons_of_mem _ hx)⟩
  unfold findRaw
  rw [bind_ok]
  constructor
  · rintro ⟨gi, h1, h⟩
    rw [bind_ok] at h
    obtain ⟨go, h2, h⟩ := h
    exact ⟨gi, go, h1, h2, (key gi go).1 h⟩
  · rintro ⟨gi, go, h1, h2, h⟩
    refine ⟨gi, h1, ?_⟩
    rw [bind_ok]
    exact ⟨go, h2, (key gi go).2 h⟩

theorem orcaFull_eq (P : Py) (order : List String) (ho : Enumerates order) :
    eqDict (fun _ _ => .ok true) P order (orcaSpec none) orcaFull = .ok true := by
  have hc : compareKeys P (orcaSpec none).d orcaFull order = .ok true := by
    rw [compareKeys_true]
    intro k hk
    have hk := (ho k).1 hk
    simp only [COMPARE_KEYS, List.mem_cons, List.not_mem_nil, or_false] at hk
    rcases hk with rfl | rfl | rfl | rfl | rfl
    · exact ⟨.str "orca".toList, .str "orca".toList, rfl, rfl, by simp [compareKey]⟩
    · exact ⟨.str "ORCA1_T".toList, .str "ORCA1_T".toList, rfl, rfl, by simp [compareKey]⟩
    · exact ⟨.int 0, .int 0, rfl, rfl, by simp [compareKey, V.isInt, pyEq, V.num]⟩
    · exact ⟨.int 0, .int 0, rfl, rfl, by simp [compareKey, V.isInt, pyEq, V.num]⟩
    · exact ⟨.int 0, .int 0, rfl, rfl, by simp [compareKey, V.isInt, pyEq, V.num]⟩
  have hb : eqBase P order (orcaSpec none).d orcaFull = .ok true := by
    unfold eqBase
    have h1 : (orcaSpec none).d "type" = some (.str "orca".toList) := rfl
    have h2 : orcaFull "type" = some (.str "orca".toList) := rfl
    rw [h1, h2, hc]
    have h3 : shapesDiffer (orcaSpec none).d orcaFull = false := by
      unfold shapesDiffer
      have : orcaFull "shape" = none := rfl
      rw [this]
      split <;> simp_all
    rw [h3]
    simp [pyEq]
    rfl
  unfold eqDict
  rw [hb]
  rfl

/-- An entry of another method is passed over, though it has no grids; the next one, with all keys written out, is found. -/
example (P : Py) (order : List String) (ho : Enumerates order) :
    findRaw (fun _ _ => .ok true) P order
      [("a", ⟨none, none, some (.name "linear".toList), "mir".toList, "1".toList, 0⟩),
        ("b", ⟨some orcaFull, some orcaFull, some (.name "nn".toList), "mir".toList, "1".toList, 0⟩)] (orca none) (orca none) "nn".toList =
      .ok (some ⟨some orcaFull, some orcaFull, some (.name "nn".toList), "mir".toList, "1".toList, 0⟩) := by
  refine (C171_exact ..).2 ⟨_, _, orca_fromDict P _, orca_fromDict P _, [_], "b", [], rfl,
    ⟨rfl, _, _, rfl, rfl, orcaFull_eq P order ho, orcaFull_eq P order ho⟩, fun x hx => ?_⟩
  rw [List.mem_singleton] at hx
  subst hx
  rfl

end Verif.Index

import Verif.Index.SubsetRaw

/-! # C171: a raw subset as an index

`subset(..., raw=True)` returns a `MatrixIndex`, with the methods of one. Its entries are dicts as they are in the file: there is no "_name" in
them (an entry whose file has that key is not modelled), and their grids are dicts. -/

namespace Verif.Index
open Verif.GridSpec

/-- `gs == d` for a gridspec and a dict: the comparison of `GridSpec` (gridspec.py:85-97), then what the class of the gridspec adds to it
(gridspec.py:195-214, 274-300, 396-400), which is a parameter: all begin with `super().__eq__(o)`. -/
def eqDict (rest : GS → Dict → M Bool) (P : Py) (order : List String) (g : GS) (d : Dict) : M Bool := do
  let b ← eqBase P order g.d d
  if b then rest g d else return false

/-- `match` — db.py:388-395 for a raw entry. In `item["input"] == gs_in` python asks the right operand first: its class is derived from that of
the left one and has its own `__eq__`. -/
def matchesRaw (rest : GS → Dict → M Bool) (P : Py) (order : List String) (r : Raw) (gi go : GS) (m : List Char) : M Bool := do
  let n ← methodName r
  if n ≠ m then return false
  match r.input with
  | none => .error .key
  | some i => do
    let a ← eqDict rest P order gi i
    if !a then return false
    match r.output with
    | none => .error .key
    | some o => eqDict rest P order go o

/-- `find` — db.py:375-385 in a raw subset. -/
def searchRaw (rest : GS → Dict → M Bool) (P : Py) (order : List String) (gi go : GS) (m : List Char) : List (String × Raw) → M (Option Raw)
  | [] => .ok none
  | (_, r) :: rs => do
    let b ← matchesRaw rest P order r gi go m
    if b then return some r else searchRaw rest P order gi go m rs

def findRaw (rest : GS → Dict → M Bool) (P : Py) (order : List String) (rs : List (String × Raw)) (di dO : Dict) (m : List Char) :
    M (Option Raw) := do
  let gi ← fromDict P di
  let go ← fromDict P dO
  searchRaw rest P order gi go m rs

/-- `to_raw` — db.py:423-427 of a raw subset: `entry["_name"]` of the first entry raises. -/
def toRawRaw : List (String × Raw) → M IndexFile
  | [] => .ok ⟨some VERSION, some []⟩
  | _ :: _ => .error .key

/-- Every key that is compared is written in the description. -/
def Spelled (d : Dict) : Prop := ∀ k ∈ ["type", "grid", "i_scans_negatively", "j_points_consecutive", "j_scans_positively"], ∃ v, d k = some v

theorem eqDict_spelled (rest : GS → Dict → M Bool) (P : Py) (order : List String) (ho : Enumerates order) (g : GS) (d : Dict)
    (h : eqDict rest P order g d = .ok true) : Spelled d := by
  unfold eqDict at h
  rw [bind_ok] at h
  obtain ⟨b, hb, h⟩ := h
  cases b with
  | false => simp [pure, Except.pure] at h
  | true =>
    unfold eqBase at hb
    split at hb
    · simp at hb
    · rw [bind_ok] at hb
      obtain ⟨c, hc, hb⟩ := hb
      cases c with
      | false => simp [pure, Except.pure] at hb
      | true =>
        intro k hk
        obtain ⟨_, b, _, h2, _⟩ := (compareKeys_true ..).1 hc k ((ho k).2 hk)
        exact ⟨b, h2⟩

theorem matchesRaw_spelled (rest : GS → Dict → M Bool) (P : Py) (order : List String) (ho : Enumerates order) (r : Raw) (gi go : GS)
    (m : List Char) (h : matchesRaw rest P order r gi go m = .ok true) :
    ∃ i o, r.input = some i ∧ r.output = some o ∧ Spelled i ∧ Spelled o := by
  unfold matchesRaw at h
  rw [bind_ok] at h
  obtain ⟨n, _, h⟩ := h
  split at h
  · simp [pure, Except.pure] at h
  · cases hi : r.input with
    | none => rw [hi] at h; simp at h
    | some i =>
      rw [hi] at h
      simp only at h
      rw [bind_ok] at h
      obtain ⟨a, ha, h⟩ := h
      cases a with
      | false => simp [pure, Except.pure] at h
      | true =>
        simp only [Bool.not_true, Bool.false_eq_true, if_false] at h
        cases hr : r.output with
        | none => rw [hr] at h; simp at h
        | some o =>
          rw [hr] at h
          exact ⟨i, o, rfl, rfl, eqDict_spelled rest P order ho gi i ha, eqDict_spelled rest P order ho go o h⟩

/-- C171 (part): what a raw subset finds has all compared keys written out, also those that have defaults. -/
theorem C171_found_partial (rest : GS → Dict → M Bool) (P : Py) (order : List String) (ho : Enumerates order) (rs : List (String × Raw))
    (di dO : Dict) (m : List Char) (r : Raw) (h : findRaw rest P order rs di dO m = .ok (some r)) :
    (∃ k, (k, r) ∈ rs) ∧ ∃ i o, r.input = some i ∧ r.output = some o ∧ Spelled i ∧ Spelled o := by
  unfold findRaw at h
  rw [bind_ok] at h
  obtain ⟨gi, _, h⟩ := h
  rw [bind_ok] at h
  obtain ⟨go, _, h⟩ := h
  induction rs with
  | nil => unfold searchRaw at h; cases h
  | cons x rs ih =>
    obtain ⟨k, r'⟩ := x
    unfold searchRaw at h
    rw [bind_ok] at h
    obtain ⟨b, hb, h⟩ := h
    cases b with
    | true =>
      simp only [if_true, pure, Except.pure, Except.ok.injEq, Option.some.injEq] at h
      subst h
      exact ⟨⟨k, by simp⟩, matchesRaw_spelled rest P order ho _ gi go m hb⟩
    | false =>
      simp only [Bool.false_eq_true, if_false] at h
      obtain ⟨⟨k', hk⟩, h2⟩ := ih h
      exact ⟨⟨k', by simp [hk]⟩, h2⟩

/-- C171 refuted: a raw subset with entries cannot be written with `to_raw`; and if no entry has all compared keys written out, nothing is
found in it, while the subset made without the option from the same filters gives every filter an answer. -/
theorem C171_refuted (rest : GS → Dict → M Bool) (P : Py) (order : List String) (ho : Enumerates order) :
    (∀ rs : List (String × Raw), rs ≠ [] → toRawRaw rs = .error .key) ∧
    (∀ (rs : List (String × Raw)), (∀ x ∈ rs, ∀ i, x.2.input = some i → ¬Spelled i) → ∀ di dO m r, findRaw rest P order rs di dO m ≠ .ok (some r)) ∧
    ∃ f ix res rs fs, load P f = .ok ix ∧ subset P order ix true fs [] = .ok res ∧ subsetRaw P order ix true fs [] = .ok rs ∧
      load P (toRaw res) = .ok res ∧ ∃ fl ∈ fs, (∃ e, find P order res fl.input fl.output fl.methodOf = .ok (some e)) ∧
        ∀ r, findRaw rest P order rs fl.input fl.output fl.methodOf ≠ .ok (some r) := by
  have h2 : ∀ (rs : List (String × Raw)), (∀ x ∈ rs, ∀ i, x.2.input = some i → ¬Spelled i) → ∀ di dO m r,
      findRaw rest P order rs di dO m ≠ .ok (some r) := by
    intro rs hrs di dO m r h
    obtain ⟨⟨k, hk⟩, i, _, hi, _, hs, _⟩ := C171_found_partial rest P order ho rs di dO m r h
    exact hrs _ hk i hi hs
  refine ⟨fun rs h => ?_, h2, twoFile, twoIndex, _, [("b", rawOf none), ("a", rawOf (some (.int 1)))], _, two_load P, both_subset P order ho, ?_, ?_, shape2, by simp, ⟨entryOf "b" none, ?_⟩, h2 _ ?_ _ _ _⟩
  · cases rs with
    | nil => exact absurd rfl h
    | cons x rs => rfl
  · have := subsetRaw_eq P order twoIndex true [shape2, anyShape] []
    rw [both_subset P order ho] at this
    exact this
  · exact C42_reloads P order twoFile twoIndex _ true _ (by intro es hes; cases hes; decide) (two_load P) (both_subset P order ho)
  · exact C42_early_partial P order twoFile twoIndex _ true [] [anyShape] shape2 (by intro es hes; cases hes; decide) (two_load P)
      (both_subset P order ho) _ _ _ (orca_fromDict P _) (orca_fromDict P _) (two_find P order ho) (by simp)
  · have no : ∀ sh, ¬Spelled (orca sh) := by
      intro sh h
      obtain ⟨v, hv⟩ := h "i_scans_negatively" (by simp)
      simp [orca] at hv
    intro x hx i hi
    simp only [List.mem_cons, List.not_mem_nil, or_false] at hx
    rcases hx with rfl | rfl <;> (cases hi; exact no _)

/-- An ORCA grid with all keys written out. -/
def orcaFull : Dict := fun k =>
  if k = "type" then some (.str "orca".toList) else if k = "grid" then some (.str "ORCA1_T".toList)
  else if k = "i_scans_negatively" ∨ k = "j_points_consecutive" ∨ k = "j_scans_positively" then some (.int 0) else none

/-- `C171_found_partial` is not vacuous: an entry with all keys is found. -/
example (P : Py) (order : List String) (ho : Enumerates order) (kw : Raw)
    (hk : kw = ⟨some orcaFull, some orcaFull, some (.name "linear".toList), "mir".toList, "1".toList, 0⟩) :
    findRaw (fun _ _ => .ok true) P order [("a", kw)] (orca none) (orca none) "linear".toList = .ok (some kw) ∧ Spelled orcaFull := by
  have hc : compareKeys P (orcaSpec none).d orcaFull order = .ok true := by
    rw [compareKeys_true]
    intro k hk
    have hk := (ho k).1 hk
    simp only [COMPARE_KEYS, List.mem_cons, List.not_mem_nil, or_false] at hk
    rcases hk with rfl | rfl | rfl | rfl | rfl
    · exact ⟨.str "orca".toList, .str "orca".toList, rfl, rfl, by simp [compareKey]⟩
    · exact ⟨.str "ORCA1_T".toList, .str "ORCA1_T".toList, rfl, rfl, by simp [compareKey]⟩
    · exact ⟨.int 0, .int 0, rfl, rfl, by simp [compareKey, V.isInt, pyEq, V.num]⟩
    · exact ⟨.int 0, .int 0, rfl, rfl, by simp [compareKey, V.isInt, pyEq, V.num]⟩
    · exact ⟨.int 0, .int 0, rfl, rfl, by simp [compareKey, V.isInt, pyEq, V.num]⟩
  have hb : eqBase P order (orcaSpec none).d orcaFull = .ok true := by
    unfold eqBase
    have h1 : (orcaSpec none).d "type" = some (.str "orca".toList) := rfl
    have h2 : orcaFull "type" = some (.str "orca".toList) := rfl
    rw [h1, h2, hc]
    have h3 : shapesDiffer (orcaSpec none).d orcaFull = false := by
      unfold shapesDiffer
      have : orcaFull "shape" = none := rfl
      rw [this]
      split <;> simp_all
    rw [h3]
    simp [pyEq]
    rfl
  have h : findRaw (fun _ _ => .ok true) P order [("a", kw)] (orca none) (orca none) "linear".toList = .ok (some kw) := by
    subst hk
    unfold findRaw
    rw [orca_fromDict]
    show searchRaw _ P order (orcaSpec none) (orcaSpec none) _ _ = _
    unfold searchRaw matchesRaw eqDict
    simp only [hb]
    rfl
  refine ⟨h, ?_⟩
  obtain ⟨_, i, _, hi, _, hs, _⟩ := C171_found_partial _ P order ho _ _ _ _ _ h
  subst hk
  cases hi
  exact hs

end Verif.Index

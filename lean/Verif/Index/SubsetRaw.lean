import Verif.Index.SubsetOrder

/-! # C170: a subset of raw entries

`subset(..., raw=True)` gives the entries as they are in the index file. -/

namespace Verif.Index
open Verif.GridSpec

/-- `subset` — db.py:401-421 with `raw=True`: `res[entry["_name"]] = entry["_raw"]`. -/
def subsetRaw (P : Py) (order : List String) (ix : Index) (failOnMissing : Bool) : List Filter → List (String × Raw) → M (List (String × Raw))
  | [], res => .ok res
  | f :: fs, res => do
    let e ← find P order ix f.input f.output f.methodOf
    match e with
    | some e => subsetRaw P order ix failOnMissing fs (upsert res e.name e.raw)
    | none => if failOnMissing then .error .value else subsetRaw P order ix failOnMissing fs res

/-- An entry as it is in the file. -/
def asInFile (x : String × Entry) : String × Raw := (x.1, x.2.raw)

theorem upsert_asInFile (d : Index) (k : String) (e : Entry) : (upsert d k e).map asInFile = upsert (d.map asInFile) k e.raw := by
  induction d with
  | nil => rfl
  | cons x d ih =>
    obtain ⟨k', v⟩ := x
    show (if k' = k then (k, e) :: d else (k', v) :: upsert d k e).map asInFile =
      if k' = k then (k, e.raw) :: d.map asInFile else (k', v.raw) :: upsert (d.map asInFile) k e.raw
    split
    · rfl
    · rw [List.map_cons, ih]; rfl

theorem subsetRaw_eq (P : Py) (order : List String) (ix : Index) (b : Bool) : ∀ (fs : List Filter) (res : Index),
    subsetRaw P order ix b fs (res.map asInFile) = (subset P order ix b fs res).map (List.map asInFile)
  | [], res => rfl
  | f :: fs, res => by
    unfold subsetRaw subset
    cases find P order ix f.input f.output f.methodOf with
    | error x => rfl
    | ok r =>
      cases r with
      | none =>
        simp only [bind, Except.bind]
        split
        · rfl
        · exact subsetRaw_eq P order ix b fs res
      | some e =>
        simp only [bind, Except.bind]
        rw [← upsert_asInFile]
        exact subsetRaw_eq P order ix b fs _

/-- C170: with `raw=True` the same calls fail, in the same way. -/
theorem C170_fails_alike (P : Py) (order : List String) (ix : Index) (b : Bool) (fs : List Filter) (x : Err) :
    subsetRaw P order ix b fs [] = .error x ↔ subset P order ix b fs [] = .error x := by
  have h := subsetRaw_eq P order ix b fs []
  rw [List.map_nil] at h
  rw [h]
  cases subset P order ix b fs [] <;> simp [Except.map]

/-- C170: what is given is the "matrix" of an index file for the subset: it is what `to_raw` writes for the subset made without the option,
and it loads to that subset. -/
theorem C170_file (P : Py) (order : List String) (f : IndexFile) (ix : Index) (b : Bool) (fs : List Filter)
    (hn : ∀ es, f.matrix = some es → (es.map Prod.fst).Nodup) (hl : load P f = .ok ix) (rs : List (String × Raw))
    (h : subsetRaw P order ix b fs [] = .ok rs) :
    ∃ res, subset P order ix b fs [] = .ok res ∧ toRaw res = ⟨some (.int 1), some rs⟩ ∧ load P ⟨some (.int 1), some rs⟩ = .ok res := by
  have h0 := subsetRaw_eq P order ix b fs []
  rw [List.map_nil, h] at h0
  cases hs : subset P order ix b fs [] with
  | error x => rw [hs] at h0; cases h0
  | ok res =>
    rw [hs] at h0
    have hc := load_clean P f ix hn hl
    obtain ⟨h1, h2, _⟩ := subset_mem P order ix b hc fs [] res (by simp) (by simp) hs
    have hm := toRaw_matrix P res ⟨h2, fun x hx => hc.forms x (h1 x hx)⟩
    have ht : toRaw res = ⟨some (.int 1), some rs⟩ := by
      have : rs = res.map asInFile := by
        simp only [Except.map, Except.ok.injEq] at h0
        exact h0
      rw [this]
      show (⟨some VERSION, (toRaw res).matrix⟩ : IndexFile) = _
      rw [hm]; rfl
    exact ⟨res, rfl, ht, ht ▸ C42_reloads P order f ix res b fs hn hl hs⟩

/-- C170: every entry is given under its name as it stands in the original file: nothing is added to it. -/
theorem C170_unaltered (P : Py) (order : List String) (f : IndexFile) (es : List (String × Raw)) (ix : Index) (b : Bool) (fs : List Filter)
    (he : f.matrix = some es) (hn : (es.map Prod.fst).Nodup) (hl : load P f = .ok ix) (rs : List (String × Raw))
    (h : subsetRaw P order ix b fs [] = .ok rs) : (∀ x ∈ rs, x ∈ es) ∧ (rs.map Prod.fst).Nodup := by
  have hn' : ∀ es, f.matrix = some es → (es.map Prod.fst).Nodup := by
    intro es' h'; rw [he] at h'; cases h'; exact hn
  have h0 := subsetRaw_eq P order ix b fs []
  rw [List.map_nil, h] at h0
  cases hs : subset P order ix b fs [] with
  | error x => rw [hs] at h0; cases h0
  | ok res =>
    rw [hs] at h0
    simp only [Except.map, Except.ok.injEq] at h0
    subst h0
    obtain ⟨h1, h2, _⟩ := subset_mem P order ix b (load_clean P f ix hn' hl) fs [] res (by simp) (by simp) hs
    refine ⟨fun x hx => ?_, by rw [List.map_map]; exact h2⟩
    obtain ⟨y, hy, rfl⟩ := List.mem_map.1 hx
    have hv : pyEq (f.version.getD .none) VERSION = true := by
      unfold load at hl
      split at hl
      · assumption
      · cases hl
    rw [load_ok P f es hv he hn] at hl
    cases hl
    obtain ⟨z, hz, hzy⟩ := List.mem_filterMap.1 (h1 y hy)
    obtain ⟨k1, k2⟩ := (loadedForm_some P z y).1 hzy
    have : asInFile y = z := by
      unfold asInFile
      rw [k1, k2.2.1]
    rw [this]; exact hz

/-- `C170_file`, `C170_unaltered`: the filters "shape 2" and "any shape" of C42, whose entries come out in this order. -/
example (P : Py) (order : List String) (ho : Enumerates order) :
    subsetRaw P order twoIndex true [shape2, anyShape] [] = .ok [("b", rawOf none), ("a", rawOf (some (.int 1)))] ∧
      load P ⟨some (.int 1), some [("b", rawOf none), ("a", rawOf (some (.int 1)))]⟩ =
        .ok [("b", entryOf "b" none), ("a", entryOf "a" (some (.int 1)))] ∧
      ("b", rawOf none) ∈ [("a", rawOf (some (.int 1))), ("b", rawOf none)] := by
  have h : subsetRaw P order twoIndex true [shape2, anyShape] [] = .ok [("b", rawOf none), ("a", rawOf (some (.int 1)))] := by
    have := subsetRaw_eq P order twoIndex true [shape2, anyShape] []
    rw [both_subset P order ho] at this
    exact this
  obtain ⟨res, h1, _, h3⟩ := C170_file P order twoFile twoIndex true _ (by intro es hes; cases hes; decide) (two_load P) _ h
  rw [both_subset P order ho] at h1
  cases h1
  exact ⟨h, h3, (C170_unaltered P order twoFile _ twoIndex true _ rfl (by decide) (two_load P) _ h).1 _ (by simp)⟩

/-- `C170_fails_alike`: an inventory without entries. -/
example (P : Py) (order : List String) :
    subsetRaw P order [] true [anyShape] [] = .error .value :=
  (C170_fails_alike P order [] true [anyShape] .value).2 (by
    have : find P order [] anyShape.input anyShape.output anyShape.methodOf = .ok none := by
      show find P order [] (orca _) (orca none) "linear".toList = _
      rw [orca_find]; rfl
    simp only [subset, this, bind, Except.bind]
    rfl)

end Verif.Index

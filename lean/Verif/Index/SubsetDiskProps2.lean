import Verif.Index.SubsetDiskProps
import Verif.Index.SubsetOrder

/-! # C107: which weights a directory made by the subset tool answers with -/

namespace Verif.Index.SubsetDisk
open Verif.GridSpec

variable {W : Type}

theorem opened (P : Py) (order : List String) (src : Source W) (fs : List Filter) (out : List Char) (strict fail occupied : Bool)
    (d d' : Disk W) (f : IndexFile) (hn : ∀ es, f.matrix = some es → (es.map Prod.fst).Nodup) (hl : load P f = .ok src.index)
    (hp : ∀ x ∈ src.index, Plain x.2) (h : subsetDb P order src fs out strict fail false occupied d = (.ok (), d')) :
    ∃ res, openIndex P out d' = some res ∧ subset P order src.index fail fs [] = .ok res ∧
      (∀ fl ∈ fs, ∀ e, find P order src.index fl.input fl.output fl.methodOf = .ok (some e) → (e.name, e) ∈ res) ∧
      ∀ x ∈ res, ∃ w, src.file x.2 = .ok w ∧ localFile out d' x.2 = some w := by
  obtain ⟨res, h1, _, h3, h4⟩ := C107_complete P order src fs out strict fail occupied d d' f hn hl hp h
  obtain ⟨res', d1, hs, _, rfl⟩ := subsetDb_ok P order src fs out strict fail occupied d d' h
  have hre : res' = res := by
    have : openIndex P out (Disk.set d1 (indexAt out) (.index (toRaw res'))) = some res' := by
      unfold openIndex
      have : Disk.set d1 (indexAt out) (.index (toRaw res')) (indexAt out) = some (.index (toRaw res')) := by simp [Disk.set]
      rw [this]
      show (load P (toRaw res')).toOption = some res'
      rw [C42_reloads P order f src.index res' fail fs hn hl hs]
      rfl
    rw [this] at h1
    exact Option.some.inj h1
  subst hre
  exact ⟨res', h1, hs, h3, h4⟩

/-- C107 (exact): whatever is asked of the directory, it answers with the entry of the first listed filter whose entry in the original
answers, and the weights are those the original has for this entry. -/
theorem C107_exact (P : Py) (order : List String) (src : Source W) (fs : List Filter) (out : List Char) (strict fail occupied : Bool)
    (d d' : Disk W) (f : IndexFile) (hn : ∀ es, f.matrix = some es → (es.map Prod.fst).Nodup) (hl : load P f = .ok src.index)
    (hp : ∀ x ∈ src.index, Plain x.2) (h : subsetDb P order src fs out strict fail false occupied d = (.ok (), d')) :
    ∃ res, openIndex P out d' = some res ∧ ∀ di dO m gi go e, fromDict P di = .ok gi → fromDict P dO = .ok go →
      (find P order res di dO m = .ok (some e) ↔
        ∃ pre fl post, fs = pre ++ fl :: post ∧ find P order src.index fl.input fl.output fl.methodOf = .ok (some e) ∧
          Hit P order gi go m e ∧
          ∀ x ∈ pre, ∀ a, find P order src.index x.input x.output x.methodOf = .ok (some a) → Miss P order gi go m a) ∧
      (find P order res di dO m = .ok (some e) → ∃ w, src.file e = .ok w ∧ localFile out d' e = some w) := by
  obtain ⟨res, h1, h2, h3, h4⟩ := opened P order src fs out strict fail occupied d d' f hn hl hp h
  refine ⟨res, h1, fun di dO m gi go e hgi hgo => ?_⟩
  have hx := C42_exact P order f src.index res fail fs hn hl h2 di dO m gi go hgi hgo e
  refine ⟨hx, fun hf => ?_⟩
  obtain ⟨pre, fl, post, rfl, k, _⟩ := hx.1 hf
  exact h4 _ (h3 fl (by simp) e k)

/-- C107 (part): if the filters are listed in the order of their entries in the original, the directory answers each of them as the original
does, with the same weights, however many entries match. -/
theorem C107_ordered_partial (P : Py) (order : List String) (src : Source W) (fs : List Filter) (out : List Char)
    (strict fail occupied : Bool) (d d' : Disk W) (f : IndexFile) (hn : ∀ es, f.matrix = some es → (es.map Prod.fst).Nodup)
    (hl : load P f = .ok src.index) (hp : ∀ x ∈ src.index, Plain x.2)
    (h : subsetDb P order src fs out strict fail false occupied d = (.ok (), d'))
    (ho : ∀ pre x mid y post a e, fs = pre ++ x :: (mid ++ y :: post) → find P order src.index x.input x.output x.methodOf = .ok (some a) →
      find P order src.index y.input y.output y.methodOf = .ok (some e) → a = e ∨ Before src.index a e) :
    ∃ res, openIndex P out d' = some res ∧
      ∀ fl ∈ fs, ∀ e, find P order src.index fl.input fl.output fl.methodOf = .ok (some e) →
        find P order res fl.input fl.output fl.methodOf = .ok (some e) ∧ ∃ w, src.file e = .ok w ∧ localFile out d' e = some w := by
  obtain ⟨res, h1, h2, h3, h4⟩ := opened P order src fs out strict fail occupied d d' f hn hl hp h
  exact ⟨res, h1, fun fl hfl e hf => ⟨C42_ordered_partial P order f src.index res fail fs hn hl h2 ho fl hfl e hf, h4 _ (h3 fl hfl e hf)⟩⟩

theorem both_done (P : Py) (order : List String) (ho : Enumerates order) : ∃ d',
    subsetDb P order twoSource [shape2, anyShape] out true true false false (fun _ => none) = (.ok (), d') := by
  have hs : subset P order twoSource.index true [shape2, anyShape] [] = _ := both_subset P order ho
  unfold subsetDb
  rw [if_neg (by decide), hs]
  exact ⟨_, rfl⟩

/-- `C107_exact`: the directory made from "shape 2" and "any shape" answers the latter with the weights of b; the original has a. -/
example (P : Py) (order : List String) (ho : Enumerates order) : ∃ d' res, openIndex P out d' = some res ∧
    find P order res (orca none) (orca none) "linear".toList = .ok (some (entryOf "b" none)) ∧
    localFile out d' (entryOf "b" none) = some "b" ∧
    find P order twoIndex (orca none) (orca none) "linear".toList = .ok (some (entryOf "a" (some (.int 1)))) := by
  obtain ⟨d', hd⟩ := both_done P order ho
  obtain ⟨res, h1, h2⟩ := C107_exact P order twoSource _ out true true false _ d' twoFile two_nodup (two_load P) two_plain hd
  obtain ⟨k1, k2⟩ := h2 _ _ "linear".toList _ _ (entryOf "b" none) (orca_fromDict P none) (orca_fromDict P none)
  have hf := k1.2 ⟨[], shape2, [anyShape], rfl, two_find P order ho, two_hit P order ho none, by simp⟩
  obtain ⟨w, hw, hl⟩ := k2 hf
  cases hw
  exact ⟨d', res, h1, hf, hl, any_find P order ho⟩

/-- `C107_ordered_partial`: listed the other way round each filter has the weights of its own entry. -/
example (P : Py) (order : List String) (ho : Enumerates order) : ∃ d' res, openIndex P out d' = some res ∧
    find P order res (orca none) (orca none) "linear".toList = .ok (some (entryOf "a" (some (.int 1)))) ∧
    localFile out d' (entryOf "a" (some (.int 1))) = some "a" := by
  have e1 : find P order twoIndex shape2.input shape2.output shape2.methodOf = .ok (some (entryOf "b" none)) := two_find P order ho
  have e2 := any_find P order ho
  have hs : subset P order twoSource.index true [anyShape, shape2] [] = .ok twoIndex := by
    show subset P order twoIndex true [anyShape, shape2] [] = _
    simp only [subset, e1, e2, bind, Except.bind]
    rfl
  have hd : ∃ d', subsetDb P order twoSource [anyShape, shape2] out true true false false (fun _ => none) = (.ok (), d') := by
    unfold subsetDb
    rw [if_neg (by decide), hs]
    exact ⟨_, rfl⟩
  obtain ⟨d', hd⟩ := hd
  obtain ⟨res, h1, h2⟩ := C107_ordered_partial P order twoSource _ out true true false _ d' twoFile two_nodup (two_load P) two_plain hd (by
    intro pre x mid y post a e h ha he
    replace ha : find P order twoIndex x.input x.output x.methodOf = .ok (some a) := ha
    replace he : find P order twoIndex y.input y.output y.methodOf = .ok (some e) := he
    rcases pre with _ | ⟨p, _ | ⟨p', pre⟩⟩
    · rcases mid with _ | ⟨p, mid⟩
      · cases h
        rw [e2] at ha; rw [e1] at he
        cases ha; cases he
        exact .inr ⟨[], "a", _, "b", rfl, by simp⟩
      · simp at h
    · simp at h
    · simp at h)
  obtain ⟨k1, w, hw, hl⟩ := h2 anyShape (by simp) _ e2
  cases hw
  exact ⟨d', res, h1, k1, hl⟩

end Verif.Index.SubsetDisk

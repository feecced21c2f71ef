import Verif.Builder.Props2

/-! # C94: which version decides -/

namespace Verif.Builder
open Verif.GridSpec Verif.Index

/-- The same inventory with another version. -/
def IndexFile.as (f : IndexFile) (v : Option V) : IndexFile := ⟨v, f.matrix⟩

/-- C94 (exact): whether a merge succeeds does not depend on the versions; the file it leaves is of the version of the system's inventory, and
of that of the input only if there is none; and exactly then can it be loaded: what the input's version is makes no difference beside a
system inventory. -/
theorem C94_exact (P : Py) (s : Option IndexFile) (i : IndexFile) (old : Option IndexFile) :
    (∀ v w dry, (merge (s.map (fun f => IndexFile.as f v)) (IndexFile.as i w) dry old).1 = (merge s i dry old).1) ∧
    ∀ g, merge s i false old = (.ok (), some g) →
      g.version = (s.getD i).version ∧
      ((∃ ix, load P g = .ok ix) ↔ OneVersion (s.getD i).version) := by
  constructor
  · intro v w dry
    cases s with
    | none =>
      unfold merge mergeContent IndexFile.as
      cases hi : i.matrix with
      | none => rfl
      | some es => cases dry <;> simp [needs, bind, Except.bind, pure, Except.pure, checkFile, hi]
    | some f =>
      unfold merge mergeContent IndexFile.as
      simp only [Option.map_some]
      cases hf : f.matrix with
      | none => rfl
      | some ss =>
        cases hi : i.matrix with
        | none => rfl
        | some es => cases dry <;> rfl
  · intro g h
    have key : g.version = (s.getD i).version ∧ ∃ es, g.matrix = some es := by
      unfold merge at h
      cases hc : mergeContent s i with
      | error e => rw [hc] at h; simp at h
      | ok p =>
        obtain ⟨f, n⟩ := p
        rw [hc] at h
        simp only [Bool.false_eq_true, if_false, Prod.mk.injEq, Option.some.injEq] at h
        obtain ⟨_, rfl⟩ := h
        unfold mergeContent at hc
        cases s with
        | none =>
          cases hi : i.matrix with
          | none => simp [hi, needs, bind, Except.bind] at hc
          | some es =>
            simp [hi, needs, bind, Except.bind, pure, Except.pure] at hc
            rw [← hc.1]
            exact ⟨rfl, es, hi⟩
        | some t =>
          cases ht : t.matrix with
          | none => simp [ht, needs, bind, Except.bind] at hc
          | some ss =>
            cases hi : i.matrix with
            | none => simp [ht, hi, needs, bind, Except.bind] at hc
            | some es =>
              simp [ht, hi, needs, bind, Except.bind, pure, Except.pure] at hc
              rw [← hc.1]
              exact ⟨rfl, _, rfl⟩
    obtain ⟨hv, es, he⟩ := key
    refine ⟨hv, ?_⟩
    rw [← hv]
    constructor
    · rintro ⟨ix, hl⟩
      by_contra hn
      rw [(C40_version P g).2 hn] at hl
      cases hl
    · intro ho
      unfold load
      have hp : pyEq (g.version.getD .none) VERSION = true := (version_iff g.version).2 ho
      rw [if_pos hp, he]
      exact ⟨_, rfl⟩

/-- `C94_exact`: an inventory of version 2 is merged into one of version 1 and the result loads; merged the other way round it does not. -/
example (P : Py) (r r' : Raw) :
    (∃ g ix, merge (some (holding [("a", r)])) ⟨some (.int 2), some [("b", r')]⟩ false none = (.ok (), some g) ∧ load P g = .ok ix) ∧
    ∃ g, merge (some ⟨some (.int 2), some [("b", r')]⟩) (holding [("a", r)]) false none = (.ok (), some g) ∧ ¬∃ ix, load P g = .ok ix := by
  have h1 := C94_refuted (holding [("a", r)]) _ [("b", r')] rfl (by simp) (by simp) (some (.int 2)) none
  have h2 := C94_refuted ⟨some (.int 2), some [("b", r')]⟩ _ [("a", r)] rfl (by simp) (by simp) (some (.int 1)) none
  obtain ⟨_, k1⟩ := (C94_exact P _ _ _).2 _ h1
  obtain ⟨_, k2⟩ := (C94_exact P _ _ _).2 _ h2
  obtain ⟨ix, hx⟩ := k1.2 (Or.inl rfl)
  refine ⟨⟨_, ix, h1, hx⟩, _, h2, fun h => ?_⟩
  have := k2.1 h
  simp [OneVersion] at this

end Verif.Builder

import Verif.Builder.Props

/-!
# The uid of an interpolation — backends/db.py:345-357 (C160)

`make_interpolation_uid` gives the method's name to the interpolations that are fully described by it, and a digest to the others.
-/

namespace Verif.Builder
open Verif.GridSpec Verif.Index

/-! ## Specification -/

/-- The method is the name, or for grid-box-average the dict of its default options. -/
def DefaultMethod (i : Inter) (n : List Char) : Prop :=
  i.method = some (.name n) ∨ (n = "grid-box-average".toList ∧ i.method = some (.dict (some n) 0))

/-- The name says all but engine and version, and these are all the other keys. -/
structure SaidByName (i : Inter) (n : List Char) : Prop where
  method : DefaultMethod i n
  engine : i.engine ≠ none
  version : i.version ≠ none
  keys : i.opts = 0

/-- Two interpolations with the same method and options, engine and version aside if the name says the rest. -/
def SameInterpolation (i j : Inter) : Prop := i = j ∨ ∃ n, SaidByName i n ∧ SaidByName j n

/-! ## The uid -/

/-- What gets its name as uid. -/
def Named (i : Inter) (n : List Char) : Prop :=
  (n = "grid-box-average".toList ∧ DefaultMethod i n) ∨ SaidByName i n

theorem uid_cases (sha : Inter → List Char) (i : Inter) (n : List Char) (h : MethodOf i n) :
    (Named i n ∧ interUid sha i = .ok n) ∨ (¬Named i n ∧ interUid sha i = .ok (sha i)) := by
  obtain ⟨m, e, v, o⟩ := i
  rcases h with h | ⟨q, h⟩
  · have h : m = some (.name n) := h
    subst h
    by_cases hg : n = "grid-box-average".toList
    · subst hg
      exact .inl ⟨.inl ⟨rfl, .inl rfl⟩, rfl⟩
    · have e0 : interUid sha ⟨some (.name n), e, v, o⟩ = (if e.isSome ∧ v.isSome ∧ o = 0 then .ok n else .ok (sha ⟨some (.name n), e, v, o⟩)) := by
        show (if n = "grid-box-average".toList ∧ _ then _ else _) = _
        rw [if_neg (fun h => hg h.1)]
        rfl
      rw [e0]
      by_cases hp : e.isSome ∧ v.isSome ∧ o = 0
      · rw [if_pos hp]
        refine .inl ⟨.inr ⟨.inl rfl, ?_, ?_, hp.2.2⟩, rfl⟩
        · exact Option.isSome_iff_ne_none.1 hp.1
        · exact Option.isSome_iff_ne_none.1 hp.2.1
      · rw [if_neg hp]
        refine .inr ⟨?_, rfl⟩
        rintro (h | h)
        · exact hg h.1
        · exact hp ⟨Option.isSome_iff_ne_none.2 h.engine, Option.isSome_iff_ne_none.2 h.version, h.keys⟩
  · have h : m = some (.dict (some n) q) := h
    subst h
    have e0 : interUid sha ⟨some (.dict (some n) q), e, v, o⟩ =
        (if n = "grid-box-average".toList ∧ isGridboxDefault (.dict (some n) q) = true then .ok n else .ok (sha ⟨some (.dict (some n) q), e, v, o⟩)) := rfl
    rw [e0]
    by_cases hp : n = "grid-box-average".toList ∧ q = 0
    · obtain ⟨rfl, rfl⟩ := hp
      rw [if_pos ⟨rfl, by decide⟩]
      exact .inl ⟨.inl ⟨rfl, .inr ⟨rfl, rfl⟩⟩, rfl⟩
    · rw [if_neg (by
        rintro ⟨rfl, h⟩
        refine hp ⟨rfl, ?_⟩
        simpa [isGridboxDefault, GRIDBOX_OPTS] using h)]
      refine .inr ⟨?_, rfl⟩
      have no : ¬DefaultMethod ⟨some (.dict (some n) q), e, v, o⟩ n := by
        rintro (h | ⟨hn, h⟩)
        · cases h
        · cases h; exact hp ⟨hn, rfl⟩
      rintro (h | h)
      · exact no h.2
      · exact no h.method

theorem default_name {i : Inter} {n m : List Char} (h : DefaultMethod i n) (h' : DefaultMethod i m) : n = m := by
  rcases h with h | ⟨_, h⟩ <;> rcases h' with h' | ⟨_, h'⟩ <;> rw [h] at h' <;> cases h' <;> rfl

/-- **C160, which interpolations have their name as uid.**  Those that the name describes, and grid-box-average with its default options
whatever other keys there are (a digest is no method name). -/
theorem C160_named (sha : Inter → List Char) (i : Inter) (n : List Char) (hf : sha i ≠ n) (h : MethodOf i n) :
    interUid sha i = .ok n ↔ (n = "grid-box-average".toList ∧ DefaultMethod i n) ∨ SaidByName i n := by
  rcases uid_cases sha i n h with ⟨h1, h2⟩ | ⟨h1, h2⟩
  · exact ⟨fun _ => h1, fun _ => h2⟩
  · refine ⟨fun h' => ?_, fun h' => absurd h' h1⟩
    rw [h2] at h'
    exact absurd (Except.ok.inj h') hf

/-- **C160, for interpolations that are not grid-box-average with further keys.**  Two interpolations have the same uid exactly if they are the same
interpolation, engine and version aside where the name says the rest (digests differ for different interpolations, and from names).  Missing: grid-box-average with keys of its own beside the method
(`C160_refuted`). -/
theorem C160_identifies_partial (sha : Inter → List Char) (i j : Inter) (n m : List Char) (hinj : sha i = sha j → i = j)
    (hfi : sha i ≠ m) (hfj : sha j ≠ n) (hi : MethodOf i n) (hj : MethodOf j m)
    (gi : n = "grid-box-average".toList → DefaultMethod i n → SaidByName i n) (gj : m = "grid-box-average".toList → DefaultMethod j m → SaidByName j m) :
    interUid sha i = interUid sha j ↔ SameInterpolation i j := by
  have si : Named i n → SaidByName i n := fun h => h.elim (fun h => gi h.1 h.2) id
  have sj : Named j m → SaidByName j m := fun h => h.elim (fun h => gj h.1 h.2) id
  have nm : ∀ {i : Inter} {n k : List Char}, MethodOf i n → SaidByName i k → k = n := by
    intro i n k h h'
    rcases h with h | ⟨o, h⟩ <;> rcases h'.method with h' | ⟨_, h'⟩ <;> rw [h] at h' <;> cases h' <;> rfl
  rcases uid_cases sha i n hi with ⟨h1, h2⟩ | ⟨h1, h2⟩ <;> rcases uid_cases sha j m hj with ⟨h3, h4⟩ | ⟨h3, h4⟩ <;> rw [h2, h4]
  · constructor
    · intro h; cases h; exact .inr ⟨n, si h1, sj h3⟩
    · rintro (rfl | ⟨k, a, b⟩)
      · rw [h2] at h4; exact h4
      · rw [← nm hi a, ← nm hj b]
  · constructor
    · intro h
      exact absurd (Except.ok.inj h).symm hfj
    · rintro (rfl | ⟨k, a, b⟩)
      · rw [h2] at h4; exact h4
      · rw [nm hj b] at b
        exact absurd (.inr b) h3
  · constructor
    · intro h
      exact absurd (Except.ok.inj h) hfi
    · rintro (rfl | ⟨k, a, b⟩)
      · rw [h2] at h4; exact h4
      · rw [nm hi a] at a
        exact absurd (.inr a) h1
  · constructor
    · intro h
      exact .inl (hinj (Except.ok.inj h))
    · rintro (rfl | ⟨k, a, b⟩)
      · rfl
      · rw [nm hi a] at a
        exact absurd (.inr a) h1

/-- **C160 refuted.**  grid-box-average by name, or by the dict of its defaults, with any further keys has the same uid as without: the options are
not in the uid, whatever the digest. -/
theorem C160_refuted (sha : Inter → List Char) (e v : Option (List Char)) (o o' : Nat) (h : o ≠ o') :
    let i : Inter := ⟨some (.name "grid-box-average".toList), e, v, o⟩
    let j : Inter := ⟨some (.name "grid-box-average".toList), e, v, o'⟩
    interUid sha i = interUid sha j ∧ ¬SameInterpolation i j := by
  refine ⟨rfl, ?_⟩
  rintro (hij | ⟨n, a, b⟩)
  · cases hij; exact h rfl
  · exact h (a.keys.trans b.keys.symm)

/-! ## The hypotheses can be met -/

/-- A digest that tells the interpolations of the sample apart. -/
def sampleSha (i : Inter) : List Char :=
  '#' :: (match i.method with
    | some (.dict _ _) => ['d']
    | _ => ['n']) ++ i.version.getD []

def byName (version : List Char) : Inter := ⟨some (.name "linear".toList), some "mir".toList, some version, 0⟩
def byOptions : Inter := ⟨some (.dict (some "linear".toList) 3), some "mir".toList, some ['1'], 0⟩

theorem byName_said (v : List Char) : SaidByName (byName v) "linear".toList := ⟨.inl rfl, by simp [byName], by simp [byName], rfl⟩

theorem not_gridbox (x : Inter) (h : "linear".toList = "grid-box-average".toList) (_ : DefaultMethod x "linear".toList) : SaidByName x "linear".toList := by
  exact absurd h (by decide)

/-- `C160_named`, `C160_identifies_partial`: linear by name with version 1 or 2 has one uid, its name; with options it has another. -/
example : interUid sampleSha (byName ['1']) = .ok "linear".toList :=
  (C160_named sampleSha _ _ (by decide) (.inl rfl)).2 (.inr (byName_said _))
example : interUid sampleSha (byName ['1']) = interUid sampleSha (byName ['2']) :=
  (C160_identifies_partial sampleSha _ _ _ _ (fun h => absurd h (by decide)) (by decide) (by decide) (.inl rfl) (.inl rfl) (not_gridbox _)
    (not_gridbox _)).2 (.inr ⟨_, byName_said _, byName_said _⟩)
example : interUid sampleSha (byName ['1']) ≠ interUid sampleSha byOptions := by
  intro h
  have := (C160_identifies_partial sampleSha _ _ _ _ (fun h => absurd h (by decide)) (by decide) (by decide) (.inl rfl) (.inr ⟨3, rfl⟩) (not_gridbox _)
    (not_gridbox _)).1 h
  rcases this with h | ⟨n, _, h⟩
  · have : some (Method.name "linear".toList) = some (.dict (some "linear".toList) 3) := congrArg Inter.method h
    cases this
  · rcases h.method with h | ⟨_, h⟩ <;> cases h

/-- `C160_refuted`: with and without an option. -/
example (sha : Inter → List Char) : interUid sha ⟨some (.name "grid-box-average".toList), none, none, 5⟩ =
    interUid sha ⟨some (.name "grid-box-average".toList), none, none, 0⟩ :=
  (C160_refuted sha none none 5 0 (by decide)).1

end Verif.Builder

import Verif.GridSpec.Spec
import Verif.Humanize.Lemmas
import Mathlib.Tactic.LinearCombination
import Mathlib.Tactic.NormNum
import Mathlib.Algebra.Order.Group.Unbundled.Abs

namespace Verif.GridSpec
open Verif.Humanize

/-! ### Except -/

theorem bind_ok {α β : Type} (x : M α) (f : α → M β) (y : β) :
    (x >>= f) = .ok y ↔ ∃ a, x = .ok a ∧ f a = .ok y := by
  cases x with
  | error e => simp [bind, Except.bind]
  | ok a => simp [bind, Except.bind]

theorem pure_ok {α : Type} (x y : α) : (pure x : M α) = .ok y ↔ x = y := by
  simp [pure, Except.pure]

theorem ok_ok {α : Type} (x y : α) : ((Except.ok x : M α) = .ok y) ↔ x = y := by simp

theorem ite_ok {α : Type} (c : Prop) [Decidable c] (x y : M α) (z : α) :
    (if c then x else y) = .ok z ↔ (c ∧ x = .ok z) ∨ (¬ c ∧ y = .ok z) := by
  by_cases h : c <;> simp [h]

theorem item_ok (d : Dict) (k : String) (v : V) : d.item k = .ok v ↔ d k = some v := by
  unfold Dict.item
  cases d k <;> simp

theorem numM_ok (v : V) (q : ℚ) : numM v = .ok q ↔ v.num = some q := by
  unfold numM
  cases v.num <;> simp

/-! ### python equality -/

mutual
theorem pyEq_refl : ∀ v : V, pyEq v v = true
  | .none => by simp [pyEq]
  | .bool b => by simp [pyEq, V.num]
  | .int i => by simp [pyEq, V.num]
  | .flt q => by simp [pyEq, V.num]
  | .str s => by simp [pyEq]
  | .list xs => by simp [pyEq, pyEqL_refl xs]
  | .tuple xs => by simp [pyEq, pyEqL_refl xs]
theorem pyEqL_refl : ∀ v : List V, pyEqL v v = true
  | [] => by simp [pyEqL]
  | x :: xs => by simp [pyEqL, pyEq_refl x, pyEqL_refl xs]
end

mutual
theorem pyEq_symm : ∀ a b : V, pyEq a b = pyEq b a
  | .none, b => by cases b <;> simp [pyEq, V.num]
  | .bool x, b => by cases b <;> simp [pyEq, V.num] <;> exact eq_comm
  | .int x, b => by cases b <;> simp [pyEq, V.num] <;> exact eq_comm
  | .flt x, b => by cases b <;> simp [pyEq, V.num] <;> exact eq_comm
  | .str s, b => by cases b <;> simp [pyEq, V.num]; exact eq_comm
  | .list xs, b => by cases b <;> simp [pyEq, V.num]; rw [pyEqL_symm]
  | .tuple xs, b => by cases b <;> simp [pyEq, V.num]; rw [pyEqL_symm]
theorem pyEqL_symm : ∀ a b : List V, pyEqL a b = pyEqL b a
  | [], [] => rfl
  | [], _ :: _ => by simp [pyEqL]
  | _ :: _, [] => by simp [pyEqL]
  | x :: xs, y :: ys => by simp [pyEqL, pyEq_symm x y, pyEqL_symm xs ys]
end

theorem num_iff (v : V) (q : ℚ) : v.num = some q ↔ Number v q := by
  constructor
  · intro h
    cases v with
    | bool b => cases b <;> simp [V.num] at h <;> subst h <;> constructor
    | int i => simp [V.num] at h; subst h; constructor
    | flt x => simp [V.num] at h; subst h; constructor
    | _ => simp [V.num] at h
  · rintro (_ | _ | _ | _) <;> simp [V.num]

theorem pyEq_of_equal {a b : V} (h : Equal a b) : pyEq a b = true := by
  induction h with
  | none => rfl
  | str s => exact pyEq_refl _
  | num h1 h2 => cases h1 <;> cases h2 <;> simp_all [pyEq, V.num]
  | listNil => rfl
  | listCons _ _ h1 h2 => simp only [pyEq] at h2; simp [pyEq, pyEqL, h1, h2]
  | tupleNil => rfl
  | tupleCons _ _ h1 h2 => simp only [pyEq] at h2; simp [pyEq, pyEqL, h1, h2]

theorem equal_num {a b : V} {q q' : ℚ} (ha : a.num = some q) (hb : b.num = some q') (h : q = q') : Equal a b :=
  .num ((num_iff a q).1 ha) ((num_iff b q).1 (h ▸ hb))

mutual
theorem equal_of_pyEq : ∀ a b : V, pyEq a b = true → Equal a b
  | .none, b => by cases b <;> simp [pyEq, V.num]; exact .none
  | .bool x, b => by
    intro h
    cases b <;> simp only [pyEq, V.num, reduceCtorEq, Bool.false_eq_true, beq_iff_eq] at h <;> exact equal_num rfl rfl h
  | .int x, b => by
    intro h
    cases b <;> simp only [pyEq, V.num, reduceCtorEq, Bool.false_eq_true, beq_iff_eq] at h <;> exact equal_num rfl rfl h
  | .flt x, b => by
    intro h
    cases b <;> simp only [pyEq, V.num, reduceCtorEq, Bool.false_eq_true, beq_iff_eq] at h <;> exact equal_num rfl rfl h
  | .str s, b => by cases b <;> simp [pyEq, V.num]; rintro rfl; exact .str s
  | .list xs, b => by cases b <;> simp [pyEq, V.num]; exact fun h => (equal_of_pyEqL xs _ h).1
  | .tuple xs, b => by cases b <;> simp [pyEq, V.num]; exact fun h => (equal_of_pyEqL xs _ h).2
theorem equal_of_pyEqL : ∀ a b : List V, pyEqL a b = true → Equal (.list a) (.list b) ∧ Equal (.tuple a) (.tuple b)
  | [], [] => fun _ => ⟨.listNil, .tupleNil⟩
  | [], _ :: _ => by simp [pyEqL]
  | _ :: _, [] => by simp [pyEqL]
  | x :: xs, y :: ys => by
    simp only [pyEqL, Bool.and_eq_true]
    exact fun h => ⟨.listCons (equal_of_pyEq x y h.1) (equal_of_pyEqL xs ys h.2).1, .tupleCons (equal_of_pyEq x y h.1) (equal_of_pyEqL xs ys h.2).2⟩
end

theorem pyEq_iff (a b : V) : pyEq a b = true ↔ Equal a b := ⟨equal_of_pyEq a b, pyEq_of_equal⟩

theorem pyEq_false_iff (a b : V) : pyEq a b = false ↔ ¬Equal a b := by
  rw [← pyEq_iff, Bool.not_eq_true]

/-! ### longitudes -/

theorem lonUp_spec (m lon : ℚ) : ∃ k : ℕ, lonUp m lon = lon + 360 * k ∧ m ≤ lonUp m lon ∧
    (m ≤ lon → k = 0) ∧ (lon < m → lonUp m lon < m + 360) := by
  induction lon using lonUp.induct (m := m) with
  | case1 lon h ih =>
    obtain ⟨k, h1, h2, h3, h4⟩ := ih
    rw [lonUp, if_pos h]
    refine ⟨k + 1, by rw [h1]; simp only [FULL_GLOBE]; push_cast; ring, h2, fun h' => absurd h (not_lt.2 h'), ?_⟩
    intro _
    by_cases h' : lon + FULL_GLOBE < m
    · exact h4 h'
    · have hk := h3 (not_lt.1 h')
      rw [h1, hk]; simp only [FULL_GLOBE]; push_cast; linarith
  | case2 lon h =>
    rw [lonUp, if_neg h]
    exact ⟨0, by simp, not_lt.1 h, fun _ => rfl, fun h' => absurd h' h⟩

theorem lonDown_spec (m lon : ℚ) (hm : m ≤ lon) : ∃ k : ℕ, lonDown m lon = lon - 360 * k ∧ m ≤ lonDown m lon ∧
    lonDown m lon < m + 360 := by
  induction lon using lonDown.induct (m := m) with
  | case1 lon h ih =>
    obtain ⟨k, h1, h2, h3⟩ := ih (by simp only [FULL_GLOBE] at h ⊢; linarith)
    rw [lonDown, if_pos h]
    exact ⟨k + 1, by rw [h1]; simp only [FULL_GLOBE]; push_cast; ring, h2, h3⟩
  | case2 lon h =>
    rw [lonDown, if_neg h]
    exact ⟨0, by simp, hm, by simpa [FULL_GLOBE] using h⟩

theorem normaliseLon_spec (lon m : ℚ) : Congruent lon (normaliseLon lon m) ∧ m ≤ normaliseLon lon m ∧
    normaliseLon lon m < m + 360 := by
  obtain ⟨k, h1, h2, _, _⟩ := lonUp_spec m lon
  obtain ⟨j, h3, h4, h5⟩ := lonDown_spec m (lonUp m lon) h2
  refine ⟨⟨(k : ℤ) - j, ?_⟩, h4, h5⟩
  show lonDown m (lonUp m lon) = _
  rw [h3, h1]; push_cast; ring

theorem congruent_unique {m x y z : ℚ} (h1 : Congruent x y) (h2 : Congruent x z) (hy : m ≤ y ∧ y < m + 360)
    (hz : m ≤ z ∧ z < m + 360) : y = z := by
  obtain ⟨j, rfl⟩ := h1
  obtain ⟨k, rfl⟩ := h2
  have a : (j : ℚ) < k + 1 := by linarith
  have b : (k : ℚ) < j + 1 := by linarith
  have a' : j < k + 1 := by exact_mod_cast a
  have b' : k < j + 1 := by exact_mod_cast b
  have : j = k := by omega
  rw [this]

theorem normaliseLon_shift (lon m : ℚ) (k : ℤ) : normaliseLon (lon + 360 * k) m = normaliseLon lon m := by
  obtain ⟨⟨j, h1⟩, h2⟩ := normaliseLon_spec (lon + 360 * k) m
  obtain ⟨h3, h4⟩ := normaliseLon_spec lon m
  refine congruent_unique (x := lon) (m := m) ⟨j + k, ?_⟩ h3 h2 h4
  rw [h1]; push_cast; ring

/-! ### comparison -/

theorem compareKeys_true (P : Py) (s t : Dict) (ks : List String) :
    compareKeys P s t ks = .ok true ↔
      ∀ k ∈ ks, ∃ a b, s k = some a ∧ t k = some b ∧ compareKey P k a b = .ok true := by
  induction ks with
  | nil => simp [compareKeys]
  | cons k ks ih =>
    simp only [compareKeys, bind_ok, item_ok, ite_ok, pure_ok, List.mem_cons, forall_eq_or_imp, ih]
    constructor
    · rintro ⟨a, ha, b, hb, r, hr, h⟩
      rcases h with ⟨rfl, h⟩ | ⟨_, h⟩
      · exact ⟨⟨a, b, ha, hb, hr⟩, h⟩
      · cases h
    · rintro ⟨⟨a, b, ha, hb, hr⟩, h⟩
      exact ⟨a, ha, b, hb, true, hr, Or.inl ⟨rfl, h⟩⟩

theorem eqBase_true (P : Py) (order : List String) (s t : Dict) :
    eqBase P order s t = .ok true ↔
      pyEq ((s "type").getD (.str [])) ((t "type").getD (.str [])) = true ∧
      (∀ k ∈ order, ∃ a b, s k = some a ∧ t k = some b ∧ compareKey P k a b = .ok true) ∧ shapesDiffer s t = false := by
  unfold eqBase
  by_cases h : pyEq ((s "type").getD (.str [])) ((t "type").getD (.str [])) = true
  · simp only [h, Bool.not_true, Bool.false_eq_true, if_false, bind_ok, ite_ok, pure_ok, true_and]
    constructor
    · rintro ⟨r, h1, h2⟩
      rcases h2 with ⟨rfl, h2⟩ | ⟨_, h2⟩
      · exact ⟨(compareKeys_true P s t order).1 h1, by simpa using h2⟩
      · cases h2
    · rintro ⟨h1, h2⟩
      exact ⟨true, (compareKeys_true P s t order).2 h1, Or.inl ⟨rfl, by simpa using h2⟩⟩
  · simp [h]

theorem eqRGG_true (P : Py) (order : List String) (s t : GS) :
    eqRGG P order s t = .ok true ↔
      eqBase P order s.d t.d = .ok true ∧ ∃ sa ta, s.d "area" = some sa ∧ t.d "area" = some ta ∧
        (sameArea RGG_EPS sa ta = .ok true ∨ (sameArea RGG_EPS sa ta = .ok false ∧
          isGlobalEw P s = .ok true ∧ isGlobalEw P t = .ok true ∧ ∃ w w', coord s 1 = .ok w ∧ coord t 1 = .ok w' ∧
            |normaliseLon w 0 - normaliseLon w' 0| < RGG_EPS)) := by
  unfold eqRGG
  simp only [bind_ok, ite_ok, pure_ok, item_ok]
  constructor
  · rintro ⟨b, hb, h⟩
    rcases h with ⟨_, h⟩ | ⟨hb', sa, hsa, ta, hta, same, hsame, h⟩
    · cases h
    · obtain rfl : b = true := by simpa using hb'
      refine ⟨hb, sa, ta, hsa, hta, ?_⟩
      rcases h with ⟨h1, _⟩ | ⟨h1, g, hg, h⟩
      · left; rw [hsame, h1]
      · right
        obtain rfl : same = false := by simpa using h1
        refine ⟨hsame, ?_⟩
        rcases h with ⟨_, h⟩ | ⟨hg', g', hgt, h⟩
        · cases h
        · obtain rfl : g = true := by simpa using hg'
          rcases h with ⟨_, h⟩ | ⟨hg'', w, hw, w', hw', h⟩
          · cases h
          · obtain rfl : g' = true := by simpa using hg''
            exact ⟨hg, hgt, w, w', hw, hw', by simpa using h⟩
  · rintro ⟨hb, sa, ta, hsa, hta, h⟩
    refine ⟨true, hb, Or.inr ⟨by simp, sa, hsa, ta, hta, ?_⟩⟩
    rcases h with h | ⟨h, hg, hg', w, w', hw, hw', hlt⟩
    · exact ⟨true, h, Or.inl (by simp)⟩
    · exact ⟨false, h, Or.inr ⟨by simp, true, hg, Or.inr ⟨by simp, true, hg', Or.inr ⟨by simp, w, hw, w', hw', by simpa using hlt⟩⟩⟩⟩

theorem eqLL_true (P : Py) (order : List String) (s t : GS) :
    eqLL P order s t = .ok true ↔
      eqBase P order s.d t.d = .ok true ∧ ∃ sa ta, s.d "area" = some sa ∧ t.d "area" = some ta ∧
        (sameArea DEGREE_EPS sa ta = .ok true ∨ (sameArea DEGREE_EPS sa ta = .ok false ∧
          ∃ sn tn ss ts, coord s 0 = .ok sn ∧ coord t 0 = .ok tn ∧ coord s 2 = .ok ss ∧ coord t 2 = .ok ts ∧
          |sn - tn| < DEGREE_EPS ∧ |ss - ts| < DEGREE_EPS ∧
          isGlobalEw P s = .ok true ∧ isGlobalEw P t = .ok true ∧ ∃ w w', coord s 1 = .ok w ∧ coord t 1 = .ok w' ∧
            |normaliseLon w 0 - normaliseLon w' 0| < DEGREE_EPS)) := by
  unfold eqLL
  simp only [bind_ok, ite_ok, pure_ok, item_ok]
  constructor
  · rintro ⟨b, hb, h⟩
    rcases h with ⟨_, h⟩ | ⟨hb', sa, hsa, ta, hta, same, hsame, h⟩
    · cases h
    · obtain rfl : b = true := by simpa using hb'
      refine ⟨hb, sa, ta, hsa, hta, ?_⟩
      rcases h with ⟨h1, _⟩ | ⟨h1, sn, hsn, tn, htn, h⟩
      · left; rw [hsame, h1]
      · right
        obtain rfl : same = false := by simpa using h1
        refine ⟨hsame, ?_⟩
        rcases h with ⟨_, h⟩ | ⟨hn, ss, hss, ts, hts, h⟩
        · cases h
        · rcases h with ⟨_, h⟩ | ⟨hs, g, hg, h⟩
          · cases h
          · rcases h with ⟨_, h⟩ | ⟨hg', g', hgt, h⟩
            · cases h
            · obtain rfl : g = true := by simpa using hg'
              rcases h with ⟨_, h⟩ | ⟨hg'', w, hw, w', hw', h⟩
              · cases h
              · obtain rfl : g' = true := by simpa using hg''
                exact ⟨sn, tn, ss, ts, hsn, htn, hss, hts, not_not.1 hn, not_not.1 hs, hg, hgt, w, w', hw, hw', by simpa using h⟩
  · rintro ⟨hb, sa, ta, hsa, hta, h⟩
    refine ⟨true, hb, Or.inr ⟨by simp, sa, hsa, ta, hta, ?_⟩⟩
    rcases h with h | ⟨h, sn, tn, ss, ts, hsn, htn, hss, hts, hn, hs, hg, hg', w, w', hw, hw', hlt⟩
    · exact ⟨true, h, Or.inl (by simp)⟩
    · exact ⟨false, h, Or.inr ⟨by simp, sn, hsn, tn, htn, Or.inr ⟨not_not.2 hn, ss, hss, ts, hts, Or.inr ⟨not_not.2 hs,
        true, hg, Or.inr ⟨by simp, true, hg', Or.inr ⟨by simp, w, hw, w', hw', by simpa using hlt⟩⟩⟩⟩⟩⟩

theorem eqHealpix_true (P : Py) (order : List String) (s t : GS) :
    eqHealpix P order s t = .ok true ↔
      eqBase P order s.d t.d = .ok true ∧ ∃ o, healpixOrder P s = .ok o ∧ healpixOrder P t = .ok o := by
  unfold eqHealpix
  simp only [bind_ok, ite_ok, pure_ok]
  constructor
  · rintro ⟨b, hb, h⟩
    rcases h with ⟨_, h⟩ | ⟨hb', o, ho, o', ho', h⟩
    · cases h
    · obtain rfl : b = true := by simpa using hb'
      obtain rfl : o = o' := by simpa using h
      exact ⟨hb, o, ho, ho'⟩
  · rintro ⟨hb, o, ho, ho'⟩
    exact ⟨true, hb, Or.inr ⟨by simp, o, ho, o, ho', by simp⟩⟩

theorem eq_true_base (P : Py) (order : List String) (s t : GS) (h : eq P order s t = .ok true) :
    eqBase P order s.d t.d = .ok true := by
  unfold eq at h
  cases hk : s.kind <;> rw [hk] at h <;> simp only at h
  · exact ((eqLL_true P order s t).1 h).1
  · exact ((eqRGG_true P order s t).1 h).1
  · exact ((eqHealpix_true P order s t).1 h).1
  · exact h

/-! ### areas -/

theorem sameCoord_ok (eps : ℚ) (x y : V) (b : Bool) :
    sameCoord eps x y = .ok b ↔ ∃ p q, x.num = some p ∧ y.num = some q ∧ b = decide (|p - q| < eps) := by
  unfold sameCoord
  simp only [bind_ok, numM_ok, pure_ok]
  constructor
  · rintro ⟨p, hp, q, hq, h⟩; exact ⟨p, q, hp, hq, h.symm⟩
  · rintro ⟨p, q, hp, hq, h⟩; exact ⟨p, hp, q, hq, h.symm⟩

theorem sameAreaL_symm (eps : ℚ) : ∀ xs ys : List V, sameAreaL eps xs ys = .ok true → sameAreaL eps ys xs = .ok true
  | [], [], _ => rfl
  | [], _ :: _, _ => rfl
  | _ :: _, [], _ => rfl
  | x :: xs, y :: ys, h => by
    simp only [sameAreaL, bind_ok, ite_ok, pure_ok, sameCoord_ok] at h ⊢
    obtain ⟨b, ⟨p, q, hp, hq, hb⟩, h⟩ := h
    rcases h with ⟨h1, h⟩ | ⟨_, h⟩
    · exact ⟨b, ⟨q, p, hq, hp, by rw [hb, abs_sub_comm]⟩, Or.inl ⟨h1, sameAreaL_symm eps xs ys h⟩⟩
    · cases h

theorem sameArea_true (eps : ℚ) (a b : V) : sameArea eps a b = .ok true ↔
    ∃ xs ys, a.seq = .ok xs ∧ b.seq = .ok ys ∧ xs.length = ys.length ∧ sameAreaL eps xs ys = .ok true := by
  unfold sameArea
  simp only [bind_ok, ite_ok, pure_ok]
  constructor
  · rintro ⟨xs, h1, ys, h2, h⟩
    rcases h with ⟨h3, h⟩ | ⟨_, h⟩
    · exact ⟨xs, ys, h1, h2, h3, h⟩
    · cases h
  · rintro ⟨xs, ys, h1, h2, h3, h⟩; exact ⟨xs, h1, ys, h2, Or.inl ⟨h3, h⟩⟩

theorem sameArea_symm (eps : ℚ) (a b : V) (h : sameArea eps a b = .ok true) : sameArea eps b a = .ok true := by
  rw [sameArea_true] at h ⊢
  obtain ⟨xs, ys, h1, h2, h3, h⟩ := h
  exact ⟨ys, xs, h2, h1, h3.symm, sameAreaL_symm eps xs ys h⟩

theorem sameAreaL_ne_true_symm (eps : ℚ) : ∀ xs ys : List V, sameAreaL eps xs ys = .ok false → sameAreaL eps ys xs = .ok false
  | [], [], h => by cases h
  | [], _ :: _, h => by cases h
  | _ :: _, [], h => by cases h
  | x :: xs, y :: ys, h => by
    simp only [sameAreaL, bind_ok, ite_ok, pure_ok, sameCoord_ok] at h ⊢
    obtain ⟨b, ⟨p, q, hp, hq, hb⟩, h⟩ := h
    rcases h with ⟨h1, h⟩ | ⟨h1, h⟩
    · exact ⟨b, ⟨q, p, hq, hp, by rw [hb, abs_sub_comm]⟩, Or.inl ⟨h1, sameAreaL_ne_true_symm eps xs ys h⟩⟩
    · exact ⟨b, ⟨q, p, hq, hp, by rw [hb, abs_sub_comm]⟩, Or.inr ⟨h1, h⟩⟩

theorem sameArea_false_symm (eps : ℚ) (a b : V) (h : sameArea eps a b = .ok false) : sameArea eps b a = .ok false := by
  unfold sameArea at h ⊢
  simp only [bind_ok, ite_ok, pure_ok] at h ⊢
  obtain ⟨xs, h1, ys, h2, h⟩ := h
  rcases h with ⟨h3, h⟩ | ⟨h3, h⟩
  · exact ⟨ys, h2, xs, h1, Or.inl ⟨h3.symm, sameAreaL_ne_true_symm eps xs ys h⟩⟩
  · exact ⟨ys, h2, xs, h1, Or.inr ⟨fun e => h3 e.symm, h⟩⟩

theorem sameAreaL_refl (eps : ℚ) (heps : 0 < eps) : ∀ xs : List V, (∀ x ∈ xs, ∃ q, x.num = some q) →
    sameAreaL eps xs xs = .ok true
  | [], _ => rfl
  | x :: xs, h => by
    simp only [sameAreaL, bind_ok, ite_ok, pure_ok, sameCoord_ok]
    obtain ⟨q, hq⟩ := h x (by simp)
    exact ⟨true, ⟨q, q, hq, hq, by simp [heps]⟩, Or.inl ⟨rfl, sameAreaL_refl eps heps xs (fun y hy => h y (by simp [hy]))⟩⟩

/-! ### comparison of single values -/

theorem close_refl (atol a : ℚ) (h : 0 ≤ atol) : close atol a a = true := by
  unfold close
  rw [decide_eq_true_iff, sub_self, abs_zero]
  positivity

theorem nums_ok (xs : List V) (h : ∀ x ∈ xs, ∃ q, x.num = some q) : ∃ qs, nums xs = .ok qs := by
  induction xs with
  | nil => exact ⟨[], rfl⟩
  | cons x xs ih =>
    obtain ⟨q, hq⟩ := h x (by simp)
    obtain ⟨qs, hqs⟩ := ih (fun y hy => h y (by simp [hy]))
    exact ⟨q :: qs, by simp [nums, bind_ok, numM_ok, hq, hqs]⟩

theorem nums_pair (x y : V) (qs : List ℚ) : nums [x, y] = .ok qs ↔ ∃ p q, x.num = some p ∧ y.num = some q ∧ qs = [p, q] := by
  simp only [nums, bind_ok, numM_ok, pure_ok, ok_ok]
  constructor
  · rintro ⟨p, hp, r, ⟨q, hq, r', rfl, rfl⟩, rfl⟩; exact ⟨p, q, hp, hq, rfl⟩
  · rintro ⟨p, q, hp, hq, rfl⟩; exact ⟨p, hp, [q], ⟨q, hq, [], rfl, rfl⟩, rfl⟩

theorem allclose_pair (x y x' y' : V) (b : Bool) : allclose [x, y] [x', y'] = .ok b ↔
    ∃ p q p' q', x.num = some p ∧ y.num = some q ∧ x'.num = some p' ∧ y'.num = some q' ∧
      b = (close (1 / 1000000) p p' && close (1 / 1000000) q q') := by
  unfold allclose
  simp only [bind_ok, nums_pair, ite_ok, pure_ok]
  constructor
  · rintro ⟨xs, ⟨p, q, hp, hq, rfl⟩, ys, ⟨p', q', hp', hq', rfl⟩, h⟩
    rcases h with ⟨_, h⟩ | ⟨h, _⟩
    · exact ⟨p, q, p', q', hp, hq, hp', hq', by rw [← h]; simp⟩
    · simp at h
  · rintro ⟨p, q, p', q', hp, hq, hp', hq', rfl⟩
    exact ⟨[p, q], ⟨p, q, hp, hq, rfl⟩, [p', q'], ⟨p', q', hp', hq', rfl⟩, Or.inl ⟨rfl, by simp⟩⟩

theorem zip_self_all (qs : List ℚ) : (qs.zip qs).all (fun p => close (1 / 1000000) p.1 p.2) = true := by
  induction qs with
  | nil => rfl
  | cons q qs ih => simp only [List.zip_cons_cons, List.all_cons, ih, Bool.and_true]; exact close_refl _ _ (by norm_num)

theorem compareKey_refl (P : Py) (k : String) (v : V)
    (h : k = "grid" → ∀ xs, v = .list xs → ∀ x ∈ xs, ∃ q, x.num = some q) : compareKey P k v v = .ok true := by
  unfold compareKey
  cases v with
  | str s => simp
  | list xs =>
    simp only
    split
    · rename_i hk
      obtain ⟨qs, hqs⟩ := nums_ok xs (h hk xs rfl)
      unfold allclose
      simp only [hqs, bind_ok, ok_ok, ite_ok, pure_ok]
      exact ⟨qs, rfl, qs, rfl, Or.inl ⟨rfl, zip_self_all qs⟩⟩
    · simp [pyEqL_refl]
  | flt q => simp only [ok_ok]; exact close_refl _ _ (by norm_num)
  | none => simp [V.isInt]
  | bool b => simp [V.isInt, pyEq_refl]
  | int i => simp [V.isInt, pyEq_refl]
  | tuple xs => simp [V.isInt]

/-- Comparison is symmetric except where numpy's relative tolerance is used. -/
theorem compareKey_symm (P : Py) (k : String) (a b : V) (hl : k = "grid" → ∀ xs ys, ¬ (a = .list xs ∧ b = .list ys))
    (hf : ∀ x y, ¬ (a = .flt x ∧ b = .flt y)) : compareKey P k a b = compareKey P k b a := by
  unfold compareKey
  cases a <;> cases b <;> simp only [V.isInt, Bool.and_true, Bool.and_false, if_true,
    Bool.false_eq_true, if_false] <;> first
    | rfl
    | (rw [pyEq_symm])
    | (rw [Bool.beq_comm]; done)
    | (split <;> rw [Bool.beq_comm])
    | (exfalso; exact hf _ _ ⟨rfl, rfl⟩)
    | (split; (exfalso; rename_i h; exact hl h _ _ ⟨rfl, rfl⟩); rw [pyEqL_symm])

/-! ### type inference -/

theorem orcaRest_iff (P : Py) (s : List Char) : orcaRest P s = true ↔
    ∃ ds c tail, s = "ORCA".toList ++ ds ++ '_' :: c :: tail ∧ ds ≠ [] ∧ (∀ x ∈ ds, P.C.isDigit x = true) ∧
      c ∈ ['F', 'T', 'U', 'V'] ∧ tail ∈ [[], ['\n']] := by
  constructor
  · intro h
    unfold orcaRest at h
    split at h
    · rename_i r
      cases r with
      | nil => simp [plus] at h
      | cons d0 r =>
        unfold plus at h
        simp only at h
        split at h
        · rename_i hd0
          rw [star_greedy] at h
          · have hall := takeWhile_all P.C.isDigit r
            split at h
            · rename_i c tail heq
              have hr : r = r.takeWhile P.C.isDigit ++ '_' :: c :: tail := by
                rw [← heq, List.takeWhile_append_dropWhile]
              refine ⟨d0 :: r.takeWhile P.C.isDigit, c, tail, ?_, by simp, ?_, ?_, ?_⟩
              · rw [List.append_assoc, List.cons_append, ← hr]; rfl
              · intro x hx
                rcases List.mem_cons.1 hx with rfl | hx
                · exact hd0
                · exact hall x hx
              · by_contra hc
                simp only [List.mem_cons, List.not_mem_nil, or_false, not_or] at hc
                simp [hc] at h
              · by_contra hc
                simp only [List.mem_cons, List.not_mem_nil, or_false, not_or] at hc
                simp [atEnd, hc] at h
            · simp at h
          · intro a c cs hc hk
            exfalso
            apply hk
            split
            · rename_i heq
              simp only [List.cons.injEq] at heq
              rw [heq.1, P.underscore_not_digit] at hc
              cases hc
            · rfl
        · simp at h
    · cases h
  · rintro ⟨ds, c, tail, rfl, hne, hd, hc, ht⟩
    obtain ⟨d0, ds', rfl⟩ : ∃ x y, ds = x :: y := by cases ds; exact absurd rfl hne; exact ⟨_, _, rfl⟩
    have hd0 := hd d0 (by simp)
    show orcaRest P ('O' :: 'R' :: 'C' :: 'A' :: (d0 :: ds' ++ '_' :: c :: tail)) = true
    unfold orcaRest
    simp only [plus, List.cons_append, hd0, if_true]
    rw [star_greedy]
    · obtain ⟨h1, h2⟩ := takeWhile_of_all P.C.isDigit ds' ('_' :: c :: tail) (fun x hx => hd x (by simp [hx]))
        (by intro x r h; cases h; exact P.underscore_not_digit)
      rw [h2]
      simp only [List.mem_cons, List.not_mem_nil, or_false] at hc ht
      have hcc : (c == 'F' || c == 'T' || c == 'U' || c == 'V') = true := by
        rcases hc with rfl | rfl | rfl | rfl <;> rfl
      have htt : atEnd tail = true := by
        rcases ht with rfl | rfl <;> rfl
      simp [hcc, htt]
    · intro a c cs hc hk
      exfalso
      apply hk
      split
      · rename_i heq
        simp only [List.cons.injEq] at heq
        rw [heq.1, P.underscore_not_digit] at hc
        cases hc
      · rfl

theorem orcaMatch_iff (P : Py) (s : List Char) : orcaMatch P s = true ↔ Supported P .orca (.str s) := by
  unfold orcaMatch
  rw [Bool.or_eq_true]
  constructor
  · rintro (h | h)
    · split at h
      · rename_i r
        obtain ⟨ds, c, tail, rfl, h1, h2, h3, h4⟩ := (orcaRest_iff P r).1 h
        exact Supported.orca ['e'] ds tail c (by simp) h1 h2 h3 h4
      · cases h
    · obtain ⟨ds, c, tail, rfl, h1, h2, h3, h4⟩ := (orcaRest_iff P s).1 h
      exact Supported.orca [] ds tail c (by simp) h1 h2 h3 h4
  · intro h
    generalize hv : V.str s = v at h
    generalize hk : Kind.orca = k at h
    cases h with
    | ll => cases hk
    | rgg => cases hk
    | healpix => cases hk
    | orca pre ds tail c h0 h1 h2 h3 h4 =>
      cases hv
      simp only [List.mem_cons, List.not_mem_nil, or_false] at h0
      rcases h0 with rfl | rfl
      · right; exact (orcaRest_iff P _).2 ⟨ds, c, tail, by simp, h1, h2, h3, h4⟩
      · left; exact (orcaRest_iff P _).2 ⟨ds, c, tail, by simp, h1, h2, h3, h4⟩

theorem typeMatch_iff (P : Py) (k : Kind) (g : V) : typeMatch P k g = true ↔ Supported P k g := by
  cases k with
  | ll =>
    constructor
    · intro h
      unfold typeMatch at h
      split at h <;> first | exact Supported.ll _ _ | cases h | (rename_i h'; cases h')
    · intro h; cases h; rfl
  | rgg =>
    constructor
    · intro h
      cases g with
      | str s =>
        simp only [typeMatch] at h
        unfold rggMatch at h
        split at h
        · rename_i c d r
          simp only [Bool.and_eq_true, Bool.or_eq_true, beq_iff_eq] at h
          exact Supported.rgg c d r (by simp only [List.mem_cons, List.not_mem_nil, or_false]; grind) h.2
        · cases h
      | _ => simp [typeMatch] at h
    · intro h
      cases h with
      | rgg c d r hc hd =>
        simp only [List.mem_cons, List.not_mem_nil, or_false] at hc
        simp only [typeMatch, rggMatch, hd, Bool.and_true, Bool.or_eq_true, beq_iff_eq]; grind
  | healpix =>
    constructor
    · intro h
      cases g with
      | str s =>
        simp only [typeMatch] at h
        unfold healpixMatch at h
        split at h
        · rename_i c d r
          simp only [Bool.and_eq_true, Bool.or_eq_true, beq_iff_eq] at h
          exact Supported.healpix c d r (by simp only [List.mem_cons, List.not_mem_nil, or_false]; grind) h.2
        · cases h
      | _ => simp [typeMatch] at h
    · intro h
      cases h with
      | healpix c d r hc hd =>
        simp only [List.mem_cons, List.not_mem_nil, or_false] at hc
        simp only [typeMatch, healpixMatch, hd, Bool.and_true, Bool.or_eq_true, beq_iff_eq]; grind
  | orca =>
    cases g with
    | str s => exact orcaMatch_iff P s
    | _ => simp only [typeMatch]; constructor <;> intro h <;> cases h

theorem supported_unique (P : Py) (k k' : Kind) (g : V) (h : Supported P k g) (h' : Supported P k' g) : k = k' := by
  have hR : P.C.isDigit 'R' = false := (P.C.ascii_letter 17 (by decide)).2.1
  have hO : P.C.isDigit 'O' = false := (P.C.ascii_letter 14 (by decide)).2.1
  have orca_head : ∀ s, Supported P .orca (.str s) → ∃ c d r, s = c :: d :: r ∧ P.C.isDigit d = false := by
    intro s hs
    cases hs with
    | orca pre ds tail c h0 =>
      simp only [List.mem_cons, List.not_mem_nil, or_false] at h0
      rcases h0 with rfl | rfl
      · exact ⟨'O', 'R', _, rfl, hR⟩
      · exact ⟨'e', 'O', _, rfl, hO⟩
  cases k <;> cases k' <;> first | rfl | skip
  · cases h; cases h'
  · cases h; cases h'
  · cases h; cases h'
  · cases h; cases h'
  · cases h with | rgg c d r hc hd => cases h' with | healpix _ _ _ hc' _ => simp at hc hc'; grind
  · cases h with | rgg c d r hc hd => obtain ⟨c', d', r', e, h2⟩ := orca_head _ h'; cases e; rw [hd] at h2; cases h2
  · cases h; cases h'
  · cases h with | healpix c d r hc hd => cases h' with | rgg _ _ _ hc' _ => simp at hc hc'; grind
  · cases h with | healpix c d r hc hd => obtain ⟨c', d', r', e, h2⟩ := orca_head _ h'; cases e; rw [hd] at h2; cases h2
  · cases h; cases h'
  · cases h' with | rgg c d r hc hd => obtain ⟨c', d', r', e, h2⟩ := orca_head _ h; cases e; rw [hd] at h2; cases h2
  · cases h' with | healpix c d r hc hd => obtain ⟨c', d', r', e, h2⟩ := orca_head _ h; cases e; rw [hd] at h2; cases h2

/-! ### construction -/

theorem kindOf_name (k : Kind) : kindOf k.name = some k := by cases k <;> decide

theorem kind_name_inj (k k' : Kind) (h : k.name = k'.name) : k = k' := by
  have := kindOf_name k
  rw [h, kindOf_name] at this
  exact (Option.some.inj this).symm

/-- Keys that no constructor touches. -/
def Untouched (k : String) : Prop := k ≠ "global" ∧ k ≠ "area" ∧ k ≠ "order" ∧ k ≠ "ordering"

instance (k : String) : Decidable (Untouched k) := by unfold Untouched; infer_instance

theorem construct_untouched (k : Kind) (gs : Dict) (g : GS) (h : construct k gs = .ok g) (x : String) (hx : Untouched x) :
    g.d x = gs x := by
  obtain ⟨h1, h2, h3, h4⟩ := hx
  cases k with
  | ll =>
    simp only [construct, bind_ok, pure_ok] at h
    obtain ⟨d, hd, f, hf, rfl⟩ := h
    have hdx : d x = gs x := by
      unfold llArea at hd
      split at hd
      · simp only [bind_ok, pure_ok] at hd
        obtain ⟨_, _, _, _, _, _, a, _, rfl⟩ := hd
        simp [Dict.set, h1, h2]
      · rw [pure_ok] at hd; rw [hd]
    simp only [Dict.setDefault]
    split <;> simp [Dict.set, h2, hdx]
  | rgg =>
    simp only [construct, bind_ok, pure_ok] at h
    obtain ⟨f, hf, rfl⟩ := h
    simp only [Dict.setDefault]
    split <;> simp [Dict.set, h2]
  | healpix =>
    simp only [construct, ok_ok] at h
    subst h
    simp only [Dict.setDefault]
    cases ho : gs "ordering" <;> simp only <;> split <;> simp [Dict.set, Dict.erase, h2, h3, h4]
  | orca => simp only [construct, ok_ok] at h; subst h; rfl

theorem construct_kind (k : Kind) (gs : Dict) (g : GS) (h : construct k gs = .ok g) : g.kind = k := by
  cases k <;> simp only [construct, bind_ok, pure_ok, ok_ok] at h
  · obtain ⟨d, hd, f, hf, rfl⟩ := h; rfl
  · obtain ⟨f, hf, rfl⟩ := h; rfl
  · subst h; rfl
  · subst h; rfl

theorem setDefault_of_some (d : Dict) (k : String) (v : V) (h : (d k).isSome = true) : d.setDefault k v = d := by
  simp [Dict.setDefault, h]

theorem setDefault_isSome (d : Dict) (k : String) (v : V) : ((d.setDefault k v) k).isSome = true := by
  unfold Dict.setDefault
  split
  · assumption
  · simp [Dict.set]

theorem construct_idem (k : Kind) (gs : Dict) (g : GS) (h : construct k gs = .ok g) : construct k g.d = .ok g := by
  cases k with
  | ll =>
    simp only [construct, bind_ok, pure_ok] at h
    obtain ⟨d, hd, f, hf, rfl⟩ := h
    have ha := setDefault_isSome d "area" DEFAULT_AREA
    simp only [construct, llArea]
    have hn : ((d.setDefault "area" DEFAULT_AREA) "area").isNone = false := by
      cases hv : (d.setDefault "area" DEFAULT_AREA) "area" with
      | none => rw [hv] at ha; cases ha
      | some v => rfl
    simp only [hn, Bool.and_false, Bool.false_eq_true, if_false]
    simp only [bind_ok, pure_ok]
    refine ⟨_, rfl, f, ?_, ?_⟩
    · rw [setDefault_of_some _ _ _ ha]; exact hf
    · rw [setDefault_of_some _ _ _ ha]
  | rgg =>
    simp only [construct, bind_ok, pure_ok] at h
    obtain ⟨f, hf, rfl⟩ := h
    have ha := setDefault_isSome gs "area" DEFAULT_AREA
    simp only [construct, bind_ok, pure_ok]
    exact ⟨f, by rw [setDefault_of_some _ _ _ ha]; exact hf, by rw [setDefault_of_some _ _ _ ha]⟩
  | healpix =>
    simp only [construct, ok_ok] at h
    subst h
    simp only [construct, ok_ok]
    have key : ∀ d : Dict, d "ordering" = none → (d.setDefault "area" DEFAULT_AREA) "ordering" = none := by
      intro d hd
      unfold Dict.setDefault
      split
      · exact hd
      · simp [Dict.set, hd]
    have ha := fun d : Dict => setDefault_isSome d "area" DEFAULT_AREA
    cases ho : gs "ordering" with
    | none =>
      simp only [key gs ho]
      rw [setDefault_of_some _ _ _ (ha gs)]
    | some v =>
      simp only
      rw [key _ (by simp [Dict.set, Dict.erase])]
      simp only
      rw [setDefault_of_some _ _ _ (ha _)]
  | orca => simp only [construct, ok_ok] at h ⊢; subst h; rfl

theorem tupleToList_eq (v : V) : tupleToList v = asList v := by cases v <;> rfl

theorem tupleToList_idem (v : V) : tupleToList (tupleToList v) = tupleToList v := by cases v <;> rfl

theorem fromDict_ok (P : Py) (d : Dict) (g : GS) : fromDict P d = .ok g ↔
    ∃ k, infer P TYPES (normalise (withDefaults d)) = .ok k ∧
      construct k ((normalise (withDefaults d)).set "type" (.str k.name)) = .ok g := by
  unfold fromDict
  simp only [bind_ok]

theorem fromDict_type (P : Py) (d : Dict) (g : GS) (h : fromDict P d = .ok g) : g.d "type" = some (.str g.kind.name) := by
  obtain ⟨k, _, h2⟩ := (fromDict_ok P d g).1 h
  rw [construct_untouched _ _ _ h2 "type" (by decide), construct_kind _ _ _ h2]
  simp [Dict.set]

theorem fromDict_untouched (P : Py) (d : Dict) (g : GS) (h : fromDict P d = .ok g) (x : String) (hx : Untouched x)
    (ht : x ≠ "type") : g.d x = (normalise (withDefaults d)) x := by
  obtain ⟨k, _, h2⟩ := (fromDict_ok P d g).1 h
  rw [construct_untouched _ _ _ h2 x hx]
  simp [Dict.set, ht]

/-- No value is a tuple. -/
def NoTuple (d : Dict) : Prop := ∀ k v, d k = some v → tupleToList v = v

theorem NoTuple.normalise (d : Dict) : NoTuple (normalise d) := by
  intro k v h
  unfold Verif.GridSpec.normalise at h
  cases hd : d k with
  | none => rw [hd] at h; cases h
  | some w => rw [hd] at h; cases h; exact tupleToList_idem w

theorem NoTuple.set {d : Dict} (h : NoTuple d) (k : String) (v : V) (hv : tupleToList v = v) : NoTuple (d.set k v) := by
  intro k' v' h'
  unfold Dict.set at h'
  split at h'
  · cases h'; exact hv
  · exact h k' v' h'

theorem NoTuple.erase {d : Dict} (h : NoTuple d) (k : String) : NoTuple (d.erase k) := by
  intro k' v' h'
  unfold Dict.erase at h'
  split at h'
  · cases h'
  · exact h k' v' h'

theorem NoTuple.setDefault {d : Dict} (h : NoTuple d) (k : String) (v : V) (hv : tupleToList v = v) :
    NoTuple (d.setDefault k v) := by
  unfold Dict.setDefault
  split
  · exact h
  · exact h.set k v hv

theorem globalArea_noTuple (x y v : V) (h : globalArea x y = .ok v) : tupleToList v = v := by
  unfold globalArea at h
  split at h
  · cases h
  · cases h
  · split at h
    · split at h
      · cases h; rfl
      · cases h; rfl
    · cases h; rfl

theorem construct_noTuple (k : Kind) (gs : Dict) (g : GS) (h : construct k gs = .ok g) (hn : NoTuple gs) : NoTuple g.d := by
  have hdef : tupleToList DEFAULT_AREA = DEFAULT_AREA := rfl
  cases k with
  | ll =>
    simp only [construct, bind_ok, pure_ok] at h
    obtain ⟨d, hd, f, hf, rfl⟩ := h
    apply NoTuple.setDefault _ _ _ hdef
    unfold llArea at hd
    split at hd
    · simp only [bind_ok, pure_ok] at hd
      obtain ⟨_, _, _, _, _, _, a, ha, rfl⟩ := hd
      exact (hn.set _ _ rfl).set _ _ (globalArea_noTuple _ _ _ ha)
    · rw [pure_ok] at hd; rw [← hd]; exact hn
  | rgg =>
    simp only [construct, bind_ok, pure_ok] at h
    obtain ⟨f, hf, rfl⟩ := h
    exact hn.setDefault _ _ hdef
  | healpix =>
    simp only [construct, ok_ok] at h
    subst h
    apply NoTuple.setDefault _ _ _ hdef
    cases ho : gs "ordering" with
    | none => exact hn
    | some v => exact (hn.erase _).set _ _ (hn _ _ ho)
  | orca => simp only [construct, ok_ok] at h; subst h; exact hn

theorem normalise_of_noTuple (d : Dict) (h : NoTuple d) : normalise d = d := by
  funext k
  unfold normalise
  cases hk : d k with
  | none => rfl
  | some v => simp [h k v hk]

/-- The three flags are present. -/
theorem fromDict_flags (P : Py) (d : Dict) (g : GS) (h : fromDict P d = .ok g) (k : String) (v : V) (hk : DEFAULTS k = some v) :
    (g.d k).isSome = true := by
  have hm : k = "i_scans_negatively" ∨ k = "j_points_consecutive" ∨ k = "j_scans_positively" := by
    unfold DEFAULTS at hk
    split at hk
    · assumption
    · cases hk
  have hu : Untouched k ∧ k ≠ "type" := by rcases hm with rfl | rfl | rfl <;> exact ⟨by decide, by decide⟩
  rw [fromDict_untouched P d g h k hu.1 hu.2]
  unfold normalise withDefaults
  cases d k <;> simp [hk]


end Verif.GridSpec

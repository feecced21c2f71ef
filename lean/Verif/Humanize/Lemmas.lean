import Verif.Humanize.Spec
import Mathlib.Tactic.Linarith
import Mathlib.Tactic.Ring
import Mathlib.Tactic.FieldSimp
import Mathlib.Tactic.NormNum
import Mathlib.Tactic.Push

namespace Verif.Humanize

/-! ### the matcher -/

/-- If success before the end of the run of `p` implies success at the end of the run, the greedy choice decides. -/
theorem star_greedy {α : Type} (p : Char → Bool) (k : List Char → List Char → Option α)
    (H : ∀ a c cs, p c = true → k a (c :: cs) ≠ none →
      k (a ++ (c :: cs).takeWhile p) ((c :: cs).dropWhile p) ≠ none) (acc s : List Char) :
    star p k acc s = k (acc ++ s.takeWhile p) (s.dropWhile p) := by
  induction s generalizing acc with
  | nil => simp [star]
  | cons c cs ih =>
    unfold star
    by_cases hc : p c = true
    · rw [if_pos hc, ih]
      have h := H acc c cs hc
      simp only [List.takeWhile_cons, List.dropWhile_cons, hc, if_true] at h ⊢
      rw [show acc ++ [c] ++ cs.takeWhile p = acc ++ c :: cs.takeWhile p by simp]
      cases hk : k (acc ++ c :: cs.takeWhile p) (cs.dropWhile p) with
      | some r => rfl
      | none =>
        rw [hk] at h
        cases h' : k acc (c :: cs) with
        | none => rfl
        | some r => rw [h'] at h; exact absurd rfl (h (by simp))
    · simp only [if_neg hc, List.takeWhile_cons, List.dropWhile_cons, Bool.not_eq_true] at *
      simp

theorem matchTail_eq {α : Type} (C : CharClass) (r : α) (s : List Char) :
    matchTail C r s = if s.dropWhile C.isSpace = [] then some r else none := by
  unfold matchTail
  rw [star_greedy]
  · simp only [atEnd]
    cases h : s.dropWhile C.isSpace with
    | nil => simp
    | cons c cs =>
      have hc : C.isSpace c = false := by
        have := List.head_dropWhile_not C.isSpace (l := s) (by rw [h]; simp)
        simpa [h] using this
      have : ¬ (c :: cs = ['\n']) := by
        intro e; simp at e; rw [e.1, C.nl_space] at hc; cases hc
      simp only [beq_iff_eq, Bool.or_eq_true, this, or_false]
  · intro a c cs hc hk
    simp only [atEnd, ne_eq] at hk
    have : c :: cs = ['\n'] := by
      simpa using hk
    rw [this]
    simp [C.nl_space, atEnd]

theorem unit_not_space (C : CharClass) (c : Char) (h : C.isUnit c = true) : C.isSpace c = false := by
  unfold CharClass.isUnit at h
  simp only [Bool.or_eq_true, beq_iff_eq] at h
  rcases h with rfl | h
  · exact C.percent_not_space
  · cases hs : C.isSpace c with
    | false => rfl
    | true => rw [C.space_not_word c hs] at h; cases h

theorem digit_unit (C : CharClass) (c : Char) (h : C.isDigit c = true) : C.isUnit c = true := by
  simp [CharClass.isUnit, C.digit_word c h]

theorem matchUnit_eq (C : CharClass) (s : List Char) :
    matchUnit C s =
      if (s.dropWhile C.isUnit).dropWhile C.isSpace = [] then
        some (if s.takeWhile C.isUnit = [] then none else some (s.takeWhile C.isUnit))
      else none := by
  unfold matchUnit
  cases s with
  | nil => simp [plus, matchTail_eq]
  | cons c cs =>
    simp only [plus]
    by_cases hc : C.isUnit c = true
    · rw [if_pos hc, star_greedy]
      · have hs := unit_not_space C c hc
        simp only [List.takeWhile_cons, List.dropWhile_cons, hc, if_true, matchTail_eq, List.singleton_append]
        split <;> simp [hs]
      · intro a c' cs' hc' hk
        rw [matchTail_eq] at hk
        have := unit_not_space C c' hc'
        simp [this] at hk
    · simp [hc, matchTail_eq]

theorem dropWhile_dropWhile_ne (p : Char → Bool) (s : List Char) (c : Char) (cs : List Char)
    (h : s.dropWhile p = c :: cs) : p c = false := by
  have := List.head_dropWhile_not p (l := s) (by rw [h]; simp)
  simpa [h] using this

/-- `\s*([%\w]+)?\s*$` -/
theorem matchRest_eq (C : CharClass) (ds s : List Char) :
    star C.isSpace (fun _ s3 => (matchUnit C s3).map (fun u => (ds, u))) [] s =
      (matchUnit C (s.dropWhile C.isSpace)).map (fun u => (ds, u)) := by
  rw [star_greedy]
  intro a c cs hc hk
  simp only [ne_eq, Option.map_eq_none_iff] at hk ⊢
  have hcu : C.isUnit c = false := by
    cases h : C.isUnit c with
    | false => rfl
    | true => rw [unit_not_space C c h] at hc; cases hc
  rw [matchUnit_eq] at hk
  simp only [List.dropWhile_cons, hcu, hc, if_true, Bool.false_eq_true, if_false] at hk ⊢
  have h : cs.dropWhile C.isSpace = [] := by
    by_contra hne; simp [hne] at hk
  rw [h, matchUnit_eq]
  simp

/-- Closed form of the regular expression. -/
theorem matchNumber_eq (C : CharClass) (s : List Char) :
    matchNumber C s =
      let s1 := s.dropWhile C.isSpace
      if s1.takeWhile C.isDigit = [] then none
      else (matchUnit C ((s1.dropWhile C.isDigit).dropWhile C.isSpace)).map (fun u => (s1.takeWhile C.isDigit, u)) := by
  unfold matchNumber
  rw [star_greedy]
  · simp only
    cases h1 : s.dropWhile C.isSpace with
    | nil => simp [plus]
    | cons c cs =>
      simp only [plus]
      by_cases hc : C.isDigit c = true
      · rw [if_pos hc, star_greedy]
        · simp only [List.takeWhile_cons, List.dropWhile_cons, hc, if_true, List.singleton_append, reduceCtorEq, if_false]
          rw [matchRest_eq]
        · intro a d ds hd hk
          rw [matchRest_eq] at hk ⊢
          simp only [ne_eq, Option.map_eq_none_iff] at hk ⊢
          have hdu := digit_unit C d hd
          have hds := unit_not_space C d hdu
          simp only [List.dropWhile_cons, hds, Bool.false_eq_true, if_false] at hk
          rw [matchUnit_eq] at hk
          simp only [List.dropWhile_cons, hdu, if_true] at hk
          have hk' : (ds.dropWhile C.isUnit).dropWhile C.isSpace = [] := by
            by_contra hne; simp [hne] at hk
          simp only [List.dropWhile_cons, hd, if_true]
          rw [matchUnit_eq]
          have : ((((ds.dropWhile C.isDigit).dropWhile C.isSpace).dropWhile C.isUnit).dropWhile C.isSpace) = [] := by
            clear hk hd hdu hds h1 hc
            induction ds with
            | nil => rfl
            | cons x xs ih =>
              by_cases hx : C.isDigit x = true
              · have hxu := digit_unit C x hx
                simp only [List.dropWhile_cons, hx, hxu, if_true] at hk' ⊢
                exact ih hk'
              · simp only [List.dropWhile_cons, hx, Bool.false_eq_true, if_false] at hk' ⊢
                by_cases hxs : C.isSpace x = true
                · have hxu : C.isUnit x = false := by
                    cases h : C.isUnit x with
                    | false => rfl
                    | true => rw [unit_not_space C x h] at hxs; cases hxs
                  simp only [hxs, hxu, if_true, Bool.false_eq_true, if_false, List.dropWhile_cons] at hk' ⊢
                  rw [hk']; rfl
                · simp only [hxs, Bool.false_eq_true, if_false, List.dropWhile_cons] at hk' ⊢
                  exact hk'
          rw [this]; simp
      · simp [hc]
  · intro a c cs hc hk
    exfalso
    apply hk
    have : C.isDigit c = false := by
      cases h : C.isDigit c with
      | false => rfl
      | true => rw [unit_not_space C c (digit_unit C c h)] at hc; cases hc
    simp [plus, this]

theorem takeWhile_all (p : Char → Bool) (s : List Char) : All p (s.takeWhile p) := by
  intro c hc
  have := List.all_takeWhile (p := p) (l := s)
  rw [List.all_eq_true] at this
  exact this c hc

theorem dropWhile_nil_iff (p : Char → Bool) (s : List Char) : s.dropWhile p = [] ↔ ∀ c ∈ s, p c = true := by
  induction s with
  | nil => simp
  | cons c cs ih =>
    by_cases h : p c = true
    · simp [h, ih]
    · simp [h]

theorem takeWhile_of_all (p : Char → Bool) (a s : List Char) (h : All p a) (hs : ∀ c r, s = c :: r → p c = false) :
    (a ++ s).takeWhile p = a ∧ (a ++ s).dropWhile p = s := by
  induction a with
  | nil =>
    cases s with
    | nil => simp
    | cons c r => simp [hs c r rfl]
  | cons x a ih =>
    have hx := h x (by simp)
    obtain ⟨h1, h2⟩ := ih (fun c hc => h c (by simp [hc]))
    simp [hx, h1, h2]

theorem dropWhile_nil_all (p : Char → Bool) (s : List Char) (h : s.dropWhile p = []) : All p s := by
  intro c hc
  rw [dropWhile_nil_iff] at h
  exact h c hc

theorem intOf_eq (C : CharClass) (ds : List Char) : intOf C ds = decVal C ds := by
  have h : ∀ n, ds.foldl (fun n c => 10 * n + C.digitVal c) n = n * 10 ^ ds.length + decVal C ds := by
    induction ds with
    | nil => simp [decVal]
    | cons c cs ih => intro n; simp only [List.foldl_cons, ih, decVal, List.length_cons, pow_succ]; ring
  unfold intOf
  rw [h]; simp

/-- The regular expression accepts exactly the grammar. -/
theorem matchNumber_iff (C : CharClass) (s ds : List Char) (u : Option (List Char)) :
    matchNumber C s = some (ds, u) ↔ Parsed C s ds (u.getD []) ∧ u ≠ some [] := by
  constructor
  · intro h
    rw [matchNumber_eq] at h
    simp only at h
    split at h
    · cases h
    · rename_i hne
      simp only [Option.map_eq_some_iff, Prod.mk.injEq] at h
      obtain ⟨v, hv, hd, rfl⟩ := h
      rw [matchUnit_eq] at hv
      split at hv
      · rename_i hend
        simp only [Option.some.injEq] at hv
        have hu : v.getD [] = (((s.dropWhile C.isSpace).dropWhile C.isDigit).dropWhile C.isSpace).takeWhile C.isUnit := by
          rw [← hv]; split
          · rename_i h; rw [h]; rfl
          · rfl
        refine ⟨⟨⟨s.takeWhile C.isSpace, ((s.dropWhile C.isSpace).dropWhile C.isDigit).takeWhile C.isSpace,
          (((s.dropWhile C.isSpace).dropWhile C.isDigit).dropWhile C.isSpace).dropWhile C.isUnit, ?_,
          takeWhile_all _ _, takeWhile_all _ _, dropWhile_nil_all _ _ hend, ?_⟩, ?_, ?_, ?_⟩, ?_⟩
        · rw [hu, ← hd]
          simp [List.takeWhile_append_dropWhile]
        · intro hb x r hx
          rw [hu] at hx
          generalize hs2 : (s.dropWhile C.isSpace).dropWhile C.isDigit = s2 at *
          cases s2 with
          | nil => simp at hx
          | cons y ys =>
            have hy := dropWhile_dropWhile_ne _ _ _ _ hs2
            have hys : C.isSpace y = false := by
              cases h : C.isSpace y with
              | false => rfl
              | true => simp [h] at hb
            simp only [List.dropWhile_cons, hys, Bool.false_eq_true, if_false, List.takeWhile_cons] at hx
            split at hx
            · simp only [List.cons.injEq] at hx; rw [← hx.1]; exact hy
            · cases hx
        · rw [← hd]; exact takeWhile_all _ _
        · rw [← hd]; exact hne
        · rw [hu]; exact takeWhile_all _ _
        · rw [← hv]; split
          · simp
          · rename_i h; simpa using h
      · cases hv
  · rintro ⟨⟨⟨a, b, c, rfl, ha, hb, hc, hm⟩, hd, hn, hu⟩, hu2⟩
    rw [matchNumber_eq]
    obtain ⟨d0, ds', rfl⟩ : ∃ x y, ds = x :: y := by cases ds; exact absurd rfl hn; exact ⟨_, _, rfl⟩
    have hd0 := hd d0 (by simp)
    have hd0s := unit_not_space C d0 (digit_unit C d0 hd0)
    have e1 := (takeWhile_of_all C.isSpace a (d0 :: ds' ++ b ++ u.getD [] ++ c) ha
      (by intro x r h; simp at h; rw [← h.1]; exact hd0s)).2
    have hsp_nd : ∀ x, C.isSpace x = true → C.isDigit x = false := by
      intro x hx
      cases h : C.isDigit x with
      | false => rfl
      | true => rw [unit_not_space C x (digit_unit C x h)] at hx; cases hx
    have hsp_nu : ∀ x, C.isSpace x = true → C.isUnit x = false := by
      intro x hx
      cases h : C.isUnit x with
      | false => rfl
      | true => rw [unit_not_space C x h] at hx; cases hx
    have e2 := takeWhile_of_all C.isDigit (d0 :: ds') (b ++ u.getD [] ++ c) hd (by
      intro x r h
      cases b with
      | cons y b => simp at h; rw [← h.1]; exact hsp_nd y (hb y (by simp))
      | nil =>
        cases hug : u.getD [] with
        | cons y r' => rw [hug] at h; simp at h; rw [← h.1]; exact hm rfl y r' hug
        | nil =>
          rw [hug] at h; simp at h
          exact hsp_nd x (hc x (by rw [h]; simp)))
    have e1' : (a ++ d0 :: ds' ++ b ++ u.getD [] ++ c).dropWhile C.isSpace = d0 :: ds' ++ (b ++ u.getD [] ++ c) := by
      rw [show a ++ d0 :: ds' ++ b ++ u.getD [] ++ c = a ++ (d0 :: ds' ++ b ++ u.getD [] ++ c) by simp, e1]
      simp
    simp only [e1', e2.1, e2.2, reduceCtorEq, if_false]
    cases hug : u.getD [] with
    | nil =>
      have hun : u = none := by
        cases u with
        | none => rfl
        | some v => simp at hug; rw [hug] at hu2; exact absurd rfl hu2
      have e3 : (b ++ [] ++ c).dropWhile C.isSpace = [] := by
        rw [dropWhile_nil_iff]
        intro x hx
        simp at hx
        rcases hx with h | h
        · exact hb x h
        · exact hc x h
      rw [e3, matchUnit_eq, hun]; simp
    | cons y r =>
      have hus : u = some (y :: r) := by
        cases u with
        | none => simp at hug
        | some v => simp at hug; rw [hug]
      have hyu : C.isUnit y = true := hu y (by rw [hug]; simp)
      have e3 := (takeWhile_of_all C.isSpace b (y :: r ++ c) hb
        (by intro x r' h; simp at h; rw [← h.1]; exact unit_not_space C y hyu)).2
      rw [show b ++ y :: r ++ c = b ++ (y :: r ++ c) by simp, e3, matchUnit_eq]
      have e4 := takeWhile_of_all C.isUnit (y :: r) c (by rw [hug] at hu; exact hu) (by
        intro x r' h; exact hsp_nu x (hc x (by rw [h]; simp)))
      rw [e4.1, e4.2, hus]
      have e5 : c.dropWhile C.isSpace = [] := by rw [dropWhile_nil_iff]; exact hc
      simp [e5]

theorem lookupUnit_cons (k : Char) (v : Nat) (l : List (Char × Nat)) (c : Char) :
    lookupUnit ((k, v) :: l) c = if c = k then some v else lookupUnit l c := by
  unfold lookupUnit
  rw [List.find?_cons]
  by_cases h : c = k
  · simp [h]
  · have : (k == c) = false := by simpa using fun e => h e.symm
    simp [h, this]

theorem lookupUnit_nil (c : Char) : lookupUnit [] c = none := rfl

theorem lookupUnit_bytes (c : Char) : lookupUnit byteUnits c = byteFactor c := by
  have h : byteUnits = [('K', 1024), ('k', 1024), ('M', 1024 ^ 2), ('m', 1024 ^ 2), ('G', 1024 ^ 3), ('g', 1024 ^ 3),
      ('T', 1024 ^ 4), ('t', 1024 ^ 4), ('P', 1024 ^ 5), ('p', 1024 ^ 5)] := by decide
  simp only [h, lookupUnit_cons, lookupUnit_nil, byteFactor]
  grind

theorem lookupUnit_seconds (c : Char) : lookupUnit secondUnits c = secondFactor c := by
  simp only [secondUnits, secondFactor, lookupUnit_cons, lookupUnit_nil]

theorem lookupUnit_percent (c : Char) : lookupUnit percentUnits c = percentFactor c := by
  simp only [percentUnits, percentFactor, lookupUnit_cons, lookupUnit_nil]

theorem asNumber_ok_iff (C : CharClass) (units : List (Char × Nat)) (noneOk : Bool) (text : List Char) (v : Option Nat) :
    asNumber C units noneOk (some text) = .ok v ↔ ∃ n, v = some n ∧ Denotes C (lookupUnit units) text n := by
  have huniq : ∀ ds u, Parsed C text ds u → matchNumber C text = some (ds, if u = [] then none else some u) := by
    intro ds u h
    rw [matchNumber_iff]
    split
    · rename_i e; subst e; exact ⟨h, by simp⟩
    · rename_i e; exact ⟨h, by simpa using e⟩
  unfold asNumber
  simp only [Option.isNone_some, Bool.false_and, Bool.false_eq_true, if_false, Option.getD_some]
  constructor
  · intro h
    split at h
    · cases h
    · rename_i ds hm
      rw [matchNumber_iff] at hm
      cases h
      refine ⟨_, rfl, ds, [], hm.1, Or.inl ⟨rfl, (intOf_eq C ds)⟩⟩
    · rename_i ds u hm
      rw [matchNumber_iff] at hm
      split at h
      · cases h
      · rename_i c r
        split at h
        · cases h
        · rename_i f hf
          cases h
          exact ⟨_, rfl, ds, c :: r, hm.1, Or.inr ⟨c, r, f, rfl, hf, by rw [intOf_eq]⟩⟩
  · rintro ⟨n, rfl, ds, u, hp, h⟩
    rw [huniq ds u hp]
    rcases h with ⟨rfl, rfl⟩ | ⟨c, r, f, rfl, hf, rfl⟩
    · simp [intOf_eq]
    · simp [hf, intOf_eq]

theorem decVal_snoc (C : CharClass) (ds : List Char) (c : Char) : decVal C (ds ++ [c]) = 10 * decVal C ds + C.digitVal c := by
  rw [← intOf_eq, ← intOf_eq, intOf, List.foldl_append]; rfl

theorem natText_spec (C : CharClass) (n : Nat) : All C.isDigit (natText n) ∧ natText n ≠ [] ∧ decVal C (natText n) = n := by
  induction n using Nat.strongRecOn with
  | _ n ih =>
    unfold natText
    split
    · rename_i h
      obtain ⟨h1, h2⟩ := C.ascii_digit n h
      refine ⟨by intro c hc; simp at hc; rw [hc]; exact h1, by simp, ?_⟩
      simp [decVal, h2]
    · rename_i h
      obtain ⟨i1, i2, i3⟩ := ih (n / 10) (by omega)
      obtain ⟨h1, h2⟩ := C.ascii_digit (n % 10) (by omega)
      refine ⟨?_, by simp, ?_⟩
      · intro c hc
        rcases List.mem_append.1 hc with hc | hc
        · exact i1 c hc
        · simp at hc; rw [hc]; exact h1
      · rw [decVal_snoc, i3, h2]; omega

/-! ### `bytes` -/

theorem scale_spec (fuel : Nat) : ∀ (x : ℚ) (i : Nat), 0 ≤ x → x < 1024 ^ (fuel + 1) →
    ∃ j, scale fuel x i = (x / 1024 ^ j, i + j) ∧ (j = 0 ∨ 1 ≤ x / 1024 ^ j) ∧ x / 1024 ^ j < 1024 := by
  induction fuel with
  | zero => intro x i h0 h; exact ⟨0, by simp [scale], Or.inl rfl, by simpa using h⟩
  | succ fuel ih =>
    intro x i h0 h
    unfold scale
    split
    · rename_i hx
      obtain ⟨j, h1, h2, h3⟩ := ih (x / 1024) (i + 1) (by positivity) (by rw [div_lt_iff₀ (by norm_num)]; rw [pow_succ] at h; exact h)
      have e : x / 1024 / 1024 ^ j = x / 1024 ^ (j + 1) := by rw [pow_succ]; field_simp
      refine ⟨j + 1, by rw [h1, e]; simp; omega, Or.inr ?_, by rw [← e]; exact h3⟩
      rw [← e]
      rcases h2 with rfl | h2
      · simp only [pow_zero, div_one]; rw [le_div_iff₀ (by norm_num)]; linarith
      · exact h2
    · rename_i hx
      exact ⟨0, by simp, Or.inl rfl, by simpa using hx⟩

/-! ### distance -/

/-- Number of edits of an optimal alignment, from the heads. -/
def lev {α : Type} [DecidableEq α] : List α → List α → Nat
  | [], t => t.length
  | a :: s, [] => s.length + 1
  | a :: s, b :: t => min (lev s (b :: t) + 1) (min (lev (a :: s) t + 1) (lev s t + if a = b then 0 else 1))
termination_by s t => s.length + t.length

/-- Alignments, from the heads. -/
inductive Al {α : Type} : Nat → List α → List α → Prop
  | nil : Al 0 [] []
  | ins {n s t} (c : α) : Al n s t → Al (n + 1) s (c :: t)
  | del {n s t} (c : α) : Al n s t → Al (n + 1) (c :: s) t
  | keep {n s t} (c : α) : Al n s t → Al n (c :: s) (c :: t)
  | sub {n s t} (c d : α) : Al n s t → Al (n + 1) (c :: s) (d :: t)

variable {α : Type} [DecidableEq α]

theorem lev_nil_right (s : List α) : lev s [] = s.length := by
  cases s <;> simp [lev]

theorem lev_cons_le_left (a : α) (s t : List α) : lev (a :: s) t ≤ lev s t + 1 := by
  cases t with
  | nil => simp [lev_nil_right]
  | cons b t => rw [lev]; omega

theorem lev_cons_le_right (s : List α) (b : α) (t : List α) : lev s (b :: t) ≤ lev s t + 1 := by
  cases s with
  | nil => simp [lev]
  | cons a s => rw [lev]; omega

theorem Al.lev_le {n : Nat} {s t : List α} (h : Al n s t) : lev s t ≤ n := by
  induction h with
  | nil => simp [lev]
  | ins c _ ih => have := lev_cons_le_right _ c _ |>.trans (Nat.add_le_add_right ih 1); exact this
  | del c _ ih => exact (lev_cons_le_left c _ _).trans (Nat.add_le_add_right ih 1)
  | keep c _ ih => rw [lev]; simp only [if_true]; omega
  | sub c d _ ih => rw [lev]; split <;> omega

omit [DecidableEq α] in
theorem al_nil_left (t : List α) : Al t.length [] t := by
  induction t with
  | nil => exact .nil
  | cons b t ih => exact .ins b ih

omit [DecidableEq α] in
theorem al_nil_right (s : List α) : Al s.length s [] := by
  induction s with
  | nil => exact .nil
  | cons b t ih => exact .del b ih

theorem al_lev (s t : List α) : Al (lev s t) s t := by
  induction s generalizing t with
  | nil => rw [lev]; exact al_nil_left t
  | cons a s ihs =>
    induction t with
    | nil => rw [lev]; exact al_nil_right (a :: s)
    | cons b t iht =>
      rw [lev]
      rcases Nat.le_total (lev s (b :: t) + 1) (min (lev (a :: s) t + 1) (lev s t + if a = b then 0 else 1)) with h | h
      · rw [Nat.min_eq_left h]; exact .del a (ihs _)
      · rw [Nat.min_eq_right h]
        rcases Nat.le_total (lev (a :: s) t + 1) (lev s t + if a = b then 0 else 1) with h' | h'
        · rw [Nat.min_eq_left h']; exact .ins b iht
        · rw [Nat.min_eq_right h']
          split
          · rename_i e; subst e; exact .keep a (ihs _)
          · exact .sub a b (ihs _)

omit [DecidableEq α] in
theorem al_insert {n : Nat} {c : α} {s t : List α} (h : Al n (c :: s) t) : ∃ m ≤ n + 1, Al m s t := by
  generalize hs : c :: s = s' at h
  induction h with
  | nil => cases hs
  | ins d _ ih => obtain ⟨m, h1, h2⟩ := ih hs; exact ⟨m + 1, by omega, .ins d h2⟩
  | del d h => cases hs; exact ⟨_, by omega, h⟩
  | keep d h => cases hs; exact ⟨_, le_refl _, .ins c h⟩
  | sub d e h => cases hs; exact ⟨_, by omega, .ins e h⟩

omit [DecidableEq α] in
theorem al_subst {n : Nat} {c d : α} {s t : List α} (h : Al n (d :: s) t) : ∃ m ≤ n + 1, Al m (c :: s) t := by
  generalize hs : d :: s = s' at h
  induction h with
  | nil => cases hs
  | ins e _ ih => obtain ⟨m, h1, h2⟩ := ih hs; exact ⟨m + 1, by omega, .ins e h2⟩
  | del e h => cases hs; exact ⟨_, by omega, .del c h⟩
  | keep e h => cases hs; exact ⟨_, le_refl _, .sub c _ h⟩
  | sub e f h => cases hs; exact ⟨_, by omega, .sub c f h⟩

omit [DecidableEq α] in
theorem al_under {x : α} {b b' : List α} (hb : ∀ n t, Al n b' t → ∃ m ≤ n + 1, Al m b t) {n : Nat} {t : List α}
    (h : Al n (x :: b') t) : ∃ m ≤ n + 1, Al m (x :: b) t := by
  generalize hs : x :: b' = s' at h
  induction h with
  | nil => cases hs
  | ins e _ ih => obtain ⟨m, h1, h2⟩ := ih hs; exact ⟨m + 1, by omega, .ins e h2⟩
  | del e h => cases hs; obtain ⟨m, h1, h2⟩ := hb _ _ h; exact ⟨m + 1, by omega, .del x h2⟩
  | keep e h => cases hs; obtain ⟨m, h1, h2⟩ := hb _ _ h; exact ⟨m, by omega, .keep x h2⟩
  | sub e f h => cases hs; obtain ⟨m, h1, h2⟩ := hb _ _ h; exact ⟨m + 1, by omega, .sub x f h2⟩

omit [DecidableEq α] in
theorem al_prefix {b b' : List α} (hb : ∀ n t, Al n b' t → ∃ m ≤ n + 1, Al m b t) (a : List α) :
    ∀ n t, Al n (a ++ b') t → ∃ m ≤ n + 1, Al m (a ++ b) t := by
  induction a with
  | nil => exact hb
  | cons x a ih => intro n t h; exact al_under ih h

omit [DecidableEq α] in
theorem al_edit {s s' t : List α} {n : Nat} (he : Edit s s') (h : Al n s' t) : ∃ m ≤ n + 1, Al m s t := by
  cases he with
  | insert a b c => exact al_prefix (fun n t h => al_insert h) a n t h
  | delete a b c => exact al_prefix (fun n t h => ⟨n + 1, le_refl _, .del c h⟩) a n t h
  | subst a b c d => exact al_prefix (fun n t h => al_subst h) a n t h

omit [DecidableEq α] in
theorem al_refl (s : List α) : Al 0 s s := by
  induction s with
  | nil => exact .nil
  | cons a s ih => exact .keep a ih

theorem lev_le_edits {n : Nat} {s t : List α} (h : Edits n s t) : lev s t ≤ n := by
  have : ∃ m ≤ n, Al m s t := by
    induction h with
    | refl s => exact ⟨0, le_refl _, al_refl s⟩
    | step he _ ih =>
      obtain ⟨m, h1, h2⟩ := ih
      obtain ⟨m', h3, h4⟩ := al_edit he h2
      exact ⟨m', by omega, h4⟩
  obtain ⟨m, h1, h2⟩ := this
  exact h2.lev_le.trans h1

omit [DecidableEq α] in
theorem Edit.cons {s t : List α} (x : α) (h : Edit s t) : Edit (x :: s) (x :: t) := by
  cases h with
  | insert a b c => exact .insert (x :: a) b c
  | delete a b c => exact .delete (x :: a) b c
  | subst a b c d => exact .subst (x :: a) b c d

omit [DecidableEq α] in
theorem Edits.cons {n : Nat} {s t : List α} (x : α) (h : Edits n s t) : Edits n (x :: s) (x :: t) := by
  induction h with
  | refl s => exact .refl _
  | step he _ ih => exact .step (he.cons x) ih

omit [DecidableEq α] in
theorem Al.edits {n : Nat} {s t : List α} (h : Al n s t) : Edits n s t := by
  induction h with
  | nil => exact .refl _
  | ins c _ ih => exact .step (.insert [] _ c) (ih.cons c)
  | del c _ ih => exact .step (.delete [] _ c) ih
  | keep c _ ih => exact ih.cons c
  | sub c d _ ih => exact .step (.subst [] _ c d) (ih.cons d)

omit [DecidableEq α] in
theorem Edit.reverse {s t : List α} (h : Edit s t) : Edit s.reverse t.reverse := by
  cases h with
  | insert a b c => have := Edit.insert b.reverse a.reverse c; simpa using this
  | delete a b c => have := Edit.delete b.reverse a.reverse c; simpa using this
  | subst a b c d => have := Edit.subst b.reverse a.reverse c d; simpa using this

omit [DecidableEq α] in
theorem Edits.reverse {n : Nat} {s t : List α} (h : Edits n s t) : Edits n s.reverse t.reverse := by
  induction h with
  | refl s => exact .refl _
  | step he _ ih => exact .step he.reverse ih

/-- What the table entry `d[i, j]` ought to be. -/
def want (s t : List α) (i j : Nat) : Nat := lev (s.take i).reverse (t.take j).reverse

theorem want_zero_left (s t : List α) (j : Nat) (h : j ≤ t.length) : want s t 0 j = j := by
  simp [want, lev, h]

theorem want_zero_right (s t : List α) (i : Nat) (h : i ≤ s.length) : want s t i 0 = i := by
  simp [want, lev_nil_right, h]

theorem want_succ (s t : List α) (i j : Nat) (hi : i < s.length) (hj : j < t.length) :
    want s t (i + 1) (j + 1) =
      min (want s t i (j + 1) + 1) (min (want s t (i + 1) j + 1) (want s t i j + if s[i]? = t[j]? then 0 else 1)) := by
  unfold want
  have e1 : (s.take (i + 1)).reverse = s[i] :: (s.take i).reverse := by
    rw [List.take_succ_eq_append_getElem hi, List.reverse_append]; rfl
  have e2 : (t.take (j + 1)).reverse = t[j] :: (t.take j).reverse := by
    rw [List.take_succ_eq_append_getElem hj, List.reverse_append]; rfl
  rw [e1, e2, lev]
  simp only [List.getElem?_eq_getElem hi, List.getElem?_eq_getElem hj, Option.some.injEq]

theorem innerLoop_spec (s t : List α) (i : Nat) (hi : i < s.length) (d : Nat → Nat → Nat)
    (hd : ∀ b ≤ t.length, d i b = want s t i b) (h0 : d (i + 1) 0 = i + 1) (n : Nat) (hn : n ≤ t.length) :
    (∀ b ≤ n, innerLoop s t (i + 1) n d (i + 1) b = want s t (i + 1) b) ∧
    (∀ a b, a ≠ i + 1 ∨ n < b → innerLoop s t (i + 1) n d a b = d a b) := by
  induction n with
  | zero =>
    refine ⟨?_, fun a b _ => rfl⟩
    intro b hb
    obtain rfl : b = 0 := by omega
    rw [innerLoop, h0, want_zero_right s t _ (by omega)]
  | succ n ih =>
    obtain ⟨ih1, ih2⟩ := ih (by omega)
    constructor
    · intro b hb
      unfold innerLoop body setD
      simp only [Nat.add_sub_cancel]
      by_cases hb' : b = n + 1
      · subst hb'
        rw [if_pos (by simp), ih1 n (le_refl _), ih2 i (n + 1) (by omega), ih2 i n (by omega), hd _ (by omega),
          hd _ (by omega), want_succ s t i n hi (by omega)]
      · rw [if_neg (by omega)]
        exact ih1 b (by omega)
    · intro a b hab
      unfold innerLoop body setD
      rw [if_neg (by omega)]
      exact ih2 a b (by omega)

theorem outerLoop_spec (s t : List α) (m : Nat) (hm : m ≤ s.length) :
    (∀ a ≤ m, ∀ b ≤ t.length, outerLoop s t m initD a b = want s t a b) ∧
    (∀ a b, m < a → outerLoop s t m initD a b = initD a b) := by
  induction m with
  | zero =>
    refine ⟨?_, fun a b _ => rfl⟩
    intro a ha b hb
    obtain rfl : a = 0 := by omega
    rw [outerLoop, want_zero_left s t b hb]; simp [initD]
  | succ m ih =>
    obtain ⟨ih1, ih2⟩ := ih (by omega)
    obtain ⟨h1, h2⟩ := innerLoop_spec s t m (by omega) (outerLoop s t m initD) (fun b hb => ih1 m (le_refl _) b hb)
      (by rw [ih2 _ _ (by omega)]; simp [initD]) t.length (le_refl _)
    constructor
    · intro a ha b hb
      rw [outerLoop]
      by_cases e : a = m + 1
      · subst e; exact h1 b hb
      · rw [h2 a b (Or.inl e)]; exact ih1 a (by omega) b hb
    · intro a b hab
      rw [outerLoop, h2 a b (by omega)]
      exact ih2 a b (by omega)

theorem stringDistance_eq (s t : List α) : stringDistance s t = lev s.reverse t.reverse := by
  unfold stringDistance
  rw [(outerLoop_spec s t s.length (le_refl _)).1 _ (le_refl _) _ (le_refl _), want]
  simp

theorem pyMin_spec (lt : List Char → List Char → Bool) (xs : List (Nat × List Char)) : ∀ b,
    (pyMin lt b xs = b ∨ pyMin lt b xs ∈ xs) ∧ (pyMin lt b xs).1 ≤ b.1 ∧ ∀ x ∈ xs, (pyMin lt b xs).1 ≤ x.1 := by
  induction xs with
  | nil => intro b; simp [pyMin]
  | cons x xs ih =>
    intro b
    unfold pyMin
    by_cases h : pairLt lt x b = true
    · rw [if_pos h]
      obtain ⟨i1, i2, i3⟩ := ih x
      have hle : x.1 ≤ b.1 := by
        unfold pairLt at h
        simp only [Bool.or_eq_true, decide_eq_true_eq, Bool.and_eq_true, beq_iff_eq] at h
        omega
      refine ⟨Or.inr ?_, by omega, ?_⟩
      · rcases i1 with i1 | i1
        · rw [i1]; simp
        · simp [i1]
      · intro y hy
        rcases List.mem_cons.1 hy with rfl | hy
        · exact i2
        · exact i3 y hy
    · rw [if_neg h]
      obtain ⟨i1, i2, i3⟩ := ih b
      have hle : b.1 ≤ x.1 := by
        unfold pairLt at h
        simp only [Bool.or_eq_true, decide_eq_true_eq, Bool.and_eq_true, beq_iff_eq] at h
        omega
      refine ⟨?_, i2, ?_⟩
      · rcases i1 with i1 | i1
        · exact Or.inl i1
        · exact Or.inr (by simp [i1])
      · intro y hy
        rcases List.mem_cons.1 hy with rfl | hy
        · omega
        · exact i3 y hy

/-! ### enumeration -/

theorem listToHuman_cons (conj a b c : List Char) (rest : List (List Char)) :
    listToHuman conj (a :: b :: c :: rest) = a ++ ", ".toList ++ listToHuman conj (b :: c :: rest) := by
  unfold listToHuman
  cases rest with
  | nil => simp [join]
  | cons d rest => simp [join, List.dropLast]

end Verif.Humanize

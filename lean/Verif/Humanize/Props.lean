import Verif.Humanize.Lemmas
import Mathlib.Tactic.IntervalCases

/-! Properties C26–C29. -/

namespace Verif.Humanize

/-! ## C26 sizes and durations -/

/-- A concrete character table (ascii), showing that the laws can be met. -/
def ascii : CharClass where
  isSpace c := c == ' ' || c == '\n' || c == '\t'
  isDigit c := '0' ≤ c && c ≤ '9'
  isWord c := ('0' ≤ c && c ≤ '9') || ('a' ≤ c && c ≤ 'z') || ('A' ≤ c && c ≤ 'Z') || c == '_'
  digitVal c := c.toNat - 48
  space_not_word := by
    intro c h
    simp only [Bool.or_eq_true, beq_iff_eq] at h
    rcases h with (rfl | rfl) | rfl <;> decide
  percent_not_space := by decide
  digit_word := by intro c h; simp only [h, Bool.true_or]
  nl_space := by decide
  space_space := by decide
  ascii_letter := by decide
  ascii_digit := by decide

/-- A size setting is accepted exactly when it is a number with an optional unit, and then means number × factor. -/
theorem C26_bytes (C : CharClass) (noneOk : Bool) (text : List Char) (v : Option Nat) :
    asBytes C noneOk (some text) = .ok v ↔ ∃ n, v = some n ∧ Denotes C byteFactor text n := by
  have e : lookupUnit byteUnits = byteFactor := funext lookupUnit_bytes
  rw [asBytes, asNumber_ok_iff, e]

theorem C26_seconds (C : CharClass) (noneOk : Bool) (text : List Char) (v : Option Nat) :
    asSeconds C noneOk (some text) = .ok v ↔ ∃ n, v = some n ∧ Denotes C secondFactor text n := by
  have e : lookupUnit secondUnits = secondFactor := funext lookupUnit_seconds
  rw [asSeconds, asNumber_ok_iff, e]

theorem C26_percent (C : CharClass) (noneOk : Bool) (text : List Char) (v : Option Nat) :
    asPercent C noneOk (some text) = .ok v ↔ ∃ n, v = some n ∧ Denotes C percentFactor text n := by
  have e : lookupUnit percentUnits = percentFactor := funext lookupUnit_percent
  rw [asPercent, asNumber_ok_iff, e]

/-- A text has at most one meaning. -/
theorem C26_unambiguous (C : CharClass) (factor : Char → Option Nat) (text : List Char) (v w : Nat)
    (hv : Denotes C factor text v) (hw : Denotes C factor text w) : v = w := by
  obtain ⟨ds, u, hp, hv⟩ := hv
  obtain ⟨ds', u', hp', hw⟩ := hw
  have key : ∀ ds u, Parsed C text ds u → matchNumber C text = some (ds, if u = [] then none else some u) := by
    intro ds u h
    rw [matchNumber_iff]
    split
    · rename_i e; subst e; exact ⟨h, by simp⟩
    · rename_i e; exact ⟨h, by simpa using e⟩
  have e := (key ds u hp).symm.trans (key ds' u' hp')
  simp only [Option.some.injEq, Prod.mk.injEq] at e
  obtain ⟨rfl, e2⟩ := e
  have eu : u = u' := by
    by_cases h : u = [] <;> by_cases h' : u' = [] <;> simp [h, h'] at e2 <;> simp [h, h', e2]
  subst eu
  rcases hv with ⟨h1, rfl⟩ | ⟨c, r, f, h1, h2, rfl⟩ <;> rcases hw with ⟨h3, rfl⟩ | ⟨c', r', f', h3, h4, rfl⟩
  · rfl
  · rw [h1] at h3; cases h3
  · rw [h1] at h3; cases h3
  · rw [h1] at h3; cases h3; rw [h2] at h4; cases h4; rfl

/-- `None` is accepted exactly when it is allowed to be. -/
theorem C26_none (C : CharClass) (units : List (Char × Nat)) (noneOk : Bool) (v : Option Nat) :
    asNumber C units noneOk none = .ok v ↔ noneOk = true ∧ v = none := by
  cases noneOk with
  | true => simp [asNumber]; exact eq_comm
  | false =>
    have hn := C.ascii_letter 13 (by decide)
    have hw : C.isWord 'N' = true := hn.1
    have hd : C.isDigit 'N' = false := hn.2.1
    have hs : C.isSpace 'N' = false := by
      cases h : C.isSpace 'N' with
      | false => rfl
      | true => rw [C.space_not_word _ h] at hw; cases hw
    have : matchNumber C "None".toList = none := by
      rw [matchNumber_eq]
      simp [hs, hd]
    simp only [asNumber, Option.isNone_none, Bool.and_false, Bool.false_eq_true, if_false, Option.getD_none, this]
    simp

/-- The plain decimal text of a number, with surrounding blanks, is that number. -/
theorem C26_plain_number (C : CharClass) (factor : Char → Option Nat) (n : Nat) (a b : List Char)
    (ha : All C.isSpace a) (hb : All C.isSpace b) : Denotes C factor (a ++ natText n ++ b) n := by
  obtain ⟨h1, h2, h3⟩ := natText_spec C n
  exact ⟨natText n, [], ⟨⟨a, [], b, by simp, ha, by intro c hc; simp at hc, hb, by intro _ x r h; simp at h⟩, h1, h2,
    by intro c hc; simp at hc⟩, Or.inl ⟨rfl, h3.symm⟩⟩

example : asBytes ascii false (some " 12 kB ".toList) = .ok (some 12288) := by decide
example : asBytes ascii false (some "300M\n".toList) = .ok (some (300 * 1024 ^ 2)) := by decide
example : asSeconds ascii false (some "15s".toList) = .ok (some 15) := by decide
example : asBytes ascii false (some "1.5G".toList) = .error .invalid := by decide
example : asBytes ascii false (some "5X".toList) = .error .unit := by decide
example : Denotes ascii byteFactor "2G".toList (2 * 1024 ^ 3) := by
  have h : asBytes ascii false (some "2G".toList) = .ok (some (2 * 1024 ^ 3)) := by decide
  rw [C26_bytes] at h
  obtain ⟨n, h1, h2⟩ := h
  cases h1; exact h2

/-- `C26_unambiguous`: "2G" means one number. -/
example (v : Nat) (hv : Denotes ascii byteFactor "2G".toList v) : v = 2 * 1024 ^ 3 := by
  obtain ⟨n, h1, h2⟩ := (C26_bytes ascii false "2G".toList (some (2 * 1024 ^ 3))).1 (by decide)
  cases h1
  exact C26_unambiguous ascii byteFactor _ _ _ hv h2

/-! ## C27 showing sizes -/

/-- For every size below 1024^9: the unit is the right one and the number of tenths is the nearest (ties up). -/
theorem C27_bytes_partial (other : Int → List Char) (n : Nat) (hn : n < 1024 ^ 9) :
    ∃ i k unit, ["", " KiB", " MiB", " GiB", " TiB", " PiB", " EiB", " ZiB", " YiB"][i]? = some unit ∧
      bytes other n = some (tenthsText k ++ unit.toList) ∧
      (i = 0 ∨ 1024 ^ i ≤ n) ∧ n < 1024 ^ (i + 1) ∧
      k * (2 * 1024 ^ i) ≤ 20 * n + 1024 ^ i ∧ 20 * n + 1024 ^ i < (k + 1) * (2 * 1024 ^ i) := by
  have hlt : (n : ℚ) < 1024 ^ (n + 1) := by
    have : n < 1024 ^ (n + 1) := lt_trans (Nat.lt_pow_self (by norm_num)) (Nat.pow_lt_pow_right (by norm_num) (Nat.lt_succ_self n))
    exact_mod_cast this
  obtain ⟨j, h1, h2, h3⟩ := scale_spec n (n : ℚ) 0 (by positivity) hlt
  have hpos : (0 : ℚ) < 1024 ^ j := by positivity
  have hj9 : j < 9 := by
    by_contra hj
    have hj : 9 ≤ j := by omega
    rcases h2 with rfl | h2
    · omega
    · rw [le_div_iff₀ hpos, one_mul] at h2
      have h2' : 1024 ^ j ≤ n := by exact_mod_cast h2
      have : 1024 ^ 9 ≤ 1024 ^ j := Nat.pow_le_pow_right (by norm_num) hj
      omega
  have hlo : j = 0 ∨ 1024 ^ j ≤ n := by
    rcases h2 with h | h
    · exact Or.inl h
    · rw [le_div_iff₀ hpos, one_mul] at h
      exact Or.inr (by exact_mod_cast h)
  have hhi : n < 1024 ^ (j + 1) := by
    rw [div_lt_iff₀ hpos] at h3
    rw [pow_succ, mul_comm]
    exact_mod_cast h3
  have hq0 : (0 : ℚ) ≤ (n : ℚ) / 1024 ^ j * 10 + 1 / 2 := by positivity
  obtain ⟨k, hk⟩ : ∃ k : Nat, ⌊(n : ℚ) / 1024 ^ j * 10 + 1 / 2⌋ = (k : Int) :=
    Int.eq_ofNat_of_zero_le (Int.floor_nonneg.2 hq0)
  have hk1 : (k : ℚ) ≤ (n : ℚ) / 1024 ^ j * 10 + 1 / 2 := by
    have := Int.floor_le ((n : ℚ) / 1024 ^ j * 10 + 1 / 2)
    rw [hk] at this; exact_mod_cast this
  have hk2 : (n : ℚ) / 1024 ^ j * 10 + 1 / 2 < k + 1 := by
    have := Int.lt_floor_add_one ((n : ℚ) / 1024 ^ j * 10 + 1 / 2)
    rw [hk] at this; exact_mod_cast this
  have hkb : k < 1000000 := by
    have : (k : ℚ) < 1000000 := by linarith
    exact_mod_cast this
  have hex : ∃ unit, ["", " KiB", " MiB", " GiB", " TiB", " PiB", " EiB", " ZiB", " YiB"][j]? = some unit ∧
      sizeUnits[j]? = some unit.toList := by
    interval_cases j <;> exact ⟨_, rfl, rfl⟩
  obtain ⟨unit, hu1, hu2⟩ := hex
  refine ⟨j, k, unit, hu1, ?_, hlo, hhi, ?_, ?_⟩
  · unfold bytes
    simp only [Int.natAbs_natCast, Int.cast_natCast, h1, zero_add, hu2]
    have hneg : ¬ ((n : Int) < 0) := by omega
    have hneg' : ¬ ((k : Int) < 0) := by omega
    rw [if_neg hneg, pyTrunc, if_pos hq0, hk, fmtG]
    simp only [Int.natAbs_natCast, hkb, if_true, hneg', if_false, tenthsText]
    split <;> simp
  · have e : (n : ℚ) / 1024 ^ j * 1024 ^ j = n := by field_simp
    have : (k : ℚ) * (2 * 1024 ^ j) ≤ 20 * n + 1024 ^ j := by
      nlinarith [mul_le_mul_of_nonneg_right hk1 hpos.le]
    exact_mod_cast this
  · have e : (n : ℚ) / 1024 ^ j * 1024 ^ j = n := by field_simp
    have : 20 * (n : ℚ) + 1024 ^ j < (k + 1) * (2 * 1024 ^ j) := by
      nlinarith [mul_lt_mul_of_pos_right hk2 hpos]
    exact_mod_cast this

/-- The unit is determined: at most one `i` satisfies the bounds. -/
theorem C27_unit_unique (n i i' : Nat) (h1 : i = 0 ∨ 1024 ^ i ≤ n) (h2 : n < 1024 ^ (i + 1))
    (h1' : i' = 0 ∨ 1024 ^ i' ≤ n) (h2' : n < 1024 ^ (i' + 1)) : i = i' := by
  have key : ∀ i i', (i = 0 ∨ 1024 ^ i ≤ n) → n < 1024 ^ (i' + 1) → i ≤ i' := by
    intro i i' h h'
    rcases h with h | h
    · omega
    · have := (Nat.pow_lt_pow_iff_right (a := 1024) (by norm_num)).1 (lt_of_le_of_lt h h')
      omega
  have := key i i' h1 h2'
  have := key i' i h1' h2
  omega

/-- A whole number of units up to PiB can be typed back as a setting. -/
theorem C27_whole_sizes_read_back (C : CharClass) (other : Int → List Char) (noneOk : Bool) (m i : Nat) (hm : 0 < m) (hm' : m < 1024)
    (hi : i ≤ 5) : ∃ t, bytes other ((m * 1024 ^ i : Nat) : Int) = some t ∧
      asBytes C noneOk (some t) = .ok (some (m * 1024 ^ i)) := by
  have hlt : m * 1024 ^ i < 1024 ^ (i + 1) := by
    rw [pow_succ, mul_comm]; exact Nat.mul_lt_mul_of_pos_left hm' (by positivity)
  have hn : m * 1024 ^ i < 1024 ^ 9 := lt_of_lt_of_le hlt (Nat.pow_le_pow_right (by norm_num) (by omega))
  obtain ⟨i', k, unit, hu, hb, h1, h2, h3, h4⟩ := C27_bytes_partial other _ hn
  have e : i' = i := C27_unit_unique _ i' i h1 h2
    (Or.inr (Nat.le_mul_of_pos_left _ hm)) hlt
  subst e
  have hk : k = 10 * m := by
    have hp : 0 < 1024 ^ i' := by positivity
    generalize 1024 ^ i' = p at h3 h4 hp
    have a1 : k < 10 * m + 1 := by
      by_contra hc
      have : (10 * m + 1) * (2 * p) ≤ k * (2 * p) := Nat.mul_le_mul_right _ (by omega)
      nlinarith
    have a2 : 10 * m < k + 1 := by
      by_contra hc
      have : (k + 1) * (2 * p) ≤ (10 * m) * (2 * p) := Nat.mul_le_mul_right _ (by omega)
      nlinarith
    omega
  refine ⟨_, hb, ?_⟩
  rw [C26_bytes]
  refine ⟨_, rfl, ?_⟩
  have ht : tenthsText k = natText m := by simp [tenthsText, hk]
  rw [ht]
  obtain ⟨d1, d2, d3⟩ := natText_spec C m
  have hB : C.isWord 'B' = true := (C.ascii_letter 1 (by decide)).1
  have hii : C.isWord 'i' = true := (C.ascii_letter 8 (by decide)).2.2.1
  have hsp : All C.isSpace [' '] := by intro c hc; simp at hc; rw [hc]; exact C.space_space
  have hnil : All C.isSpace [] := by intro c hc; simp at hc
  have go : ∀ (U : Char) (f : Nat), C.isWord U = true → byteFactor U = some f →
      Denotes C byteFactor (natText m ++ [' ', U, 'i', 'B']) (m * f) := by
    intro U f hU hf
    refine ⟨natText m, [U, 'i', 'B'], ⟨⟨[], [' '], [], by simp, hnil, hsp, hnil, by simp⟩, d1, d2, ?_⟩,
      Or.inr ⟨U, ['i', 'B'], f, rfl, hf, by rw [d3]⟩⟩
    intro c hc
    simp only [List.mem_cons, List.not_mem_nil, or_false] at hc
    rcases hc with rfl | rfl | rfl <;> simp [*]
  interval_cases i'
  · simp only [List.getElem?_cons_zero, Option.some.injEq] at hu
    subst hu
    have := C26_plain_number C byteFactor m [] [] hnil hnil
    simpa using this
  · obtain rfl : " KiB" = unit := by simpa using hu
    exact go 'K' _ (C.ascii_letter 10 (by decide)).1 rfl
  · obtain rfl : " MiB" = unit := by simpa using hu
    exact go 'M' _ (C.ascii_letter 12 (by decide)).1 rfl
  · obtain rfl : " GiB" = unit := by simpa using hu
    exact go 'G' _ (C.ascii_letter 6 (by decide)).1 rfl
  · obtain rfl : " TiB" = unit := by simpa using hu
    exact go 'T' _ (C.ascii_letter 19 (by decide)).1 rfl
  · obtain rfl : " PiB" = unit := by simpa using hu
    exact go 'P' _ (C.ascii_letter 15 (by decide)).1 rfl

/-- Every negative size is shown with two signs, a tenth too close to zero and never in a larger unit: the code subtracts 0 instead of
negating. (For 100000 bytes and more `%g` drops digits of the same number.) -/
theorem C27_negative_refuted (other : Int → List Char) (m : Nat) (hm : m < 99999) :
    bytes other (-((m + 1 : Nat) : Int)) = some ("--".toList ++ natText m ++ ".9".toList) := by
  have hneg : (((-((m + 1 : Nat) : Int)) : Int) : ℚ) < 0 := by
    push_cast; have : (0 : ℚ) ≤ m := by positivity
    linarith
  have h : ∀ fuel, scale fuel (((-((m + 1 : Nat) : Int)) : Int) : ℚ) 0 = ((((-((m + 1 : Nat) : Int)) : Int) : ℚ), 0) := by
    intro fuel
    cases fuel with
    | zero => rfl
    | succ n => rw [scale, if_neg (by linarith)]
  have e : pyTrunc ((((-((m + 1 : Nat) : Int)) : Int) : ℚ) * 10 + 1 / 2) = -((10 * m + 9 : Nat) : Int) := by
    have h0 : ¬ (0 : ℚ) ≤ (((-((m + 1 : Nat) : Int)) : Int) : ℚ) * 10 + 1 / 2 := by
      push_cast; have : (0 : ℚ) ≤ m := by positivity
      linarith
    rw [pyTrunc, if_neg h0, Int.ceil_eq_iff]
    push_cast
    constructor <;> linarith
  have n1 : natText 9 = ['9'] := by unfold natText; simp
  have hlt : -((m + 1 : Nat) : Int) < 0 := by omega
  have hlt' : -((10 * m + 9 : Nat) : Int) < 0 := by omega
  unfold bytes
  simp only [h, e, hlt, if_true, sizeUnits]
  have a1 : (-((10 * m + 9 : Nat) : Int)).natAbs = 10 * m + 9 := by omega
  unfold fmtG
  rw [a1, if_pos (by omega), if_pos hlt', if_neg (by omega), show (10 * m + 9) / 10 = m by omega, show (10 * m + 9) % 10 = 9 by omega, n1]
  simp

example (other : Int → List Char) : bytes other (-5) = some "--4.9".toList := by
  have := C27_negative_refuted other 4 (by norm_num)
  have n0 : natText 4 = ['4'] := by unfold natText; simp
  rw [n0] at this
  exact this

/-- Sizes of 1024^9 and above raise IndexError. -/
theorem C27_huge_refuted (other : Int → List Char) (n : Nat) (hn : 1024 ^ 9 ≤ n) : bytes other n = none := by
  have hlt : (n : ℚ) < 1024 ^ (n + 1) := by
    have : n < 1024 ^ (n + 1) := lt_trans (Nat.lt_pow_self (by norm_num)) (Nat.pow_lt_pow_right (by norm_num) (Nat.lt_succ_self n))
    exact_mod_cast this
  obtain ⟨j, h1, h2, h3⟩ := scale_spec n (n : ℚ) 0 (by positivity) hlt
  have hpos : (0 : ℚ) < 1024 ^ j := by positivity
  have hhi : n < 1024 ^ (j + 1) := by
    rw [div_lt_iff₀ hpos] at h3
    rw [pow_succ, mul_comm]
    exact_mod_cast h3
  have hj : 9 < j + 1 := (Nat.pow_lt_pow_iff_right (a := 1024) (by norm_num)).1 (lt_of_le_of_lt hn hhi)
  unfold bytes
  simp only [Int.natAbs_natCast, Int.cast_natCast, h1, zero_add]
  have : sizeUnits[j]? = none := by
    rw [List.getElem?_eq_none_iff]
    simp [sizeUnits]; omega
  rw [this]

example (other : Int → List Char) : ∃ t, bytes other ((300 * 1024 ^ 2 : Nat) : Int) = some t ∧
    asBytes ascii false (some t) = .ok (some (300 * 1024 ^ 2)) :=
  C27_whole_sizes_read_back ascii other false 300 2 (by norm_num) (by norm_num) (by norm_num)

/-- `C27_bytes_partial` and `C27_unit_unique`: three and a half million bytes are shown in MiB. -/
example (other : Int → List Char) : ∃ k, bytes other (3500000 : Nat) = some (tenthsText k ++ " MiB".toList) := by
  obtain ⟨i, k, unit, h1, h2, h3, h4, -⟩ := C27_bytes_partial other 3500000 (by norm_num)
  have hi := C27_unit_unique 3500000 i 2 h3 h4 (.inr (by norm_num)) (by norm_num)
  subst hi
  cases h1
  exact ⟨k, h2⟩

/-! ## C28 edit distance -/

/-- `string_distance` is the least number of single-character edits. -/
theorem C28_distance_is_least {α : Type} [DecidableEq α] (s t : List α) :
    Edits (stringDistance s t) s t ∧ ∀ n, Edits n s t → stringDistance s t ≤ n := by
  rw [stringDistance_eq]
  constructor
  · have := (al_lev s.reverse t.reverse).edits.reverse
    simpa using this
  · intro n h
    exact lev_le_edits h.reverse

/-- The suggestion is a word of the vocabulary and none is closer; there is a suggestion unless the vocabulary is empty. -/
theorem C28_suggestion_is_closest (lt : List Char → List Char → Bool) (word : List Char) (voc : List (List Char)) :
    (voc = [] ∧ didYouMean lt word voc = none) ∨
    ∃ best, didYouMean lt word voc = some best ∧ best ∈ voc ∧
      ∀ w ∈ voc, ∀ n, Edits n word w → ∃ m ≤ n, Edits m word best := by
  unfold didYouMean
  cases voc with
  | nil => exact Or.inl ⟨rfl, rfl⟩
  | cons v voc =>
    refine Or.inr ⟨(pyMin lt (stringDistance word v, v) (voc.map (fun w => (stringDistance word w, w)))).2, rfl, ?_⟩
    obtain ⟨h1, h2, h3⟩ := pyMin_spec lt (voc.map (fun w => (stringDistance word w, w))) (stringDistance word v, v)
    generalize hr : pyMin lt (stringDistance word v, v) (voc.map (fun w => (stringDistance word w, w))) = r at h1 h2 h3
    have hmem : r.2 ∈ v :: voc ∧ r.1 = stringDistance word r.2 := by
      rcases h1 with h1 | h1
      · rw [h1]; simp
      · obtain ⟨w, hw, e⟩ := List.mem_map.1 h1
        rw [← e]; simp [hw]
    refine ⟨hmem.1, ?_⟩
    intro w hw n hn
    have hle : r.1 ≤ stringDistance word w := by
      rcases List.mem_cons.1 hw with rfl | hw
      · exact h2
      · exact h3 _ (List.mem_map.2 ⟨w, hw, rfl⟩)
    refine ⟨stringDistance word r.2, ?_, (C28_distance_is_least word r.2).1⟩
    rw [← hmem.2]
    exact hle.trans ((C28_distance_is_least word w).2 n hn)

/-- A strict total order. -/
structure StrictOrder (lt : List Char → List Char → Bool) : Prop where
  irrefl : ∀ a, lt a a = false
  trans : ∀ a b c, lt a b = true → lt b c = true → lt a c = true
  total : ∀ a b, a ≠ b → lt a b = true ∨ lt b a = true

theorem pairLt_iff (lt : List Char → List Char → Bool) (a b : Nat × List Char) :
    pairLt lt a b = true ↔ a.1 < b.1 ∨ (a.1 = b.1 ∧ lt a.2 b.2 = true) := by
  simp [pairLt]

theorem pyMin_least (lt : List Char → List Char → Bool) (o : StrictOrder lt) (xs : List (Nat × List Char)) : ∀ b,
    ∀ x ∈ b :: xs, pairLt lt x (pyMin lt b xs) = false := by
  have tr : ∀ a b c, pairLt lt a b = true → pairLt lt b c = true → pairLt lt a c = true := by
    intro a b c h1 h2
    rw [pairLt_iff] at *
    rcases h1 with h1 | h1 <;> rcases h2 with h2 | h2
    · left; omega
    · left; omega
    · left; omega
    · exact Or.inr ⟨h1.1.trans h2.1, o.trans _ _ _ h1.2 h2.2⟩
  have ir : ∀ a, pairLt lt a a = false := by
    intro a
    rw [← Bool.not_eq_true, pairLt_iff]
    simp [o.irrefl]
  have tot : ∀ a b, pairLt lt a b = false → a = b ∨ pairLt lt b a = true := by
    intro a b h
    rw [← Bool.not_eq_true, pairLt_iff] at h
    rw [pairLt_iff]
    by_cases h1 : b.1 < a.1
    · exact Or.inr (Or.inl h1)
    · have h2 : a.1 = b.1 := by omega
      by_cases h3 : a.2 = b.2
      · exact Or.inl (Prod.ext h2 h3)
      · rcases o.total _ _ h3 with h4 | h4
        · exact absurd (Or.inr ⟨h2, h4⟩) h
        · exact Or.inr (Or.inr ⟨h2.symm, h4⟩)
  induction xs with
  | nil => intro b x hx; simp only [List.mem_singleton] at hx; subst hx; exact ir x
  | cons y ys ih =>
    intro b x hx
    unfold pyMin
    by_cases h : pairLt lt y b = true
    · rw [if_pos h]
      rcases List.mem_cons.1 hx with rfl | hx
      · cases hc : pairLt lt x (pyMin lt y ys) with
        | false => rfl
        | true => exact absurd (tr _ _ _ h hc) (by rw [ih y y (by simp)]; simp)
      · exact ih y x hx
    · rw [if_neg h]
      rcases List.mem_cons.1 hx with rfl | hx
      · exact ih x x (by simp)
      · rcases List.mem_cons.1 hx with rfl | hx
        · rcases tot _ _ (by simpa using h) with e | e
          · rw [e]; exact ih b b (by simp)
          · cases hc : pairLt lt x (pyMin lt b ys) with
            | false => rfl
            | true =>
              have := tr _ _ _ e hc
              rw [ih b b (by simp)] at this
              cases this
        · exact ih b x (by simp [hx])

theorem tie (lt : List Char → List Char → Bool) (o : StrictOrder lt) (word : List Char) (voc : List (List Char)) (best : List Char)
    (h : didYouMean lt word voc = some best) (w : List Char) (hw : w ∈ voc) (hne : w ≠ best)
    (hdd : stringDistance word w = stringDistance word best) : lt best w = true := by
  unfold didYouMean at h
  cases voc with
  | nil => cases hw
  | cons v voc =>
    simp only [List.map_cons, Option.some.injEq] at h
    have h1 := pyMin_least lt o (voc.map (fun w => (stringDistance word w, w))) (stringDistance word v, v)
      (stringDistance word w, w) (by
        rcases List.mem_cons.1 hw with rfl | hw
        · simp
        · exact List.mem_cons_of_mem _ (List.mem_map.2 ⟨w, hw, rfl⟩))
    have h2 := (pyMin_spec lt (voc.map (fun w => (stringDistance word w, w))) (stringDistance word v, v)).1
    generalize pyMin lt (stringDistance word v, v) (voc.map (fun w => (stringDistance word w, w))) = r at h h1 h2
    have h3 : r.1 = stringDistance word r.2 := by
      rcases h2 with h2 | h2
      · rw [h2]
      · obtain ⟨u, _, e⟩ := List.mem_map.1 h2
        rw [← e]
    subst h
    rw [← Bool.not_eq_true, pairLt_iff] at h1
    rcases o.total _ _ hne with h4 | h4
    · exact absurd (Or.inr ⟨by rw [h3]; exact hdd, h4⟩) h1
    · exact h4

/-- Of the words that are as close the suggestion is the first in the order of texts. -/
theorem C28_ties (lt : List Char → List Char → Bool) (o : StrictOrder lt) (word : List Char) (voc : List (List Char)) (best : List Char)
    (h : didYouMean lt word voc = some best) (w : List Char) (hw : w ∈ voc) (hne : w ≠ best)
    (hd : ∀ n, Edits n word best → ∃ m ≤ n, Edits m word w) : lt best w = true := by
  have hdd : stringDistance word w = stringDistance word best := by
    apply Nat.le_antisymm
    · obtain ⟨m, hm, he⟩ := hd _ (C28_distance_is_least word best).1
      exact Nat.le_trans ((C28_distance_is_least word w).2 _ he) hm
    · rcases C28_suggestion_is_closest lt word voc with ⟨rfl, h1⟩ | ⟨b, h1, _, h3⟩
      · cases hw
      · rw [h] at h1
        cases h1
        obtain ⟨m, hm, he⟩ := h3 w hw _ (C28_distance_is_least word w).1
        exact Nat.le_trans ((C28_distance_is_least word best).2 _ he) hm
  exact tie lt o word voc best h w hw hne hdd

/-- The suggestion does not depend on the order of the vocabulary, nor on words given twice. -/
theorem C28_order_irrelevant (lt : List Char → List Char → Bool) (o : StrictOrder lt) (word : List Char) (voc voc' : List (List Char))
    (h : ∀ w, w ∈ voc ↔ w ∈ voc') : didYouMean lt word voc = didYouMean lt word voc' := by
  rcases C28_suggestion_is_closest lt word voc with ⟨rfl, h1⟩ | ⟨b, h1, h2, h3⟩
  · have : voc' = [] := List.eq_nil_iff_forall_not_mem.2 fun w hw => by simpa using (h w).2 hw
    rw [this]
  · rcases C28_suggestion_is_closest lt word voc' with ⟨rfl, _⟩ | ⟨b', k1, k2, k3⟩
    · simpa using (h b).1 h2
    · rw [h1, k1]
      by_contra hne
      have hne' : b ≠ b' := fun e => hne (by rw [e])
      have le : ∀ x y, (∀ n, Edits n word y → ∃ m ≤ n, Edits m word x) → stringDistance word x ≤ stringDistance word y := by
        intro x y hxy
        obtain ⟨m, hm, e⟩ := hxy _ (C28_distance_is_least word y).1
        exact ((C28_distance_is_least word x).2 _ e).trans hm
      have e := Nat.le_antisymm (le b b' (h3 b' ((h b').2 k2))) (le b' b (k3 b ((h b).1 h2)))
      have a := tie lt o word voc b h1 b' ((h b').2 k2) hne'.symm e.symm
      have a' := tie lt o word voc' b' k1 b ((h b).1 h2) hne' e
      have := o.trans _ _ _ a a'
      rw [o.irrefl] at this
      cases this

/-- The order of texts, character by character. -/
def textLt (a b : List Char) : Bool := decide (a < b)

theorem textLt_order : StrictOrder textLt where
  irrefl a := by simp [textLt]
  trans a b c h1 h2 := by
    simp only [textLt, decide_eq_true_eq] at *
    exact List.lt_trans h1 h2
  total a b h := by
    simp only [textLt, decide_eq_true_eq]
    by_cases h1 : a < b
    · exact Or.inl h1
    · by_cases h2 : b < a
      · exact Or.inr h2
      · exact absurd (List.le_antisymm (List.not_lt.1 h2) (List.not_lt.1 h1)) h

example : didYouMean textLt "lur".toList ["lua".toList, "lub".toList] = didYouMean textLt "lur".toList ["lub".toList, "lua".toList, "lub".toList] :=
  C28_order_irrelevant textLt textLt_order _ _ _ (by intro w; simp only [List.mem_cons, List.not_mem_nil, or_false]; tauto)
example : didYouMean textLt "lur".toList ["lub".toList, "lua".toList] = some "lua".toList := by decide +kernel

/-- `C28_ties`: both words are one letter away. -/
example : textLt "lua".toList "lub".toList = true :=
  C28_ties textLt textLt_order "lur".toList ["lub".toList, "lua".toList] "lua".toList (by decide +kernel) "lub".toList (by simp) (by decide)
    (fun n h => ⟨1, by
      cases h with
      | step _ _ => omega, .step (.subst ['l', 'u'] [] 'r' 'b') (.refl _)⟩)
example : stringDistance "kitten".toList "sitting".toList = 3 := by decide +kernel
example : didYouMean (fun _ _ => false) "lur".toList ["off".toList, "lru".toList, "all".toList] = some "lru".toList := by
  decide +kernel

/-! ## C29 enumerations -/

/-- Lists are shown as English enumerations. -/
theorem C29_enumeration (conj : List Char) (lst : List (List Char)) : listToHuman conj lst = enumeration conj lst := by
  match lst with
  | [] => rfl
  | [a] => simp [listToHuman, join, enumeration]
  | [a, b] => simp [listToHuman, join, enumeration]
  | a :: b :: c :: rest => rw [listToHuman_cons, C29_enumeration conj (b :: c :: rest), enumeration]

example : listToHuman "or".toList ["a".toList, "b".toList, "c".toList] = "a, b or c".toList := by decide

end Verif.Humanize

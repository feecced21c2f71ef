import Verif.Regrid.IeeeProps

/-!
# C167: order and range of interpolated fields, in doubles

Weights that are not negative keep the order of fields: exactly, roundings and overflows included. Between the smallest and the largest value a
result stays up to rounding only.
-/

namespace Verif.Regrid
open Finset

/-! ## Specification -/

/-- The order of the numbers of the machine; a missing value is not comparable. -/
def Fp.Le {r : Rounding} : Fp r → Fp r → Prop
  | .fin a, .fin b => a ≤ b
  | .inf a, .fin _ => a = true
  | .fin _, .inf b => b = false
  | .inf a, .inf b => a = true ∨ b = false
  | _, _ => False

/-- The number with the other sign. -/
def Fp.neg {r : Rounding} : Fp r → Fp r
  | .nan => .nan
  | .inf b => .inf (!b)
  | .fin q => .fin (-q)

/-- The weights stored for a point are numbers, none of them negative. -/
def Csr.Positive {r : Rounding} (z : Csr (Fp r)) (i : Nat) : Prop := ∀ k ∈ z.slots i, ∃ u : ℚ, 0 ≤ u ∧ z.data.getD k 0 = .fin u

/-- What they add up to. -/
def weightSum {r : Rounding} (z : Csr (Fp r)) (i : Nat) : ℚ := ∑ k ∈ z.slots i, (z.data.getD k 0).val

/-- A rounding that keeps the order. -/
def Rounding.Monotone (r : Rounding) : Prop := ∀ a b, a ≤ b → r.fl a ≤ r.fl b

/-! ## Proof -/

/-- Rounding to the nearest keeps the order, whatever is done with ties. -/
theorem ieee_monotone (p : Nat) (hp : 0 < p) (emin : Int) (top : ℚ) : (ieee p emin top).Monotone := by
  intro a b hab
  rcases eq_or_lt_of_le hab with rfl | hab
  · exact le_rfl
  by_contra hc
  rw [not_le] at hc
  have h1 := ieee_nearest p emin top a _ (ieee_binary p hp emin top b)
  have h2 := ieee_nearest p emin top b _ (ieee_binary p hp emin top a)
  generalize (ieee p emin top).fl a = s at *
  generalize (ieee p emin top).fl b = t at *
  rcases le_abs.1 h1 with h1 | h1 <;> rcases le_abs.1 h2 with h2 | h2 <;> have h3 := le_abs_self (s - a) <;> have h4 := neg_abs_le (t - b) <;>
    have h5 := neg_le_abs (t - b) <;> linarith

theorem double_monotone : double.Monotone := ieee_monotone 53 (by decide) _ _

variable {r : Rounding}

theorem round_le (hr : r.Monotone) {a b : ℚ} (h : a ≤ b) : (Fp.round r a).Le (Fp.round r b) := by
  have h1 := hr a b h
  unfold Fp.round
  by_cases ha : |r.fl a| ≤ r.max <;> by_cases hb : |r.fl b| ≤ r.max
  · rw [if_pos ha, if_pos hb]; exact h1
  · rw [if_pos ha, if_neg hb]
    have hn : ¬ r.fl b < 0 := by
      intro hn
      apply hb
      rw [abs_of_neg hn]
      have := neg_le_abs (r.fl a)
      linarith
    exact decide_eq_false hn
  · rw [if_neg ha, if_pos hb]
    have hn : r.fl a < 0 := by
      by_contra hn
      rw [not_lt] at hn
      apply ha
      rw [abs_of_nonneg hn]
      have := le_abs_self (r.fl b)
      linarith
    exact decide_eq_true hn
  · rw [if_neg ha, if_neg hb]
    by_cases hn : r.fl a < 0
    · exact Or.inl (decide_eq_true hn)
    · exact Or.inr (decide_eq_false (by linarith))

theorem inf_top {a : Fp r} (h : a ≠ .nan) : a.Le (.inf false) := by
  cases a with
  | nan => exact absurd rfl h
  | inf b => exact Or.inr rfl
  | fin q => rfl

theorem inf_bot {a : Fp r} (h : a ≠ .nan) : Fp.Le (.inf true) a := by
  cases a with
  | nan => exact absurd rfl h
  | inf b => exact Or.inl rfl
  | fin q => rfl

theorem le_cases {a b : Fp r} (h : a.Le b) : (∃ p q, a = .fin p ∧ b = .fin q ∧ p ≤ q) ∨ (a = .inf true ∧ b ≠ .nan) ∨ (b = .inf false ∧ a ≠ .nan) := by
  cases a with
  | nan => cases b <;> exact False.elim h
  | inf s =>
    cases b with
    | nan => exact False.elim h
    | inf t =>
      have h : s = true ∨ t = false := h
      rcases h with rfl | rfl
      · exact .inr (.inl ⟨rfl, nofun⟩)
      · exact .inr (.inr ⟨rfl, nofun⟩)
    | fin q =>
      have h : s = true := h
      subst h
      exact .inr (.inl ⟨rfl, nofun⟩)
  | fin p =>
    cases b with
    | nan => exact False.elim h
    | inf t =>
      have h : t = false := h
      subst h
      exact .inr (.inr ⟨rfl, nofun⟩)
    | fin q => exact .inl ⟨p, q, rfl, rfl, h⟩

theorem bot_add {a : Fp r} (h : (Fp.inf true : Fp r) + a ≠ .nan) : (Fp.inf true : Fp r) + a = .inf true := by
  cases a with
  | nan => exact absurd rfl h
  | inf b => cases b with
    | true => rfl
    | false => exact absurd rfl h
  | fin q => rfl

theorem top_add {a : Fp r} (h : (Fp.inf false : Fp r) + a ≠ .nan) : (Fp.inf false : Fp r) + a = .inf false := by
  cases a with
  | nan => exact absurd rfl h
  | inf b => cases b with
    | false => rfl
    | true => exact absurd rfl h
  | fin q => rfl

theorem add_le_fp (hr : r.Monotone) {a b c d : Fp r} (h1 : a.Le b) (h2 : c.Le d) (hn : a + c ≠ .nan) (hn' : b + d ≠ .nan) : (a + c).Le (b + d) := by
  rcases le_cases h1 with ⟨p, q, rfl, rfl, hpq⟩ | ⟨rfl, _⟩ | ⟨rfl, _⟩
  · rcases le_cases h2 with ⟨s, t, rfl, rfl, hst⟩ | ⟨rfl, _⟩ | ⟨rfl, _⟩
    · exact round_le hr (add_le_add hpq hst)
    · exact inf_bot hn'
    · exact inf_top hn
  · rw [bot_add hn]; exact inf_bot hn'
  · rw [top_add hn']; exact inf_top hn

theorem mul_le_fp (hr : r.Monotone) {u : ℚ} (hu : 0 ≤ u) {a b : Fp r} (h : a.Le b) (hn : (Fp.fin u : Fp r) * a ≠ .nan) (hn' : (Fp.fin u : Fp r) * b ≠ .nan) :
    ((Fp.fin u : Fp r) * a).Le ((Fp.fin u : Fp r) * b) := by
  have hinf : ∀ s, (Fp.fin u : Fp r) * .inf s ≠ .nan → (Fp.fin u : Fp r) * .inf s = .inf s := by
    intro s hs
    have e : (Fp.fin u : Fp r) * .inf s = if u = 0 then .nan else .inf (decide (u < 0) != s) := rfl
    rw [e] at hs ⊢
    split
    · rename_i h0; rw [if_pos h0] at hs; exact absurd rfl hs
    · rw [decide_eq_false (by linarith)]; cases s <;> rfl
  rcases le_cases h with ⟨p, q, rfl, rfl, hpq⟩ | ⟨rfl, _⟩ | ⟨rfl, _⟩
  · exact round_le hr (mul_le_mul_of_nonneg_left hpq hu)
  · rw [hinf _ hn]; exact inf_bot hn'
  · rw [hinf _ hn']; exact inf_top hn

theorem foldl_number (x : List (Fp r)) (l : List (Nat × Fp r)) (s : Fp r) (h : l.foldl (fun s e => s + e.2 * x.getD e.1 0) s ≠ .nan) : s ≠ .nan := by
  rintro rfl
  exact h (foldl_from_nan x l)

theorem foldl_le (hr : r.Monotone) (x x' : List (Fp r)) : ∀ (l : List (Nat × Fp r)) (s s' : Fp r), s.Le s' →
    (∀ e ∈ l, (∃ u : ℚ, 0 ≤ u ∧ e.2 = .fin u) ∧ (x.getD e.1 0).Le (x'.getD e.1 0)) →
    l.foldl (fun s e => s + e.2 * x.getD e.1 0) s ≠ .nan → l.foldl (fun s e => s + e.2 * x'.getD e.1 0) s' ≠ .nan →
    (l.foldl (fun s e => s + e.2 * x.getD e.1 0) s).Le (l.foldl (fun s e => s + e.2 * x'.getD e.1 0) s')
  | [], s, s', hs, _, _, _ => hs
  | e :: l, s, s', hs, he, hn, hn' => by
    simp only [List.foldl_cons] at hn hn' ⊢
    obtain ⟨⟨u, hu, hw⟩, hx⟩ := he e (by simp)
    have h1 := foldl_number x l _ hn
    have h2 := foldl_number x' l _ hn'
    have h3 : e.2 * x.getD e.1 0 ≠ .nan := by intro h; rw [h] at h1; exact h1 (add_nan _)
    have h4 : e.2 * x'.getD e.1 0 ≠ .nan := by intro h; rw [h] at h2; exact h2 (add_nan _)
    refine foldl_le hr x x' l _ _ ?_ (fun e' he' => he e' (by simp [he'])) hn hn'
    refine add_le_fp hr hs ?_ h1 h2
    rw [hw] at h3 h4 ⊢
    exact mul_le_fp hr hu hx h3 h4

/-- C167, order: weights that are not negative keep the order of fields. If every value used for a point is at most the one of another field, so
is the result, in any binary format (`p` digits, the last worth at least 2^`emin`, up to `top`) and with overflows, unless one of the results is
missing. -/
theorem C167_order_formats {G : Type} {p : Nat} (hp : 0 < p) {emin : Int} {top : ℚ} (z : Csr (Fp (ieee p emin top))) (h : z.WF) (shape : List Nat)
    (x x' : Arr (Fp (ieee p emin top))) (g g' g'' : G) (y y' : Arr (Fp (ieee p emin top)))
    (hy : applyWeights (some (z, shape)) x g = .ok (y, g')) (hy' : applyWeights (some (z, shape)) x' g = .ok (y', g'')) (idx : List Nat)
    (hidx : Inside shape idx) (hw : z.Positive (offset shape idx))
    (hle : ∀ j, z.Stores (offset shape idx) j → (x.flat.getD j 0).Le (x'.flat.getD j 0)) (a b : Fp (ieee p emin top)) (ha : y.elem idx = some a)
    (hb : y'.elem idx = some b) (hna : a ≠ .nan) (hnb : b ≠ .nan) : a.Le b := by
  obtain ⟨hi, e⟩ := elem_dot z shape x g g' y hy idx hidx
  obtain ⟨_, e'⟩ := elem_dot z shape x' g g'' y' hy' idx hidx
  rw [ha] at e
  rw [hb] at e'
  have e := Option.some.inj e
  have e' := Option.some.inj e'
  subst e
  subst e'
  refine foldl_le (ieee_monotone p hp emin top) x.flat x'.flat (z.row (offset shape idx)) _ _ (show (0 : ℚ) ≤ 0 from le_rfl) ?_ hna hnb
  intro e he
  obtain ⟨k, hk, rfl⟩ := (mem_row z h _ hi e).1 he
  exact ⟨hw k hk, hle _ ⟨k, hk, rfl⟩⟩

/-- … in doubles. -/
theorem C167_order {G : Type} (z : Csr (Fp double)) (h : z.WF) (shape : List Nat) (x x' : Arr (Fp double)) (g g' g'' : G) (y y' : Arr (Fp double))
    (hy : applyWeights (some (z, shape)) x g = .ok (y, g')) (hy' : applyWeights (some (z, shape)) x' g = .ok (y', g'')) (idx : List Nat)
    (hidx : Inside shape idx) (hw : z.Positive (offset shape idx))
    (hle : ∀ j, z.Stores (offset shape idx) j → (x.flat.getD j 0).Le (x'.flat.getD j 0)) (a b : Fp double) (ha : y.elem idx = some a)
    (hb : y'.elem idx = some b) (hna : a ≠ .nan) (hnb : b ≠ .nan) : a.Le b :=
  C167_order_formats (by decide) z h shape x x' g g' g'' y y' hy hy' idx hidx hw hle a b ha hb hna hnb

theorem roundEven_neg (q : ℚ) : Humanize.roundEven (-q) = -Humanize.roundEven q := by
  have h1 := Int.floor_le q
  have h2 := Int.lt_floor_add_one q
  unfold Humanize.roundEven
  by_cases hz : q = ⌊q⌋
  · have hf : ⌊-q⌋ = -⌊q⌋ := by
      rw [hz, Int.floor_intCast, ← Int.cast_neg, Int.floor_intCast]
    rw [hf]
    push_cast
    rw [if_pos (by linarith), if_pos (by linarith)]
  · have hlt : (⌊q⌋ : ℚ) < q := lt_of_le_of_ne h1 (Ne.symm hz)
    have hf : ⌊-q⌋ = -⌊q⌋ - 1 := by
      rw [Int.floor_eq_iff]
      push_cast
      constructor <;> linarith
    rw [hf]
    push_cast
    have key : (-⌊q⌋ - 1 : Int) % 2 = 0 ↔ ¬ ⌊q⌋ % 2 = 0 := by omega
    split_ifs <;> first
      | (exfalso; linarith)
      | omega
      | (exfalso; omega)

theorem ieee_neg (p : Nat) (emin : Int) (top q : ℚ) : (ieee p emin top).fl (-q) = -(ieee p emin top).fl q := by
  have e : lastDigit p emin (-q) = lastDigit p emin q := by unfold lastDigit; rw [abs_neg]
  show (Humanize.roundEven (-q / lastDigit p emin (-q)) : ℚ) * lastDigit p emin (-q) = -((Humanize.roundEven (q / lastDigit p emin q) : ℚ) * lastDigit p emin q)
  rw [e, neg_div, roundEven_neg]
  push_cast
  ring

theorem round_neg {p : Nat} {emin : Int} {top : ℚ} (ht : 0 ≤ top) (q : ℚ) : Fp.round (ieee p emin top) (-q) = (Fp.round (ieee p emin top) q).neg := by
  unfold Fp.round
  rw [ieee_neg, abs_neg]
  split
  · rfl
  · rename_i h
    have h0 : (ieee p emin top).fl q ≠ 0 := by
      intro h0
      apply h
      rw [h0, abs_zero]
      exact ht
    show Fp.inf _ = Fp.inf _
    congr 1
    rcases lt_or_gt_of_ne h0 with h1 | h1
    · rw [decide_eq_true h1, decide_eq_false (by linarith)]; rfl
    · rw [decide_eq_false (show ¬ (ieee p emin top).fl q < 0 by linarith), decide_eq_true (by linarith)]; rfl

theorem mul_neg_fp {p : Nat} {emin : Int} {top : ℚ} (ht : 0 ≤ top) (a b : Fp (ieee p emin top)) : a * b.neg = (a * b).neg := by
  cases a with
  | nan => cases b <;> rfl
  | inf s =>
    cases b with
    | nan => rfl
    | inf t => cases s <;> cases t <;> rfl
    | fin q =>
      show Fp.mul _ (Fp.fin (-q)) = (Fp.mul _ (Fp.fin q)).neg
      unfold Fp.mul
      simp only [neg_eq_zero]
      split
      · rfl
      · rename_i h0
        rcases lt_or_gt_of_ne h0 with h1 | h1
        · rw [decide_eq_true h1, decide_eq_false (by linarith)]; cases s <;> rfl
        · rw [decide_eq_false (show ¬ q < 0 by linarith), decide_eq_true (show -q < 0 by linarith)]; cases s <;> rfl
  | fin u =>
    cases b with
    | nan => rfl
    | inf t =>
      show Fp.mul _ (Fp.inf (!t)) = (Fp.mul _ (Fp.inf t)).neg
      unfold Fp.mul
      simp only
      split
      · rfl
      · cases t <;> cases decide (u < 0) <;> rfl
    | fin q =>
      show Fp.round _ (u * -q) = (Fp.round _ (u * q)).neg
      rw [mul_neg, round_neg ht]

theorem add_neg_fp {p : Nat} {emin : Int} {top : ℚ} (ht : 0 ≤ top) (a b : Fp (ieee p emin top)) : a.neg + b.neg = (a + b).neg := by
  cases a with
  | nan => cases b <;> rfl
  | inf s =>
    cases b with
    | nan => rfl
    | inf t => cases s <;> cases t <;> rfl
    | fin q => rfl
  | fin u =>
    cases b with
    | nan => rfl
    | inf t => rfl
    | fin q =>
      show Fp.round _ (-u + -q) = (Fp.round _ (u + q)).neg
      rw [← neg_add, round_neg ht]

/-- C167, sign: the field with the other sign gives the result with the other sign, bit by bit but for the sign of zeros; with any weights. -/
theorem C167_sign {G : Type} {p : Nat} {emin : Int} {top : ℚ} (ht : 0 ≤ top) (z : Csr (Fp (ieee p emin top))) (h : z.WF) (shape : List Nat)
    (x x' : Arr (Fp (ieee p emin top))) (g g' g'' : G) (y y' : Arr (Fp (ieee p emin top)))
    (hy : applyWeights (some (z, shape)) x g = .ok (y, g')) (hy' : applyWeights (some (z, shape)) x' g = .ok (y', g'')) (idx : List Nat)
    (hidx : Inside shape idx) (hx : ∀ j, z.Stores (offset shape idx) j → x'.flat.getD j 0 = (x.flat.getD j 0).neg) :
    y'.elem idx = (y.elem idx).map Fp.neg := by
  obtain ⟨hi, e⟩ := elem_dot z shape x g g' y hy idx hidx
  obtain ⟨_, e'⟩ := elem_dot z shape x' g g'' y' hy' idx hidx
  rw [e, e', Option.map_some]
  congr 1
  have go : ∀ (l : List (Nat × Fp (ieee p emin top))) (s : Fp (ieee p emin top)), (∀ e ∈ l, x'.flat.getD e.1 0 = (x.flat.getD e.1 0).neg) →
      l.foldl (fun s e => s + e.2 * x'.flat.getD e.1 0) s.neg = (l.foldl (fun s e => s + e.2 * x.flat.getD e.1 0) s).neg := by
    intro l
    induction l with
    | nil => intro s _; rfl
    | cons a l ih =>
      intro s hl
      simp only [List.foldl_cons]
      rw [hl a (by simp), mul_neg_fp ht, add_neg_fp ht]
      exact ih _ (fun e he => hl e (by simp [he]))
  have := go (z.row (offset shape idx)) (.fin 0) (fun e he => by
    obtain ⟨k, hk, rfl⟩ := (mem_row z h _ hi e).1 he
    exact hx _ ⟨k, hk, rfl⟩)
  have h0 : (Fp.fin 0 : Fp (ieee p emin top)).neg = .fin 0 := congrArg Fp.fin neg_zero
  rw [h0] at this
  exact this

/-- C167, range: a result that is a number is between the smallest and the largest of the values used, times the sum of the weights, up to rounding:
with `n` weights and values up to `M` by `(n + 1)` 2^-52 `M` times that sum. -/
theorem C167_range_partial {G : Type} (z : Csr (Fp double)) (h : z.WF) (shape : List Nat) (x : Arr (Fp double)) (g g' : G) (y : Arr (Fp double))
    (hy : applyWeights (some (z, shape)) x g = .ok (y, g')) (idx : List Nat) (hidx : Inside shape idx) (hw : z.Positive (offset shape idx))
    (lo hi M : ℚ) (hM : |lo| ≤ M ∧ |hi| ≤ M) (hx : ∀ j, z.Stores (offset shape idx) j → ∃ v, x.flat.getD j 0 = .fin v ∧ lo ≤ v ∧ v ≤ hi) (q : ℚ)
    (hq : y.elem idx = some (.fin q)) (n : Nat) (hn : (z.slots (offset shape idx)).card = n) (hsmall : n < 2 ^ 51) :
    lo * weightSum z (offset shape idx) - ((n + 1) / 2 ^ 52 * (M * weightSum z (offset shape idx)) + n * 2 ^ (-1072 : Int)) ≤ q ∧
    q ≤ hi * weightSum z (offset shape idx) + ((n + 1) / 2 ^ 52 * (M * weightSum z (offset shape idx)) + n * 2 ^ (-1072 : Int)) := by
  have h1 := C122_doubles z h shape x g g' y hy idx hidx q hq n hn hsmall
  have hval : ∀ k ∈ z.slots (offset shape idx), 0 ≤ (z.data.getD k 0).val ∧ lo ≤ (x.flat.getD (z.indices.getD k 0) 0).val ∧
      (x.flat.getD (z.indices.getD k 0) 0).val ≤ hi := by
    intro k hk
    obtain ⟨u, hu, hd⟩ := hw k hk
    obtain ⟨v, hv, h2, h3⟩ := hx _ ⟨k, hk, rfl⟩
    rw [hd, hv]
    exact ⟨hu, h2, h3⟩
  have a1 : lo * weightSum z (offset shape idx) ≤ exactSum z x.flat (offset shape idx) := by
    unfold weightSum exactSum
    rw [mul_sum]
    refine sum_le_sum fun k hk => ?_
    obtain ⟨h2, h3, _⟩ := hval k hk
    rw [mul_comm]
    exact mul_le_mul_of_nonneg_left h3 h2
  have a2 : exactSum z x.flat (offset shape idx) ≤ hi * weightSum z (offset shape idx) := by
    unfold weightSum exactSum
    rw [mul_sum]
    refine sum_le_sum fun k hk => ?_
    obtain ⟨h2, _, h3⟩ := hval k hk
    rw [mul_comm hi]
    exact mul_le_mul_of_nonneg_left h3 h2
  have a3 : sizeSum z x.flat (offset shape idx) ≤ M * weightSum z (offset shape idx) := by
    unfold weightSum sizeSum
    rw [mul_sum]
    refine sum_le_sum fun k hk => ?_
    obtain ⟨h2, h3, h4⟩ := hval k hk
    rw [abs_mul, abs_of_nonneg h2, mul_comm M]
    refine mul_le_mul_of_nonneg_left ?_ h2
    rw [abs_le]
    have := abs_le.1 hM.1
    have := abs_le.1 hM.2
    constructor <;> linarith
  have a4 : ((n : ℚ) + 1) / 2 ^ 52 * sizeSum z x.flat (offset shape idx) ≤ (n + 1) / 2 ^ 52 * (M * weightSum z (offset shape idx)) :=
    mul_le_mul_of_nonneg_left a3 (by positivity)
  have := abs_le.1 h1
  constructor <;> linarith

/-! ## The range is left -/

/-- Weights 25/32 and 7/32. -/
def unequal : Csr (Fp double) := ⟨1, 2, [0, 2], [0, 1], [.fin (25 / 32), .fin (7 / 32)]⟩

theorem unequal_wf : unequal.WF where
  ptrs := rfl
  start := by simp [unequal]
  mono := by
    intro i j a b hij h1 h2
    simp only [unequal] at h1 h2
    rcases i with _ | _ | i <;> rcases j with _ | _ | j <;> simp at h1 h2 <;> omega
  last := rfl
  sizes := rfl
  inside := by simp [unequal]

/-- The double next to a third. -/
def third : ℚ := 6004799503160661 / 2 ^ 54

/-- C167 fails for the range, in doubles: weights 25/32 and 7/32, which add up to one, make of a field that is a third everywhere (the double next to
it) something smaller. -/
theorem C167_refuted : ∃ (z : Csr (Fp double)) (x y : Arr (Fp double)) (c q : ℚ), z.WF ∧ z.Positive 0 ∧ weightSum z 0 = 1 ∧ (∀ v ∈ x.flat, v = .fin c) ∧
    applyWeights (some (z, [1])) x () = .ok (y, ()) ∧ y.elem [0] = some (.fin q) ∧ q < c := by
  obtain ⟨y, hy⟩ : ∃ y, applyWeights (some (unequal, [1])) (⟨[2], [.fin third, .fin third]⟩ : Arr (Fp double)) () = .ok (y, ()) := ⟨_, rfl⟩
  have hs : unequal.slots 0 = {0, 1} := by decide
  refine ⟨unequal, _, y, third, 6004799503160660 / 2 ^ 54, unequal_wf, ?_, ?_, ?_, hy, ?_, by decide +kernel⟩
  · intro k hk
    rw [hs] at hk
    rcases mem_insert.1 hk with rfl | hk
    · exact ⟨25 / 32, by norm_num, rfl⟩
    · rw [mem_singleton.1 hk]
      exact ⟨7 / 32, by norm_num, rfl⟩
  · rw [weightSum, hs]
    decide +kernel
  · intro v hv
    simpa using hv
  · rw [(elem_dot unequal [1] _ () () y hy [0] (.cons (by decide) .nil)).2]
    have : unequal.dot [.fin third, .fin third] 0 = .fin (6004799503160660 / 2 ^ 54) := by decide +kernel
    exact congrArg some this

/-! ## Examples -/

theorem twoD_positive : twoD.Positive 0 := by
  intro k hk
  have hs : twoD.slots 0 = {0, 1} := by decide
  rw [hs] at hk
  rcases mem_insert.1 hk with rfl | hk
  · exact ⟨1 / 2, by norm_num, rfl⟩
  · rw [mem_singleton.1 hk]
    exact ⟨1 / 2, by norm_num, rfl⟩

/-- `C167_order`, `C167_order_formats` (which it is for doubles): 280, 281 against 280, infinity. -/
example : ∃ a b, a ≠ Fp.nan ∧ b ≠ Fp.nan ∧ Fp.Le (a : Fp double) b ∧ twoD.dot [.fin 280, .fin 281, .nan] 0 = a ∧
    twoD.dot [.fin 280, .inf false, .nan] 0 = b := by
  obtain ⟨y, hy⟩ : ∃ y, applyWeights (some (twoD, [2])) (⟨[3], [.fin 280, .fin 281, .nan]⟩ : Arr (Fp double)) () = .ok (y, ()) := ⟨_, rfl⟩
  obtain ⟨y', hy'⟩ : ∃ y, applyWeights (some (twoD, [2])) (⟨[3], [.fin 280, .inf false, .nan]⟩ : Arr (Fp double)) () = .ok (y, ()) := ⟨_, rfl⟩
  have hin : Inside [2] [0] := .cons (by decide) .nil
  have na : twoD.dot [.fin 280, .fin 281, .nan] 0 ≠ .nan := by decide +kernel
  have nb : twoD.dot [.fin 280, .inf false, .nan] 0 ≠ .nan := by decide +kernel
  refine ⟨_, _, na, nb, ?_, rfl, rfl⟩
  refine C167_order twoD twoD_wf [2] _ _ () () () y y' hy hy' [0] hin twoD_positive ?_ _ _ (elem_dot twoD [2] _ () () y hy [0] hin).2
    (elem_dot twoD [2] _ () () y' hy' [0] hin).2 na nb
  rintro j ⟨k, hk, rfl⟩
  have hk' : k < 2 := (mem_Ico.1 hk).2
  interval_cases k
  · exact le_rfl (a := (280 : ℚ))
  · exact rfl

/-- `C167_sign` -/
example : twoD.dot [.fin (-280), .fin (-281), .nan] 0 = (twoD.dot [.fin 280, .fin 281, .nan] 0).neg := by
  obtain ⟨y, hy⟩ : ∃ y, applyWeights (some (twoD, [2])) (⟨[3], [.fin 280, .fin 281, .nan]⟩ : Arr (Fp double)) () = .ok (y, ()) := ⟨_, rfl⟩
  obtain ⟨y', hy'⟩ : ∃ y, applyWeights (some (twoD, [2])) (⟨[3], [.fin (-280), .fin (-281), .nan]⟩ : Arr (Fp double)) () = .ok (y, ()) := ⟨_, rfl⟩
  have hin : Inside [2] [0] := .cons (by decide) .nil
  have ht : (0 : ℚ) ≤ (2 ^ 53 - 1) * 2 ^ 971 := mul_nonneg (by norm_num) (by positivity)
  have h := C167_sign (p := 53) (emin := -1074) ht twoD twoD_wf [2] _ _ () () () y y' hy hy' [0] hin (by
    rintro j ⟨k, hk, rfl⟩
    have hk' : k < 2 := (mem_Ico.1 hk).2
    interval_cases k <;> rfl)
  have e1 := (elem_dot twoD [2] _ () () y hy [0] hin).2
  have e2 := (elem_dot twoD [2] _ () () y' hy' [0] hin).2
  have h : y'.elem [0] = (y.elem [0]).map Fp.neg := h
  rw [e1, e2] at h
  exact Option.some.inj h

/-- `C167_range_partial`: the mean of 280 and 281. -/
example : ∃ q, twoD.dot [.fin 280, .fin 281, .nan] 0 = .fin q ∧ 280 - 1 / 2 ^ 40 ≤ q ∧ q ≤ 281 + 1 / 2 ^ 40 := by
  obtain ⟨y, hy⟩ : ∃ y, applyWeights (some (twoD, [2])) (⟨[3], [.fin 280, .fin 281, .nan]⟩ : Arr (Fp double)) () = .ok (y, ()) := ⟨_, rfl⟩
  have hin : Inside [2] [0] := .cons (by decide) .nil
  have hd : twoD.dot [.fin 280, .fin 281, .nan] 0 = .fin (561 / 2) := by decide +kernel
  have he := (elem_dot twoD [2] _ () () y hy [0] hin).2
  have hsum : weightSum twoD 0 = 1 := by
    have hs : twoD.slots 0 = {0, 1} := by decide
    rw [weightSum, hs]
    decide +kernel
  have := C167_range_partial twoD twoD_wf [2] _ () () y hy [0] hin twoD_positive 280 281 281 (by norm_num [abs_le]) (by
    rintro j ⟨k, hk, rfl⟩
    have hk' : k < 2 := (mem_Ico.1 hk).2
    interval_cases k
    · exact ⟨280, rfl, by norm_num, by norm_num⟩
    · exact ⟨281, rfl, by norm_num, by norm_num⟩) (561 / 2) (he.trans (congrArg some hd)) 2 (by decide) (by norm_num)
  change 280 * weightSum twoD 0 - (_ * (_ * weightSum twoD 0) + _) ≤ _ ∧ _ ≤ 281 * weightSum twoD 0 + (_ * (_ * weightSum twoD 0) + _) at this
  rw [hsum] at this
  have ht : (2 : ℚ) ^ (-1072 : Int) ≤ 2 ^ (-60 : Int) := zpow_le_zpow_right₀ (by norm_num) (by norm_num)
  refine ⟨_, hd, ?_, ?_⟩
  · refine le_trans ?_ this.1
    norm_num at ht ⊢
    linarith
  · refine le_trans this.2 ?_
    norm_num at ht ⊢
    linarith

end Verif.Regrid

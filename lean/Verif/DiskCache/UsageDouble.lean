import Verif.DiskCache.TableProps6
import Verif.Humanize.Double

/-!
# Properties of the cache table: the limit on the use of the disk in double arithmetic (C118)

`DiskUsage.percent` and the number of bytes to free are computed in floats; here with the roundings of IEEE doubles. (Disks have less
than 2^1024 bytes.)
-/

namespace Verif.DiskCache

open Verif.Humanize (dbl dbl_err roundEven)

/-! ## Model -/

/-- `DiskUsage.percent` — caching.py:66: both `float`s, the division, the product and the sum are rounded; `int` of a number that is not
negative is its floor. `none`: ZeroDivisionError. -/
def percentF (total avail : Nat) : Option Nat :=
  if total = 0 then none
  else some ⌊dbl (dbl (dbl (dbl ((total - avail : Nat) : ℚ) / dbl total) * 100) + 1 / 2)⌋.toNat

/-- `(df.percent - usage) * df.total * 0.01` — caching.py:510: the first product is one of integers. -/
def deltaF (percent usage total : Nat) : ℚ := dbl (dbl (((percent - usage) * total : Nat) : ℚ) * dbl (1 / 100))

/-- The relative limit — caching.py:502-511. `decache` counts in hundredths of bytes; whole bytes reach `delta` when they reach the next
integer. -/
def usageNowF (e : Env) (t : Nat) (usage : Option Nat) (others total : Nat) (s : St) : Except Trouble Unit × St :=
  match usage with
  | none => (.ok (), s)
  | some u =>
    match percentF total (total - (others + diskBytes s)) with
    | none => (.error .zeroDivision, s)
    | some p =>
      if p > u then
        match decache e t (100 * ⌈deltaF p u total⌉.toNat) false (housekeeping e t false s) with
        | (.error x, s) => (.error (.cache x), s)
        | (.ok _, s) => (.ok (), s)
      else (.ok (), s)

/-- `_check_cache_size` — caching.py:492-511 -/
def checkNowF (e : Env) (t : Nat) (limit usage : Option Nat) (others total : Nat) (s : St) : Except Trouble Unit × St :=
  match checkMax e t limit s with
  | (.error x, s) => (.error (.cache x), s)
  | (.ok _, s) => usageNowF e t usage others total s

/-! ## Specification -/

/-- The use of the disk is at most the limit, half a percent and a trifle. -/
def WithinNearly (u others total : Nat) (s : St) : Prop := 100 * (inUse others s : ℚ) ≤ (u + 1 / 2 + 1 / 2 ^ 42) * total

/-! ## Errors -/

theorem dbl_rel {q : ℚ} (h : 0 ≤ q) : q * (1 - 1 / 2 ^ 53) ≤ dbl q ∧ dbl q ≤ q * (1 + 1 / 2 ^ 53) := by
  rcases h.eq_or_lt with rfl | h
  · simp [dbl]
  · have := abs_le.1 (dbl_err h)
    constructor <;> linarith [this.1, this.2]

/-- The sum before `int`, next to the exact one. -/
theorem percent_near {x total : Nat} (h0 : 0 < total) (hx : x ≤ total) :
    |dbl (dbl (dbl (dbl (x : ℚ) / dbl total) * 100) + 1 / 2) - (100 * (x : ℚ) / total + 1 / 2)| ≤ 1 / 2 ^ 43 := by
  have hT : (0 : ℚ) < total := by exact_mod_cast h0
  have hx0 : (0 : ℚ) ≤ x := Nat.cast_nonneg x
  have hxT : (x : ℚ) ≤ total := by exact_mod_cast hx
  obtain ⟨a1, a2⟩ := dbl_rel hx0
  obtain ⟨b1, b2⟩ := dbl_rel hT.le
  generalize dbl (x : ℚ) = a at *
  generalize dbl (total : ℚ) = b at *
  have hv1 : (x : ℚ) / total ≤ 1 := by rw [div_le_one hT]; exact hxT
  have hv0 : 0 ≤ (x : ℚ) / total := div_nonneg hx0 hT.le
  have hv : (x : ℚ) = x / total * total := by field_simp
  rw [mul_div_assoc]
  generalize (x : ℚ) / total = v at *
  rw [hv] at a1 a2
  have hb : 0 < b := by nlinarith
  have r1 : v * (1 - 2 / 2 ^ 53) ≤ a / b := by
    rw [le_div_iff₀ hb]
    nlinarith [mul_nonneg hv0 hT.le, mul_le_mul_of_nonneg_left b2 (mul_nonneg hv0 (by norm_num : (0 : ℚ) ≤ 1 - 2 / 2 ^ 53))]
  have r2 : a / b ≤ v * (1 + 3 / 2 ^ 53) := by
    rw [div_le_iff₀ hb]
    nlinarith [mul_nonneg hv0 hT.le, mul_le_mul_of_nonneg_left b1 (mul_nonneg hv0 (by norm_num : (0 : ℚ) ≤ 1 + 3 / 2 ^ 53))]
  generalize a / b = r at *
  have hr : 0 ≤ r := le_trans (mul_nonneg hv0 (by norm_num)) r1
  obtain ⟨c1, c2⟩ := dbl_rel hr
  generalize dbl r = c at *
  have hc : 0 ≤ c := le_trans (mul_nonneg hr (by norm_num)) c1
  obtain ⟨d1, d2⟩ := dbl_rel (mul_nonneg hc (by norm_num : (0 : ℚ) ≤ 100))
  generalize dbl (c * 100) = d at *
  have hd : 0 ≤ d := le_trans (mul_nonneg (mul_nonneg hc (by norm_num)) (by norm_num)) d1
  obtain ⟨s1, s2⟩ := dbl_rel (add_nonneg hd (by norm_num : (0 : ℚ) ≤ 1 / 2))
  generalize dbl (d + 1 / 2) = w at *
  norm_num at a1 a2 b1 b2 r1 r2 c1 c2 d1 d2 s1 s2 ⊢
  rw [abs_le]
  constructor <;> linarith

theorem percentF_spec {x total p : Nat} (h0 : 0 < total) (hx : x ≤ total) (hp : percentF total (total - x) = some p) :
    (p : ℚ) * total ≤ 100 * x + (1 / 2 + 1 / 2 ^ 43) * total ∧ 100 * (x : ℚ) ≤ (p + 1 / 2 + 1 / 2 ^ 43) * total := by
  unfold percentF at hp
  rw [if_neg (by omega), show total - (total - x) = x by omega] at hp
  have hT : (0 : ℚ) < total := by exact_mod_cast h0
  have hx0 : (0 : ℚ) ≤ x := Nat.cast_nonneg x
  have hn := abs_le.1 (percent_near h0 hx)
  have hq : 0 ≤ 100 * (x : ℚ) / total := div_nonneg (by linarith) hT.le
  have he : 100 * (x : ℚ) = 100 * x / total * total := by field_simp
  generalize dbl (dbl (dbl (dbl (x : ℚ) / dbl total) * 100) + 1 / 2) = w at *
  rw [he]
  generalize 100 * (x : ℚ) / total = q at *
  have hw : 0 ≤ w := by
    have : (1 : ℚ) / 2 ^ 43 ≤ 1 / 2 := by norm_num
    linarith [hn.1]
  have hf : ((p : ℤ)) = ⌊w⌋ := by
    have h1 : ⌊w⌋.toNat = p := by simpa using hp
    have h2 : 0 ≤ ⌊w⌋ := Int.floor_nonneg.2 hw
    omega
  have h1 := Int.floor_le w
  have h2 := Int.lt_floor_add_one w
  rw [← hf] at h1 h2
  push_cast at h1 h2
  constructor
  · have : (p : ℚ) ≤ q + (1 / 2 + 1 / 2 ^ 43) := by linarith [hn.2]
    nlinarith
  · have : q ≤ p + 1 / 2 + 1 / 2 ^ 43 := by linarith [hn.1]
    nlinarith

theorem percentF_some {total : Nat} (h0 : 0 < total) (avail : Nat) : ∃ p, percentF total avail = some p := by
  unfold percentF
  rw [if_neg (by omega)]
  exact ⟨_, rfl⟩

theorem deltaF_spec (p u total : Nat) :
    (((p - u) * total : Nat) : ℚ) / 100 * (1 - 1 / 2 ^ 51) ≤ deltaF p u total := by
  unfold deltaF
  have hx0 : (0 : ℚ) ≤ (((p - u) * total : Nat) : ℚ) := Nat.cast_nonneg _
  generalize (((p - u) * total : Nat) : ℚ) = x at *
  obtain ⟨a1, _⟩ := dbl_rel hx0
  obtain ⟨c1, _⟩ := dbl_rel (by norm_num : (0 : ℚ) ≤ 1 / 100)
  generalize dbl x = a at *
  generalize dbl (1 / 100) = c at *
  have hc : 0 ≤ c := le_trans (by norm_num) c1
  have ha : 0 ≤ a := le_trans (mul_nonneg hx0 (by norm_num)) a1
  obtain ⟨d1, _⟩ := dbl_rel (mul_nonneg ha hc)
  have h1 : x * (1 - 1 / 2 ^ 53) * (1 / 100 * (1 - 1 / 2 ^ 53)) ≤ a * c := by
    refine mul_le_mul a1 c1 (by norm_num) ha
  norm_num at h1 d1 ⊢
  linarith

/-! ## C118 -/

theorem usageF_spec (e : Env) (hd : Deletable e) (t u others total : Nat) (s : St) (hi : Inv e s) (ht : Truthful s)
    (hn : (s.files.map (·.1)).Nodup) (h0 : 0 < total) (hfit : inUse others s ≤ total) :
    ∃ s', usageNowF e t (some u) others total s = (.ok (), s') ∧
      (WithinNearly u others total s' ∨ ∀ r ∈ s'.rows, ¬(Finished r ∧ ¬Protected (housekeeping e t false s).rows r)) := by
  unfold usageNowF
  simp only
  obtain ⟨p, hp⟩ := percentF_some h0 (total - (others + diskBytes s))
  obtain ⟨hlow, hup⟩ := percentF_spec h0 hfit hp
  have hT : (0 : ℚ) < total := by exact_mod_cast h0
  have hxT : (inUse others s : ℚ) ≤ total := by exact_mod_cast hfit
  rw [hp]
  simp only
  by_cases hpu : p > u
  · rw [if_pos hpu]
    obtain ⟨i1, i2, i3, i4⟩ := keeps_housekeeping e t hi ht hn
    generalize housekeeping e t false s = h at *
    obtain ⟨k, rfl⟩ : ∃ k, p = u + k := ⟨p - u, by omega⟩
    have hk1 : 1 ≤ k := by omega
    have hdl := deltaF_spec (u + k) u total
    rw [show u + k - u = k by omega] at hdl
    push_cast at hdl hlow hup
    have hk1' : (1 : ℚ) ≤ k := by exact_mod_cast hk1
    have hkT : (0 : ℚ) < k * total := mul_pos (by linarith) hT
    have hpos : 0 < deltaF (u + k) u total := by
      refine lt_of_lt_of_le ?_ hdl
      have : (0 : ℚ) < 1 - 1 / 2 ^ 51 := by norm_num
      positivity
    have hcp : 0 < ⌈deltaF (u + k) u total⌉ := Int.ceil_pos.2 hpos
    obtain ⟨tot, s', h1, h2, h3, _⟩ := freed e hd t (100 * ⌈deltaF (u + k) u total⌉.toNat) (by omega) h i1 i2 i3
    rw [h1]
    refine ⟨s', rfl, h3.imp_left (fun h3 => ?_)⟩
    have h4 : ⌈deltaF (u + k) u total⌉ ≤ (tot : ℤ) := by omega
    have h5 : deltaF (u + k) u total ≤ (tot : ℚ) := by
      have := Int.ceil_le.1 h4
      exact_mod_cast this
    generalize deltaF (u + k) u total = g at *
    have h6 : (tot : ℚ) + inUse others s' ≤ inUse others s := by
      have : tot + inUse others s' ≤ inUse others s := by unfold inUse; omega
      exact_mod_cast this
    unfold WithinNearly
    generalize (inUse others s' : ℚ) = y at *
    generalize (inUse others s : ℚ) = x at *
    have hu0 : (0 : ℚ) ≤ u := Nat.cast_nonneg u
    have hu1 : (0 : ℚ) ≤ u * total := mul_nonneg hu0 hT.le
    generalize hkt : (k : ℚ) * total = kt at *
    have hlow' : kt ≤ 101 * total := by
      have e1 : ((u : ℚ) + k) * total = u * total + kt := by rw [← hkt]; ring
      rw [e1] at hlow
      norm_num at hlow
      linarith
    have e2 : ((u : ℚ) + k + 1 / 2 + 1 / 2 ^ 43) * total = u * total + kt + (1 / 2 + 1 / 2 ^ 43) * total := by rw [← hkt]; ring
    rw [e2] at hup
    have e3 : ((u : ℚ) + 1 / 2 + 1 / 2 ^ 42) * total = u * total + (1 / 2 + 1 / 2 ^ 42) * total := by ring
    rw [e3]
    norm_num at hup hdl ⊢
    linarith
  · rw [if_neg hpu]
    refine ⟨s, rfl, .inl ?_⟩
    unfold WithinNearly
    have : (p : ℚ) ≤ u := by exact_mod_cast (not_lt.1 hpu)
    have : (p : ℚ) * total ≤ u * total := mul_le_mul_of_nonneg_right this hT.le
    norm_num at hup ⊢
    nlinarith

/-- **C118 in doubles.** After `check_size`, the use of the disk is at most the limit, half a percent and 2^-42 percents, or nothing is left
that may be trimmed — as long as others leave the files of finished entries alone. -/
theorem C118_doubles_partial (e : Env) (hd : Deletable e) (h : List Op) (hf : FairHistory e h) (hn : ((run e h).files.map (·.1)).Nodup)
    (t u others total : Nat) (limit : Option Nat) (h0 : 0 < total) (hfit : inUse others (run e h) ≤ total) :
    ∃ s1 s', checkMax e t limit (run e h) = (.ok (), s1) ∧ checkNowF e t limit (some u) others total (run e h) = (.ok (), s') ∧
      (WithinNearly u others total s' ∨ ∀ r ∈ s'.rows, ¬(Finished r ∧ ¬Protected (housekeeping e t false s1).rows r)) := by
  obtain ⟨s1, h1, i1, i2, i3, i4⟩ := max_spec e hd t limit _ (inv_run e h) (truthful_run e h hf) hn
  obtain ⟨s', h2, h3⟩ := usageF_spec e hd t u others total s1 i1 i2 i3 h0 (by unfold inUse at *; omega)
  refine ⟨s1, s', h1, ?_, h3⟩
  unfold checkNowF
  rw [h1]
  exact h2

/-- **C118 in doubles, nothing is trimmed within the limit**, and rounding changes nothing unless the use is within 2^-42 percents of a half
percent. -/
theorem C118_doubles_quiet (e : Env) (t u others total : Nat) (s : St) (h0 : 0 < total) (hfit : inUse others s ≤ total)
    (hw : WithinUsage u others total s ∨ 100 * (inUse others s : ℚ) < (u + 1 / 2 - 1 / 2 ^ 42) * total) :
    checkNowF e t none (some u) others total s = (.ok (), s) := by
  show usageNowF e t (some u) others total s = (.ok (), s)
  unfold usageNowF
  simp only
  obtain ⟨p, hp⟩ := percentF_some h0 (total - (others + diskBytes s))
  obtain ⟨hlow, _⟩ := percentF_spec h0 hfit hp
  have hT : (0 : ℚ) < total := by exact_mod_cast h0
  rw [hp]
  simp only
  rw [if_neg]
  intro hpu
  have hpu' : (u : ℚ) + 1 ≤ p := by exact_mod_cast hpu
  have h1 := mul_le_mul_of_nonneg_right hpu' hT.le
  rcases hw with hw | hw
  · have hw' : 100 * (inUse others s : ℚ) ≤ u * total := by exact_mod_cast hw
    norm_num at hlow
    linarith
  · have e3 : ((u : ℚ) + 1 / 2 - 1 / 2 ^ 42) * total = u * total + (1 / 2 - 1 / 2 ^ 42) * total := by ring
    rw [e3] at hw
    norm_num at hlow hw
    linarith

/-- **C118 in doubles, half percents**: 28.5 percents are 29 in whole percents (halves up), but 28 as computed: with a limit of 28 percents
nothing is trimmed although there is an old entry that could be. -/
theorem C118_half_refuted : ∃ s, Inv envC s ∧ ¬WithinRounded 28 37 200 s ∧ (∃ r ∈ s.rows, Finished r ∧ ¬Protected s.rows r) ∧
    checkNowF envC 1000 none (some 28) 37 200 s = (.ok (), s) ∧ (checkNow envC 1000 none (some 28) 37 200 s).2.rows.length < s.rows.length := by
  refine ⟨busy, ⟨by unfold Unique; decide +kernel, by unfold Inside; decide +kernel, by unfold Rooted; decide +kernel⟩,
    by unfold WithinRounded; decide +kernel, ⟨row "/c/a" "url" 1 1 (some 10), by decide +kernel, rfl, ?_⟩, ?_, by decide +kernel⟩
  · unfold Protected Finished
    decide +kernel
  · have h : percentF 200 (200 - (37 + diskBytes busy)) = some 28 := by decide +kernel
    show usageNowF envC 1000 (some 28) 37 200 busy = (.ok (), busy)
    unfold usageNowF
    simp only [h]
    rfl

/-! ## Non-vacuity -/

/-- `C118_doubles_partial` with a limit of 80 %, where the older of two entries goes, and `C118_doubles_quiet` with one of 96 %. -/
example : (∃ s1 s', checkMax envC 1000 none (run envC twoEntries) = (.ok (), s1) ∧
      checkNowF envC 1000 none (some 80) 450 1000 (run envC twoEntries) = (.ok (), s') ∧
      (WithinNearly 80 450 1000 s' ∨ ∀ r ∈ s'.rows, ¬(Finished r ∧ ¬Protected (housekeeping envC 1000 false s1).rows r))) ∧
    (checkNowF envC 1000 none (some 80) 450 1000 (run envC twoEntries)).2.rows.map (·.path) = ["/c/b".toList] ∧
    checkNowF envC 1000 none (some 96) 450 1000 (run envC twoEntries) = (.ok (), run envC twoEntries) :=
  ⟨C118_doubles_partial envC (fun _ => rfl) twoEntries twoEntries_ok.1 (by rw [twoEntries_ok.2.2.2.2.2]; decide +kernel) 1000 80 450 1000 none (by decide)
      twoEntries_ok.2.2.2.2.1,
    by decide +kernel,
    C118_doubles_quiet envC 1000 96 450 1000 (run envC twoEntries) (by decide) twoEntries_ok.2.2.2.2.1 (.inl (by unfold WithinUsage; decide +kernel))⟩

end Verif.DiskCache

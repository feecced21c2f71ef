import Verif.Json.Load
import Verif.Json.Lemmas
import Mathlib.Data.List.TakeWhile

/-! Lemmas on reading what was written. -/

namespace Verif.Json

/-! ### strings -/

theorem unhex_hexDigit : ∀ a < 16, unhex (hexDigit a) = some a := by decide +kernel

theorem hexVal_hex4 (n : Nat) (h : n < 65536) (r : Text) : hexVal (hex4 n ++ r) = some (n, r) := by
  unfold hex4
  simp only [List.cons_append, List.nil_append, hexVal]
  rw [unhex_hexDigit _ (by omega), unhex_hexDigit _ (by omega), unhex_hexDigit _ (by omega), unhex_hexDigit _ (by omega)]
  simp only [Option.some.injEq, Prod.mk.injEq, and_true]
  omega

theorem chr_toNat (c : Char) : chr c.toNat = c := by
  unfold chr
  have := char_range c
  rw [if_neg (by omega)]
  exact Char.ofNat_toNat c

theorem short_escape : ∀ p ∈ [('"', '"'), ('\\', '\\'), ('\n', 'n'), ('\r', 'r'), ('\t', 't'),
      (Char.ofNat 12, 'f'), (Char.ofNat 8, 'b')], short p.2 = some p.1 ∧ p.2 ≠ 'u' := by decide +kernel

theorem hexVal_length {t r : Text} {u : Nat} (h : hexVal t = some (u, r)) : ∃ a b c d, t = a :: b :: c :: d :: r := by
  unfold hexVal at h
  split at h
  · rename_i a b c d r'
    split at h
    · simp only [Option.some.injEq, Prod.mk.injEq] at h
      exact ⟨a, b, c, d, by rw [h.2]⟩
    · cases h
  · cases h

theorem unicode_suffix {t r : Text} {c : Char} (h : unicode t = some (c, r)) : r <:+ t := by
  unfold unicode at h
  split at h
  · cases h
  · rename_i u r1 h1
    obtain ⟨a, b, c', d, rfl⟩ := hexVal_length h1
    have hs : r1 <:+ a :: b :: c' :: d :: r1 := ⟨[a, b, c', d], rfl⟩
    split at h
    · split at h
      · rename_i r2
        split at h
        · cases h
        · rename_i l r3 h3
          obtain ⟨a', b', c'', d', rfl⟩ := hexVal_length h3
          split at h
          · simp only [Option.some.injEq, Prod.mk.injEq] at h
            obtain ⟨_, rfl⟩ := h
            exact ⟨[a, b, c', d, '\\', 'u', a', b', c'', d'], rfl⟩
          · simp only [Option.some.injEq, Prod.mk.injEq] at h
            obtain ⟨_, rfl⟩ := h
            exact hs
      · simp only [Option.some.injEq, Prod.mk.injEq] at h
        obtain ⟨_, rfl⟩ := h
        exact hs
    · simp only [Option.some.injEq, Prod.mk.injEq] at h
      obtain ⟨_, rfl⟩ := h
      exact hs

theorem oneChar_suffix {t r : Text} {c : Char} (h : oneChar t = some (c, r)) : r <:+ t := by
  unfold oneChar at h
  split at h
  · cases h
  · rename_i d r0
    split at h
    · split at h
      · cases h
      · rename_i e r1
        split at h
        · exact (unicode_suffix h).trans ⟨[d, e], rfl⟩
        · simp only [Option.map_eq_some_iff, Prod.mk.injEq] at h
          obtain ⟨_, _, _, rfl⟩ := h
          exact ⟨[d, e], rfl⟩
    · split at h
      · cases h
      · simp only [Option.some.injEq, Prod.mk.injEq] at h
        obtain ⟨_, rfl⟩ := h
        exact ⟨[d], rfl⟩

theorem unicode_one {t r : Text} {u : Nat} (h : hexVal t = some (u, r)) (hu : ¬ (55296 ≤ u ∧ u ≤ 56319)) :
    unicode t = some (chr u, r) := by
  unfold unicode
  rw [h]
  simp only
  rw [if_neg hu]

theorem unicode_two {t t2 r : Text} {u l : Nat} (h : hexVal t = some (u, '\\' :: 'u' :: t2)) (h2 : hexVal t2 = some (l, r))
    (hu : 55296 ≤ u ∧ u ≤ 56319) (hl : 56320 ≤ l ∧ l ≤ 57343) :
    unicode t = some (chr (65536 + ((u - 55296) * 1024 + (l - 56320))), r) := by
  unfold unicode
  rw [h]
  simp only
  rw [if_pos hu, h2]
  simp only
  rw [if_pos hl]

theorem pair_value (n : Nat) (h : 65536 ≤ n) :
    65536 + ((55296 + (n - 65536) / 1024 - 55296) * 1024 + (56320 + (n - 65536) % 1024 - 56320)) = n := by omega

/-- The escape of a character is read as the character. -/
theorem oneChar_esc (c : Char) (q : Text) : oneChar (escChar c ++ q) = some (c, q) ∧ q.length < (escChar c ++ q).length ∧
    ∀ d t, escChar c ++ q = d :: t → d ≠ '"' := by
  have key : ∀ e, Esc c e → (∀ x, e = [x] → 32 ≤ x.toNat) → oneChar (e ++ q) = some (c, q) ∧ q.length < (e ++ q).length ∧
      ∀ d t, e ++ q = d :: t → d ≠ '"' := by
    intro e he hx
    cases he with
    | plain h1 h2 =>
      refine ⟨?_, by simp, ?_⟩
      · have := hx c rfl
        simp only [List.cons_append, List.nil_append, oneChar, if_neg h2]
        rw [if_neg (by omega)]
      · rintro d t ⟨⟩; exact h1
    | short x h =>
      have hs := short_escape _ h
      refine ⟨?_, by simp; omega, ?_⟩
      · simp only [List.cons_append, List.nil_append, oneChar, if_true, if_neg hs.2, hs.1, Option.map_some]
      · rintro d t ⟨⟩; decide
    | bmp h =>
      refine ⟨?_, by simp [hex4]; omega, ?_⟩
      · have := char_range c
        simp only [List.cons_append, oneChar, if_true]
        rw [unicode_one (hexVal_hex4 _ h q) (by omega), chr_toNat]
      · rintro d t ⟨⟩; decide
    | pair h =>
      have hr := char_range c
      refine ⟨?_, by simp [hex4]; omega, ?_⟩
      · simp only [List.cons_append, List.append_assoc, oneChar, if_true]
        rw [unicode_two (hexVal_hex4 _ (by omega) _) (hexVal_hex4 _ (by omega) q) (by omega) (by omega), pair_value _ h, chr_toNat]
      · rintro d t ⟨⟩; decide
  refine key _ (esc_escChar c) ?_
  intro x hx
  unfold escChar at hx
  repeat' split at hx
  all_goals first | (simp [hex4] at hx; done) | skip
  simp only [List.cons.injEq, and_true] at hx
  subst hx
  rename_i h
  exact h.1

theorem scan_esc (c : Char) (q : Text) : scanStr (escChar c ++ q) =
    match scanStr q with | none => none | some (s, r) => some (c :: s, r) := by
  obtain ⟨h1, h2, h3⟩ := oneChar_esc c q
  cases he : escChar c ++ q with
  | nil => rw [he] at h2; simp at h2
  | cons d t =>
    rw [he] at h1 h2
    rw [scanStr, if_neg (h3 d t he), h1]
    simp only
    rw [dif_pos h2]
    cases scanStr q <;> rfl

/-- A string is read to its closing quote. -/
theorem scan_quote (s r : Text) : scanStr (escText s ++ '"' :: r) = some (s, r) := by
  induction s with
  | nil => rw [escText, List.nil_append, scanStr, if_pos rfl]
  | cons c s ih =>
    rw [escText, List.append_assoc, scan_esc, ih]

/-- Without a quote no string ends. -/
theorem scan_no_quote (n : Nat) : ∀ p : Text, p.length ≤ n → '"' ∉ p → scanStr p = none := by
  induction n with
  | zero =>
    intro p hp _
    rw [List.length_eq_zero_iff.1 (Nat.le_zero.1 hp), scanStr]
  | succ n ih =>
    intro p hp hq
    cases p with
    | nil => rw [scanStr]
    | cons c r =>
      rw [scanStr, if_neg (by rintro rfl; simp at hq)]
      cases ho : oneChar (c :: r) with
      | none => rfl
      | some x =>
        obtain ⟨d, r'⟩ := x
        simp only
        split
        · rename_i hl
          rw [ih r' (by simp only [List.length_cons] at hl hp; omega) (fun hm => hq ((oneChar_suffix ho).subset hm))]
        · rfl

theorem prefix_append {p a b : Text} (h : p <+: a ++ b) : p <+: a ∨ ∃ q, p = a ++ q ∧ q <+: b := by
  induction a generalizing p with
  | nil => exact .inr ⟨p, rfl, h⟩
  | cons c a ih =>
    cases p with
    | nil => exact .inl (List.nil_prefix)
    | cons d p =>
      obtain ⟨rfl, h'⟩ := List.cons_prefix_cons.1 h
      rcases ih h' with h' | ⟨q, rfl, hq⟩
      · exact .inl (List.cons_prefix_cons.2 ⟨rfl, h'⟩)
      · exact .inr ⟨q, rfl, hq⟩

theorem esc_no_quote {c : Char} {p : Text} (hp : p <+: escChar c) (hne : p ≠ escChar c) : '"' ∉ p := by
  have key : ∀ e, Esc c e → p <+: e → p ≠ e → '"' ∉ p := by
    intro e he hp hne hm
    cases he with
    | plain h1 h2 =>
      have := hp.subset hm
      simp only [List.mem_singleton] at this
      exact h1 this.symm
    | short x h =>
      cases p with
      | nil => cases hm
      | cons a p =>
        obtain ⟨rfl, h2⟩ := List.cons_prefix_cons.1 hp
        cases p with
        | nil => simp at hm
        | cons b p =>
          obtain ⟨rfl, h3⟩ := List.cons_prefix_cons.1 h2
          rw [List.prefix_nil.1 h3] at hne
          exact hne rfl
    | bmp h =>
      have := hp.subset hm
      have hh : ∀ a < 16, '"' ≠ hexDigit a := by decide +kernel
      simp only [hex4, List.mem_cons, List.not_mem_nil, or_false] at this
      rcases this with h | h | h | h | h | h
      · revert h; decide
      · revert h; decide
      all_goals exact hh _ (by omega) h
    | pair h =>
      have := hp.subset hm
      have hh : ∀ a < 16, '"' ≠ hexDigit a := by decide +kernel
      simp only [hex4, List.mem_cons, List.mem_append, List.not_mem_nil, or_false] at this
      rcases this with h | h | (h | h | h | h) | h | h | h | h | h | h
      all_goals first | (exact absurd h (by decide)) | (exact hh _ (by omega) h)
  exact key _ (esc_escChar c) hp hne

/-- A string that is cut is refused. -/
theorem scan_cut (s : Text) : ∀ p, p <+: escText s → scanStr p = none := by
  induction s with
  | nil =>
    intro p hp
    rw [List.prefix_nil.1 hp, scanStr]
  | cons c s ih =>
    intro p hp
    rw [escText] at hp
    have whole : ∀ q, q <+: escText s → scanStr (escChar c ++ q) = none := by
      intro q hq
      rw [scan_esc, ih q hq]
    rcases prefix_append hp with h | ⟨q, rfl, hq⟩
    · by_cases he : p = escChar c
      · have := whole [] List.nil_prefix
        rwa [List.append_nil, ← he] at this
      · exact scan_no_quote _ p le_rfl (esc_no_quote h he)
    · exact whole q hq

/-! ### white space -/

theorem skip_gap (ind : Option Nat) (lvl : Nat) (r : Text) : skipWs (gap ind lvl ++ r) = skipWs r ∧
    skipWs (gap' ind lvl ++ r) = skipWs r := by
  have hr : ∀ n (r : Text), skipWs (List.replicate n ' ' ++ r) = skipWs r := by
    intro n r
    induction n with
    | zero => rfl
    | succ n ih =>
      rw [List.replicate_succ, List.cons_append]
      unfold skipWs at ih ⊢
      rw [List.dropWhile_cons, if_pos (by decide), ih]
  cases ind with
  | none => exact ⟨rfl, by simp [gap', skipWs, isWs]⟩
  | some k =>
    have : skipWs ('\n' :: List.replicate (k * lvl) ' ' ++ r) = skipWs r := by
      rw [List.cons_append]
      have := hr (k * lvl) r
      unfold skipWs at this ⊢
      rw [List.dropWhile_cons, if_pos (by decide), this]
    exact ⟨this, this⟩

theorem skip_gap_cut (ind : Option Nat) (lvl : Nat) (p : Text) (h : p <+: gap ind lvl ∨ p <+: gap' ind lvl) : skipWs p = [] := by
  have hall : ∀ c ∈ p, isWs c = true := by
    intro c hc
    have : ∀ x, c ∈ ('\n' :: List.replicate x ' ') → isWs c = true := by
      intro x hx
      rcases List.mem_cons.1 hx with rfl | hx
      · decide
      · rw [(List.mem_replicate.1 hx).2]; decide
    rcases h with h | h
    · have hm := h.subset hc
      cases ind with
      | none => cases hm
      | some k => exact this _ hm
    · have hm := h.subset hc
      cases ind with
      | none => simp only [gap', List.mem_singleton] at hm; rw [hm]; decide
      | some k => exact this _ hm
  unfold skipWs
  rw [List.dropWhile_eq_nil_iff]
  exact hall

theorem skip_head (c : Char) (t : Text) (h : isWs c = false) : skipWs (c :: t) = c :: t := by
  unfold skipWs
  rw [List.dropWhile_cons, h]
  rfl

end Verif.Json

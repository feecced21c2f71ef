import Verif.Json.LoadLemmas

/-! Reading numbers and words. -/

namespace Verif.Json

/-- Some digits. -/
def Digits (t : Text) : Prop := t ≠ [] ∧ ∀ c ∈ t, isDig c = true
/-- An int without sign. -/
def IntTok (t : Text) : Prop := t = ['0'] ∨ (Digits t ∧ t.head? ≠ some '0')
/-- A fraction, or nothing. -/
def FracTok (t : Text) : Prop := t = [] ∨ ∃ ds, t = '.' :: ds ∧ Digits ds
/-- An exponent, or nothing. -/
def ExpTok (t : Text) : Prop :=
  t = [] ∨ ∃ e sg ds, (e = 'e' ∨ e = 'E') ∧ (sg = [] ∨ sg = ['-'] ∨ sg = ['+']) ∧ Digits ds ∧ t = e :: (sg ++ ds)

def sgn (m : Bool) : Text := if m then ['-'] else []

/-- The text of a float as `json.dumps` writes it: one of three words, or a number with a fraction or an exponent that is the shortest
text of the float it denotes. -/
def FloatTok (fl : Text → Text) (r : Text) : Prop :=
  r ∈ ["NaN".toList, "Infinity".toList, "-Infinity".toList] ∨
  (fl r = r ∧ ∃ m ip f e, r = sgn m ++ ip ++ f ++ e ∧ IntTok ip ∧ FracTok f ∧ ExpTok e ∧ ¬ (f = [] ∧ e = []))

/-- Characters that end a number or a word. -/
def isEnd (c : Char) : Bool := isWs c || c == ',' || c == '}' || c == ']'

def Ends (r : Text) : Prop := ∀ c t, r = c :: t → isEnd c = true

/-- The first character is not a digit. -/
def NoDig (r : Text) : Prop := ∀ c t, r = c :: t → isDig c = false

theorem natPart_cons (c : Char) (r : Text) : natPart (c :: r) =
    if c = '0' then some (['0'], r)
    else if isDig c = true then some ((c :: r).takeWhile isDig, (c :: r).dropWhile isDig) else none := rfl
theorem fracPart_cons (c : Char) (r : Text) : fracPart (c :: r) =
    if c = '.' ∧ r.takeWhile isDig ≠ [] then ('.' :: r.takeWhile isDig, r.dropWhile isDig) else ([], c :: r) := rfl
theorem expPart_cons (c : Char) (r : Text) : expPart (c :: r) =
    if (c = 'e' ∨ c = 'E') ∧ (signPart r).2.takeWhile isDig ≠ [] then
      (c :: ((signPart r).1 ++ (signPart r).2.takeWhile isDig), (signPart r).2.dropWhile isDig) else ([], c :: r) := rfl
theorem signPart_cons (c : Char) (r : Text) : signPart (c :: r) = if c = '-' ∨ c = '+' then ([c], r) else ([], c :: r) := rfl
theorem minusPart_cons (c : Char) (r : Text) : minusPart (c :: r) = if c = '-' then (true, r) else (false, c :: r) := rfl

theorem span_digits (ds r : Text) (h : ∀ c ∈ ds, isDig c = true) (hr : NoDig r) :
    (ds ++ r).takeWhile isDig = ds ∧ (ds ++ r).dropWhile isDig = r := by
  induction ds with
  | nil =>
    cases r with
    | nil => simp
    | cons c t => simp [hr c t rfl]
  | cons c ds ih =>
    have := ih (fun d hd => h d (by simp [hd]))
    simp only [List.cons_append, List.takeWhile_cons, List.dropWhile_cons, h c (by simp), if_true, this, and_self]

theorem isEnd_cases {c : Char} (h : isEnd c = true) : c = ' ' ∨ c = '\t' ∨ c = '\n' ∨ c = '\r' ∨ c = ',' ∨ c = '}' ∨ c = ']' := by
  unfold isEnd isWs at h
  simp only [Bool.or_eq_true, beq_iff_eq] at h
  tauto

theorem ends_noDig {r : Text} (h : Ends r) : NoDig r := by
  intro c t hc
  rcases isEnd_cases (h c t hc) with rfl | rfl | rfl | rfl | rfl | rfl | rfl <;> decide

theorem natPart_read (ip r : Text) (h : IntTok ip) (hr : NoDig r) : natPart (ip ++ r) = some (ip, r) := by
  rcases h with rfl | ⟨⟨hne, hd⟩, h0⟩
  · simp [natPart]
  · obtain ⟨h1, h2⟩ := span_digits ip r hd hr
    cases ip with
    | nil => exact absurd rfl hne
    | cons c t =>
      have hc : c ≠ '0' := by rintro rfl; simp at h0
      rw [List.cons_append] at h1 h2 ⊢
      rw [natPart_cons, if_neg hc, if_pos (hd c (by simp)), h1, h2]

theorem noDig_frac (f r : Text) (h : FracTok f) (hr : NoDig r) : NoDig (f ++ r) := by
  rcases h with rfl | ⟨ds, rfl, _⟩
  · exact hr
  · intro c t hc
    simp only [List.cons_append, List.cons.injEq] at hc
    rw [← hc.1]; decide

theorem noDig_exp (e r : Text) (h : ExpTok e) (hr : NoDig r) : NoDig (e ++ r) := by
  rcases h with rfl | ⟨e, sg, ds, he, _, _, rfl⟩
  · exact hr
  · intro c t hc
    simp only [List.cons_append, List.cons.injEq] at hc
    rw [← hc.1]
    rcases he with rfl | rfl <;> decide

theorem fracPart_read (f r : Text) (h : FracTok f) (hr : NoDig r) (hp : ∀ c t, r = c :: t → c ≠ '.') : fracPart (f ++ r) = (f, r) := by
  rcases h with rfl | ⟨ds, rfl, hne, hd⟩
  · cases r with
    | nil => rfl
    | cons c t =>
      show fracPart (c :: t) = _
      rw [fracPart_cons, if_neg (fun hh => hp c t rfl hh.1)]
  · obtain ⟨h1, h2⟩ := span_digits ds r hd hr
    show fracPart ('.' :: (ds ++ r)) = _
    rw [fracPart_cons, h1, h2, if_pos ⟨rfl, hne⟩]

theorem expPart_read (e r : Text) (h : ExpTok e) (hr : Ends r) : expPart (e ++ r) = (e, r) := by
  rcases h with rfl | ⟨x, sg, ds, he, hs, ⟨hne, hd⟩, rfl⟩
  · cases r with
    | nil => rfl
    | cons c t =>
      show expPart (c :: t) = _
      rw [expPart_cons, if_neg]
      rintro ⟨h1, _⟩
      have := hr c t rfl
      rcases h1 with rfl | rfl <;> exact absurd this (by decide)
  · obtain ⟨h1, h2⟩ := span_digits ds r hd (ends_noDig hr)
    have hsg : signPart (sg ++ (ds ++ r)) = (sg, ds ++ r) := by
      rcases hs with rfl | rfl | rfl
      · cases ds with
        | nil => exact absurd rfl hne
        | cons c t =>
          show signPart (c :: (t ++ r)) = _
          rw [signPart_cons, if_neg]
          · rfl
          · have := hd c (by simp)
            rintro (rfl | rfl) <;> exact absurd this (by decide)
      · rfl
      · rfl
    show expPart (x :: (sg ++ ds ++ r)) = _
    rw [List.append_assoc, expPart_cons, hsg]
    simp only [h1, h2]
    rw [if_pos ⟨he, hne⟩]

theorem intTok_head {ip : Text} (h : IntTok ip) : ∃ c t, ip = c :: t ∧ isDig c = true := by
  rcases h with rfl | ⟨⟨hne, hd⟩, _⟩
  · exact ⟨_, _, rfl, by decide⟩
  · cases ip with
    | nil => exact absurd rfl hne
    | cons c t => exact ⟨c, t, rfl, hd c (by simp)⟩

theorem minus_read (m : Bool) (ip r : Text) (h : IntTok ip) : minusPart (sgn m ++ (ip ++ r)) = (m, ip ++ r) := by
  cases m with
  | true => rfl
  | false =>
    obtain ⟨c, t, rfl, hc⟩ := intTok_head h
    show minusPart (c :: (t ++ r)) = _
    rw [minusPart_cons, if_neg (by rintro rfl; exact absurd hc (by decide))]
    rfl

theorem number_read (fl : Text → Text) (m : Bool) (ip f e r : Text) (hi : IntTok ip) (hf : FracTok f) (he : ExpTok e) (hr : Ends r) :
    number fl (sgn m ++ (ip ++ (f ++ (e ++ r)))) =
      if f = [] ∧ e = [] then some (.int (if m then -(digitsVal ip : Int) else digitsVal ip), r)
      else some (.float (fl (sgn m ++ ip ++ f ++ e)), r) := by
  have h1 : NoDig (e ++ r) := noDig_exp e r he (ends_noDig hr)
  have h2 : ∀ c t, e ++ r = c :: t → c ≠ '.' := by
    intro c t hc
    rcases he with rfl | ⟨x, sg, ds, hx, _, _, rfl⟩
    · rintro rfl
      exact absurd (hr '.' t hc) (by decide)
    · simp only [List.cons_append, List.cons.injEq] at hc
      rw [← hc.1]
      rcases hx with rfl | rfl <;> decide
  unfold number
  rw [minus_read m ip _ hi, natPart_read ip _ hi (noDig_frac f _ hf h1)]
  simp only [fracPart_read f _ hf h1 h2, expPart_read e r he hr]
  rfl

/-! ### ints -/

theorem digitsVal_append (a b : Text) : digitsVal (a ++ b) = b.foldl (fun x c => 10 * x + (c.toNat - 48)) (digitsVal a) := by
  unfold digitsVal
  rw [List.foldl_append]

theorem digit_facts : ∀ a < 10, (Char.ofNat (48 + a)).toNat - 48 = a ∧ isDig (Char.ofNat (48 + a)) = true ∧
    (a ≠ 0 → Char.ofNat (48 + a) ≠ '0') := by decide +kernel

theorem digits_read (n : Nat) : digitsVal (digitsRev n).reverse = n ∧ IntTok (digitsRev n).reverse ∧
    (n ≠ 0 → Digits (digitsRev n).reverse ∧ (digitsRev n).reverse.head? ≠ some '0') := by
  induction n using Nat.strongRecOn with
  | _ n ih =>
    unfold digitsRev
    split
    · rename_i h
      obtain ⟨h1, h2, h3⟩ := digit_facts n h
      have hd : Digits [Char.ofNat (48 + n)].reverse := ⟨by simp, by simpa using h2⟩
      refine ⟨?_, ?_, fun h0 => ⟨hd, by simpa using h3 h0⟩⟩
      · simp only [List.reverse_singleton, digitsVal, List.foldl_cons, List.foldl_nil, h1]
        omega
      · by_cases h0 : n = 0
        · subst h0; exact .inl rfl
        · exact .inr ⟨hd, by simpa using h3 h0⟩
    · rename_i h
      obtain ⟨h1, _, h3⟩ := ih (n / 10) (by omega)
      obtain ⟨⟨hne, hd⟩, hz⟩ := h3 (by omega)
      obtain ⟨g1, g2, _⟩ := digit_facts (n % 10) (by omega)
      have hD : Digits (Char.ofNat (48 + n % 10) :: digitsRev (n / 10)).reverse := by
        refine ⟨by simp, ?_⟩
        intro c hc
        rw [List.reverse_cons, List.mem_append, List.mem_singleton] at hc
        rcases hc with hc | rfl
        · exact hd c hc
        · exact g2
      have hH : (Char.ofNat (48 + n % 10) :: digitsRev (n / 10)).reverse.head? ≠ some '0' := by
        rw [List.reverse_cons]
        cases hr : (digitsRev (n / 10)).reverse with
        | nil => exact absurd hr hne
        | cons c t => rw [hr] at hz; simpa using hz
      refine ⟨?_, .inr ⟨hD, hH⟩, fun _ => ⟨hD, hH⟩⟩
      rw [List.reverse_cons, digitsVal_append, h1]
      simp only [List.foldl_cons, List.foldl_nil, g1]
      omega

theorem intText_split (i : Int) : ∃ m ip, intText i = sgn m ++ ip ∧ IntTok ip ∧
    (if m then -(digitsVal ip : Int) else digitsVal ip) = i := by
  unfold intText
  obtain ⟨h1, h2, _⟩ := digits_read i.natAbs
  split
  · rename_i h
    refine ⟨true, (digitsRev i.natAbs).reverse, rfl, h2, ?_⟩
    rw [h1]; simp; omega
  · refine ⟨false, (digitsRev i.natAbs).reverse, rfl, h2, ?_⟩
    rw [h1]; simp; omega

/-! ### words -/

theorem after_other (w : Text) (c d : Char) (x t : Text) (hw : w = d :: x) (h : c ≠ d) : after w (c :: t) = none := by
  subst hw
  unfold after
  have : (d == c) = false := by simpa using Ne.symm h
  simp [List.isPrefixOf, this]

theorem after_word (w r : Text) : after w (w ++ r) = some r := by
  unfold after
  have : w.isPrefixOf (w ++ r) = true := by simp
  rw [if_pos this]
  simp

theorem numText_head (m : Bool) (ip r : Text) (h : IntTok ip) : ∃ c t, sgn m ++ (ip ++ r) = c :: t ∧ (c = '-' ∨ isDig c = true) := by
  cases m with
  | true => exact ⟨_, _, rfl, .inl rfl⟩
  | false =>
    obtain ⟨c, t, rfl, hc⟩ := intTok_head h
    exact ⟨c, t ++ r, rfl, .inr hc⟩

theorem atom_number (fl : Text → Text) (c : Char) (t : Text) (hc : c = '-' ∨ isDig c = true) (x : T × Text)
    (h : number fl (c :: t) = some x) : atom fl (c :: t) = some x := by
  have ne : ∀ d, d ≠ '-' → isDig d = false → c ≠ d := by
    rintro d h1 h2 rfl
    rcases hc with hc | hc
    · exact h1 hc
    · simp [h2] at hc
  unfold atom
  rw [after_other "null".toList c 'n' _ t rfl (ne _ (by decide) (by decide)),
    after_other "true".toList c 't' _ t rfl (ne _ (by decide) (by decide)),
    after_other "false".toList c 'f' _ t rfl (ne _ (by decide) (by decide)), h]

/-- Values that are one word or number. -/
def Atom : T → Prop
  | .null | .bool _ | .int _ | .float _ => True
  | _ => False

theorem number_letter (fl : Text → Text) (c : Char) (t : Text) (h1 : c ≠ '-') (h2 : c ≠ '0') (h3 : isDig c = false) :
    number fl (c :: t) = none := by
  unfold number
  rw [minusPart_cons, if_neg h1]
  simp only [natPart_cons, if_neg h2, h3]
  rfl

theorem atom_read (fl : Text → Text) (v : T) (ha : Atom v) (hf : ∀ r, v = .float r → FloatTok fl r) (ind : Option Nat) (lvl : Nat)
    (r : Text) (hr : Ends r) : atom fl (textI ind lvl v ++ r) = some (v, r) := by
  match v, ha with
  | .null, _ =>
    unfold atom
    simp only [textI, after_word]
  | .bool true, _ =>
    unfold atom
    simp only [textI]
    rw [show "true".toList ++ r = 't' :: ("rue".toList ++ r) from rfl, after_other "null".toList 't' 'n' _ _ rfl (by decide),
      show 't' :: ("rue".toList ++ r) = "true".toList ++ r from rfl, after_word]
  | .bool false, _ =>
    unfold atom
    simp only [textI]
    rw [show "false".toList ++ r = 'f' :: ("alse".toList ++ r) from rfl, after_other "null".toList 'f' 'n' _ _ rfl (by decide),
      after_other "true".toList 'f' 't' _ _ rfl (by decide), show 'f' :: ("alse".toList ++ r) = "false".toList ++ r from rfl, after_word]
  | .int i, _ =>
    obtain ⟨m, ip, h1, h2, h3⟩ := intText_split i
    have hn := number_read fl m ip [] [] r h2 (.inl rfl) (.inl rfl) hr
    rw [if_pos ⟨rfl, rfl⟩, h3] at hn
    obtain ⟨c, t, hct, hc⟩ := numText_head m ip r h2
    simp only [List.nil_append] at hn
    simp only [textI, h1, List.append_assoc]
    rw [hct] at hn ⊢
    exact atom_number fl c t hc _ hn
  | .float s, _ =>
    simp only [textI]
    rcases hf s rfl with hw | ⟨hfl, m, ip, f, e, hs, hi, hff, he, hne⟩
    · simp only [List.mem_cons, List.not_mem_nil, or_false] at hw
      rcases hw with rfl | rfl | rfl
      · unfold atom
        rw [show "NaN".toList ++ r = 'N' :: ("aN".toList ++ r) from rfl, after_other "null".toList 'N' 'n' _ _ rfl (by decide),
          after_other "true".toList 'N' 't' _ _ rfl (by decide), after_other "false".toList 'N' 'f' _ _ rfl (by decide),
          number_letter fl 'N' _ (by decide) (by decide) (by decide), show 'N' :: ("aN".toList ++ r) = "NaN".toList ++ r from rfl, after_word]
      · unfold atom
        rw [show "Infinity".toList ++ r = 'I' :: ("nfinity".toList ++ r) from rfl, after_other "null".toList 'I' 'n' _ _ rfl (by decide),
          after_other "true".toList 'I' 't' _ _ rfl (by decide), after_other "false".toList 'I' 'f' _ _ rfl (by decide),
          number_letter fl 'I' _ (by decide) (by decide) (by decide), after_other "NaN".toList 'I' 'N' _ _ rfl (by decide),
          show 'I' :: ("nfinity".toList ++ r) = "Infinity".toList ++ r from rfl, after_word]
      · have hn : number fl ('-' :: 'I' :: ("nfinity".toList ++ r)) = none := by
          unfold number
          have : minusPart ('-' :: 'I' :: ("nfinity".toList ++ r)) = (true, 'I' :: ("nfinity".toList ++ r)) := rfl
          rw [this]
          have : natPart ('I' :: ("nfinity".toList ++ r)) = none := by
            rw [natPart_cons, if_neg (by decide), if_neg (by decide)]
          simp only [this]
        unfold atom
        rw [show "-Infinity".toList ++ r = '-' :: ('I' :: ("nfinity".toList ++ r)) from rfl,
          after_other "null".toList '-' 'n' _ _ rfl (by decide),
          after_other "true".toList '-' 't' _ _ rfl (by decide), after_other "false".toList '-' 'f' _ _ rfl (by decide),
          hn, after_other "NaN".toList '-' 'N' _ _ rfl (by decide), after_other "Infinity".toList '-' 'I' _ _ rfl (by decide),
          show '-' :: ('I' :: ("nfinity".toList ++ r)) = "-Infinity".toList ++ r from rfl, after_word]
    · have hn := number_read fl m ip f e r hi hff he hr
      rw [if_neg hne, ← hs, hfl] at hn
      obtain ⟨c, t, hct, hc⟩ := numText_head m ip (f ++ (e ++ r)) hi
      have hsr : s ++ r = c :: t := by rw [hs]; simpa [List.append_assoc] using hct
      rw [hct] at hn
      rw [hsr]
      exact atom_number fl c t hc _ hn

/-! ### what is left of a text after a word or number -/

theorem after_suffix {w t r : Text} (h : after w t = some r) : r <:+ t := by
  unfold after at h
  split at h
  · cases h; exact List.drop_suffix _ _
  · cases h

theorem natPart_suffix {t ip r : Text} (h : natPart t = some (ip, r)) : r <:+ t := by
  unfold natPart at h
  split at h
  · cases h
  · split at h
    · simp only [Option.some.injEq, Prod.mk.injEq] at h
      rw [← h.2]; exact List.suffix_cons _ _
    · split at h
      · simp only [Option.some.injEq, Prod.mk.injEq] at h
        rw [← h.2]; exact List.dropWhile_suffix _
      · cases h

theorem minus_suffix (t : Text) : (minusPart t).2 <:+ t := by
  unfold minusPart
  split
  · exact List.suffix_refl _
  · split
    · exact List.suffix_cons _ _
    · exact List.suffix_refl _

theorem sign_suffix (t : Text) : (signPart t).2 <:+ t := by
  unfold signPart
  split
  · exact List.suffix_refl _
  · split
    · exact List.suffix_cons _ _
    · exact List.suffix_refl _

theorem frac_suffix (t : Text) : (fracPart t).2 <:+ t := by
  unfold fracPart
  split
  · exact List.suffix_refl _
  · split
    · exact (List.dropWhile_suffix _).trans (List.suffix_cons _ _)
    · exact List.suffix_refl _

theorem exp_suffix (t : Text) : (expPart t).2 <:+ t := by
  unfold expPart
  split
  · exact List.suffix_refl _
  · split
    · exact (List.dropWhile_suffix _).trans ((sign_suffix _).trans (List.suffix_cons _ _))
    · exact List.suffix_refl _

theorem number_suffix {fl : Text → Text} {t r : Text} {v : T} (h : number fl t = some (v, r)) : r <:+ t := by
  unfold number at h
  split at h
  · cases h
  · rename_i ip r0 h0
    have hs : (expPart (fracPart r0).2).2 <:+ t :=
      (exp_suffix _).trans ((frac_suffix _).trans ((natPart_suffix h0).trans (minus_suffix t)))
    simp only at h
    split at h
    · simp only [Option.some.injEq, Prod.mk.injEq] at h
      rw [← h.2]; exact hs
    · simp only [Option.some.injEq, Prod.mk.injEq] at h
      rw [← h.2]; exact hs

theorem atom_suffix {fl : Text → Text} {t r : Text} {v : T} (h : atom fl t = some (v, r)) : r <:+ t := by
  unfold atom at h
  repeat' split at h
  all_goals first | (cases h; done) | skip
  all_goals simp only [Option.some.injEq, Prod.mk.injEq] at h
  all_goals first
    | (obtain ⟨_, rfl⟩ := h; exact after_suffix (by assumption))
    | (subst h; exact number_suffix (by assumption))

end Verif.Json

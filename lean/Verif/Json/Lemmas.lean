import Verif.Json.Spec

namespace Verif.Json

/-! ### key order -/

theorem keyLe_refl (a : List Char) : keyLe a a = true := by
  induction a with
  | nil => rfl
  | cons c cs ih => simp [keyLe, ih]

theorem keyLe_total (a b : List Char) : keyLe a b = true ∨ keyLe b a = true := by
  induction a generalizing b with
  | nil => simp [keyLe]
  | cons c cs ih =>
    cases b with
    | nil => simp [keyLe]
    | cons d ds =>
      simp only [keyLe, Bool.or_eq_true, decide_eq_true_eq, Bool.and_eq_true, beq_iff_eq]
      rcases Nat.lt_trichotomy c.toNat d.toNat with hc | hc | hc
      · exact Or.inl (Or.inl hc)
      · rcases ih ds with h | h
        · exact Or.inl (Or.inr ⟨hc, h⟩)
        · exact Or.inr (Or.inr ⟨hc.symm, h⟩)
      · exact Or.inr (Or.inl hc)

theorem keyLe_trans (a b c : List Char) : keyLe a b = true → keyLe b c = true → keyLe a c = true := by
  induction a generalizing b c with
  | nil => simp [keyLe]
  | cons x xs ih =>
    cases b with
    | nil => simp [keyLe]
    | cons y ys =>
      cases c with
      | nil => simp [keyLe]
      | cons z zs =>
        simp only [keyLe, Bool.or_eq_true, decide_eq_true_eq, Bool.and_eq_true, beq_iff_eq]
        intro h1 h2
        rcases h1 with h1 | ⟨h1, h1'⟩ <;> rcases h2 with h2 | ⟨h2, h2'⟩
        · left; omega
        · left; omega
        · left; omega
        · right; exact ⟨by omega, ih _ _ h1' h2'⟩

theorem keyLe_antisymm (a b : List Char) : keyLe a b = true → keyLe b a = true → a = b := by
  induction a generalizing b with
  | nil => cases b <;> simp [keyLe]
  | cons x xs ih =>
    cases b with
    | nil => simp [keyLe]
    | cons y ys =>
      simp only [keyLe, Bool.or_eq_true, decide_eq_true_eq, Bool.and_eq_true, beq_iff_eq]
      intro h1 h2
      have hxy : x.toNat = y.toNat := by omega
      have h1' : keyLe xs ys = true := by rcases h1 with h | ⟨_, h⟩; omega; exact h
      have h2' : keyLe ys xs = true := by rcases h2 with h | ⟨_, h⟩; omega; exact h
      have : x = y := Char.toNat_inj.mp hxy
      rw [this, ih ys h1' h2']

theorem insertField_perm (f : List Char × T) (l) : (insertField f l).Perm (f :: l) := by
  induction l with
  | nil => simp [insertField]
  | cons g gs ih =>
    unfold insertField
    split
    · exact List.Perm.refl _
    · exact (List.Perm.cons g ih).trans (List.Perm.swap f g gs)

theorem sortFields_perm (l : List (List Char × T)) : (sortFields l).Perm l := by
  induction l with
  | nil => simp [sortFields]
  | cons f fs ih => exact (insertField_perm f _).trans (List.Perm.cons f ih)

abbrev KSorted (l : List (List Char × T)) : Prop := l.Pairwise (fun a b => keyLe a.1 b.1 = true)

theorem insertField_sorted (f : List Char × T) (l) (h : KSorted l) : KSorted (insertField f l) := by
  induction l with
  | nil => simp [insertField, KSorted]
  | cons g gs ih =>
    unfold insertField
    split
    · rename_i hle
      refine List.Pairwise.cons ?_ h
      intro x hx
      rcases List.mem_cons.1 hx with rfl | hx
      · exact hle
      · exact keyLe_trans _ _ _ hle ((List.pairwise_cons.1 h).1 x hx)
    · rename_i hle
      refine List.Pairwise.cons ?_ (ih (List.pairwise_cons.1 h).2)
      intro x hx
      rcases List.mem_cons.1 ((insertField_perm f gs).subset hx) with rfl | hx
      · rcases keyLe_total x.1 g.1 with h' | h'
        · exact absurd h' hle
        · exact h'
      · exact (List.pairwise_cons.1 h).1 x hx

theorem sortFields_sorted (l : List (List Char × T)) : KSorted (sortFields l) := by
  induction l with
  | nil => simp [sortFields, KSorted]
  | cons f fs ih => exact insertField_sorted f _ ih

theorem eq_of_perm_sorted (l m : List (List Char × T)) (hp : l.Perm m) (hl : KSorted l) (hm : KSorted m)
    (hn : (l.map Prod.fst).Nodup) : l = m := by
  induction l generalizing m with
  | nil => exact (List.Perm.nil_eq hp)
  | cons a l ih =>
    cases m with
    | nil => exact absurd hp.length_eq (by simp)
    | cons b m =>
      have hab : a = b := by
        have ha : a ∈ b :: m := hp.subset (by simp)
        have hb : b ∈ a :: l := hp.symm.subset (by simp)
        have h1 : keyLe b.1 a.1 = true := by
          rcases List.mem_cons.1 ha with rfl | h
          · exact keyLe_refl _
          · exact (List.pairwise_cons.1 hm).1 a h
        have h2 : keyLe a.1 b.1 = true := by
          rcases List.mem_cons.1 hb with rfl | h
          · exact keyLe_refl _
          · exact (List.pairwise_cons.1 hl).1 b h
        have hk := keyLe_antisymm _ _ h1 h2
        rcases List.mem_cons.1 hb with h | h
        · exact h.symm
        · exfalso
          have : a.1 ∈ l.map Prod.fst := by rw [← hk]; exact List.mem_map_of_mem h
          exact (List.nodup_cons.1 hn).1 this
      subst hab
      rw [ih m ((List.perm_cons a).1 hp) (List.pairwise_cons.1 hl).2 (List.pairwise_cons.1 hm).2
        (List.nodup_cons.1 hn).2]

theorem canonF_keys (fs : List (List Char × J)) : (canonF fs).map Prod.fst = fs.map Prod.fst := by
  induction fs with
  | nil => rfl
  | cons f fs ih => obtain ⟨k, v⟩ := f; simp [canonF, ih]

theorem canonF_eq_map (fs : List (List Char × J)) : canonF fs = fs.map (fun f => (f.1, canon f.2)) := by
  induction fs with
  | nil => rfl
  | cons f fs ih => obtain ⟨k, v⟩ := f; simp [canonF, ih]

/-! ### canonical form and equality of JSON values -/

mutual
theorem canon_of_jeq : ∀ {a b : J}, JEq a b → WF a → canon a = canon b
  | _, _, .null, _ => rfl
  | _, _, .bool _, _ => rfl
  | _, _, .int _, _ => rfl
  | _, _, .float _, _ => rfl
  | _, _, .str _, _ => rfl
  | _, _, .ll h, hw => by simp only [canon]; rw [canonL_of_jeq h hw]
  | _, _, .lt h, hw => by simp only [canon]; rw [canonL_of_jeq h hw]
  | _, _, .tl h, hw => by simp only [canon]; rw [canonL_of_jeq h hw]
  | _, _, .tt h, hw => by simp only [canon]; rw [canonL_of_jeq h hw]
  | _, _, .obj (fs := fs) (gs := gs) (hs := hs) hp h, hw => by
    simp only [canon]
    congr 1
    have hwg : WFF gs := wff_perm hp hw.2
    rw [← canonF_of_jeq h hwg]
    apply eq_of_perm_sorted
    · refine (sortFields_perm _).trans (List.Perm.trans ?_ (sortFields_perm _).symm)
      rw [canonF_eq_map, canonF_eq_map]
      exact hp.map _
    · exact sortFields_sorted _
    · exact sortFields_sorted _
    · refine ((sortFields_perm (canonF fs)).map Prod.fst).nodup_iff.2 ?_
      rw [canonF_keys]
      exact hw.1
theorem canonL_of_jeq : ∀ {a b : List J}, JEqL a b → WFL a → canonL a = canonL b
  | _, _, .nil, _ => rfl
  | _, _, .cons h1 h2, hw => by simp only [canonL]; rw [canon_of_jeq h1 hw.1, canonL_of_jeq h2 hw.2]
theorem canonF_of_jeq : ∀ {a b : List (List Char × J)}, JEqF a b → WFF a → canonF a = canonF b
  | _, _, .nil, _ => rfl
  | _, _, .cons h1 h2, hw => by simp only [canonF]; rw [canon_of_jeq h1 hw.1, canonF_of_jeq h2 hw.2]
theorem wff_perm : ∀ {a b : List (List Char × J)}, a.Perm b → WFF a → WFF b
  | _, _, .nil, h => h
  | _, _, .cons (_, _) h, hw => ⟨hw.1, wff_perm h hw.2⟩
  | _, _, .swap (_, _) (_, _) _, hw => ⟨hw.2.1, hw.1, hw.2.2⟩
  | _, _, .trans h1 h2, hw => wff_perm h2 (wff_perm h1 hw)
end

theorem perm_map_lift {α β : Type} (f : α → β) (l m : List α) (h : (l.map f).Perm (m.map f)) :
    ∃ g : List α, l.Perm g ∧ g.map f = m.map f := by
  induction m generalizing l with
  | nil =>
    have : l = [] := by simpa using h.length_eq
    exact ⟨[], by simp [this], rfl⟩
  | cons b m ih =>
    have hb : f b ∈ l.map f := h.symm.subset (by simp)
    obtain ⟨a, ha, hab⟩ := List.mem_map.1 hb
    obtain ⟨l1, l2, rfl⟩ := List.append_of_mem ha
    have h' : ((l1 ++ l2).map f).Perm (m.map f) := by
      have e1 : (l1 ++ a :: l2).Perm (a :: (l1 ++ l2)) := List.perm_middle
      have e2 := (e1.map f).symm.trans h
      simp only [List.map_cons, hab] at e2
      exact (List.perm_cons _).1 e2
    obtain ⟨g, hg, hgm⟩ := ih _ h'
    refine ⟨a :: g, List.perm_middle.trans (List.Perm.cons a hg), ?_⟩
    simp [hab, hgm]

mutual
theorem jeq_of_canon : ∀ (b a : J), canon a = canon b → JEq a b
  | .null, a, h => by cases a <;> simp [canon] at h; exact .null
  | .bool _, a, h => by cases a <;> simp [canon] at h; subst h; exact .bool _
  | .int _, a, h => by cases a <;> simp [canon] at h; subst h; exact .int _
  | .float _, a, h => by cases a <;> simp [canon] at h; subst h; exact .float _
  | .str _, a, h => by cases a <;> simp [canon] at h; subst h; exact .str _
  | .list ys, a, h => by
    cases a <;> simp [canon] at h
    · exact .ll (jeqL_of_canon ys _ h)
    · exact .tl (jeqL_of_canon ys _ h)
  | .tuple ys, a, h => by
    cases a <;> simp [canon] at h
    · exact .lt (jeqL_of_canon ys _ h)
    · exact .tt (jeqL_of_canon ys _ h)
  | .obj hs, a, h => by
    cases a <;> simp [canon] at h
    rename_i fs
    have hp : (canonF fs).Perm (canonF hs) :=
      (sortFields_perm _).symm.trans (h ▸ sortFields_perm _)
    rw [canonF_eq_map, canonF_eq_map] at hp
    obtain ⟨g, hg, hgm⟩ := perm_map_lift _ _ _ hp
    refine .obj hg (jeqF_of_canon hs g ?_)
    rw [canonF_eq_map, canonF_eq_map]
    exact hgm
theorem jeqL_of_canon : ∀ (b a : List J), canonL a = canonL b → JEqL a b
  | [], a, h => by cases a <;> simp [canonL] at h; exact .nil
  | y :: ys, a, h => by
    cases a <;> simp [canonL] at h
    exact .cons (jeq_of_canon y _ h.1) (jeqL_of_canon ys _ h.2)
theorem jeqF_of_canon : ∀ (b a : List (List Char × J)), canonF a = canonF b → JEqF a b
  | [], a, h => by
    cases a with
    | nil => exact .nil
    | cons f fs => obtain ⟨k, v⟩ := f; simp [canonF] at h
  | (k, w) :: gs, a, h => by
    cases a with
    | nil => simp [canonF] at h
    | cons f fs =>
      obtain ⟨k', v⟩ := f
      simp [canonF] at h
      obtain ⟨⟨rfl, h1⟩, h2⟩ := h
      exact .cons (jeq_of_canon w _ h1) (jeqF_of_canon gs _ h2)
end

/-! ### text of strings -/

theorem hexDigit_inj : ∀ a < 16, ∀ b < 16, hexDigit a = hexDigit b → a = b := by decide +kernel

theorem hex4_prefix (n m : Nat) (x y : List Char) (hn : n < 65536) (hm : m < 65536)
    (h : hex4 n ++ x = hex4 m ++ y) : n = m ∧ x = y := by
  simp only [hex4, List.cons_append, List.nil_append, List.cons.injEq] at h
  obtain ⟨h1, h2, h3, h4, h5⟩ := h
  have e1 := hexDigit_inj _ (by omega) _ (by omega) h1
  have e2 := hexDigit_inj _ (by omega) _ (by omega) h2
  have e3 := hexDigit_inj _ (by omega) _ (by omega) h3
  have e4 := hexDigit_inj _ (by omega) _ (by omega) h4
  exact ⟨by omega, h5⟩

theorem char_range (c : Char) : c.toNat < 55296 ∨ (57343 < c.toNat ∧ c.toNat < 1114112) := by
  have := c.valid
  simp only [UInt32.isValidChar, Nat.isValidChar] at this
  exact this

/-- The three shapes of an escaped character. -/
inductive Esc : Char → List Char → Prop
  | plain (c : Char) (h1 : c ≠ '"') (h2 : c ≠ '\\') : Esc c [c]
  | short (c e : Char) (h : (c, e) ∈ [('"', '"'), ('\\', '\\'), ('\n', 'n'), ('\r', 'r'), ('\t', 't'),
      (Char.ofNat 12, 'f'), (Char.ofNat 8, 'b')]) : Esc c ['\\', e]
  | bmp (c : Char) (h : c.toNat < 65536) : Esc c ('\\' :: 'u' :: hex4 c.toNat)
  | pair (c : Char) (h : 65536 ≤ c.toNat) : Esc c ('\\' :: 'u' :: (hex4 (55296 + (c.toNat - 65536) / 1024) ++
      '\\' :: 'u' :: hex4 (56320 + (c.toNat - 65536) % 1024)))

theorem esc_escChar (c : Char) : Esc c (escChar c) := by
  unfold escChar
  split
  · subst_vars; exact .short _ _ (by simp)
  split
  · subst_vars; exact .short _ _ (by simp)
  split
  · subst_vars; exact .short _ _ (by simp)
  split
  · subst_vars; exact .short _ _ (by simp)
  split
  · subst_vars; exact .short _ _ (by simp)
  split
  · rename_i h
    have : c = Char.ofNat 12 := Char.toNat_inj.mp (by rw [h]; decide)
    subst this; exact .short _ _ (by simp)
  split
  · rename_i h
    have : c = Char.ofNat 8 := Char.toNat_inj.mp (by rw [h]; decide)
    subst this; exact .short _ _ (by simp)
  split
  · exact .plain c (by assumption) (by assumption)
  split
  · exact .bmp c (by assumption)
  · exact .pair c (by omega)

theorem esc_inj {c d : Char} {a b x y : List Char} (ha : Esc c a) (hb : Esc d b) (h : a ++ x = b ++ y) :
    c = d ∧ x = y := by
  have shortu : ∀ c e : Char, (c, e) ∈ [('"', '"'), ('\\', '\\'), ('\n', 'n'), ('\r', 'r'), ('\t', 't'),
      (Char.ofNat 12, 'f'), (Char.ofNat 8, 'b')] → e ≠ 'u' := by
    intro c e h
    simp only [List.mem_cons, Prod.mk.injEq, List.not_mem_nil, or_false] at h
    rcases h with h | h | h | h | h | h | h <;> (rw [h.2]; decide)
  cases ha with
  | plain h1 h2 =>
    cases hb <;> simp at h
    · exact h
    all_goals exact absurd h.1 h2
  | short e he =>
    cases hb with
    | plain h1 h2 => simp at h; exact absurd h.1.symm h2
    | short e' he' =>
      simp only [List.cons_append, List.nil_append, List.cons.injEq, true_and] at h
      obtain ⟨rfl, h2⟩ := h
      refine ⟨?_, h2⟩
      simp only [List.mem_cons, Prod.mk.injEq, List.not_mem_nil, or_false] at he he'
      rcases he with ⟨h, g⟩ | ⟨h, g⟩ | ⟨h, g⟩ | ⟨h, g⟩ | ⟨h, g⟩ | ⟨h, g⟩ | ⟨h, g⟩ <;> subst g <;> subst h <;>
        (have he2 := he'; simp at he2; exact he2.symm)
    | bmp h' => simp at h; exact absurd h.1 (shortu _ _ he)
    | pair h' => simp at h; exact absurd h.1 (shortu _ _ he)
  | bmp hc =>
    cases hb with
    | plain h1 h2 => simp at h; exact absurd h.1.symm h2
    | short e' he' => simp at h; exact absurd h.1.symm (shortu _ _ he')
    | bmp hd =>
      simp only [List.cons_append, List.cons.injEq, true_and] at h
      obtain ⟨h1, h2⟩ := hex4_prefix _ _ _ _ hc hd h
      exact ⟨Char.toNat_inj.mp h1, h2⟩
    | pair hd =>
      simp only [List.cons_append, List.cons.injEq, true_and, List.append_assoc] at h
      have := char_range d
      have := char_range c
      obtain ⟨h1, h2⟩ := hex4_prefix _ _ _ _ hc (by omega) h
      omega
  | pair hc =>
    cases hb with
    | plain h1 h2 => simp at h; exact absurd h.1.symm h2
    | short e' he' => simp at h; exact absurd h.1.symm (shortu _ _ he')
    | bmp hd =>
      simp only [List.cons_append, List.cons.injEq, true_and, List.append_assoc] at h
      have := char_range d
      have := char_range c
      obtain ⟨h1, h2⟩ := hex4_prefix _ _ _ _ (by omega) hd h
      omega
    | pair hd =>
      have := char_range d
      have := char_range c
      simp only [List.cons_append, List.cons.injEq, true_and, List.append_assoc] at h
      obtain ⟨h1, h2⟩ := hex4_prefix _ _ _ _ (by omega) (by omega) h
      simp only [List.cons.injEq, true_and] at h2
      obtain ⟨h3, h4⟩ := hex4_prefix _ _ _ _ (by omega) (by omega) h2
      exact ⟨Char.toNat_inj.mp (by omega), h4⟩

theorem esc_not_quote {c : Char} {a x y : List Char} (ha : Esc c a) (h : a ++ x = '"' :: y) : False := by
  cases ha with
  | plain h1 h2 => simp at h; exact h1 h.1
  | _ => simp at h

theorem escText_prefix (s t x y : List Char) (h : escText s ++ '"' :: x = escText t ++ '"' :: y) :
    s = t ∧ x = y := by
  induction s generalizing t with
  | nil =>
    cases t with
    | nil => simpa [escText] using h
    | cons d t =>
      simp only [escText, List.nil_append, List.append_assoc] at h
      exact (esc_not_quote (esc_escChar d) h.symm).elim
  | cons c s ih =>
    cases t with
    | nil =>
      simp only [escText, List.nil_append, List.append_assoc] at h
      exact (esc_not_quote (esc_escChar c) h).elim
    | cons d t =>
      simp only [escText, List.append_assoc] at h
      obtain ⟨rfl, h2⟩ := esc_inj (esc_escChar c) (esc_escChar d) h
      obtain ⟨rfl, h3⟩ := ih t h2
      exact ⟨rfl, h3⟩

theorem quote_prefix (s t x y : List Char) (h : quote s ++ x = quote t ++ y) : s = t ∧ x = y := by
  simp only [quote, List.cons_append, List.append_assoc, List.nil_append, List.cons.injEq, true_and] at h
  exact escText_prefix s t x y h

/-! ### text of numbers -/

/-- `r` does not continue a number. -/
def Delim (r : List Char) : Prop := ∀ c t, r = c :: t → isNumChar c = false

theorem token_prefix (a b x y : List Char) (ha : ∀ c ∈ a, isNumChar c = true) (hb : ∀ c ∈ b, isNumChar c = true)
    (hx : Delim x) (hy : Delim y) (h : a ++ x = b ++ y) : a = b ∧ x = y := by
  induction a generalizing b with
  | nil =>
    cases b with
    | nil => exact ⟨rfl, h⟩
    | cons d b =>
      have := hx d (b ++ y) h
      rw [hb d (by simp)] at this
      cases this
  | cons c a ih =>
    cases b with
    | nil =>
      have := hy c (a ++ x) h.symm
      rw [ha c (by simp)] at this
      cases this
    | cons d b =>
      simp only [List.cons_append, List.cons.injEq] at h
      obtain ⟨rfl, h⟩ := h
      obtain ⟨h1, h2⟩ := ih b (fun c hc => ha c (by simp [hc])) (fun c hc => hb c (by simp [hc])) h
      exact ⟨by rw [h1], h2⟩

theorem digit_inj : ∀ a < 10, ∀ b < 10, Char.ofNat (48 + a) = Char.ofNat (48 + b) → a = b := by decide +kernel

theorem digit_num : ∀ a < 10, isNumChar (Char.ofNat (48 + a)) = true ∧
    ('0' ≤ Char.ofNat (48 + a) ∧ Char.ofNat (48 + a) ≤ '9') := by decide +kernel

theorem digitsRev_ne_nil (n : Nat) : digitsRev n ≠ [] := by
  unfold digitsRev
  split <;> simp

theorem digitsRev_digits (n : Nat) : ∀ c ∈ digitsRev n, ∃ a < 10, c = Char.ofNat (48 + a) := by
  induction n using Nat.strongRecOn with
  | _ n ih =>
    unfold digitsRev
    split
    · rename_i h
      intro c hc
      exact ⟨n, h, by simpa using hc⟩
    · intro c hc
      rcases List.mem_cons.1 hc with rfl | hc
      · exact ⟨n % 10, by omega, rfl⟩
      · exact ih (n / 10) (by omega) c hc

theorem digitsRev_inj (n m : Nat) (h : digitsRev n = digitsRev m) : n = m := by
  induction n using Nat.strongRecOn generalizing m with
  | _ n ih =>
    rw [digitsRev, digitsRev.eq_def m] at h
    split at h <;> split at h
    · exact digit_inj _ (by assumption) _ (by assumption) (by simpa using h)
    · simp only [List.cons.injEq] at h
      exact absurd h.2.symm (digitsRev_ne_nil _)
    · simp only [List.cons.injEq] at h
      exact absurd h.2 (digitsRev_ne_nil _)
    · simp only [List.cons.injEq] at h
      have h1 := digit_inj _ (by omega) _ (by omega) h.1
      have h2 := ih (n / 10) (by omega) _ h.2
      omega

theorem digitsRev_no_minus (n : Nat) : '-' ∉ digitsRev n := by
  intro h
  obtain ⟨a, ha, he⟩ := digitsRev_digits n _ h
  have : ∀ a < 10, '-' ≠ Char.ofNat (48 + a) := by decide +kernel
  exact this a ha he

theorem intText_inj (i j : Int) (h : intText i = intText j) : i = j := by
  unfold intText at h
  split at h <;> split at h
  · simp only [List.cons.injEq, true_and, List.reverse_inj] at h
    have := digitsRev_inj _ _ h; omega
  · have : '-' ∈ (digitsRev j.natAbs).reverse := by rw [← h]; simp
    exact absurd (List.mem_reverse.1 this) (digitsRev_no_minus _)
  · have : '-' ∈ (digitsRev i.natAbs).reverse := by rw [h]; simp
    exact absurd (List.mem_reverse.1 this) (digitsRev_no_minus _)
  · simp only [List.reverse_inj] at h
    have := digitsRev_inj _ _ h; omega

theorem intText_chars (i : Int) : ∀ c ∈ intText i, c = '-' ∨ ∃ a < 10, c = Char.ofNat (48 + a) := by
  intro c hc
  unfold intText at hc
  split at hc
  · rcases List.mem_cons.1 hc with rfl | hc
    · exact Or.inl rfl
    · exact Or.inr (digitsRev_digits _ c (List.mem_reverse.1 hc))
  · exact Or.inr (digitsRev_digits _ c (List.mem_reverse.1 hc))

theorem intText_num (i : Int) : ∀ c ∈ intText i, isNumChar c = true := by
  intro c hc
  rcases intText_chars i c hc with rfl | ⟨a, ha, rfl⟩
  · decide
  · exact (digit_num a ha).1

theorem intText_not_float (i : Int) : ¬ FloatRepr (intText i) := by
  intro ⟨_, _, c, hc, h⟩
  rcases intText_chars i c hc with rfl | ⟨a, ha, rfl⟩
  · revert h; decide
  · have : ∀ a < 10, ¬ (Char.ofNat (48 + a) = '.' ∨ Char.ofNat (48 + a) = 'e' ∨ Char.ofNat (48 + a) = 'N' ∨
      Char.ofNat (48 + a) = 'I') := by decide +kernel
    exact this a ha h

theorem intText_ne_nil (i : Int) : ∃ c t, intText i = c :: t := by
  cases h : intText i with
  | cons c t => exact ⟨c, t, rfl⟩
  | nil =>
    unfold intText at h
    split at h
    · simp at h
    · simp at h; exact absurd h (digitsRev_ne_nil _)

/-! ### injectivity of the text -/

mutual
/-- float texts are float texts -/
def WFT : T → Prop
  | .null | .bool _ | .int _ | .str _ => True
  | .float r => FloatRepr r
  | .seq xs => WFTL xs
  | .obj fs => WFTF fs
def WFTL : List T → Prop
  | [] => True
  | x :: xs => WFT x ∧ WFTL xs
def WFTF : List (List Char × T) → Prop
  | [] => True
  | (_, v) :: fs => WFT v ∧ WFTF fs
end

/-- what the first character of a text says about the value -/
def headKind (c : Char) : Nat :=
  if c = 'n' then 1 else if c = 't' then 2 else if c = 'f' then 3 else if c = '"' then 4 else if c = '[' then 5
  else if c = '{' then 6 else if c = ']' then 7 else if c = '}' then 8 else 0

def kind : T → Nat
  | .null => 1
  | .bool true => 2
  | .bool false => 3
  | .int _ => 0
  | .float _ => 0
  | .str _ => 4
  | .seq _ => 5
  | .obj _ => 6

theorem digit_headKind : ∀ a < 10, headKind (Char.ofNat (48 + a)) = 0 := by decide +kernel

theorem text_head (t : T) (h : WFT t) : ∃ c r, text t = c :: r ∧ headKind c = kind t := by
  cases t with
  | null => exact ⟨'n', _, rfl, rfl⟩
  | bool b => cases b; exact ⟨'f', _, rfl, rfl⟩; exact ⟨'t', _, rfl, rfl⟩
  | int i =>
    obtain ⟨c, r, hc⟩ := intText_ne_nil i
    refine ⟨c, r, by simpa [text] using hc, ?_⟩
    rcases intText_chars i c (by rw [hc]; simp) with rfl | ⟨a, ha, rfl⟩
    · rfl
    · exact digit_headKind a ha
  | float r =>
    obtain ⟨_, ⟨c, t, rfl, h⟩, _⟩ := h
    refine ⟨c, t, by simp [text], ?_⟩
    simp only [kind]
    rcases h with ⟨h1, h2⟩ | rfl | rfl | rfl
    · have h1' : ('0':Char).toNat ≤ c.toNat := h1
      have h2' : c.toNat ≤ ('9':Char).toNat := h2
      have e0 : ('0':Char).toNat = 48 := rfl
      have e9 : ('9':Char).toNat = 57 := rfl
      have : c = Char.ofNat (48 + (c.toNat - 48)) := by
        rw [show 48 + (c.toNat - 48) = c.toNat by omega]; exact (Char.ofNat_toNat c).symm
      rw [this]
      exact digit_headKind _ (by omega)
    · decide
    · decide
    · decide
  | str s => exact ⟨'"', _, rfl, rfl⟩
  | seq xs => cases xs; exact ⟨'[', _, by simp [text]; rfl, rfl⟩; exact ⟨'[', _, by simp [text]; rfl, rfl⟩
  | obj fs =>
    cases fs with
    | nil => exact ⟨'{', _, by simp [text]; rfl, rfl⟩
    | cons f fs => obtain ⟨k, v⟩ := f; exact ⟨'{', _, by simp [text]; rfl, rfl⟩

theorem bracket_not_value (v : T) (h : headKind ']' = kind v) : False := by
  have e : headKind ']' = 7 := by decide
  rw [e] at h
  cases v with
  | bool b => cases b <;> simp [kind] at h
  | _ => simp [kind] at h

theorem textL_delim (xs : List T) (r : List Char) : Delim (textL xs ++ r) := by
  intro c t h
  cases xs <;> simp [textL] at h <;> rw [← h.1] <;> decide

theorem textF_delim (fs : List (List Char × T)) (r : List Char) : Delim (textF fs ++ r) := by
  intro c t h
  cases fs with
  | nil => simp [textF] at h; rw [← h.1]; decide
  | cons f fs => obtain ⟨k, v⟩ := f; simp [textF] at h; rw [← h.1]; decide

mutual
theorem text_prefix : ∀ (a b : T) (x y : List Char), WFT a → WFT b → (kind a = 0 → Delim x) → (kind b = 0 → Delim y) →
    text a ++ x = text b ++ y → a = b ∧ x = y := by
  intro a b x y ha hb hx hy h
  have hk : kind a = kind b := by
    obtain ⟨c, r, h1, h2⟩ := text_head a ha
    obtain ⟨d, s, h3, h4⟩ := text_head b hb
    rw [h1, h3] at h
    simp only [List.cons_append, List.cons.injEq] at h
    rw [← h2, ← h4, h.1]
  match a, b, hk with
  | .null, .null, _ => exact ⟨rfl, by simpa [text] using h⟩
  | .bool true, .bool true, _ => exact ⟨rfl, by simpa [text] using h⟩
  | .bool false, .bool false, _ => exact ⟨rfl, by simpa [text] using h⟩
  | .int i, .int j, _ =>
    simp only [text] at h
    obtain ⟨h1, h2⟩ := token_prefix _ _ _ _ (intText_num i) (intText_num j) (hx rfl) (hy rfl) h
    exact ⟨by rw [intText_inj i j h1], h2⟩
  | .int i, .float r, _ =>
    simp only [text] at h
    obtain ⟨h1, h2⟩ := token_prefix _ _ _ _ (intText_num i) hb.1 (hx rfl) (hy rfl) h
    exact absurd (h1 ▸ hb) (intText_not_float i)
  | .float r, .int i, _ =>
    simp only [text] at h
    obtain ⟨h1, h2⟩ := token_prefix _ _ _ _ ha.1 (intText_num i) (hx rfl) (hy rfl) h
    exact absurd (h1 ▸ ha) (intText_not_float i)
  | .float r, .float s, _ =>
    simp only [text] at h
    obtain ⟨h1, h2⟩ := token_prefix _ _ _ _ ha.1 hb.1 (hx rfl) (hy rfl) h
    exact ⟨by rw [h1], h2⟩
  | .str s, .str t, _ =>
    simp only [text] at h
    obtain ⟨h1, h2⟩ := quote_prefix _ _ _ _ h
    exact ⟨by rw [h1], h2⟩
  | .seq [], .seq [], _ => exact ⟨rfl, by simpa [text] using h⟩
  | .seq [], .seq (v :: vs), _ =>
    exfalso
    obtain ⟨d, s, h3, h4⟩ := text_head v hb.1
    simp [text, h3] at h
    rw [← h.1] at h4
    exact bracket_not_value v h4
  | .seq (u :: us), .seq [], _ =>
    exfalso
    obtain ⟨d, s, h3, h4⟩ := text_head u ha.1
    simp [text, h3] at h
    rw [h.1] at h4
    exact bracket_not_value u h4
  | .seq (u :: us), .seq (v :: vs), _ =>
    simp only [text, List.cons_append, List.append_assoc, List.cons.injEq, true_and] at h
    obtain ⟨rfl, h1⟩ := text_prefix u v _ _ ha.1 hb.1 (fun _ => textL_delim us x) (fun _ => textL_delim vs y) h
    obtain ⟨rfl, h2⟩ := textL_prefix us vs x y ha.2 hb.2 h1
    exact ⟨rfl, h2⟩
  | .obj [], .obj [], _ => exact ⟨rfl, by simpa [text] using h⟩
  | .obj [], .obj ((k, v) :: gs), _ => simp [text, quote] at h
  | .obj ((k, v) :: fs), .obj [], _ => simp [text, quote] at h
  | .obj ((k, u) :: fs), .obj ((k', v) :: gs), _ =>
    simp only [text, List.cons_append, List.append_assoc, List.cons.injEq, true_and] at h
    obtain ⟨rfl, h1⟩ := quote_prefix _ _ _ _ h
    simp only [List.cons.injEq, true_and] at h1
    obtain ⟨rfl, h2⟩ := text_prefix u v _ _ ha.1 hb.1 (fun _ => textF_delim fs x) (fun _ => textF_delim gs y) h1
    obtain ⟨rfl, h3⟩ := textF_prefix fs gs x y ha.2 hb.2 h2
    exact ⟨rfl, h3⟩
theorem textL_prefix : ∀ (a b : List T) (x y : List Char), WFTL a → WFTL b → textL a ++ x = textL b ++ y → a = b ∧ x = y
  | [], [], x, y, _, _, h => ⟨rfl, by simpa [textL] using h⟩
  | [], _ :: _, x, y, _, _, h => by simp [textL] at h
  | _ :: _, [], x, y, _, _, h => by simp [textL] at h
  | u :: us, v :: vs, x, y, ha, hb, h => by
    simp only [textL, List.cons_append, List.append_assoc, List.cons.injEq, true_and] at h
    obtain ⟨rfl, h1⟩ := text_prefix u v _ _ ha.1 hb.1 (fun _ => textL_delim us x) (fun _ => textL_delim vs y) h
    obtain ⟨rfl, h2⟩ := textL_prefix us vs x y ha.2 hb.2 h1
    exact ⟨rfl, h2⟩
theorem textF_prefix : ∀ (a b : List (List Char × T)) (x y : List Char), WFTF a → WFTF b →
    textF a ++ x = textF b ++ y → a = b ∧ x = y
  | [], [], x, y, _, _, h => ⟨rfl, by simpa [textF] using h⟩
  | [], (_, _) :: _, x, y, _, _, h => by simp [textF] at h
  | (_, _) :: _, [], x, y, _, _, h => by simp [textF] at h
  | (k, u) :: fs, (k', v) :: gs, x, y, ha, hb, h => by
    simp only [textF, List.cons_append, List.append_assoc, List.cons.injEq, true_and] at h
    obtain ⟨rfl, h1⟩ := quote_prefix _ _ _ _ h
    simp only [List.cons.injEq, true_and] at h1
    obtain ⟨rfl, h2⟩ := text_prefix u v _ _ ha.1 hb.1 (fun _ => textF_delim fs x) (fun _ => textF_delim gs y) h1
    obtain ⟨rfl, h3⟩ := textF_prefix fs gs x y ha.2 hb.2 h2
    exact ⟨rfl, h3⟩
end

theorem wftf_perm : ∀ {a b : List (List Char × T)}, a.Perm b → WFTF a → WFTF b
  | _, _, .nil, h => h
  | _, _, .cons (_, _) h, hw => ⟨hw.1, wftf_perm h hw.2⟩
  | _, _, .swap (_, _) (_, _) _, hw => ⟨hw.2.1, hw.1, hw.2.2⟩
  | _, _, .trans h1 h2, hw => wftf_perm h2 (wftf_perm h1 hw)

mutual
theorem wft_canon : ∀ a : J, WF a → WFT (canon a)
  | .null, _ => trivial
  | .bool _, _ => trivial
  | .int _, _ => trivial
  | .float _, h => h
  | .str _, _ => trivial
  | .list xs, h => by simp only [canon]; exact wftl_canon xs h
  | .tuple xs, h => by simp only [canon]; exact wftl_canon xs h
  | .obj fs, h => by simp only [canon]; exact wftf_perm (sortFields_perm _).symm (wftf_canon fs h.2)
theorem wftl_canon : ∀ a : List J, WFL a → WFTL (canonL a)
  | [], _ => trivial
  | x :: xs, h => ⟨wft_canon x h.1, wftl_canon xs h.2⟩
theorem wftf_canon : ∀ a : List (List Char × J), WFF a → WFTF (canonF a)
  | [], _ => trivial
  | (_, v) :: fs, h => ⟨wft_canon v h.1, wftf_canon fs h.2⟩
end

theorem dumps_prefix (a b : J) (x y : List Char) (ha : WF a) (hb : WF b)
    (hx : kind (canon a) = 0 → Delim x) (hy : kind (canon b) = 0 → Delim y)
    (h : dumps a ++ x = dumps b ++ y) : JEq a b ∧ x = y := by
  obtain ⟨h1, h2⟩ := text_prefix _ _ x y (wft_canon a ha) (wft_canon b hb) hx hy h
  exact ⟨jeq_of_canon b a h1, h2⟩

theorem dumps_eq_iff (a b : J) (ha : WF a) (hb : WF b) : dumps a = dumps b ↔ JEq a b := by
  constructor
  · intro h
    have hd : Delim [] := by intro c t h; cases h
    exact (dumps_prefix a b [] [] ha hb (fun _ => hd) (fun _ => hd) (by simpa using h)).1
  · intro h
    unfold dumps
    rw [canon_of_jeq h ha]

end Verif.Json

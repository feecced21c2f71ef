import Mathlib.Tactic.Ring
import Verif.Mir.Decode

namespace Verif.Mir

theorem toNat_ofNat (n : Nat) : (UInt8.ofNat n).toNat = n % 256 := by simp

theorem beBytes_length (k n : Nat) : (beBytes k n).length = k := by
  induction k with
  | zero => rfl
  | succ k ih => simp [beBytes, ih]

theorem beNat_append (a : Bytes) (x : UInt8) : beNat (a ++ [x]) = beNat a * 256 + x.toNat := by
  simp [beNat]

theorem foldl_shift (b : Bytes) (s : Nat) :
    b.foldl (fun a x => a * 256 + x.toNat) s = s * 256 ^ b.length + beNat b := by
  induction b generalizing s with
  | nil => simp [beNat]
  | cons x b ih =>
    rw [List.foldl_cons, ih, List.length_cons]
    show _ = _ + b.foldl (fun a x => a * 256 + x.toNat) (0 * 256 + x.toNat)
    rw [ih]
    ring

theorem beNat_cons (x : UInt8) (b : Bytes) : beNat (x :: b) = x.toNat * 256 ^ b.length + beNat b := by
  rw [← foldl_shift b x.toNat]
  simp [beNat]

theorem beNat_beBytes (k n : Nat) : beNat (beBytes k n) = n % 256 ^ k := by
  induction k with
  | zero => simp [beBytes, beNat, Nat.mod_one]
  | succ k ih =>
    rw [beBytes, beNat_cons, beBytes_length, ih, toNat_ofNat, pow_succ, Nat.mod_mul, Nat.mul_comm, Nat.add_comm]

theorem bigWord_eq (k n : Nat) : bigWord k n = beBytes k n := by
  induction k with
  | zero => rfl
  | succ k ih =>
    rw [bigWord, littleWord] at *
    rw [List.range_succ, List.map_append, List.reverse_append, ih]
    rfl

theorem bigWord_length (k n : Nat) : (bigWord k n).length = k := by rw [bigWord_eq, beBytes_length]

theorem littleWord_length (k n : Nat) : (littleWord k n).length = k := by simp [littleWord]

theorem word_length (little : Bool) (k n : Nat) : (word little k n).length = k := by
  cases little <;> simp [word, bigWord_length, littleWord_length]

theorem beNat_bigWord {k n : Nat} (h : n < 256 ^ k) : beNat (bigWord k n) = n := by
  rw [bigWord_eq, beNat_beBytes, Nat.mod_eq_of_lt h]

theorem wordNat_word (little : Bool) {k n : Nat} (h : n < 256 ^ k) : wordNat little (word little k n) = n := by
  cases little
  · simpa [wordNat, word] using beNat_bigWord h
  · have := beNat_bigWord h
    simpa [wordNat, word, bigWord] using this

theorem chunk {α β : Type} (f : α → List β) (size : Nat) (hf : ∀ x, (f x).length = size) (l : List α) (i : Nat)
    (hi : i < l.length) : ((l.map f).flatten.drop (i * size)).take size = f l[i] := by
  induction l generalizing i with
  | nil => simp at hi
  | cons x l ih =>
    cases i with
    | zero =>
      simp only [List.map_cons, List.flatten_cons, Nat.zero_mul, List.drop_zero, List.getElem_cons_zero]
      exact List.take_left' (hf x)
    | succ i =>
      simp only [List.map_cons, List.flatten_cons, List.getElem_cons_succ]
      rw [Nat.succ_mul, List.drop_append, hf x, List.drop_of_length_le (by rw [hf x]; omega), List.nil_append,
        Nat.add_sub_cancel]
      exact ih i (by simpa using hi)

theorem flat_length {α β : Type} (f : α → List β) (size : Nat) (hf : ∀ x, (f x).length = size) (l : List α) :
    ((l.map f).flatten).length = l.length * size := by
  induction l with
  | nil => simp
  | cons x l ih => simp only [List.map_cons, List.flatten_cons, List.length_append, ih, hf, List.length_cons]; ring

theorem words_length (little : Bool) (size : Nat) (l : List Nat) : (words little size l).length = l.length * size :=
  flat_length _ size (word_length little size) l

theorem frombuffer_words (little : Bool) {size : Nat} (hs : 0 < size) (l : List Nat) (h : ∀ x ∈ l, x < 256 ^ size) :
    frombuffer little size (words little size l) = .ok l := by
  unfold frombuffer
  rw [words_length, Nat.mul_mod_left, if_pos rfl, Nat.mul_div_cancel _ hs]
  congr 1
  apply List.ext_getElem
  · simp
  · intro i h1 h2
    simp only [List.getElem_map, List.getElem_range]
    rw [words, chunk _ size (word_length little size) l i h2]
    exact wordNat_word little (h _ (List.getElem_mem h2))

theorem frombuffer_length {little : Bool} {size : Nat} {b : Bytes} {l : List Nat}
    (h : frombuffer little size b = .ok l) : l.length * size = b.length := by
  unfold frombuffer at h
  split at h
  · cases h
    simp only [List.length_map, List.length_range]
    exact Nat.div_mul_cancel (Nat.dvd_of_mod_eq_zero (by assumption))
  · cases h

/-! ### Readers on whole and cut files -/

variable {α β : Type}

/-- Reads the whole of `c` and nothing else, and raises on every beginning of `c`. -/
def Strict (p : Bytes → Except Err (α × Bytes)) (c : Bytes) (a : α) : Prop :=
  (∀ rest, p (c ++ rest) = .ok (a, rest)) ∧ ∀ k < c.length, ∃ e, p (c.take k) = .error e

theorem Strict.bind {p : Bytes → Except Err (α × Bytes)} {q : α × Bytes → Except Err (β × Bytes)} {c d : Bytes} {a : α} {b : β}
    (hp : Strict p c a) (hq : Strict (fun s => q (a, s)) d b) : Strict (fun s => p s >>= q) (c ++ d) b := by
  refine ⟨fun rest => ?_, fun k hk => ?_⟩
  · show (p (c ++ d ++ rest)).bind _ = _
    rw [List.append_assoc, hp.1]
    exact hq.1 rest
  · show ∃ e, (p ((c ++ d).take k)).bind _ = _
    by_cases h : k < c.length
    · rw [List.take_append_of_le_length (by omega)]
      obtain ⟨e, he⟩ := hp.2 k h
      exact ⟨e, by rw [he]; rfl⟩
    · rw [List.take_append, List.take_of_length_le (by omega), hp.1]
      exact hq.2 (k - c.length) (by simp at hk; omega)

theorem Strict.pure (a : α) : Strict (fun s => .ok (a, s)) [] a :=
  ⟨fun _ => rfl, fun k hk => absurd hk (by simp)⟩

theorem readNum_ok {size n : Nat} (h : n < 256 ^ size) (rest : Bytes) :
    readNum size (bigWord size n ++ rest) = .ok (n, rest) := by
  unfold readNum unpack
  rw [List.take_left' (bigWord_length size n), if_pos (bigWord_length size n), beNat_bigWord h,
    List.drop_left' (bigWord_length size n)]
  rfl

theorem readNum_short {size : Nat} {s : Bytes} (h : s.length < size) : readNum size s = .error .struct := by
  unfold readNum unpack
  rw [if_neg (by simp; omega)]
  rfl

theorem readTag_ok {tag : Nat} (h : tag < 256) (h2 : tag ≠ 2) (s : Bytes) :
    readTag tag (UInt8.ofNat tag :: s) = .ok s := by
  rw [readTag, toNat_ofNat, Nat.mod_eq_of_lt h, if_neg (by simpa [TAG_END_OBJ] using h2), if_pos rfl]

theorem readTag_marks (tag n : Nat) (s : Bytes) :
    readTag tag (List.replicate n (UInt8.ofNat TAG_END_OBJ) ++ s) = readTag tag s := by
  induction n with
  | zero => rfl
  | succ n ih =>
    rw [List.replicate_succ, List.cons_append, readTag, if_pos (by decide), ih]

theorem strict_field {tag size n : Nat} (h : tag < 256) (h2 : tag ≠ 2) (hn : n < 256 ^ size) :
    Strict (readTagged tag size) (field tag size n) n := by
  refine ⟨fun rest => ?_, fun k hk => ?_⟩
  · show (readTag tag (UInt8.ofNat tag :: (bigWord size n ++ rest))).bind _ = _
    rw [readTag_ok h h2]
    exact readNum_ok hn rest
  · cases k with
    | zero => exact ⟨.type, rfl⟩
    | succ k =>
      refine ⟨.struct, ?_⟩
      show (readTag tag (UInt8.ofNat tag :: ((bigWord size n).take k))).bind _ = _
      rw [readTag_ok h h2]
      apply readNum_short
      simp [field, bigWord_length] at hk ⊢
      omega

/-- Reads the whole of `c`; on a beginning of `c` it raises or gives a value like `short` and is at the end. -/
def Loose (p : Bytes → Except Err (α × Bytes)) (c : Bytes) (a : α) (short : α → Prop) : Prop :=
  (∀ rest, p (c ++ rest) = .ok (a, rest)) ∧
    ∀ k < c.length, (∃ e, p (c.take k) = .error e) ∨ ∃ x, short x ∧ p (c.take k) = .ok (x, [])

theorem loose_block {tag size : Nat} {b : Bytes} (h : tag < 256) (h2 : tag ≠ 2) (hb : b.length < 256 ^ size) :
    Loose (readBlob tag size) (block tag size b) b (fun x => x.length < b.length) := by
  have hf := strict_field (size := size) h h2 hb
  refine ⟨fun rest => ?_, fun k hk => ?_⟩
  · show (readTagged tag size (block tag size b ++ rest)).bind _ = _
    rw [block, List.append_assoc, hf.1]
    show Except.ok (List.take b.length (b ++ rest), List.drop b.length (b ++ rest)) = _
    simp
  · by_cases hk' : k < (field tag size b.length).length
    · obtain ⟨e, he⟩ := hf.2 k hk'
      left
      refine ⟨e, ?_⟩
      show (readTagged tag size ((block tag size b).take k)).bind _ = _
      rw [block, List.take_append_of_le_length (by omega), he]
      rfl
    · right
      refine ⟨b.take (k - (field tag size b.length).length), ?_, ?_⟩
      · simp [block] at hk ⊢
        omega
      · show (readTagged tag size ((block tag size b).take k)).bind _ = _
        rw [block, List.take_append, List.take_of_length_le (by omega), hf.1]
        have hl : (List.take (k - (field tag size b.length).length) b).length ≤ b.length := by simp
        show Except.ok (List.take b.length _, List.drop b.length _) = _
        rw [List.take_of_length_le hl, List.drop_of_length_le hl]

theorem readBlob_nil (tag size : Nat) : readBlob tag size [] = .error .type := rfl

/-- A value that may come out short is no problem when another read follows. -/
theorem Loose.bind {p : Bytes → Except Err (α × Bytes)} {q : α × Bytes → Except Err (β × Bytes)} {c d : Bytes} {a : α} {b : β}
    {short : α → Prop} {short' : β → Prop} (hp : Loose p c a short) (hq : Loose (fun s => q (a, s)) d b short')
    (hnil : ∀ x, ∃ e, q (x, []) = .error e) : Loose (fun s => p s >>= q) (c ++ d) b short' := by
  refine ⟨fun rest => ?_, fun k hk => ?_⟩
  · show (p (c ++ d ++ rest)).bind _ = _
    rw [List.append_assoc, hp.1]
    exact hq.1 rest
  · show (∃ e, (p ((c ++ d).take k)).bind _ = _) ∨ ∃ x, short' x ∧ (p ((c ++ d).take k)).bind _ = _
    by_cases h : k < c.length
    · rw [List.take_append_of_le_length (by omega)]
      left
      rcases hp.2 k h with ⟨e, he⟩ | ⟨x, _, hx⟩
      · exact ⟨e, by rw [he]; rfl⟩
      · obtain ⟨e, he⟩ := hnil x
        exact ⟨e, by rw [hx]; exact he⟩
    · rw [List.take_append, List.take_of_length_le (by omega), hp.1]
      exact hq.2 (k - c.length) (by simp at hk; omega)

theorem Strict.bindLoose {p : Bytes → Except Err (α × Bytes)} {q : α × Bytes → Except Err (β × Bytes)} {c d : Bytes} {a : α}
    {b : β} {short' : β → Prop} (hp : Strict p c a) (hq : Loose (fun s => q (a, s)) d b short') :
    Loose (fun s => p s >>= q) (c ++ d) b short' := by
  refine ⟨fun rest => ?_, fun k hk => ?_⟩
  · show (p (c ++ d ++ rest)).bind _ = _
    rw [List.append_assoc, hp.1]
    exact hq.1 rest
  · show (∃ e, (p ((c ++ d).take k)).bind _ = _) ∨ ∃ x, short' x ∧ (p ((c ++ d).take k)).bind _ = _
    by_cases h : k < c.length
    · rw [List.take_append_of_le_length (by omega)]
      left
      obtain ⟨e, he⟩ := hp.2 k h
      exact ⟨e, by rw [he]; rfl⟩
    · rw [List.take_append, List.take_of_length_le (by omega), hp.1]
      exact hq.2 (k - c.length) (by simp at hk; omega)

theorem Loose.map {p : Bytes → Except Err (α × Bytes)} {c : Bytes} {a : α} {short : α → Prop} {short' : β → Prop} (f : α → β)
    (hp : Loose p c a short) (hs : ∀ x, short x → short' (f x)) :
    Loose (fun s => do let x ← p s; return (f x.1, x.2)) c (f a) short' := by
  refine ⟨fun rest => ?_, fun k hk => ?_⟩
  · show (p (c ++ rest)).bind _ = _
    rw [hp.1]
    rfl
  · rcases hp.2 k hk with ⟨e, he⟩ | ⟨x, hx, hx'⟩
    · left
      refine ⟨e, ?_⟩
      show (p (c.take k)).bind _ = _
      rw [he]
      rfl
    · right
      refine ⟨f x, hs x hx, ?_⟩
      show (p (c.take k)).bind _ = _
      rw [hx']
      rfl

end Verif.Mir

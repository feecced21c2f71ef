import Verif.Mir.Props

/-!
# C84, exactly: the files that are read as a matrix

`C53_decodes` has the files MIR writes, `C54_truncated` those that are cut. Here: every byte string.
-/

namespace Verif.Mir

open Verif.Regrid (Csr)

/-! ## Specification: the layouts that are accepted -/

/-- `s` begins with the number `n` under its tag; marks of the ends of objects may come first. -/
def Tagged (tag size n : Nat) (s rest : Bytes) : Prop := n < 256 ^ size ∧ ∃ k, s = List.replicate k 2 ++ field tag size n ++ rest

/-- `s` begins with the block `b`, or ends in the middle of a block, with `b`. -/
def Block (b s rest : Bytes) : Prop := ∃ n, Tagged 21 8 n s (b ++ rest) ∧ (b.length = n ∨ b.length < n ∧ rest = [])

/-- The numbers of a block. -/
def Holds (little : Bool) (size : Nat) (b : Bytes) (l : List Nat) : Prop := b = words little size l ∧ ∀ x ∈ l, x < 256 ^ size

/-- The numbers in front of the blocks. -/
def Front (s : Bytes) (rows cols flag scalar : Nat) (rest : Bytes) : Prop :=
  ∃ nz sz s1 s2 s3 s4 s5 s6, Tagged 10 4 rows s s1 ∧ Tagged 10 4 cols s1 s2 ∧ Tagged 10 4 nz s2 s3 ∧ Tagged 5 4 flag s3 s4 ∧ Tagged 10 4 4 s4 s5 ∧
    Tagged 10 4 scalar s5 s6 ∧ Tagged 10 4 sz s6 rest

/-- A file: header, row pointers, columns, weights. -/
structure Stored (s : Bytes) (rows cols flag scalar : Nat) (outer inner data : List Nat) : Prop where
  size : scalar = 4 ∨ scalar = 8
  layout : ∃ s1 s2 s3 s4 o i d, Front s rows cols flag scalar s1 ∧ Block o s1 s2 ∧ Block i s2 s3 ∧ Block d s3 s4 ∧ Holds (flag != 0) 4 o outer ∧
    Holds (flag != 0) 4 i inner ∧ Holds (flag != 0) scalar d data

/-! ## The readers -/

theorem bigWord_beNat : ∀ b : Bytes, bigWord b.length (beNat b) = b := by
  intro b
  rw [bigWord_eq]
  suffices h : ∀ (b : Bytes) (m : Nat), beBytes b.length (m * 256 ^ b.length + beNat b) = b by simpa using h b 0
  intro b
  induction b with
  | nil => intro m; rfl
  | cons x b ih =>
    intro m
    have hb : beNat b < 256 ^ b.length := by
      clear ih
      induction b with
      | nil => decide
      | cons y b ih =>
        rw [beNat_cons, List.length_cons, pow_succ]
        have := y.toNat_lt
        have h1 : y.toNat * 256 ^ b.length + 256 ^ b.length ≤ 256 * 256 ^ b.length := by
          rw [← Nat.succ_mul]; exact Nat.mul_le_mul_right _ (by omega)
        omega
    rw [List.length_cons, beBytes, beNat_cons]
    have e : m * 256 ^ (b.length + 1) + (x.toNat * 256 ^ b.length + beNat b) = (m * 256 + x.toNat) * 256 ^ b.length + beNat b := by ring
    rw [e, ih, Nat.mul_comm, Nat.mul_add_div (Nat.pow_pos (by decide)), Nat.div_eq_of_lt hb, Nat.add_zero]
    congr 1
    apply UInt8.toNat_inj.1
    rw [toNat_ofNat]
    have := x.toNat_lt
    omega

theorem beNat_lt (b : Bytes) : beNat b < 256 ^ b.length := by
  induction b with
  | nil => decide
  | cons y b ih =>
    rw [beNat_cons, List.length_cons, pow_succ]
    have := y.toNat_lt
    have h1 : y.toNat * 256 ^ b.length + 256 ^ b.length ≤ 256 * 256 ^ b.length := by
      rw [← Nat.succ_mul]; exact Nat.mul_le_mul_right _ (by omega)
    omega

theorem readTag_iff {tag : Nat} (h : tag < 256) (h2 : tag ≠ 2) : ∀ {s rest : Bytes},
    readTag tag s = .ok rest ↔ ∃ k, s = List.replicate k 2 ++ UInt8.ofNat tag :: rest := by
  intro s
  induction s with
  | nil =>
    intro rest
    refine ⟨fun h => (by cases h), ?_⟩
    rintro ⟨k, hk⟩
    exact absurd hk.symm (by simp)
  | cons b s ih =>
    intro rest
    rw [readTag]
    by_cases hb : b.toNat = TAG_END_OBJ
    · rw [if_pos hb, ih]
      have hb2 : b = 2 := UInt8.toNat_inj.1 (by rw [hb]; rfl)
      constructor
      · rintro ⟨k, rfl⟩
        exact ⟨k + 1, by rw [hb2]; rfl⟩
      · rintro ⟨k, hk⟩
        cases k with
        | zero =>
          exfalso
          have hk : b :: s = UInt8.ofNat tag :: rest := hk
          rw [List.cons.injEq] at hk
          have := toNat_ofNat tag
          rw [← hk.1, hb, Nat.mod_eq_of_lt h] at this
          exact h2 this.symm
        | succ k =>
          rw [List.replicate_succ, List.cons_append, List.cons.injEq] at hk
          exact ⟨k, hk.2⟩
    · rw [if_neg hb]
      constructor
      · intro hr
        split at hr
        · rename_i ht
          cases hr
          refine ⟨0, ?_⟩
          have : b = UInt8.ofNat tag := UInt8.toNat_inj.1 (by rw [toNat_ofNat, Nat.mod_eq_of_lt h]; exact ht)
          rw [this]; rfl
        · cases hr
      · rintro ⟨k, hk⟩
        cases k with
        | zero =>
          have hk : b :: s = UInt8.ofNat tag :: rest := hk
          rw [List.cons.injEq] at hk
          rw [if_pos (by rw [hk.1, toNat_ofNat, Nat.mod_eq_of_lt h]), hk.2]
        | succ k =>
          rw [List.replicate_succ, List.cons_append, List.cons.injEq] at hk
          exact absurd (by rw [hk.1]; rfl) hb

theorem readNum_iff {size n : Nat} {s rest : Bytes} : readNum size s = .ok (n, rest) ↔ n < 256 ^ size ∧ s = bigWord size n ++ rest := by
  constructor
  · intro h
    by_cases hl : s.length < size
    · rw [readNum_short hl] at h; cases h
    · have ht : (s.take size).length = size := by simp; omega
      unfold readNum unpack at h
      rw [if_pos ht] at h
      cases h
      have h1 := beNat_lt (s.take size)
      have h3 := bigWord_beNat (s.take size)
      rw [ht] at h1 h3
      exact ⟨h1, by rw [h3, List.take_append_drop]⟩
  · rintro ⟨h, rfl⟩
    exact readNum_ok h rest

theorem readTagged_iff {tag size n : Nat} (h : tag < 256) (h2 : tag ≠ 2) {s rest : Bytes} :
    readTagged tag size s = .ok (n, rest) ↔ Tagged tag size n s rest := by
  unfold readTagged Tagged
  constructor
  · intro hr
    cases ht : readTag tag s with
    | error e => rw [ht] at hr; cases hr
    | ok s' =>
      rw [ht, ok_bind, readNum_iff] at hr
      obtain ⟨k, hk⟩ := (readTag_iff h h2).1 ht
      refine ⟨hr.1, k, ?_⟩
      rw [hk, hr.2, List.append_assoc]
      rfl
  · rintro ⟨hn, k, hk⟩
    have : readTag tag s = .ok (bigWord size n ++ rest) := (readTag_iff h h2).2 ⟨k, by rw [hk, List.append_assoc]; rfl⟩
    rw [this, ok_bind]
    exact readNum_ok hn rest

theorem readLargeBlob_iff {b s rest : Bytes} : readLargeBlob s = .ok (b, rest) ↔ Block b s rest := by
  unfold readLargeBlob readBlob Block
  constructor
  · intro hr
    cases ht : readTagged TAG_LARGE_BLOB 8 s with
    | error e => rw [ht] at hr; cases hr
    | ok x =>
      obtain ⟨n, s'⟩ := x
      rw [ht, ok_bind] at hr
      have ht' : Tagged 21 8 n s s' := (readTagged_iff (by decide) (by decide)).1 ht
      cases hr
      refine ⟨n, by rw [List.take_append_drop]; exact ht', ?_⟩
      by_cases hl : s'.length < n
      · right
        exact ⟨by simp; omega, by simp; omega⟩
      · left
        simp; omega
  · rintro ⟨n, ht, hb⟩
    have ht' : readTagged TAG_LARGE_BLOB 8 s = .ok (n, b ++ rest) := (readTagged_iff (by decide) (by decide)).2 ht
    rw [ht', ok_bind]
    show Except.ok (List.take n (b ++ rest), List.drop n (b ++ rest)) = _
    rcases hb with rfl | ⟨hb, rfl⟩
    · simp
    · rw [List.append_nil, List.take_of_length_le (by omega), List.drop_of_length_le (by omega)]

theorem word_wordNat (little : Bool) (b : Bytes) : word little b.length (wordNat little b) = b := by
  cases little with
  | false => exact bigWord_beNat b
  | true =>
    have := bigWord_beNat b.reverse
    rw [List.length_reverse] at this
    show littleWord b.length (beNat b.reverse) = b
    rw [← List.reverse_inj]
    exact this

theorem frombuffer_iff {little : Bool} {size : Nat} (hs : 0 < size) {b : Bytes} {l : List Nat} :
    frombuffer little size b = .ok l ↔ Holds little size b l := by
  constructor
  · intro h
    have hlen := frombuffer_length h
    suffices hx : ∀ (n : Nat) (b : Bytes), b.length = n * size →
        Holds little size b ((List.range n).map fun i => wordNat little ((b.drop (i * size)).take size)) by
      unfold frombuffer at h
      split at h
      · rename_i hm
        cases h
        exact hx _ b (Nat.div_mul_cancel (Nat.dvd_of_mod_eq_zero hm)).symm
      · cases h
    intro n
    induction n with
    | zero =>
      intro b hb
      have : b = [] := List.length_eq_zero_iff.1 (by omega)
      subst this
      exact ⟨rfl, fun x hx => absurd hx (by simp)⟩
    | succ n ih =>
      intro b hb
      rw [Nat.succ_mul] at hb
      obtain ⟨h1, h2⟩ := ih (b.drop size) (by rw [List.length_drop]; omega)
      have ht : (b.take size).length = size := by rw [List.length_take]; omega
      have he : (List.range (n + 1)).map (fun i => wordNat little ((b.drop (i * size)).take size)) =
          wordNat little (b.take size) :: (List.range n).map (fun i => wordNat little (((b.drop size).drop (i * size)).take size)) := by
        rw [List.range_succ_eq_map, List.map_cons, List.map_map]
        simp only [Nat.zero_mul, List.drop_zero]
        congr 1
        apply List.map_congr_left
        intro i _
        simp only [Function.comp, List.drop_drop, Nat.succ_mul]
        congr 3
        omega
      rw [he]
      have hw := word_wordNat little (b.take size)
      rw [ht] at hw
      refine ⟨?_, ?_⟩
      · unfold words at h1 ⊢
        rw [List.map_cons, List.flatten_cons, ← h1, hw, List.take_append_drop]
      · intro x hx
        rcases List.mem_cons.1 hx with rfl | hx
        · unfold wordNat
          cases little with
          | false => have := beNat_lt (b.take size); rw [ht] at this; exact this
          | true => have := beNat_lt (b.take size).reverse; rw [List.length_reverse, ht] at this; exact this
        · exact h2 x hx
  · rintro ⟨rfl, h⟩
    exact frombuffer_words little hs l h

theorem bind_ok {α β : Type} {x : Except Err α} {f : α → Except Err β} {b : β} : (x >>= f) = .ok b ↔ ∃ a, x = .ok a ∧ f a = .ok b := by
  cases x with
  | error e => exact ⟨fun h => (by cases h), fun ⟨_, h, _⟩ => (by cases h)⟩
  | ok a => exact ⟨fun h => ⟨a, rfl, h⟩, fun ⟨_, h, h'⟩ => by cases h; exact h'⟩

theorem readHeader_iff {s rest : Bytes} {h : Header} : readHeader s = .ok (h, rest) ↔
    ∃ nz flag sz s1 s2 s3 s4 s5 s6, Tagged 10 4 h.rows s s1 ∧ Tagged 10 4 h.cols s1 s2 ∧ Tagged 10 4 nz s2 s3 ∧ Tagged 5 4 flag s3 s4 ∧
      Tagged 10 4 h.indexSize s4 s5 ∧ Tagged 10 4 h.scalarSize s5 s6 ∧ Tagged 10 4 sz s6 rest ∧ h.little = (flag != 0) := by
  have u : ∀ {n : Nat} {s r : Bytes}, readUlong s = .ok (n, r) ↔ Tagged 10 4 n s r := readTagged_iff (by decide) (by decide)
  have u5 : ∀ {n : Nat} {s r : Bytes}, readTagged TAG_INT 4 s = .ok (n, r) ↔ Tagged 5 4 n s r := readTagged_iff (by decide) (by decide)
  unfold readHeader
  simp only [bind_ok, Prod.exists, u, u5]
  constructor
  · rintro ⟨rows, s1, h1, cols, s2, h2, nz, s3, h3, flag, s4, h4, ix, s5, h5, sc, s6, h6, sz, s7, h7, he⟩
    cases he
    refine ⟨nz, flag, sz, s1, s2, s3, s4, s5, s6, h1, h2, h3, h4, h5, h6, h7, ?_⟩
    cases flag <;> rfl
  · rintro ⟨nz, flag, sz, s1, s2, s3, s4, s5, s6, h1, h2, h3, h4, h5, h6, h7, he⟩
    refine ⟨_, s1, h1, _, s2, h2, nz, s3, h3, flag, s4, h4, _, s5, h5, _, s6, h6, sz, rest, h7, ?_⟩
    obtain ⟨r, c, l, i, sc⟩ := h
    have he : l = (flag != 0) := he
    have : decide (flag ≠ 0) = l := by rw [he]; cases flag <;> rfl
    rw [this]
    rfl

theorem readBlocks_iff {s rest : Bytes} {o i d : Bytes} : readBlocks s = .ok ((o, i, d), rest) ↔
    ∃ s1 s2, Block o s s1 ∧ Block i s1 s2 ∧ Block d s2 rest := by
  unfold readBlocks
  simp only [bind_ok, Prod.exists, readLargeBlob_iff]
  constructor
  · rintro ⟨o', s1, h1, i', s2, h2, d', s3, h3, he⟩
    cases he
    exact ⟨s1, s2, h1, h2, h3⟩
  · rintro ⟨s1, s2, h1, h2, h3⟩
    exact ⟨o, s1, h1, i, s2, h2, d, rest, h3, rfl⟩

theorem csrArray_iff {rows cols : Nat} {data indices indptr : List Nat} {c : Csr Nat} : csrArray rows cols data indices indptr = .ok c ↔
    indptr.length = rows + 1 ∧ indptr.head? = some 0 ∧ indices.length = data.length ∧
      ∃ n, indptr.getLast? = some n ∧ n ≤ data.length ∧ c = ⟨rows, cols, indptr, indices.take n, data.take n⟩ := by
  unfold csrArray
  simp only
  by_cases h1 : indptr.length = rows + 1
  · obtain ⟨a, l, rfl⟩ : ∃ a l, indptr = a :: l := by
      cases indptr with
      | nil => simp at h1
      | cons a l => exact ⟨a, l, rfl⟩
    obtain ⟨n, hn⟩ : ∃ n, (a :: l).getLast? = some n := ⟨(a :: l).getLast (by simp), List.getLast?_eq_some_getLast (by simp)⟩
    have hd : (a :: l).getLastD 0 = n := by rw [List.getLastD_eq_getLast?, hn]; rfl
    rw [hd, if_neg (by simpa using h1), hn]
    simp only [List.head?_cons, Option.some.injEq]
    by_cases h2 : a = 0
    · rw [if_neg (show ¬(a :: l).headD 0 ≠ 0 from not_not.2 h2)]
      by_cases h3 : indices.length = data.length
      · rw [if_neg (show ¬indices.length ≠ data.length from not_not.2 h3)]
        by_cases h4 : n > indices.length
        · rw [if_pos h4]
          refine ⟨fun h => (by cases h), ?_⟩
          rintro ⟨_, _, _, m, rfl, h5, _⟩
          omega
        · rw [if_neg h4]
          constructor
          · intro h
            cases h
            exact ⟨h1, h2, h3, n, rfl, by omega, rfl⟩
          · rintro ⟨_, _, _, m, rfl, _, rfl⟩
            rfl
      · rw [if_pos (show indices.length ≠ data.length from h3)]
        exact ⟨fun h => (by cases h), fun h => absurd h.2.2.1 h3⟩
    · rw [if_pos (show (a :: l).headD 0 ≠ 0 from h2)]
      exact ⟨fun h => (by cases h), fun h => absurd h.2.1 h2⟩
  · rw [if_pos (by simpa using h1)]
    exact ⟨fun h => (by cases h), fun h => absurd h.1 h1⟩

theorem uintSize_iff {n k : Nat} : uintSize n = .ok k ↔ n = 4 ∧ k = 4 := by
  unfold uintSize
  split
  · rename_i h; subst h
    exact ⟨fun h => by cases h; exact ⟨rfl, rfl⟩, fun h => by rw [h.2]⟩
  · rename_i h
    exact ⟨fun h => (by cases h), fun h' => absurd h'.1 h⟩

theorem floatSize_iff {n k : Nat} : floatSize n = .ok k ↔ (n = 4 ∨ n = 8) ∧ k = n := by
  unfold floatSize
  split
  · rename_i h
    exact ⟨fun h' => by cases h'; exact ⟨h, rfl⟩, fun h => by rw [h.2]⟩
  · rename_i h
    exact ⟨fun h => (by cases h), fun h' => absurd h'.1 h⟩

/-- C84, exactly: a file is read as a matrix iff it has the layout (marks in front of the tags and an unfinished last block included), with one
pointer more than rows, the first 0, as many columns as weights, and at least as many as the last pointer; the matrix is what is stored, up to the
last pointer. -/
theorem C84_exact (s : Bytes) (c : Csr Nat) : decode s = .ok c ↔
    ∃ flag scalar outer inner data n, Stored s c.rows c.cols flag scalar outer inner data ∧ outer.length = c.rows + 1 ∧ outer.head? = some 0 ∧
      outer.getLast? = some n ∧ inner.length = data.length ∧ n ≤ data.length ∧ c.indptr = outer ∧ c.indices = inner.take n ∧ c.data = data.take n := by
  unfold decode
  simp only [bind_ok, Prod.exists, readHeader_iff, readBlocks_iff]
  constructor
  · rintro ⟨h, s1, ⟨nz, flag, sz, t1, t2, t3, t4, t5, t6, h1, h2, h3, h4, h5, h6, h7, hl⟩, o, i, d, s4, ⟨s2, s3, b1, b2, b3⟩, ha⟩
    unfold assemble at ha
    simp only [bind_ok, uintSize_iff, floatSize_iff] at ha
    obtain ⟨_, ⟨hx, rfl⟩, outer, ho, _, ⟨_, rfl⟩, inner, hi, _, ⟨hs, rfl⟩, data, hd, hc⟩ := ha
    rw [csrArray_iff] at hc
    obtain ⟨c1, c2, c3, n, c4, c5, rfl⟩ := hc
    rw [hx] at h5
    rw [hl] at ho hi hd
    exact ⟨flag, h.scalarSize, outer, inner, data, n, ⟨hs, s1, s2, s3, s4, o, i, d, ⟨nz, sz, t1, t2, t3, t4, t5, t6, h1, h2, h3, h4, h5, h6, h7⟩,
      b1, b2, b3, (frombuffer_iff (by decide)).1 ho, (frombuffer_iff (by decide)).1 hi, (frombuffer_iff (by omega)).1 hd⟩, c1, c2, c4, c3, c5,
      rfl, rfl, rfl⟩
  · rintro ⟨flag, scalar, outer, inner, data, n, ⟨hs, s1, s2, s3, s4, o, i, d, ⟨nz, sz, t1, t2, t3, t4, t5, t6, h1, h2, h3, h4, h5, h6, h7⟩,
      b1, b2, b3, ho, hi, hd⟩, c1, c2, c4, c3, c5, e1, e2, e3⟩
    refine ⟨⟨c.rows, c.cols, flag != 0, 4, scalar⟩, s1, ⟨nz, flag, sz, t1, t2, t3, t4, t5, t6, h1, h2, h3, h4, h5, h6, h7, rfl⟩, o, i, d, s4,
      ⟨s2, s3, b1, b2, b3⟩, ?_⟩
    unfold assemble
    simp only [bind_ok, uintSize_iff, floatSize_iff]
    refine ⟨4, ⟨trivial, rfl⟩, outer, (frombuffer_iff (by decide)).2 ho, 4, ⟨trivial, rfl⟩, inner, (frombuffer_iff (by decide)).2 hi, scalar, ⟨hs, rfl⟩,
      data, (frombuffer_iff (by omega)).2 hd, ?_⟩
    rw [csrArray_iff]
    refine ⟨c1, c2, c3, n, c4, c5, ?_⟩
    obtain ⟨r, k, p, q, w⟩ := c
    simp only at e1 e2 e3
    rw [e1, e2, e3]

/-- A file with a mark in front of its first number, and one weight more than the pointers say. -/
def oddFile : Bytes := 2 :: (⟨1, 1, 9, true, 4, 8, [0, 1], [0, 5], [0x3f800000, 7]⟩ : MirMatrix).file

example : decode oddFile = .ok ⟨1, 1, [0, 1], [0], [0x3f800000]⟩ := by
  refine (C84_exact _ _).2 ⟨1, 4, [0, 1], [0, 5], [0x3f800000, 7], 1, ⟨.inl rfl, oddFile.drop 36, oddFile.drop 53, oddFile.drop 70, [],
    (oddFile.drop 45).take 8, (oddFile.drop 62).take 8, (oddFile.drop 79).take 8, ⟨9, 8, oddFile.drop 6, oddFile.drop 11, oddFile.drop 16, oddFile.drop 21,
      oddFile.drop 26, oddFile.drop 31, ?_, ?_, ?_, ?_, ?_, ?_, ?_⟩, ⟨8, ?_, .inl (by decide +kernel)⟩, ⟨8, ?_, .inl (by decide +kernel)⟩,
      ⟨8, ?_, .inl (by decide +kernel)⟩, ?_, ?_, ?_⟩, rfl, rfl, rfl, rfl, by decide, rfl, rfl, rfl⟩
  · exact ⟨by decide, 1, by decide +kernel⟩
  all_goals first
    | exact ⟨by decide, 0, by decide +kernel⟩
    | exact ⟨by decide +kernel, by decide⟩

end Verif.Mir

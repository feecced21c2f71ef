import Verif.Mir.Lemmas

/-! # C52: values round-trip through the stream -/

namespace Verif.Mir

theorem packL_ok {n : Int} (h : 0 ≤ n ∧ n < 4294967296) : packL n = .ok (bigWord 4 n.toNat) := by
  unfold packL
  rw [if_pos (by omega), bigWord_eq]

theorem packL_error {n : Int} (h : ¬ (0 ≤ n ∧ n < 4294967296)) : packL n = .error .struct := by
  unfold packL
  rw [if_neg (by omega)]

theorem writeL_ok {n : Int} (h : 0 ≤ n ∧ n < 4294967296) : writeL n = ⟨bigWord 4 n.toNat, none⟩ := by
  unfold writeL
  rw [packL_ok h]
  simp [writeRaw, bigWord_length]

theorem writeL_zero : writeL 0 = ⟨bigWord 4 0, none⟩ := writeL_ok ⟨by omega, by omega⟩

theorem writeL_error {n : Int} (h : ¬ (0 ≤ n ∧ n < 4294967296)) : writeL n = ⟨[], some .struct⟩ := by
  unfold writeL
  rw [packL_error h]

theorem andThen_none (x : Bytes) (b : Written) : (⟨x, none⟩ : Written).andThen b = ⟨x ++ b.bytes, b.err⟩ := rfl

theorem andThen_some (x : Bytes) (e : Err) (b : Written) : (⟨x, some e⟩ : Written).andThen b = ⟨x, some e⟩ := rfl

theorem write_string (s : Bytes) : (Item.string s).write =
    ((writeTag TAG_STRING).andThen (writeL s.length)).andThen (writeRaw s s.length) := by rw [Item.write]

theorem writeTag_eq (t : Nat) : writeTag t = ⟨[UInt8.ofNat t], none⟩ := rfl

theorem wide {n : Int} (h : 0 ≤ n ∧ n < 4294967296) : bigWord 4 0 ++ bigWord 4 n.toNat = bigWord 8 n.toNat := by
  rw [bigWord_eq, bigWord_eq, bigWord_eq]
  have d : ∀ k, 4 ≤ k → n.toNat / 256 ^ k = 0 := by
    intro k hk
    apply Nat.div_eq_of_lt
    have : 256 ^ 4 ≤ 256 ^ k := Nat.pow_le_pow_right (by decide) hk
    have : (256 : Nat) ^ 4 = 4294967296 := by decide
    omega
  have d7 := d 7 (by decide)
  have d6 := d 6 (by decide)
  have d5 := d 5 (by decide)
  have d4 := d 4 (by decide)
  simp only [beBytes, d7, d6, d5, d4]
  rfl

/-- C52: a writer produces exactly the layout of its item … -/
theorem C52_written (i : Item) (h : i.Fits) : i.write.bytes = i.layout ∧ i.write.err = none := by
  cases i with
  | char c => simp only [Item.Fits] at h; simp [Item.write, writeTag_eq, Written.andThen, writeRaw, h, Item.layout, TAG_CHAR]
  | uchar c =>
    simp only [Item.Fits] at h; simp [Item.write, writeTag_eq, Written.andThen, writeRaw, h, Item.layout, TAG_UNSIGNED_CHAR]
  | int n => simp [Item.write, writeTag_eq, Written.andThen, writeL_ok h, Item.layout, field, TAG_INT]
  | uint n => simp [Item.write, writeTag_eq, Written.andThen, writeL_ok h, Item.layout, field, TAG_UNSIGNED_INT]
  | long n => simp [Item.write, writeTag_eq, Written.andThen, writeL_ok h, Item.layout, field, TAG_LONG]
  | ulong n => simp [Item.write, writeTag_eq, Written.andThen, writeL_ok h, Item.layout, field, TAG_UNSIGNED_LONG]
  | longlong n => simp [Item.write, writeTag_eq, Written.andThen, writeL_ok h, Item.layout, field, TAG_LONG_LONG]
  | ulonglong n =>
    have := wide h
    simp [Item.write, writeTag_eq, Written.andThen, writeL_ok h, writeL_zero, Item.layout, field,
      TAG_UNSIGNED_LONG_LONG, ← this]
  | double b =>
    simp only [Item.write, writeDouble, writeTag_eq, Written.andThen, Item.layout, bigWord_eq]
    exact ⟨rfl, trivial⟩
  | string s =>
    have hs : 0 ≤ (s.length : Int) ∧ (s.length : Int) < 4294967296 := ⟨Int.natCast_nonneg _, h⟩
    have e := writeL_ok hs
    have r : writeRaw s s.length = ⟨s, none⟩ := if_pos (.inr rfl)
    rw [write_string, writeTag_eq, andThen_none, e, andThen_none, r, Int.toNat_natCast]
    exact ⟨rfl, rfl⟩

/-- … and refuses every other value: nothing is truncated to fit. -/
theorem C52_refused (i : Item) (h : ¬ i.Fits) : ∃ e, i.write.err = some e := by
  cases i with
  | char c =>
    simp only [Item.Fits] at h
    exact ⟨.assertion, by simp [Item.write, writeTag_eq, Written.andThen, writeRaw, Ne.symm h]⟩
  | uchar c =>
    simp only [Item.Fits] at h
    exact ⟨.assertion, by simp [Item.write, writeTag_eq, Written.andThen, writeRaw, Ne.symm h]⟩
  | int n => exact ⟨.struct, by simp [Item.write, writeTag_eq, Written.andThen, writeL_error h]⟩
  | uint n => exact ⟨.struct, by simp [Item.write, writeTag_eq, Written.andThen, writeL_error h]⟩
  | long n => exact ⟨.struct, by simp [Item.write, writeTag_eq, Written.andThen, writeL_error h]⟩
  | ulong n => exact ⟨.struct, by simp [Item.write, writeTag_eq, Written.andThen, writeL_error h]⟩
  | longlong n => exact ⟨.struct, by simp [Item.write, writeTag_eq, Written.andThen, writeL_error h]⟩
  | ulonglong n =>
    exact ⟨.struct, by simp [Item.write, writeTag_eq, Written.andThen, writeL_error h, writeL_zero]⟩
  | double b => exact absurd trivial h
  | string s =>
    have hs : ¬ (0 ≤ (s.length : Int) ∧ (s.length : Int) < 4294967296) :=
      fun hh => h hh.2
    have e := writeL_error hs
    exact ⟨.struct, by rw [write_string, writeTag_eq, andThen_none, e, andThen_some]⟩

theorem layout_head (i : Item) : ∃ t, i.layout = UInt8.ofNat i.tag :: t := by
  cases i <;> exact ⟨_, rfl⟩

theorem tag_lt (i : Item) : i.tag < 16 := by cases i <;> simp [Item.tag]

theorem tag_ne (i : Item) : i.tag ≠ 2 := by cases i <;> simp [Item.tag]

/-- What a reader does once its tag is there. -/
def Item.body : Item → Bytes → Except Err (Item × Bytes)
  | .char _, s => .ok (.char (s.take 1), s.drop 1)
  | .uchar _, s => .ok (.uchar (s.take 1), s.drop 1)
  | .int _, s => readNum 4 s >>= fun x => .ok (.int x.1, x.2)
  | .uint _, s => readNum 4 s >>= fun x => .ok (.uint x.1, x.2)
  | .long _, s => readNum 4 s >>= fun x => .ok (.long x.1, x.2)
  | .ulong _, s => readNum 4 s >>= fun x => .ok (.ulong x.1, x.2)
  | .longlong _, _ => .error .runtime
  | .ulonglong _, s => readNum 8 s >>= fun x => .ok (.ulonglong x.1, x.2)
  | .double _, _ => .error .runtime
  | .string _, s => readNum 4 s >>= fun x => .ok (.string (x.2.take x.1), x.2.drop x.1)

theorem read_eq (i : Item) (s : Bytes) : i.read s = (readTag i.tag s >>= i.body) := by
  have numCase : ∀ tag size (f : Nat → Item), (readTagged tag size s >>= fun x => Except.ok (f x.1, x.2)) =
      (readTag tag s >>= fun t => readNum size t >>= fun x => .ok (f x.1, x.2)) := by
    intro tag size f
    unfold readTagged
    cases readTag tag s <;> rfl
  cases i with
  | char c => show (readByte 3 s >>= _) = (readTag 3 s >>= _); unfold readByte; cases readTag 3 s <;> rfl
  | uchar c => show (readByte 4 s >>= _) = (readTag 4 s >>= _); unfold readByte; cases readTag 4 s <;> rfl
  | int n => exact numCase 5 4 (fun k => .int k)
  | uint n => exact numCase 6 4 (fun k => .uint k)
  | long n => exact numCase 9 4 (fun k => .long k)
  | ulong n => exact numCase 10 4 (fun k => .ulong k)
  | longlong n => show (readNever 11 s) = (readTag 11 s >>= _); unfold readNever; cases readTag 11 s <;> rfl
  | ulonglong n => exact numCase 12 8 (fun k => .ulonglong k)
  | double b => show (readNever 14 s) = (readTag 14 s >>= _); unfold readNever; cases readTag 14 s <;> rfl
  | string t =>
    show (readBlob 15 4 s >>= _) = (readTag 15 s >>= _)
    unfold readBlob readTagged
    cases readTag 15 s with
    | error e => rfl
    | ok t =>
      show ((readNum 4 t >>= _) >>= _) = (readNum 4 t >>= _)
      cases readNum 4 t <;> rfl

theorem bind_num {size n : Nat} (h : n < 256 ^ size) (rest : Bytes) (f : Nat → Bytes → Item × Bytes) :
    (readNum size (bigWord size n ++ rest) >>= fun x => (.ok (f x.1 x.2) : Except Err (Item × Bytes))) = .ok (f n rest) := by
  rw [readNum_ok h]
  rfl

theorem fits_lt {n : Int} (h : 0 ≤ n ∧ n < 4294967296) : n.toNat < 256 ^ 4 ∧ n.toNat < 256 ^ 8 := by
  have e4 : (256 : Nat) ^ 4 = 4294967296 := by decide
  have e8 : (256 : Nat) ^ 8 = 18446744073709551616 := by decide
  rw [e4, e8]
  omega

theorem body_layout (i : Item) (hf : i.Fits) (hr : i.Readable) (rest : Bytes) :
    ∃ t, i.layout = UInt8.ofNat i.tag :: t ∧ i.body (t ++ rest) = .ok (i, rest) := by
  cases i with
  | char c =>
    refine ⟨c, rfl, ?_⟩
    have : c.length = 1 := hf
    simp [Item.body, List.take_left' this, List.drop_left' this]
  | uchar c =>
    refine ⟨c, rfl, ?_⟩
    have : c.length = 1 := hf
    simp [Item.body, List.take_left' this, List.drop_left' this]
  | int n =>
    refine ⟨_, rfl, (bind_num (fits_lt hf).1 rest (fun k s => (.int k, s))).trans ?_⟩
    rw [Int.toNat_of_nonneg hf.1]
  | uint n =>
    refine ⟨_, rfl, (bind_num (fits_lt hf).1 rest (fun k s => (.uint k, s))).trans ?_⟩
    rw [Int.toNat_of_nonneg hf.1]
  | long n =>
    refine ⟨_, rfl, (bind_num (fits_lt hf).1 rest (fun k s => (.long k, s))).trans ?_⟩
    rw [Int.toNat_of_nonneg hf.1]
  | ulong n =>
    refine ⟨_, rfl, (bind_num (fits_lt hf).1 rest (fun k s => (.ulong k, s))).trans ?_⟩
    rw [Int.toNat_of_nonneg hf.1]
  | longlong n => exact False.elim hr
  | ulonglong n =>
    refine ⟨_, rfl, (bind_num (fits_lt hf).2 rest (fun k s => (.ulonglong k, s))).trans ?_⟩
    rw [Int.toNat_of_nonneg hf.1]
  | double b => exact False.elim hr
  | string s =>
    have hs : s.length < 256 ^ 4 := by
      have e4 : (256 : Nat) ^ 4 = 4294967296 := by decide
      have hf' : (s.length : Int) < 4294967296 := hf
      rw [e4]
      omega
    refine ⟨bigWord 4 s.length ++ s, rfl, ?_⟩
    rw [List.append_assoc]
    refine (bind_num hs (s ++ rest) (fun k t => (.string (t.take k), t.drop k))).trans ?_
    simp

theorem read_layout (i : Item) (hf : i.Fits) (hr : i.Readable) (marks : Nat) (rest : Bytes) :
    i.read (List.replicate marks (UInt8.ofNat TAG_END_OBJ) ++ (i.layout ++ rest)) = .ok (i, rest) := by
  obtain ⟨t, ht, hb⟩ := body_layout i hf hr rest
  rw [read_eq, readTag_marks, ht, List.cons_append, readTag_ok (by have := tag_lt i; omega) (tag_ne i)]
  exact hb

theorem write_of_ok {i : Item} (h : i.write.err = none) : i.Fits ∧ i.write.bytes = i.layout := by
  by_cases hf : i.Fits
  · exact ⟨hf, (C52_written i hf).1⟩
  · obtain ⟨e, he⟩ := C52_refused i hf
    rw [h] at he
    cases he

theorem marks_bytes (n : Nat) (w : Written) :
    ((List.replicate n writeEnd).foldr Written.andThen w).bytes = List.replicate n (UInt8.ofNat TAG_END_OBJ) ++ w.bytes ∧
      ((List.replicate n writeEnd).foldr Written.andThen w).err = w.err := by
  induction n with
  | zero => exact ⟨rfl, rfl⟩
  | succ n ih =>
    rw [List.replicate_succ, List.foldr_cons]
    refine ⟨?_, ih.2⟩
    show [UInt8.ofNat TAG_END_OBJ] ++ _ = _
    rw [ih.1, List.replicate_succ]
    rfl

theorem andThen_ok {a b : Written} (h : (a.andThen b).err = none) :
    a.err = none ∧ b.err = none ∧ (a.andThen b).bytes = a.bytes ++ b.bytes := by
  unfold Written.andThen at *
  cases ha : a.err with
  | none => rw [ha] at h; exact ⟨rfl, h, rfl⟩
  | some e => rw [ha] at h; cases h

/-- C52, short of doubles and long longs: what writers write without an exception, readers give back unchanged and in order,
leaving what follows; end-of-object marks in between do not matter. -/
theorem C52_round_trip_partial (l : List (Nat × Item)) (h : (writeAll l).err = none) (hr : ∀ x ∈ l, x.2.Readable)
    (rest : Bytes) : readAll (l.map (·.2)) ((writeAll l).bytes ++ rest) = .ok (l.map (·.2), rest) := by
  induction l with
  | nil => rfl
  | cons x l ih =>
    obtain ⟨marks, i⟩ := x
    rw [writeAll] at h ⊢
    obtain ⟨h1, h2, h3⟩ := andThen_ok h
    have hm := marks_bytes marks i.write
    obtain ⟨hf, hb⟩ := write_of_ok (hm.2 ▸ h1)
    rw [h3, hm.1, hb, List.map_cons, readAll, List.append_assoc, List.append_assoc,
      read_layout i hf (hr _ (List.mem_cons_self ..))]
    show (readAll (l.map (·.2)) ((writeAll l).bytes ++ rest) >>= _) = _
    rw [ih h2 (fun y hy => hr y (List.mem_cons_of_mem _ hy))]
    rfl

/-- C52: the reader of one kind of item raises on every other kind, whatever follows. -/
theorem C52_other_tag (i j : Item) (hne : i.tag ≠ j.tag) (marks : Nat) (rest : Bytes) :
    i.read (List.replicate marks (UInt8.ofNat TAG_END_OBJ) ++ (j.layout ++ rest)) = .error .runtime := by
  obtain ⟨t, ht⟩ := layout_head j
  have hj := tag_lt j
  have hi := tag_lt i
  rw [read_eq, readTag_marks, ht, List.cons_append, readTag, toNat_ofNat, Nat.mod_eq_of_lt (by omega),
    if_neg (by simpa [TAG_END_OBJ] using tag_ne j), if_neg (Ne.symm hne)]
  unfold tagError tagNames
  rw [if_pos (by omega), if_pos (by omega)]
  rfl

/-- C52 fails for doubles and long longs: no input makes their readers return. -/
theorem C52_refuted (i : Item) (h : ¬ i.Readable) (s : Bytes) : ∃ e, i.read s = .error e := by
  rw [read_eq]
  cases readTag i.tag s with
  | error e => exact ⟨e, rfl⟩
  | ok t =>
    cases i with
    | longlong n => exact ⟨_, rfl⟩
    | double n => exact ⟨_, rfl⟩
    | _ => exact absurd trivial h

/-- … although writing them succeeds, and the 64-bit writers refuse numbers that need more than 32 bits. -/
theorem C52_wide_refuted : (Item.double 1).write.err = none ∧ (Item.longlong 1).write.err = none ∧
    (∀ n : Int, 4294967296 ≤ n → ∃ e, (Item.ulonglong n).write.err = some e) ∧
    ∀ n : Int, 4294967296 ≤ n → ∃ e, (Item.longlong n).write.err = some e :=
  ⟨(C52_written (.double 1) trivial).2, (C52_written (.longlong 1) ⟨by omega, by omega⟩).2,
    fun n hn => C52_refused (.ulonglong n) (fun h => by have := h.2; omega),
    fun n hn => C52_refused (.longlong n) (fun h => by have := h.2; omega)⟩

/-- A program of C52, with marks and an empty string. -/
example : let l := [(0, Item.ulong 7), (2, .string []), (1, .string [1, 2, 2]), (0, .char [2]), (0, .ulonglong 4294967295)]
    (writeAll l).err = none ∧ ∀ x ∈ l, x.2.Readable :=
  ⟨by decide +kernel, fun x hx => by simp at hx; rcases hx with rfl | rfl | rfl | rfl | rfl <;> trivial⟩

/-- `C52_written`, `C52_refused`: a text of three bytes, and a number that is too large. -/
example : (Item.string [1, 2, 2]).write.bytes = (Item.string [1, 2, 2]).layout ∧ ∃ e, (Item.ulong 4294967296).write.err = some e :=
  ⟨(C52_written (.string [1, 2, 2]) (by simp [Item.Fits])).1, C52_refused (.ulong 4294967296) (by simp [Item.Fits])⟩

/-- `C52_round_trip_partial` on the items above. -/
example : readAll [.ulong 7, .string [], .string [1, 2, 2], .char [2], .ulonglong 4294967295]
    ((writeAll [(0, Item.ulong 7), (2, .string []), (1, .string [1, 2, 2]), (0, .char [2]), (0, .ulonglong 4294967295)]).bytes ++ [9]) =
    .ok ([.ulong 7, .string [], .string [1, 2, 2], .char [2], .ulonglong 4294967295], [9]) :=
  C52_round_trip_partial [(0, Item.ulong 7), (2, .string []), (1, .string [1, 2, 2]), (0, .char [2]), (0, .ulonglong 4294967295)]
    (by decide +kernel) (fun x hx => by simp at hx; rcases hx with rfl | rfl | rfl | rfl | rfl <;> trivial) [9]

/-- `C52_other_tag`: an int where a text was written, after three end marks. -/
example : (Item.int 0).read (List.replicate 3 (UInt8.ofNat TAG_END_OBJ) ++ ((Item.string [1, 2]).layout ++ [7])) = .error .runtime :=
  C52_other_tag (.int 0) (.string [1, 2]) (by decide) 3 [7]

end Verif.Mir

import Verif.Mir.ExactProps
import Verif.Mir.StreamProps

/-!
# C52, exactly: what readers return, on any stream

`C52_round_trip_partial` has the streams writers write. Here: every byte string, whoever wrote it and wherever it was cut.
-/

namespace Verif.Mir

/-! ## Specification -/

/-- `s` begins with the bytes of the item, `rest` follows. A character or a string at the end of the stream may have been cut; eight bytes of a
number may all be used. -/
def Item.Begins (s rest : Bytes) : Item → Prop
  | .char c => s = 3 :: (c ++ rest) ∧ (c.length = 1 ∨ c = [] ∧ rest = [])
  | .uchar c => s = 4 :: (c ++ rest) ∧ (c.length = 1 ∨ c = [] ∧ rest = [])
  | .int n => ∃ k : Nat, n = k ∧ k < 2 ^ 32 ∧ s = field 5 4 k ++ rest
  | .uint n => ∃ k : Nat, n = k ∧ k < 2 ^ 32 ∧ s = field 6 4 k ++ rest
  | .long n => ∃ k : Nat, n = k ∧ k < 2 ^ 32 ∧ s = field 9 4 k ++ rest
  | .ulong n => ∃ k : Nat, n = k ∧ k < 2 ^ 32 ∧ s = field 10 4 k ++ rest
  | .longlong _ => False
  | .ulonglong n => ∃ k : Nat, n = k ∧ k < 2 ^ 64 ∧ s = field 12 8 k ++ rest
  | .double _ => False
  | .string b => ∃ k : Nat, k < 2 ^ 32 ∧ s = field 15 4 k ++ b ++ rest ∧ (b.length = k ∨ b.length < k ∧ rest = [])

/-! ## Proof -/

theorem pow4 : (256 : Nat) ^ 4 = 2 ^ 32 := by decide

theorem pow8 : (256 : Nat) ^ 8 = 2 ^ 64 := by decide

theorem take_one {s c rest : Bytes} : (s.take 1 = c ∧ s.drop 1 = rest) ↔ s = c ++ rest ∧ (c.length = 1 ∨ c = [] ∧ rest = []) := by
  constructor
  · rintro ⟨rfl, rfl⟩
    refine ⟨(List.take_append_drop 1 s).symm, ?_⟩
    cases s with
    | nil => exact .inr ⟨rfl, rfl⟩
    | cons x s => exact .inl rfl
  · rintro ⟨rfl, h | ⟨rfl, rfl⟩⟩
    · exact ⟨List.take_left' h, List.drop_left' h⟩
    · exact ⟨rfl, rfl⟩

/-- After the tag, numbers. -/
theorem num_body {size : Nat} {t : Bytes} {f : Nat → Item} {v : Item} {rest : Bytes} :
    (readNum size t >>= fun x => (.ok (f x.1, x.2) : Except Err (Item × Bytes))) = .ok (v, rest) ↔
      ∃ k, v = f k ∧ k < 256 ^ size ∧ t = bigWord size k ++ rest := by
  constructor
  · intro h
    cases hr : readNum size t with
    | error e => rw [hr] at h; cases h
    | ok x =>
      obtain ⟨n, t'⟩ := x
      rw [hr] at h
      cases h
      obtain ⟨h1, h2⟩ := readNum_iff.1 hr
      exact ⟨n, rfl, h1, h2⟩
  · rintro ⟨k, rfl, h1, h2⟩
    rw [readNum_iff.2 ⟨h1, h2⟩]
    rfl

/-- After the tag, any reader. -/
theorem body_iff (i v : Item) (t rest : Bytes) : i.body t = .ok (v, rest) ↔ i.tag = v.tag ∧ v.Begins (UInt8.ofNat v.tag :: t) rest := by
  have num : ∀ (size tag : Nat) (f : Nat → Item) (P : Prop),
      (P ↔ ∃ k, v = f k ∧ k < 256 ^ size ∧ UInt8.ofNat tag :: t = field tag size k ++ rest) →
      ((readNum size t >>= fun x => (.ok (f x.1, x.2) : Except Err (Item × Bytes))) = .ok (v, rest) ↔ P) := by
    intro size tag f P hP
    rw [num_body, hP]
    refine exists_congr fun k => and_congr_right fun _ => and_congr_right fun _ => ?_
    show _ ↔ UInt8.ofNat tag :: t = UInt8.ofNat tag :: (bigWord size k ++ rest)
    rw [List.cons.injEq]
    exact ⟨fun h => ⟨rfl, h⟩, fun h => h.2⟩
  cases i with
  | char c =>
    show Except.ok (Item.char (t.take 1), t.drop 1) = .ok (v, rest) ↔ _
    constructor
    · intro h
      cases h
      have := (take_one (s := t)).1 ⟨rfl, rfl⟩
      exact ⟨rfl, by rw [← this.1]; rfl, this.2⟩
    · rintro ⟨ht, hb⟩
      cases v with
      | char d =>
        obtain ⟨h1, h2⟩ := hb
        have := take_one.2 ⟨(List.cons.inj h1).2, h2⟩
        rw [this.1, this.2]
      | _ => cases ht
  | uchar c =>
    show Except.ok (Item.uchar (t.take 1), t.drop 1) = .ok (v, rest) ↔ _
    constructor
    · intro h
      cases h
      have := (take_one (s := t)).1 ⟨rfl, rfl⟩
      exact ⟨rfl, by rw [← this.1]; rfl, this.2⟩
    · rintro ⟨ht, hb⟩
      cases v with
      | uchar d =>
        obtain ⟨h1, h2⟩ := hb
        have := take_one.2 ⟨(List.cons.inj h1).2, h2⟩
        rw [this.1, this.2]
      | _ => cases ht
  | int n =>
    refine num 4 5 (fun k => .int k) _ ?_
    rw [pow4]
    constructor
    · rintro ⟨ht, hb⟩
      cases v with
      | int m => obtain ⟨k, rfl, h⟩ := hb; exact ⟨k, rfl, h⟩
      | _ => cases ht
    · rintro ⟨k, rfl, h⟩
      exact ⟨rfl, k, rfl, h⟩
  | uint n =>
    refine num 4 6 (fun k => .uint k) _ ?_
    rw [pow4]
    constructor
    · rintro ⟨ht, hb⟩
      cases v with
      | uint m => obtain ⟨k, rfl, h⟩ := hb; exact ⟨k, rfl, h⟩
      | _ => cases ht
    · rintro ⟨k, rfl, h⟩
      exact ⟨rfl, k, rfl, h⟩
  | long n =>
    refine num 4 9 (fun k => .long k) _ ?_
    rw [pow4]
    constructor
    · rintro ⟨ht, hb⟩
      cases v with
      | long m => obtain ⟨k, rfl, h⟩ := hb; exact ⟨k, rfl, h⟩
      | _ => cases ht
    · rintro ⟨k, rfl, h⟩
      exact ⟨rfl, k, rfl, h⟩
  | ulong n =>
    refine num 4 10 (fun k => .ulong k) _ ?_
    rw [pow4]
    constructor
    · rintro ⟨ht, hb⟩
      cases v with
      | ulong m => obtain ⟨k, rfl, h⟩ := hb; exact ⟨k, rfl, h⟩
      | _ => cases ht
    · rintro ⟨k, rfl, h⟩
      exact ⟨rfl, k, rfl, h⟩
  | longlong n =>
    refine ⟨fun h => (by cases h), ?_⟩
    rintro ⟨ht, hb⟩
    cases v with
    | longlong m => cases hb
    | _ => cases ht
  | ulonglong n =>
    refine num 8 12 (fun k => .ulonglong k) _ ?_
    rw [pow8]
    constructor
    · rintro ⟨ht, hb⟩
      cases v with
      | ulonglong m => obtain ⟨k, rfl, h⟩ := hb; exact ⟨k, rfl, h⟩
      | _ => cases ht
    · rintro ⟨k, rfl, h⟩
      exact ⟨rfl, k, rfl, h⟩
  | double b =>
    refine ⟨fun h => (by cases h), ?_⟩
    rintro ⟨ht, hb⟩
    cases v with
    | double m => cases hb
    | _ => cases ht
  | string c =>
    show (readNum 4 t >>= fun x => (.ok (.string (x.2.take x.1), x.2.drop x.1) : Except Err (Item × Bytes))) = _ ↔ _
    constructor
    · intro h
      cases hr : readNum 4 t with
      | error e => rw [hr] at h; cases h
      | ok x =>
        obtain ⟨n, t'⟩ := x
        rw [hr] at h
        cases h
        obtain ⟨h1, h2⟩ := readNum_iff.1 hr
        refine ⟨rfl, n, by rw [← pow4]; exact h1, ?_, ?_⟩
        · rw [List.append_assoc, List.take_append_drop, h2]; rfl
        · by_cases hl : t'.length < n
          · right
            exact ⟨by simp; omega, by simp; omega⟩
          · left
            simp; omega
    · rintro ⟨ht, hb⟩
      cases v with
      | string d =>
        obtain ⟨k, hk, hs, hb⟩ := hb
        have h2 : t = bigWord 4 k ++ (d ++ rest) := by
          rw [List.append_assoc] at hs
          exact (List.cons.inj hs).2
        rw [readNum_iff.2 ⟨by rw [pow4]; exact hk, h2⟩]
        show Except.ok (Item.string (List.take k (d ++ rest)), List.drop k (d ++ rest)) = _
        rcases hb with rfl | ⟨hb, rfl⟩
        · simp
        · rw [List.append_nil, List.take_of_length_le (by omega), List.drop_of_length_le (by omega)]
      | _ => cases ht

theorem begins_head {v : Item} {s rest : Bytes} (h : v.Begins s rest) : ∃ t, s = UInt8.ofNat v.tag :: t := by
  cases v with
  | char c => exact ⟨_, h.1⟩
  | uchar c => exact ⟨_, h.1⟩
  | longlong n => cases h
  | double n => cases h
  | string b => obtain ⟨k, _, hs, _⟩ := h; rw [List.append_assoc] at hs; exact ⟨_, hs⟩
  | _ => obtain ⟨k, _, _, hs⟩ := h; exact ⟨_, hs⟩

/-- C52, every stream: a reader returns an item and stops before `rest` exactly if, after marks of the ends of objects, the stream begins with the
bytes of that item, and the item is of the reader's kind. Nothing else is returned as a value; but a string or character that was cut is. -/
theorem C52_exact (i v : Item) (s rest : Bytes) :
    i.read s = .ok (v, rest) ↔ i.tag = v.tag ∧ ∃ marks s', s = List.replicate marks 2 ++ s' ∧ v.Begins s' rest := by
  have hi := tag_lt i
  rw [read_eq]
  constructor
  · intro h
    cases ht : readTag i.tag s with
    | error e => rw [ht] at h; cases h
    | ok t =>
      rw [ht] at h
      have h : i.body t = .ok (v, rest) := h
      obtain ⟨h1, h2⟩ := (body_iff i v t rest).1 h
      obtain ⟨k, hk⟩ := (readTag_iff (by omega) (tag_ne i)).1 ht
      exact ⟨h1, k, _, by rw [hk, h1], h2⟩
  · rintro ⟨h1, k, s', hs, hb⟩
    obtain ⟨t, rfl⟩ := begins_head hb
    have ht : readTag i.tag s = .ok t := (readTag_iff (by omega) (tag_ne i)).2 ⟨k, by rw [hs, h1]⟩
    rw [ht]
    exact (body_iff i v t rest).2 ⟨h1, hb⟩

/-- Cutting a stream is not noticed by the reader of a string: whatever is left of it, from nothing on, is returned as the value. -/
theorem C52_cut_refuted (b : Bytes) (n : Nat) (hb : b.length < 2 ^ 32) (hn : n ≤ b.length) :
    (Item.string []).read ((Item.string b).layout.take (5 + n)) = .ok (.string (b.take n), []) := by
  rw [C52_exact]
  refine ⟨rfl, 0, _, rfl, b.length, hb, ?_, ?_⟩
  · show ((field 15 4 b.length ++ b).take (5 + n)) = _
    have hl : (field 15 4 b.length).length = 5 := by
      show (bigWord 4 b.length).length + 1 = 5
      rw [bigWord_length]
    rw [List.take_append, hl, List.take_of_length_le (by omega), List.append_nil]
    congr 2
    omega
  · rw [List.length_take]
    by_cases h : n = b.length
    · left; omega
    · right; exact ⟨by omega, rfl⟩

/-! ## Examples -/

/-- `C52_exact`: a number of 64 bits no writer writes, after two marks. -/
example : (Item.ulonglong 0).read ([2, 2] ++ field 12 8 (2 ^ 63) ++ [7]) = .ok (.ulonglong (2 ^ 63), [7]) := by
  rw [C52_exact]
  exact ⟨rfl, 2, field 12 8 (2 ^ 63) ++ [7], rfl, 2 ^ 63, rfl, by decide, rfl⟩

/-- `C52_exact`: a stream that ends after a tag is an empty character. -/
example : (Item.char []).read [3] = .ok (.char [], []) := by
  rw [C52_exact]
  exact ⟨rfl, 0, [3], rfl, rfl, .inr ⟨rfl, rfl⟩⟩

/-- `C52_cut_refuted` -/
example : (Item.string []).read ((Item.string [72, 101, 108, 108, 111]).layout.take 7) = .ok (.string [72, 101], []) :=
  C52_cut_refuted [72, 101, 108, 108, 111] 2 (by decide) (by decide)

end Verif.Mir

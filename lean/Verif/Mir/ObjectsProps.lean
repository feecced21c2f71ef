import Verif.Mir.Objects
import Verif.Mir.StreamProps

/-! # C106: objects round-trip through the stream -/

namespace Verif.Mir

/-- The bytes of an object: a start mark, two strings, an end mark. -/
def objectLayout (name ref : Bytes) : Bytes := 1 :: (block 15 4 name ++ block 15 4 ref ++ [2])

theorem write_object_eq (name ref : Bytes) (h1 : name.length < 4294967296) (h2 : ref.length < 4294967296) :
    writeObject name ref = ⟨objectLayout name ref, none⟩ := by
  have w1 := C52_written (.string name) (by simp only [Item.Fits]; omega)
  have w2 := C52_written (.string ref) (by simp only [Item.Fits]; omega)
  have e1 : (Item.string name).write = ⟨block 15 4 name, none⟩ := by
    cases h : (Item.string name).write; rw [h] at w1; obtain ⟨a, b⟩ := w1; cases a; cases b; rfl
  have e2 : (Item.string ref).write = ⟨block 15 4 ref, none⟩ := by
    cases h : (Item.string ref).write; rw [h] at w2; obtain ⟨a, b⟩ := w2; cases a; cases b; rfl
  unfold writeObject writeEnd
  rw [e1, e2, writeTag_eq, writeTag_eq, andThen_none, andThen_none, andThen_none]
  simp [objectLayout, TAG_START_OBJ, TAG_END_OBJ]

/-- C106: writing gives the layout; an exception is raised exactly when a text is too long. -/
theorem C106_written (name ref : Bytes) :
    ((writeObject name ref).err = none ↔ name.length < 4294967296 ∧ ref.length < 4294967296) ∧
    ((writeObject name ref).err = none → (writeObject name ref).bytes = objectLayout name ref) := by
  by_cases h : name.length < 4294967296 ∧ ref.length < 4294967296
  · rw [write_object_eq name ref h.1 h.2]
    exact ⟨⟨fun _ => h, fun _ => rfl⟩, fun _ => rfl⟩
  · have : (writeObject name ref).err ≠ none := by
      intro he
      unfold writeObject at he
      obtain ⟨a, _, _⟩ := andThen_ok he
      obtain ⟨b, c, _⟩ := andThen_ok a
      obtain ⟨_, d, _⟩ := andThen_ok b
      have f1 := (write_of_ok d).1
      have f2 := (write_of_ok c).1
      simp only [Item.Fits] at f1 f2
      exact h ⟨by omega, by omega⟩
    exact ⟨⟨fun he => absurd he this, fun he => absurd he h⟩, fun he => absurd he this⟩

theorem read_string_block (c : Offers) (hc : c.read = true) (t : Bytes) (h : t.length < 4294967296) (rest : Bytes) :
    readString c (block 15 4 t ++ rest) = .ok (t, rest) := by
  have := read_layout (.string t) (by simp only [Item.Fits]; omega) trivial 0 rest
  rw [List.replicate_zero, List.nil_append] at this
  unfold readString
  rw [if_pos hc]
  simp only [Item.read, Item.layout] at this
  cases hb : readBlob TAG_STRING 4 (block 15 4 t ++ rest) with
  | error e => rw [hb] at this; cases this
  | ok x => rw [hb] at this; cases this; rfl

theorem read_object_layout (c : Offers) (h1 : c.recv = true) (h2 : c.read = true) (name : Bytes) (h : name.length < 4294967296)
    (rest : Bytes) : readObject c (1 :: (block 15 4 name ++ rest)) = .ok (some name, rest) := by
  unfold readObject nextObject
  rw [if_pos h1]
  have : signed 1 = TAG_START_OBJ := by decide
  simp only [this, if_true]
  show (readString c (block 15 4 name ++ rest) >>= _) = _
  rw [read_string_block c h2 name h]
  rfl

/-- C106 (part): on a stream that offers both `recv` and `read`, the first object is read back: its class, then its reference.
Missing: every further object, and the end of the stream. -/
theorem C106_first_partial (c : Offers) (h1 : c.recv = true) (h2 : c.read = true) (name ref : Bytes) (rest : Bytes)
    (hw : (writeObject name ref).err = none) :
    ∃ s, readObject c ((writeObject name ref).bytes ++ rest) = .ok (some name, s) ∧ readString c s = .ok (ref, 2 :: rest) := by
  obtain ⟨ha, hb⟩ := C106_written name ref
  obtain ⟨hn, hr⟩ := ha.1 hw
  rw [hb hw]
  refine ⟨block 15 4 ref ++ (2 :: rest), ?_, read_string_block c h2 ref hr _⟩
  have := read_object_layout c h1 h2 name hn (block 15 4 ref ++ (2 :: rest))
  rw [← this]
  simp [objectLayout]

/-- C106 refuted: after the first object the end mark is in the way, and reading the next object raises RuntimeError. -/
theorem C106_second_refuted (c : Offers) (h1 : c.recv = true) (h2 : c.read = true) (a b : Bytes × Bytes) (l : List (Bytes × Bytes))
    (n : Nat) (hw : (writeObjects (a :: b :: l)).err = none) :
    readObjects c (n + 2) (writeObjects (a :: b :: l)).bytes = .error .runtime := by
  obtain ⟨x, y⟩ := a
  rw [writeObjects] at hw ⊢
  obtain ⟨w1, _, w3⟩ := andThen_ok hw
  rw [w3]
  obtain ⟨s, e1, e2⟩ := C106_first_partial c h1 h2 x y (writeObjects (b :: l)).bytes w1
  rw [readObjects, e1]
  show (readString c s >>= _) = _
  rw [e2]
  show (readObjects c (n + 1) (2 :: (writeObjects (b :: l)).bytes) >>= _) = _
  rw [readObjects]
  unfold readObject nextObject
  rw [if_pos h1]
  have : signed 2 ≠ TAG_START_OBJ := by decide
  have e : startError (signed 2) = .runtime := by decide
  simp only [this, if_false, e]
  rfl

/-- C106 refuted: the end of the stream is never reported, it raises instead. -/
theorem C106_end_refuted (c : Offers) (s s' : Bytes) : readObject c s ≠ .ok (none, s') ∧ ∃ e, readObject c [] = .error e := by
  constructor
  · intro h
    unfold readObject nextObject at h
    split at h
    · cases s with
      | nil => cases h
      | cons b s =>
        dsimp only at h
        split at h
        · revert h
          show (readString c s >>= fun x => (pure (some x.1, x.2) : Except Err _)) = _ → _
          cases readString c s with
          | error e => intro h; cases h
          | ok x => intro h; cases h
        · cases h
    · cases h
  · unfold readObject nextObject
    split <;> exact ⟨_, rfl⟩

/-- C106 refuted: on a file, the only kind of stream the package makes (mir.py:36, 83), and on a plain socket, no object can be
read at all. -/
theorem C106_kind_refuted (c : Offers) (h : c.recv = false ∨ c.read = false) (s : Bytes) : ∃ e, readObject c s = .error e := by
  unfold readObject nextObject
  split
  · rename_i hr
    rcases h with h | h
    · rw [h] at hr; cases hr
    · cases s with
      | nil => exact ⟨_, rfl⟩
      | cons b s =>
        dsimp only
        split
        · refine ⟨.attribute, ?_⟩
          show (readString c s >>= fun x => (pure (some x.1, x.2) : Except Err _)) = _
          unfold readString
          rw [h]; rfl
        · exact ⟨_, rfl⟩
  · exact ⟨_, rfl⟩

/-- Two objects that can be written. -/
example : (writeObjects [([77], [1, 2]), ([78], [])]).err = none := by decide +kernel

/-- `C106_first_partial`: one object, followed by other bytes. -/
example : ∃ s, readObject ⟨true, true⟩ ((writeObject [77] [1, 2]).bytes ++ [9]) = .ok (some [77], s) ∧ readString ⟨true, true⟩ s = .ok ([1, 2], [2, 9]) :=
  C106_first_partial ⟨true, true⟩ rfl rfl [77] [1, 2] [9] (by decide +kernel)

end Verif.Mir

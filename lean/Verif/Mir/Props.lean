import Verif.Mir.Lemmas

/-! # C53, C54, C84: MIR's cached matrices -/

namespace Verif.Mir

open Verif.Regrid (Csr)

theorem ok_bind {α β : Type} (a : α) (f : α → Except Err β) : (Except.ok a >>= f) = f a := rfl

theorem strict_header (m : MirMatrix) (hm : m.Wf) :
    Strict readHeader
      (field 10 4 m.rows ++ (field 10 4 m.cols ++ (field 10 4 m.nonZeros ++ (field 5 4 (if m.little then 1 else 0) ++
        (field 10 4 4 ++ (field 10 4 m.scalarSize ++ (field 10 4 m.sizeSize ++ [])))))))
      ⟨m.rows, m.cols, m.little, 4, m.scalarSize⟩ := by
  have h32 : (2 : Nat) ^ 32 = 256 ^ 4 := by decide
  have u : ∀ n, n < 2 ^ 32 → Strict readUlong (field 10 4 n) n :=
    fun n hn => strict_field (by decide) (by decide) (h32 ▸ hn)
  have hsc : m.scalarSize < 2 ^ 32 := by rcases hm.scalar with h | h <;> rw [h] <;> decide
  have hl : Strict (readTagged TAG_INT 4) (field 5 4 (if m.little then 1 else 0)) (if m.little then 1 else 0) :=
    strict_field (by decide) (by decide) (by cases m.little <;> decide)
  have hb : decide ((if m.little then 1 else 0) ≠ 0) = m.little := by cases m.little <;> rfl
  refine Strict.bind (u _ hm.rows) ?_
  refine Strict.bind (u _ hm.cols) ?_
  refine Strict.bind (u _ hm.nonZeros) ?_
  refine Strict.bind hl ?_
  refine Strict.bind (u _ (by decide)) ?_
  refine Strict.bind (u _ hsc) ?_
  refine Strict.bind (u _ hm.sizeSize) ?_
  simp only [hb]
  exact Strict.pure _

theorem loose_blocks {o i d : Bytes} (ho : o.length < 256 ^ 8) (hi : i.length < 256 ^ 8) (hd : d.length < 256 ^ 8) :
    Loose readBlocks (block 21 8 o ++ (block 21 8 i ++ block 21 8 d)) (o, i, d)
      (fun x => x.1 = o ∧ x.2.1 = i ∧ x.2.2.length < d.length) := by
  have b : ∀ x : Bytes, x.length < 256 ^ 8 → Loose readLargeBlob (block 21 8 x) x (fun y => y.length < x.length) :=
    fun x hx => loose_block (by decide) (by decide) hx
  refine Loose.bind (b o ho) ?_ (fun x => ⟨.type, rfl⟩)
  refine Loose.bind (b i hi) ?_ (fun x => ⟨.type, rfl⟩)
  exact Loose.map (fun x => (o, i, x)) (b d hd) (fun x hx => ⟨rfl, rfl, hx⟩)

theorem file_eq (m : MirMatrix) : m.file =
    (field 10 4 m.rows ++ (field 10 4 m.cols ++ (field 10 4 m.nonZeros ++ (field 5 4 (if m.little then 1 else 0) ++
        (field 10 4 4 ++ (field 10 4 m.scalarSize ++ (field 10 4 m.sizeSize ++ []))))))) ++
    (block 21 8 (words m.little 4 m.outer) ++ (block 21 8 (words m.little 4 m.inner) ++
      block 21 8 (words m.little m.scalarSize m.data))) := by
  simp [MirMatrix.file]

/-- Header and blocks of a file. -/
def parse (s : Bytes) : Except Err ((Header × Bytes × Bytes × Bytes) × Bytes) := do
  let (h, s) ← readHeader s
  let (b, s) ← readBlocks s
  return ((h, b), s)

theorem decode_eq (s : Bytes) : decode s = (parse s >>= fun x => assemble x.1.1 x.1.2) := by
  unfold decode parse
  cases readHeader s with
  | error e => rfl
  | ok x =>
    show (readBlocks x.2 >>= fun y => assemble x.1 y.1) = (readBlocks x.2 >>= _) >>= _
    cases readBlocks x.2 <;> rfl

theorem loose_parse (m : MirMatrix) (hm : m.Wf) :
    Loose parse m.file
      (⟨m.rows, m.cols, m.little, 4, m.scalarSize⟩,
        words m.little 4 m.outer, words m.little 4 m.inner, words m.little m.scalarSize m.data)
      (fun x => x.1 = ⟨m.rows, m.cols, m.little, 4, m.scalarSize⟩ ∧ x.2.1 = words m.little 4 m.outer ∧
        x.2.2.1 = words m.little 4 m.inner ∧ x.2.2.2.length < (words m.little m.scalarSize m.data).length) := by
  have h64 : (2 : Nat) ^ 64 = 256 ^ 8 := by decide
  rw [file_eq]
  refine Strict.bindLoose (strict_header m hm) ?_
  refine Loose.map _ (loose_blocks ?_ ?_ ?_) (fun x hx => ⟨rfl, hx⟩)
  · rw [words_length, ← h64, Nat.mul_comm]; exact hm.outerBytes
  · rw [words_length, ← h64, Nat.mul_comm]; exact hm.innerBytes
  · rw [words_length, ← h64, Nat.mul_comm]; exact hm.dataBytes

theorem size_pos {m : MirMatrix} (hm : m.Wf) : 0 < m.scalarSize := by rcases hm.scalar with h | h <;> omega

theorem assemble_eq {m : MirMatrix} (hm : m.Wf) (d : Bytes) :
    assemble ⟨m.rows, m.cols, m.little, 4, m.scalarSize⟩ (words m.little 4 m.outer, words m.little 4 m.inner, d) =
      (frombuffer m.little m.scalarSize d >>= fun data => csrArray m.rows m.cols data m.inner m.outer) := by
  have h32 : (2 : Nat) ^ 32 = 256 ^ 4 := by decide
  unfold assemble uintSize floatSize
  simp only [if_pos, if_pos hm.scalar]
  show (frombuffer m.little 4 (words m.little 4 m.outer) >>= _) = _
  rw [frombuffer_words m.little (by decide) _ (fun x hx => h32 ▸ hm.outerFits x hx)]
  show (frombuffer m.little 4 (words m.little 4 m.inner) >>= _) = _
  rw [frombuffer_words m.little (by decide) _ (fun x hx => h32 ▸ hm.innerFits x hx)]
  rfl

/-- C53: every matrix MIR writes is read back exactly, whatever follows in the file. -/
theorem C53_decodes (m : MirMatrix) (hm : m.Wf) (rest : Bytes) :
    decode (m.file ++ rest) = .ok ⟨m.rows, m.cols, m.outer, m.inner, m.data⟩ := by
  rw [decode_eq, (loose_parse m hm).1]
  rw [ok_bind]
  have hp : (2 : Nat) ^ (8 * m.scalarSize) = 256 ^ m.scalarSize := by rw [Nat.pow_mul]
  rw [assemble_eq hm, frombuffer_words m.little (size_pos hm) _ (fun x hx => hp ▸ hm.dataFits x hx)]
  show csrArray m.rows m.cols m.data m.inner m.outer = _
  have hl : m.outer.getLastD 0 = m.inner.length := by rw [List.getLastD_eq_getLast?, hm.last]; rfl
  have hf : m.outer.headD 0 = 0 := by rw [List.headD_eq_head?_getD, hm.first]; rfl
  unfold csrArray
  simp only [hl, hf, hm.pointers, hm.lengths, ne_eq, not_true_eq_false, if_false, gt_iff_lt, Nat.lt_irrefl]
  rw [← hm.lengths, List.take_length, hm.lengths, List.take_length]

/-- C54: whatever the place where a matrix file is cut, reading it raises. -/
theorem C54_truncated (m : MirMatrix) (hm : m.Wf) (k : Nat) (hk : k < m.file.length) :
    ∃ e, decode (m.file.take k) = .error e := by
  rw [decode_eq]
  rcases (loose_parse m hm).2 k hk with ⟨e, he⟩ | ⟨x, ⟨h1, h2, h3, h4⟩, hx⟩
  · exact ⟨e, by rw [he]; rfl⟩
  · rw [hx]
    obtain ⟨hd, o, i, d⟩ := x
    simp only at h1 h2 h3 h4
    subst h1 h2 h3
    rw [ok_bind, assemble_eq hm]
    cases hb : frombuffer m.little m.scalarSize d with
    | error e => exact ⟨e, rfl⟩
    | ok l =>
      refine ⟨.value, ?_⟩
      show csrArray m.rows m.cols l m.inner m.outer = _
      have hlen := frombuffer_length hb
      rw [words_length, ← hlen] at h4
      have : l.length < m.data.length := Nat.lt_of_mul_lt_mul_right h4
      unfold csrArray
      have hne : m.inner.length ≠ l.length := by rw [hm.lengths]; omega
      simp only [if_pos hne, ite_self]

/-- C84, what scipy checks: row pointers from 0 to the number of stored entries, one per row and one more, and as many columns
as weights. -/
theorem C84_structure_partial (s : Bytes) (m : Csr Nat) (h : decode s = .ok m) :
    m.indptr.length = m.rows + 1 ∧ m.indptr.head? = some 0 ∧ m.indptr.getLast? = some m.indices.length ∧
      m.indices.length = m.data.length := by
  rw [decode_eq] at h
  cases hp : parse s with
  | error e => rw [hp] at h; cases h
  | ok x =>
    rw [hp, ok_bind] at h
    unfold assemble at h
    cases h1 : uintSize x.1.1.indexSize with
    | error e => rw [h1] at h; cases h
    | ok sz =>
      rw [h1, ok_bind] at h
      cases h2 : frombuffer x.1.1.little sz x.1.2.1 with
      | error e => rw [h2] at h; cases h
      | ok outer =>
        rw [h2, ok_bind, ok_bind] at h
        cases h3 : frombuffer x.1.1.little sz x.1.2.2.1 with
        | error e => rw [h3] at h; cases h
        | ok inner =>
          rw [h3, ok_bind] at h
          cases h4 : floatSize x.1.1.scalarSize with
          | error e => rw [h4] at h; cases h
          | ok fs =>
            rw [h4, ok_bind] at h
            cases h5 : frombuffer x.1.1.little fs x.1.2.2.2 with
            | error e => rw [h5] at h; cases h
            | ok data =>
              rw [h5, ok_bind] at h
              unfold csrArray at h
              simp only at h
              split at h
              · cases h
              split at h
              · cases h
              split at h
              · cases h
              split at h
              · cases h
              rename_i a1 a2 a3 a4
              cases h
              simp only [ne_eq, Decidable.not_not] at a1 a2 a3
              have hne : outer ≠ [] := by intro h0; rw [h0] at a1; simp at a1
              refine ⟨a1, ?_, ?_, ?_⟩
              · cases outer with
                | nil => exact absurd rfl hne
                | cons y ys => simpa using a2
              · rw [List.getLastD_eq_getLast?] at a4 ⊢
                cases hl : outer.getLast? with
                | none => exact absurd (List.getLast?_eq_none_iff.1 hl) hne
                | some y =>
                  rw [hl] at a4
                  simp only [Option.getD_some, List.length_take, Option.some.injEq] at a4 ⊢
                  omega
              · simp only [List.length_take]
                omega

/-- A file that passes the checks. -/
def badFile : MirMatrix := ⟨2, 3, 2, true, 8, 8, [0, 5, 2], [7, 1], [0, 0]⟩

/-- C84 fails for the rest: a corrupted file can give a matrix with a column that does not exist and with row pointers that go
down. -/
theorem C84_refuted : ∃ s m, decode s = .ok m ∧ (∃ c ∈ m.indices, m.cols ≤ c) ∧ m.ptr 2 < m.ptr 1 := by
  refine ⟨badFile.file, ⟨2, 3, [0, 5, 2], [7, 1], [0, 0]⟩, ?_, ⟨7, by decide, by decide⟩, by decide⟩
  have := C53_decodes badFile ⟨by decide, by decide, by decide, .inr rfl, by decide, by decide, by decide, by decide, by decide,
    by decide, by decide, by decide, by decide, by decide, by decide⟩ []
  rwa [List.append_nil] at this

/-- The hypotheses of C53 and C54 can be met, here by a big-endian matrix with 4-byte weights and an empty row. -/
def goodFile : MirMatrix := ⟨3, 2, 3, false, 4, 8, [0, 2, 2, 3], [0, 1, 1], [0x3f000000, 0x3f000000, 0x3f800000]⟩

theorem goodFile_wf : goodFile.Wf := by
  constructor <;> decide

/-- `C53_decodes`, with bytes after the end. -/
example : decode (goodFile.file ++ [1, 2]) = .ok ⟨3, 2, [0, 2, 2, 3], [0, 1, 1], [0x3f000000, 0x3f000000, 0x3f800000]⟩ :=
  C53_decodes goodFile goodFile_wf [1, 2]

/-- `C54_truncated`: the first twenty bytes. -/
example : ∃ e, decode (goodFile.file.take 20) = .error e := C54_truncated goodFile goodFile_wf 20 (by decide +kernel)

/-- `C84_structure_partial`. -/
example : ([0, 2, 2, 3] : List Nat).getLast? = some [0, 1, 1].length :=
  (C84_structure_partial (goodFile.file ++ []) _ (C53_decodes goodFile goodFile_wf [])).2.2.1

end Verif.Mir

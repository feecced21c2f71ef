import Verif.Docs.Xref
import Mathlib.Data.List.TakeWhile

/-! C152: cross references lead where they say. -/

namespace Verif.Docs.Xref

/-- Splitting at the last `<`. -/
theorem lastBrace_eq (a b : Text) (hb : '<' ∉ b) : lastBrace (a ++ '<' :: b) = (a, b) := by
  have hne : ∀ c ∈ b.reverse, (c != '<') = true := by
    intro c hc
    have : c ≠ '<' := by rintro rfl; exact hb (by simpa using hc)
    simpa using this
  have h1 : (a ++ '<' :: b).reverse.dropWhile (· != '<') = '<' :: a.reverse := by
    rw [List.reverse_append, List.reverse_cons, List.append_assoc, List.dropWhile_append_of_pos hne]
    simp
  have h2 : (a ++ '<' :: b).reverse.takeWhile (· != '<') = b.reverse := by
    rw [List.reverse_append, List.reverse_cons, List.append_assoc, List.takeWhile_append_of_pos hne]
    simp
  unfold lastBrace
  rw [h1, h2]
  simp

theorem lazyTitle_eq (title gap : Text) (hne : title ≠ []) (ht : ∀ c, title.getLast? = some c → isSpace c = false)
    (hg : ∀ c ∈ gap, isSpace c = true) : lazyTitle (title ++ gap) = title := by
  cases title with
  | nil => exact absurd rfl hne
  | cons c t =>
    show c :: ((t ++ gap).reverse.dropWhile isSpace).reverse = _
    rw [List.reverse_append, List.dropWhile_append_of_pos (fun d hd => hg d (by simpa using hd))]
    cases hr : t.reverse with
    | nil => simp at hr; subst hr; rfl
    | cons d s =>
      have htt : t = s.reverse ++ [d] := by
        have := congrArg List.reverse hr
        simpa using this
      have hd : isSpace d = false := ht d (by rw [htt, ← List.cons_append, List.getLast?_concat])
      rw [List.dropWhile_cons_of_neg (by simp [hd])]
      simp [htt]

/-- Entries of a table whose targets are different are found. -/
theorem find_mem (links : Links) (hn : (links.map Prod.fst).Nodup) (t title uri : Text) :
    find links t = some (title, uri) ↔ (t, title, uri) ∈ links := by
  unfold find
  induction links with
  | nil => simp
  | cons e l ih =>
    obtain ⟨k, a, b⟩ := e
    simp only [List.map_cons, List.nodup_cons] at hn
    by_cases hk : k = t
    · subst hk
      simp only [List.find?_cons, beq_self_eq_true, Option.map_some, Option.some.injEq, Prod.mk.injEq, List.mem_cons, true_and]
      constructor
      · rintro ⟨rfl, rfl⟩; exact .inl ⟨rfl, rfl⟩
      · rintro (⟨rfl, rfl⟩ | h)
        · exact ⟨rfl, rfl⟩
        · exact absurd (List.mem_map_of_mem (f := Prod.fst) h) hn.1
    · have : (k == t) = false := by simpa using hk
      simp only [List.find?_cons, this]
      rw [ih hn.2]
      simp [Ne.symm hk]

theorem find_none (links : Links) (t : Text) : find links t = none ↔ t ∉ links.map Prod.fst := by
  unfold find
  simp only [Option.map_eq_none_iff, List.find?_eq_none, beq_iff_eq, List.mem_map, not_exists, not_and]

/-- The two ways a role ends. -/
def ofFound (target : Text) (title : Option Text) : Option (Text × Text) → Out
  | some (t, uri) => .node (title.getD t) uri
  | none => .keyError target

theorem xref_target (links : Links) (text : Text) (h : '<' ∉ text) : xref links text = ofFound text none (find links text) := by
  unfold xref
  rw [if_neg h]
  cases find links text <;> rfl

theorem xref_title (links : Links) (title gap target : Text) (hne : title ≠ []) (ht : ∀ c, title.getLast? = some c → isSpace c = false)
    (hg : ∀ c ∈ gap, isSpace c = true) (hx : '<' ∉ target) :
    xref links (title ++ gap ++ '<' :: (target ++ ['>'])) = ofFound target (some title) (find links target) := by
  have h1 : lastBrace (title ++ gap ++ '<' :: (target ++ ['>'])) = (title ++ gap, target ++ ['>']) :=
    lastBrace_eq _ _ (by simpa using hx)
  have h2 : captionRef (title ++ gap ++ '<' :: (target ++ ['>'])) = some (title, target) := by
    unfold captionRef
    rw [h1]
    simp only []
    rw [if_pos ⟨by simp [hne], by simp⟩, lazyTitle_eq title gap hne ht hg]
    simp
  unfold xref
  rw [if_pos (by simp), h2]
  simp only []
  cases find links target <;> rfl

/-- **C152** A target on its own shows the title and leads to the address of the table; one that is not in the table ends the build. -/
theorem C152_target (links : Links) (hn : (links.map Prod.fst).Nodup) (text : Text) (h : '<' ∉ text) :
    (∀ title uri, xref links text = .node title uri ↔ (text, title, uri) ∈ links) ∧
    (∀ t, xref links text = .keyError t ↔ t = text ∧ text ∉ links.map Prod.fst) := by
  rw [xref_target links text h]
  have hm := find_mem links hn text
  have h0 := find_none links text
  cases hf : find links text with
  | none =>
    rw [hf] at hm h0
    exact ⟨fun a b => ⟨fun e => (by cases e), fun e => by cases (hm a b).mpr e⟩,
      fun t => ⟨fun e => by cases e; exact ⟨rfl, h0.mp rfl⟩, fun e => by rw [e.1]; rfl⟩⟩
  | some x =>
    obtain ⟨a, b⟩ := x
    rw [hf] at hm h0
    refine ⟨fun c d => ⟨fun e => ?_, fun e => ?_⟩, fun t => ⟨fun e => (by cases e), fun e => by cases h0.mpr e.2⟩⟩
    · cases e; exact (hm _ _).mp rfl
    · cases (hm c d).mpr e; rfl

/-- **C152** `title <target>` shows the title, whatever characters it has, and leads to the address of the target. -/
theorem C152_title (links : Links) (hn : (links.map Prod.fst).Nodup) (title gap target : Text) (hne : title ≠ [])
    (ht : ∀ c, title.getLast? = some c → isSpace c = false) (hg : ∀ c ∈ gap, isSpace c = true) (hx : '<' ∉ target) :
    (∀ t uri, xref links (title ++ gap ++ '<' :: (target ++ ['>'])) = .node t uri ↔ t = title ∧ ∃ own, (target, own, uri) ∈ links) ∧
    (∀ t, xref links (title ++ gap ++ '<' :: (target ++ ['>'])) = .keyError t ↔ t = target ∧ target ∉ links.map Prod.fst) := by
  rw [xref_title links title gap target hne ht hg hx]
  have hm := find_mem links hn target
  have h0 := find_none links target
  cases hf : find links target with
  | none =>
    rw [hf] at hm h0
    exact ⟨fun a b => ⟨fun e => (by cases e), fun ⟨_, _, e⟩ => (by cases (hm _ b).mpr e)⟩,
      fun t => ⟨fun e => by cases e; exact ⟨rfl, h0.mp rfl⟩, fun e => by rw [e.1]; rfl⟩⟩
  | some x =>
    obtain ⟨a, b⟩ := x
    rw [hf] at hm h0
    refine ⟨fun c d => ⟨fun e => ?_, fun ⟨e1, o, e⟩ => ?_⟩, fun t => ⟨fun e => (by cases e), fun e => by cases h0.mpr e.2⟩⟩
    · cases e; exact ⟨rfl, a, (hm _ _).mp rfl⟩
    · cases (hm o d).mpr e; rw [e1]; rfl

/-- **C152** Every cross reference of the documentation leads somewhere, and shows the name it is written with. -/
theorem C152_documentation (text : Text) (h : text ∈ used) : ∃ uri, xref docsLinks text = .node text uri ∧ (text, text, uri) ∈ docsLinks := by
  simp only [used, List.mem_cons, List.not_mem_nil, or_false] at h
  rcases h with rfl | rfl | rfl | rfl | rfl <;> exact ⟨_, by rfl, by decide⟩

/-- A target in angle brackets without a title is not found, though it is in the table: the closing bracket is taken for a part of it. -/
theorem C152_bare_refuted : ∃ t, (find docsLinks t).isSome = true ∧ xref docsLinks ('<' :: (t ++ ['>'])) = .keyError (t ++ ['>']) :=
  ⟨"earthkit".toList, by decide, by decide⟩

theorem docs_nodup : (docsLinks.map Prod.fst).Nodup := by decide

example : xref docsLinks "a < b <field>".toList =
    .node "a < b".toList "https://earthkit-data.readthedocs.io/en/latest/guide/data_format/grib.html".toList :=
  ((C152_title docsLinks docs_nodup "a < b".toList " ".toList "field".toList (by decide) (by decide) (by decide) (by decide)).1 _ _).mpr
    ⟨rfl, "field".toList, by decide⟩
example : ∃ uri, xref docsLinks "fieldlist".toList = .node "fieldlist".toList uri ∧ ("fieldlist".toList, "fieldlist".toList, uri) ∈ docsLinks :=
  C152_documentation _ (by decide)
example : xref docsLinks "grib".toList = .keyError "grib".toList :=
  ((C152_target docsLinks docs_nodup "grib".toList (by decide)).2 _).mpr ⟨rfl, by decide⟩
example : xref docsLinks "grids <grib>".toList = .keyError "grib".toList :=
  ((C152_title docsLinks docs_nodup "grids".toList " ".toList "grib".toList (by decide) (by decide) (by decide) (by decide)).2 _).mpr
    ⟨rfl, by decide⟩

end Verif.Docs.Xref

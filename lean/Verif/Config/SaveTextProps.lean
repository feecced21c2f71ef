import Verif.Config.SaveText
import Verif.Config.BootProps

/-!
# C150: the text of the configuration file
-/

namespace Verif.Config.SaveText
open Verif.Config Verif.Config.Boot

/-! ## Lines -/

/-- A line without a line break. -/
def Clean (l : Text) : Prop := ∀ c ∈ l, isBreak c = false

theorem splitBy_ne (p : Char → Bool) (t : Text) : splitBy p t ≠ [] := by
  cases t with
  | nil => simp [splitBy]
  | cons c t =>
    unfold splitBy
    split
    · simp
    · split <;> simp

theorem split_clean (l t : Text) (h : Clean l) : splitBy isBreak (say l ++ t) = l :: splitBy isBreak t := by
  induction l with
  | nil => simp [say, splitBy, isBreak]
  | cons c l ih =>
    have hc : isBreak c = false := h c (by simp)
    have ih := ih (fun d hd => h d (by simp [hd]))
    show splitBy isBreak (c :: (say l ++ t)) = _
    simp only [splitBy, hc, ih, Bool.false_eq_true, if_false]

theorem split_last (l : Text) (h : Clean l) : splitBy isBreak l = [l] := by
  induction l with
  | nil => simp [splitBy]
  | cons c l ih =>
    have hc : isBreak c = false := h c (by simp)
    have ih := ih (fun d hd => h d (by simp [hd]))
    unfold splitBy
    rw [hc, ih]
    simp

/-- The pieces have only characters of the text, and none of the kind they are split at. -/
theorem split_mem (p : Char → Bool) (t : Text) : ∀ l ∈ splitBy p t, ∀ c ∈ l, c ∈ t ∧ p c = false := by
  induction t with
  | nil => simp [splitBy]
  | cons d t ih =>
    intro l hl c hc
    unfold splitBy at hl
    split at hl
    · rcases List.mem_cons.1 hl with rfl | hl
      · cases hc
      · exact ⟨List.mem_cons_of_mem _ (ih l hl c hc).1, (ih l hl c hc).2⟩
    · rename_i hd
      split at hl
      · rename_i he
        exact absurd he (splitBy_ne p t)
      · rename_i l0 ls he
        rcases List.mem_cons.1 hl with rfl | hl
        · rcases List.mem_cons.1 hc with rfl | hc
          · exact ⟨by simp, by simpa using hd⟩
          · have := ih l0 (by rw [he]; simp) c hc
            exact ⟨List.mem_cons_of_mem _ this.1, this.2⟩
        · have := ih l (by rw [he]; simp [hl]) c hc
          exact ⟨List.mem_cons_of_mem _ this.1, this.2⟩

/-! ## Plain texts -/

theorem plainFirst_char {c : Char} (h : plainFirst c = true) : plainChar c = true := by unfold plainChar; simp [h]

theorem plainChar_colon : plainChar ':' = false := by decide
theorem plainChar_quote : plainChar '\'' = false := by decide
theorem plainChar_hash : plainChar '#' = false := by decide

theorem plainChar_break {c : Char} (h : plainChar c = true) : isBreak c = false := by
  cases hb : isBreak c with
  | false => rfl
  | true =>
    exfalso
    unfold isBreak at hb
    simp only [Bool.or_eq_true, beq_iff_eq] at hb
    rcases hb with (((rfl | rfl) | rfl) | rfl) | rfl <;> revert h <;> decide

theorem plain_chars {t : Text} (h : plainText t = true) : ∀ c ∈ t, plainChar c = true := by
  cases t with
  | nil => simp
  | cons c t =>
    simp only [plainText, Bool.and_eq_true, List.all_eq_true] at h
    intro d hd
    rcases List.mem_cons.1 hd with rfl | hd
    · exact plainFirst_char h.1
    · exact h.2 d hd

theorem plain_prefix {t p : Text} (h : plainText t = true) (hp : p <+: t) (hne : p ≠ []) : plainText p = true := by
  cases p with
  | nil => exact absurd rfl hne
  | cons c p =>
    obtain ⟨r, rfl⟩ := hp
    simp only [plainText, List.cons_append, Bool.and_eq_true, List.all_append] at h ⊢
    exact ⟨h.1, h.2.1⟩

theorem digit_plain (n : Nat) (h : n < 10) : plainFirst (Char.ofNat (48 + n)) = true := by
  have : ∀ m : Fin 10, plainFirst (Char.ofNat (48 + m.val)) = true := by decide
  exact this ⟨n, h⟩

theorem dec_ne (n : Nat) : dec n ≠ [] := by
  unfold dec
  split <;> simp

theorem dec_plain (n : Nat) : plainText (dec n) = true := by
  induction n using Nat.strong_induction_on with
  | _ n ih =>
    unfold dec
    split
    · rename_i h
      simp [plainText, digit_plain n h]
    · rename_i h
      have h1 := ih (n / 10) (by omega)
      cases hd : dec (n / 10) with
      | nil => exact absurd hd (dec_ne _)
      | cons c t =>
        rw [hd] at h1
        simp only [plainText, List.cons_append, Bool.and_eq_true, List.all_append] at h1 ⊢
        refine ⟨h1.1, h1.2, ?_⟩
        simp only [List.all_cons, List.all_nil, Bool.and_true]
        exact plainFirst_char (digit_plain _ (by omega))

/-- Every key of a saved file is a plain text. -/
theorem names_plain : ∀ k ∈ names, plainText k.toList = true := by decide +kernel

/-! ## Values -/

/-- How the text of a value begins tells how it is read. -/
theorem scalar_cases (Y : Yaml) (v : V) (hv : plainV v = true) :
    (plainText (scalar Y.resolve v) = true ∧ (Y.resolve (scalar Y.resolve v)).getD (.str (scalar Y.resolve v)) = v) ∨
    (∃ s, v = .str s ∧ scalar Y.resolve v = '\'' :: s ++ ['\''] ∧ ∀ c ∈ s, plainChar c = true) := by
  match v, hv with
  | .none, _ => exact .inl ⟨by simp only [scalar]; decide, by simp only [scalar, Y.null_]; rfl⟩
  | .bool true, _ => exact .inl ⟨by simp only [scalar]; decide, by simp only [scalar, Y.true_]; rfl⟩
  | .bool false, _ => exact .inl ⟨by simp only [scalar]; decide, by simp only [scalar, Y.false_]; rfl⟩
  | .int i, hv =>
    left
    simp only [plainV, decide_eq_true_eq] at hv
    refine ⟨dec_plain _, ?_⟩
    simp only [scalar, Y.dec_, Option.getD_some, Int.toNat_of_nonneg hv]
  | .str s, hv =>
    simp only [plainV, Bool.or_eq_true, List.isEmpty_iff] at hv
    by_cases h : s = [] ∨ Y.resolve s ≠ none
    · right
      refine ⟨s, rfl, by simp only [scalar, if_pos h], ?_⟩
      rcases hv with rfl | hv
      · simp
      · exact plain_chars hv
    · left
      have hs : scalar Y.resolve (.str s) = s := by simp only [scalar, if_neg h]
      rw [hs]
      simp only [not_or, not_not] at h
      refine ⟨hv.resolve_left h.1, ?_⟩
      rw [h.2]; rfl

/-- What is left of a value in a text that ends inside of it: nothing, or what the piece reads as. -/
def CutVal (Y : Yaml) (v w : V) : Prop :=
  w = .none ∨ ∃ x, x <+: scalar Y.resolve v ∧ x ≠ [] ∧ w = (Y.resolve x).getD (.str x)

theorem value_plain (Y : Yaml) (k : String) (x : Text) (h : plainText x = true) :
    Y.value k x = .entry k ((Y.resolve x).getD (.str x)) := by
  unfold Yaml.value
  split
  · simp [plainText] at h
  · rename_i q
    simp [plainText] at h
    exact absurd (plainFirst_char h.1) (by decide)
  · simp [h]

theorem value_full (Y : Yaml) (k : String) (v : V) (hv : plainV v = true) : Y.value k (scalar Y.resolve v) = .entry k v := by
  rcases scalar_cases Y v hv with ⟨h1, h2⟩ | ⟨s, rfl, h2, h3⟩
  · rw [value_plain Y k _ h1, h2]
  · rw [h2]
    have hq : '\'' ∉ s := fun hm => by have := h3 _ hm; simp [plainChar_quote] at this
    show Y.value k ('\'' :: (s ++ ['\''])) = _
    unfold Yaml.value
    simp [hq]

theorem value_cut (Y : Yaml) (k : String) (v : V) (hv : plainV v = true) (x : Text) (hx : x <+: scalar Y.resolve v) :
    Y.value k x = .bad ∨ Y.value k x = .entry k v ∨ ∃ w, CutVal Y v w ∧ Y.value k x = .entry k w := by
  by_cases hne : x = []
  · subst hne
    exact .inr (.inr ⟨.none, .inl rfl, rfl⟩)
  · rcases scalar_cases Y v hv with ⟨h1, h2⟩ | ⟨s, rfl, h2, h3⟩
    · exact .inr (.inr ⟨_, .inr ⟨x, hx, hne, rfl⟩, value_plain Y k x (plain_prefix h1 hx hne)⟩)
    · have hq : '\'' ∉ s := fun hm => by have := h3 _ hm; simp [plainChar_quote] at this
      by_cases hfull : x = scalar Y.resolve (.str s)
      · rw [hfull]; exact .inr (.inl (value_full Y k _ hv))
      · left
        rw [h2] at hx hfull
        cases x with
        | nil => exact absurd rfl hne
        | cons c q =>
          obtain ⟨rfl, hq2⟩ := List.cons_prefix_cons.1 hx
          have hqs : q <+: s := by
            rcases List.prefix_concat_iff.1 hq2 with h | h
            · exact absurd (by rw [h]; rfl) hfull
            · exact h
          unfold Yaml.value
          have : '\'' ∉ q := fun hm => hq (hqs.subset hm)
          simp [this]

/-! ## Lines of the file -/

theorem takeWhile_key (k rest : Text) (h : ∀ c ∈ k, plainChar c = true) :
    (k ++ ':' :: rest).takeWhile (· != ':') = k ∧ (k ++ ':' :: rest).dropWhile (· != ':') = ':' :: rest := by
  induction k with
  | nil => simp
  | cons c k ih =>
    have hc : (c != ':') = true := by
      have := h c (by simp)
      simp only [bne_iff_ne]
      rintro rfl
      simp [plainChar_colon] at this
    have := ih (fun d hd => h d (by simp [hd]))
    simp only [List.cons_append, List.takeWhile_cons, List.dropWhile_cons, hc, if_true]
    exact ⟨by rw [this.1], this.2⟩

theorem takeWhile_word (k : Text) (h : ∀ c ∈ k, plainChar c = true) :
    k.takeWhile (· != ':') = k ∧ k.dropWhile (· != ':') = [] := by
  induction k with
  | nil => simp
  | cons c k ih =>
    have hc : (c != ':') = true := by
      have := h c (by simp)
      simp only [bne_iff_ne]
      rintro rfl
      simp [plainChar_colon] at this
    have := ih (fun d hd => h d (by simp [hd]))
    simp only [List.takeWhile_cons, List.dropWhile_cons, hc, if_true]
    exact ⟨by rw [this.1], this.2⟩

theorem plain_head {k t : Text} (h : plainText k = true) : ¬ (k ++ t = [] ∨ (k ++ t).head? = some '#') := by
  cases k with
  | nil => simp [plainText] at h
  | cons c k =>
    simp only [plainText, Bool.and_eq_true] at h
    rintro (h1 | h1)
    · simp at h1
    · simp only [List.cons_append, List.head?_cons, Option.some.injEq] at h1
      subst h1
      exact absurd h.1 (by decide)

theorem line_colon (Y : Yaml) (k : String) (hk : k ∈ names) (x : Text) :
    Y.line (k.toList ++ ':' :: ' ' :: x) = Y.value k x ∧ Y.line (k.toList ++ [':']) = .entry k .none := by
  have hp := names_plain k hk
  have hr := Y.names_ k hk
  constructor
  · obtain ⟨h1, h2⟩ := takeWhile_key k.toList (' ' :: x) (plain_chars hp)
    unfold Yaml.line
    rw [if_neg (plain_head hp)]
    simp only [h1, h2, hp, if_true, hr, String.ofList_toList]
  · obtain ⟨h1, h2⟩ := takeWhile_key k.toList [] (plain_chars hp)
    unfold Yaml.line
    rw [if_neg (plain_head hp)]
    simp only [h1, h2, hp, if_true, hr, String.ofList_toList]

theorem line_entry (Y : Yaml) (k : String) (hk : k ∈ names) (v : V) (hv : plainV v = true) :
    Y.line (k.toList ++ ':' :: ' ' :: scalar Y.resolve v) = .entry k v := by
  rw [(line_colon Y k hk _).1, value_full Y k v hv]

theorem line_word (Y : Yaml) (k : Text) (hk : plainText k = true) : Y.line k = .word := by
  obtain ⟨h1, h2⟩ := takeWhile_word k (plain_chars hk)
  have := plain_head (t := []) hk
  rw [List.append_nil] at this
  unfold Yaml.line
  rw [if_neg this]
  simp only [h1, h2, hk, if_true]

theorem line_skip (Y : Yaml) (l : Text) (h : l = [] ∨ l.head? = some '#') : Y.line l = .skip := by
  unfold Yaml.line
  rw [if_pos h]

theorem prefix_append {p a b : Text} (h : p <+: a ++ b) : p <+: a ∨ ∃ q, p = a ++ q ∧ q <+: b := by
  induction a generalizing p with
  | nil => exact .inr ⟨p, rfl, h⟩
  | cons c a ih =>
    cases p with
    | nil => exact .inl (List.nil_prefix)
    | cons d p =>
      obtain ⟨rfl, h'⟩ := List.cons_prefix_cons.1 h
      rcases ih h' with h' | ⟨q, rfl, hq⟩
      · exact .inl (List.cons_prefix_cons.2 ⟨rfl, h'⟩)
      · exact .inr ⟨q, rfl, hq⟩

/-- What yaml makes of a line of the file that is cut. -/
theorem line_cut (Y : Yaml) (k : String) (hk : k ∈ names) (v : V) (hv : plainV v = true) (p : Text)
    (hp : p <+: k.toList ++ ':' :: ' ' :: scalar Y.resolve v) :
    Y.line p = .skip ∨ Y.line p = .word ∨ Y.line p = .bad ∨ Y.line p = .entry k v ∨ ∃ w, CutVal Y v w ∧ Y.line p = .entry k w := by
  rcases prefix_append hp with h | ⟨q, rfl, h⟩
  · by_cases hne : p = []
    · subst hne; exact .inl (line_skip Y _ (.inl rfl))
    · exact .inr (.inl (line_word Y p (plain_prefix (names_plain k hk) h hne)))
  · cases q with
    | nil =>
      rw [List.append_nil]
      exact .inr (.inl (line_word Y _ (names_plain k hk)))
    | cons c q =>
      obtain ⟨rfl, h1⟩ := List.cons_prefix_cons.1 h
      cases q with
      | nil => exact .inr (.inr (.inr (.inr ⟨.none, .inl rfl, (line_colon Y k hk []).2⟩)))
      | cons d q =>
        obtain ⟨rfl, h2⟩ := List.cons_prefix_cons.1 h1
        rw [(line_colon Y k hk q).1]
        exact .inr (.inr (value_cut Y k v hv q h2))

/-! ## The text as lines -/

/-- A text made of empty lines, comments and the given entries in order. -/
inductive Written (Y : Yaml) : Text → List (String × V) → Prop where
  | nil : Written Y [] []
  | skip (l t : Text) (es : List (String × V)) : Clean l → (l = [] ∨ l.head? = some '#') → Written Y t es → Written Y (say l ++ t) es
  | entry (k : String) (v : V) (t : Text) (es : List (String × V)) : k ∈ names → plainV v = true → Written Y t es →
      Written Y (say (k.toList ++ ':' :: ' ' :: scalar Y.resolve v) ++ t) ((k, v) :: es)

theorem Written.append {Y : Yaml} {t u : Text} {es fs : List (String × V)} (h : Written Y t es) (h2 : Written Y u fs) :
    Written Y (t ++ u) (es ++ fs) := by
  induction h with
  | nil => exact h2
  | skip l t es hl hk _ ih => rw [List.append_assoc]; exact .skip l _ _ hl hk ih
  | entry k v t es hk hv _ ih => rw [List.append_assoc]; exact .entry k v _ _ hk hv ih

theorem scalar_clean (Y : Yaml) (v : V) (hv : plainV v = true) : Clean (scalar Y.resolve v) := by
  rcases scalar_cases Y v hv with ⟨h1, _⟩ | ⟨s, _, h2, h3⟩
  · exact fun c hc => plainChar_break (plain_chars h1 c hc)
  · rw [h2]
    intro c hc
    rcases List.mem_append.1 hc with hc | hc
    · rcases List.mem_cons.1 hc with rfl | hc
      · decide
      · exact plainChar_break (h3 c hc)
    · simp only [List.mem_singleton] at hc
      subst hc
      decide

theorem entry_clean (Y : Yaml) (k : String) (hk : k ∈ names) (v : V) (hv : plainV v = true) :
    Clean (k.toList ++ ':' :: ' ' :: scalar Y.resolve v) := by
  intro c hc
  rcases List.mem_append.1 hc with hc | hc
  · exact plainChar_break (plain_chars (names_plain k hk) c hc)
  · rcases List.mem_cons.1 hc with rfl | hc
    · decide
    · rcases List.mem_cons.1 hc with rfl | hc
      · decide
      · exact scalar_clean Y v hv c hc

/-- The entries as the reader gives them. -/
def enc (es : List (String × V)) : List (Key × V) := es.map (fun e => (.text e.1, e.2))

/-- A text of entries: a mapping if there is one. -/
def finish (es : List (Key × V)) : Content := if es = [] then .plain else .mapping es

theorem written_then (Y : Yaml) (t : Text) (es : List (String × V)) (h : Written Y t es) (p : Text) (acc : List (Key × V)) :
    readLines ((splitBy isBreak (t ++ p)).map Y.line) acc = readLines ((splitBy isBreak p).map Y.line) (acc ++ enc es) := by
  induction h generalizing acc with
  | nil => simp [enc]
  | skip l t es hl hk _ ih =>
    rw [List.append_assoc, split_clean _ _ hl, List.map_cons, line_skip Y l hk]
    exact ih acc
  | entry k v t es hk hv _ ih =>
    rw [List.append_assoc, split_clean _ _ (entry_clean Y k hk v hv), List.map_cons, line_entry Y k hk v hv]
    show readLines _ (acc ++ [(.text k, v)]) = _
    rw [ih, List.append_assoc]
    rfl

theorem written_read (Y : Yaml) (t : Text) (es : List (String × V)) (h : Written Y t es) (acc : List (Key × V)) :
    readLines ((splitBy isBreak t).map Y.line) acc = some (finish (acc ++ enc es)) := by
  have := written_then Y t es h [] acc
  rw [List.append_nil] at this
  rw [this, split_last [] (by intro c hc; cases hc), List.map_singleton, line_skip Y [] (.inl rfl)]
  rfl

/-- What a cut text reads as: nothing at all (an error), the first entries, or the first entries and one that is cut. -/
def CutRead (Y : Yaml) (acc : List (Key × V)) (es : List (String × V)) (r : Option Content) : Prop :=
  r = some .plain ∨ r = some .broken ∨ (∃ m, r = some (.mapping (acc ++ enc (es.take m)))) ∨
    ∃ m k v w, es[m]? = some (k, v) ∧ CutVal Y v w ∧ r = some (.mapping (acc ++ enc (es.take m) ++ [(.text k, w)]))

theorem finish_cut (Y : Yaml) (acc : List (Key × V)) (es : List (String × V)) : CutRead Y acc es (some (finish acc)) := by
  unfold finish
  split
  · exact .inl rfl
  · exact .inr (.inr (.inl ⟨0, by simp [enc]⟩))

theorem written_cut (Y : Yaml) (t : Text) (es : List (String × V)) (h : Written Y t es) :
    ∀ (acc : List (Key × V)) (p : Text), p <+: t → CutRead Y acc es (readLines ((splitBy isBreak p).map Y.line) acc) := by
  induction h with
  | nil =>
    intro acc p hp
    rw [List.prefix_nil.1 hp, split_last [] (by intro c hc; cases hc), List.map_singleton, line_skip Y [] (.inl rfl)]
    exact finish_cut Y acc []
  | skip l t es hl hk _ ih =>
    intro acc p hp
    rcases prefix_append hp with h | ⟨q, rfl, h⟩
    · rcases List.prefix_concat_iff.1 h with rfl | h
      · have := split_clean l [] hl
        rw [List.append_nil] at this
        show CutRead Y acc es (readLines ((splitBy isBreak (say l)).map Y.line) acc)
        rw [this, List.map_cons, line_skip Y l hk]
        exact ih acc [] List.nil_prefix
      · have hs : p = [] ∨ p.head? = some '#' := by
          cases p with
          | nil => exact .inl rfl
          | cons c p =>
            right
            obtain ⟨r, rfl⟩ := h
            simpa using hk
        rw [split_last p (fun c hc => hl c (h.subset hc)), List.map_singleton, line_skip Y p hs]
        exact finish_cut Y acc es
    · rw [split_clean l q hl, List.map_cons, line_skip Y l hk]
      exact ih acc q h
  | entry k v t es hk hv _ ih =>
    intro acc p hp
    have hcl := entry_clean Y k hk v hv
    -- a text that has the whole line
    have whole : ∀ q, q <+: t → CutRead Y acc ((k, v) :: es)
        (readLines ((splitBy isBreak (say (k.toList ++ ':' :: ' ' :: scalar Y.resolve v) ++ q)).map Y.line) acc) := by
      intro q hq
      rw [split_clean _ q hcl, List.map_cons, line_entry Y k hk v hv]
      show CutRead Y acc ((k, v) :: es) (readLines _ (acc ++ [(.text k, v)]))
      rcases ih (acc ++ [(.text k, v)]) q hq with h | h | ⟨m, h⟩ | ⟨m, k', v', w, h1, h2, h3⟩
      · exact .inl h
      · exact .inr (.inl h)
      · refine .inr (.inr (.inl ⟨m + 1, ?_⟩))
        rw [h]
        simp [enc]
      · refine .inr (.inr (.inr ⟨m + 1, k', v', w, by simpa using h1, h2, ?_⟩))
        rw [h3]
        simp [enc]
    rcases prefix_append hp with h | ⟨q, rfl, h⟩
    · rcases List.prefix_concat_iff.1 h with rfl | h
      · have := whole [] List.nil_prefix
        rwa [List.append_nil] at this
      · rw [split_last p (fun c hc => hcl c (h.subset hc)), List.map_singleton]
        rcases line_cut Y k hk v hv p h with hl | hl | hl | hl | ⟨w, hw, hl⟩ <;> rw [hl]
        · exact finish_cut Y acc _
        · show CutRead Y acc _ (some (if acc = [] then .plain else .broken))
          split
          · exact .inl rfl
          · exact .inr (.inl rfl)
        · exact .inr (.inl rfl)
        · refine .inr (.inr (.inl ⟨1, ?_⟩))
          simp [readLines, enc]
        · refine .inr (.inr (.inr ⟨0, k, v, w, rfl, hw, ?_⟩))
          simp [readLines, enc]
    · exact whole q h

/-! ## The text of `save_config` -/

/-- The descriptions have no other line break than `\n`. -/
def PlainBreaks (D : String → Text) : Prop := ∀ k c, c ∈ D k → isBreak c = true → c = '\n'

/-- All values that are written are plain. -/
def PlainConf (P : Py) (c : Conf) : Prop := plainV (.str P.version) = true ∧ ∀ k ∈ SORTED, ∀ v, c k = some v → plainV v = true

theorem say_skip (Y : Yaml) (l : Text) (hl : Clean l) (h : l = [] ∨ l.head? = some '#') : Written Y (say l) [] := by
  have := Written.skip (Y := Y) l [] [] hl h .nil
  rwa [List.append_nil] at this

theorem comments (Y : Yaml) (ls : List Text) (f : Text → Text) (h : ∀ l ∈ ls, Clean (f l)) :
    Written Y (ls.flatMap (fun l => say ('#' :: ' ' :: f l))) [] := by
  induction ls with
  | nil => exact .nil
  | cons l ls ih =>
    rw [List.flatMap_cons]
    refine .skip _ _ _ ?_ (.inr rfl) (ih (fun m hm => h m (by simp [hm])))
    intro c hc
    rcases List.mem_cons.1 hc with rfl | hc
    · decide
    · rcases List.mem_cons.1 hc with rfl | hc
      · decide
      · exact h l (by simp) c hc

theorem split_clean_pieces (t : Text) (h : ∀ c ∈ t, isBreak c = true → c = '\n') : ∀ l ∈ splitBy (· == '\n') t, Clean l := by
  intro l hl c hc
  obtain ⟨h1, h2⟩ := split_mem _ t l hl c hc
  cases hb : isBreak c with
  | false => rfl
  | true => simp [h c h1 hb] at h2

theorem strip_mem (P : Py) (t : Text) : ∀ c ∈ strip P t, c ∈ t := by
  intro c hc
  unfold strip at hc
  rw [List.mem_reverse] at hc
  have := (List.dropWhile_sublist _).subset hc
  rw [List.mem_reverse] at this
  exact (List.dropWhile_sublist _).subset this

theorem dump_written (Y : Yaml) (k : String) (hk : k ∈ names) (v : V) (hv : plainV v = true) : Written Y (Y.dump k v) [(k, v)] := by
  have := Written.entry (Y := Y) k v [] [] hk hv .nil
  rw [List.append_nil] at this
  rw [Y.dump_plain k hk v hv]
  simpa [say] using this

theorem blank (Y : Yaml) : Written Y (say []) [] := say_skip Y [] (by intro c hc; cases hc) (.inl rfl)

theorem saveOption_head (Y : Yaml) (P : Py) (D : String → Text) (hD : PlainBreaks D) (k : String) (dflt : V) :
    Written Y ((splitBy (· == '\n') (D k)).flatMap (fun n => say ('#' :: ' ' :: strip P n)) ++ say [] ++
      ((splitBy (· == '\n') (Y.dump k dflt)).filter (fun n => !n.isEmpty)).flatMap (fun n => say ('#' :: ' ' :: n))) [] := by
  refine ((comments Y _ (strip P) fun l hl c hc => ?_).append (blank Y)).append (comments Y _ id fun l hl => ?_)
  · exact split_clean_pieces (D k) (hD k) l hl c (strip_mem P l c hc)
  · exact split_clean_pieces _ (Y.dump_break k dflt) l (List.mem_of_mem_filter hl)

theorem ruler_written (Y : Yaml) : Written Y (say ruler) [] := by
  refine say_skip Y ruler (fun c hc => ?_) (.inr rfl)
  unfold ruler at hc
  rcases List.mem_cons.1 hc with rfl | hc
  · decide
  · rcases List.mem_cons.1 hc with rfl | hc
    · decide
    · rw [(List.mem_replicate.1 hc).2]; decide

theorem saveEach_written (Y : Yaml) (D : String → Text) (hD : PlainBreaks D) (P : Py) (c : Conf) (k : String) (hk : k ∈ SORTED)
    (hc : ∀ v, c k = some v → plainV v = true) : Written Y (saveEach Y D P c k) (dumpOne P c k).toList := by
  unfold saveEach dumpOne
  cases ho : option P k with
  | none => exact .nil
  | some o =>
    cases hv : c k with
    | none => exact .nil
    | some v =>
      simp only
      refine ((blank Y).append (ruler_written Y)).append (es := []) ?_
      refine (saveOption_head Y P D hD k o.default).append (es := []) ?_
      split
      · exact .nil
      · exact (blank Y).append (dump_written Y k (by simp [names, hk]) v (hc v hv))

theorem saveEach_list (Y : Yaml) (D : String → Text) (hD : PlainBreaks D) (P : Py) (c : Conf) (ks : List String)
    (hk : ∀ k ∈ ks, k ∈ SORTED) (hc : ∀ k ∈ ks, ∀ v, c k = some v → plainV v = true) :
    Written Y (ks.flatMap (saveEach Y D P c)) (ks.filterMap (dumpOne P c)) := by
  induction ks with
  | nil => exact .nil
  | cons k ks ih =>
    have h1 := saveEach_written Y D hD P c k (hk k (by simp)) (hc k (by simp))
    have h2 := ih (fun j hj => hk j (by simp [hj])) (fun j hj => hc j (by simp [hj]))
    rw [List.flatMap_cons, List.filterMap_cons]
    have h3 := h1.append h2
    cases hd : dumpOne P c k with
    | none => simpa [hd] using h3
    | some e => simpa [hd] using h3

theorem head_written (Y : Yaml) : Written Y (say "# This file is automatically generated".toList ++ say []) [] := by
  refine (say_skip Y _ ?_ (.inr rfl)).append (blank Y)
  show ∀ c ∈ "# This file is automatically generated".toList, isBreak c = false
  decide

theorem tail_written (Y : Yaml) : Written Y (say [] ++ say ruler ++ say "# Version of earthkit-regrid".toList ++ say []) [] := by
  refine (((blank Y).append (ruler_written Y)).append (say_skip Y _ ?_ (.inr rfl))).append (blank Y)
  show ∀ c ∈ "# Version of earthkit-regrid".toList, isBreak c = false
  decide

theorem saveText_written (Y : Yaml) (D : String → Text) (hD : PlainBreaks D) (P : Py) (c : Conf) (hc : PlainConf P c) :
    Written Y (saveText Y D P c) (dump P c) := by
  have h := (((head_written Y).append (saveEach_list Y D hD P c SORTED (fun _ h => h) hc.2)).append (tail_written Y)).append
    ((dump_written Y "version" (by simp [names]) _ hc.1).append (blank Y))
  simpa [saveText, dump, List.append_assoc] using h

theorem plain_safe (P : Py) (v : V) (h : plainV v = true) : safe P v = true := by
  cases v <;> simp_all [plainV, safe]

theorem dump_plainV (P : Py) (c : Conf) (hc : PlainConf P c) : ∀ e ∈ dump P c, plainV e.2 = true := by
  intro e he
  unfold dump at he
  rcases List.mem_append.1 he with he | he
  · obtain ⟨k, hk, hd⟩ := List.mem_filterMap.1 he
    unfold dumpOne at hd
    split at hd
    · rename_i o v _ hv
      split at hd
      · cases hd
      · cases hd
        exact hc.2 k hk v hv
    · cases hd
  · simp only [List.mem_singleton] at he
    subst he
    exact hc.1

/-- **C150**: whatever the descriptions and the values of the options, the text that is saved reads as the options that differ from
their defaults: nothing in a comment counts, nothing saved is missing. -/
theorem C150_reads_partial (Y : Yaml) (D : String → Text) (hD : PlainBreaks D) (P : Py) (c : Conf) (hc : PlainConf P c) :
    Y.read (saveText Y D P c) = some (encode P (dump P c)) := by
  have h := written_read Y _ _ (saveText_written Y D hD P c hc) []
  unfold Yaml.read
  rw [h]
  have hs : (dump P c).all (fun e => safe P e.2) = true :=
    List.all_eq_true.2 fun e he => plain_safe P _ (dump_plainV P c hc e he)
  unfold encode
  rw [if_pos hs]
  unfold finish
  rw [if_neg (by unfold enc dump; simp)]
  rfl

/-! ## A file that is cut -/

/-- The options of a process that starts with the content of a file. -/
def started (P : Py) (x : Content) : Conf := (initConfig P (some x)).1

theorem started_enc (P : Py) (es : List (String × V)) :
    started P (.mapping (enc es)) = es.foldl (fun c e => Conf.set c e.1 e.2) (DEFAULTS P) := overlay_text P es

theorem started_last (P : Py) (es : List (String × V)) (k : String) (w : V) :
    started P (.mapping (enc es ++ [(.text k, w)])) = Conf.set (es.foldl (fun c e => Conf.set c e.1 e.2) (DEFAULTS P)) k w := by
  have : enc es ++ [(.text k, w)] = enc (es ++ [(k, w)]) := by simp [enc]
  rw [this, started_enc, List.foldl_append]
  rfl

theorem take_nodup {es : List (String × V)} (h : (es.map Prod.fst).Nodup) (m : Nat) : ((es.take m).map Prod.fst).Nodup := by
  rw [List.map_take]
  exact (List.take_sublist _ _).nodup h

/-- An option after the first entries: as after all of them, or as it was. -/
theorem take_fold (es : List (String × V)) (c0 : Conf) (h : (es.map Prod.fst).Nodup) (m : Nat) (k : String) :
    ((es.take m).foldl (fun c e => Conf.set c e.1 e.2) c0) k = c0 k ∨
    ((es.take m).foldl (fun c e => Conf.set c e.1 e.2) c0) k = (es.foldl (fun c e => Conf.set c e.1 e.2) c0) k := by
  by_cases hk : k ∈ (es.take m).map Prod.fst
  · right
    obtain ⟨⟨k', v⟩, he, rfl⟩ := List.mem_map.1 hk
    rw [(foldl_set _ c0 (take_nodup h m) _).1 v he, (foldl_set _ c0 h _).1 v (List.mem_of_mem_take he)]
  · exact .inl ((foldl_set _ c0 (take_nodup h m) _).2 hk)

/-- **C150**, the part that holds of a file that is cut anywhere (a crash, a full disk, a reader in the middle of a save): it reads as
something, and every option but one is as saved or its default. The remaining one may also have what is left of its value. -/
theorem C150_moment_partial (Y : Yaml) (D : String → Text) (hD : PlainBreaks D) (P : Py) (c : Conf) (hc : PlainConf P c) (n : Nat) :
    ∃ x o, Y.read ((saveText Y D P c).take n) = some x ∧
      ∀ k, started P x k = DEFAULTS P k ∨ started P x k = started P (encode P (dump P c)) k ∨
        (k = o ∧ ∃ v w, (k, v) ∈ dump P c ∧ CutVal Y v w ∧ started P x k = some w) := by
  have hn := dump_nodup P c
  have hs : (dump P c).all (fun e => safe P e.2) = true :=
    List.all_eq_true.2 fun e he => plain_safe P _ (dump_plainV P c hc e he)
  have hwhole : started P (encode P (dump P c)) = (dump P c).foldl (fun c e => Conf.set c e.1 e.2) (DEFAULTS P) := by
    unfold encode
    rw [if_pos hs]
    exact overlay_text P _
  rcases written_cut Y _ _ (saveText_written Y D hD P c hc) [] _ (List.take_prefix n _) with h | h | ⟨m, h⟩ | ⟨m, k, v, w, h1, h2, h⟩
  · exact ⟨_, "", h, fun k => .inl rfl⟩
  · exact ⟨_, "", h, fun k => .inl rfl⟩
  · refine ⟨_, "", h, fun k => ?_⟩
    rw [List.nil_append, started_enc, hwhole]
    rcases take_fold (dump P c) (DEFAULTS P) hn m k with h | h
    · exact .inl h
    · exact .inr (.inl h)
  · refine ⟨_, k, h, fun j => ?_⟩
    rw [List.nil_append, started_last, hwhole]
    by_cases hj : j = k
    · subst hj
      exact .inr (.inr ⟨rfl, v, w, List.mem_of_getElem? h1, h2, by simp [Conf.set]⟩)
    · have : ∀ d : Conf, Conf.set d k w j = d j := fun d => by simp [Conf.set, hj]
      rw [this]
      rcases take_fold (dump P c) (DEFAULTS P) hn m j with h | h
      · exact .inl h
      · exact .inr (.inl h)

/-- The text up to the entry of an option. -/
theorem saveText_at (Y : Yaml) (D : String → Text) (hD : PlainBreaks D) (P : Py) (c : Conf) (hc : PlainConf P c) (k : String) (v : V)
    (hk : k ∈ SORTED) (h : dumpOne P c k = some (k, v)) :
    ∃ u es rest, Written Y u es ∧ saveText Y D P c = u ++ (k.toList ++ ':' :: ' ' :: scalar Y.resolve v) ++ rest := by
  obtain ⟨A, B, hAB⟩ := List.append_of_mem hk
  obtain ⟨o, ho, hv, hp⟩ : ∃ o, option P k = some o ∧ c k = some v ∧ pyEq v o.default = false := by
    unfold dumpOne at h
    split at h
    · rename_i o v' ho hv
      split at h
      · cases h
      · rename_i hp
        cases h
        exact ⟨o, ho, hv, by simpa using hp⟩
    · cases h
  have hA := saveEach_list Y D hD P c A (fun j hj => by rw [hAB]; simp [hj]) (fun j hj => hc.2 j (by rw [hAB]; simp [hj]))
  have hu := (((head_written Y).append hA).append
    (((blank Y).append (ruler_written Y)).append (saveOption_head Y P D hD k o.default))).append (blank Y)
  refine ⟨_, _, ['\n'] ++ B.flatMap (saveEach Y D P c) ++ (say [] ++ say ruler ++ say "# Version of earthkit-regrid".toList ++ say [] ++
    Y.dump "version" (.str P.version) ++ say []), hu, ?_⟩
  have hd := Y.dump_plain k (by simp [names, hk]) v (hc.2 k hk v hv)
  have he : saveEach Y D P c k = say [] ++ say ruler ++ saveOption Y P (D k) k o.default v := by
    unfold saveEach
    rw [ho, hv]
  have hso : saveOption Y P (D k) k o.default v = ((splitBy (· == '\n') (D k)).flatMap (fun n => say ('#' :: ' ' :: strip P n)) ++ say [] ++
      ((splitBy (· == '\n') (Y.dump k o.default)).filter (fun n => !n.isEmpty)).flatMap (fun n => say ('#' :: ' ' :: n))) ++
      (say [] ++ Y.dump k v) := by
    unfold saveOption
    rw [if_neg (by simp [hp])]
  unfold saveText
  rw [hAB, List.flatMap_append, List.flatMap_cons, he, hso, hd]
  simp only [List.append_assoc, List.cons_append, List.nil_append]

/-- What is asked does not hold: for every option that is not its default and is written without quotes, and every way to cut its value,
there is a moment at which a process that starts has what is left of the value. -/
theorem C150_refuted (Y : Yaml) (D : String → Text) (hD : PlainBreaks D) (P : Py) (c : Conf) (hc : PlainConf P c) (k : String) (v : V)
    (hk : k ∈ SORTED) (h : dumpOne P c k = some (k, v)) (x : Text) (hx : x <+: scalar Y.resolve v) (hp : plainText x = true) :
    ∃ n y, Y.read ((saveText Y D P c).take n) = some y ∧ started P y k = some ((Y.resolve x).getD (.str x)) := by
  obtain ⟨u, es, rest, hw, ht⟩ := saveText_at Y D hD P c hc k v hk h
  obtain ⟨z, hz⟩ := hx
  have hkn : k ∈ names := by simp [names, hk]
  have hcl : Clean (k.toList ++ ':' :: ' ' :: x) := by
    intro d hd
    rcases List.mem_append.1 hd with hd | hd
    · exact plainChar_break (plain_chars (names_plain k hkn) d hd)
    · rcases List.mem_cons.1 hd with rfl | hd
      · decide
      · rcases List.mem_cons.1 hd with rfl | hd
        · decide
        · exact plainChar_break (plain_chars hp d hd)
  have hpre : u ++ (k.toList ++ ':' :: ' ' :: x) <+: saveText Y D P c := by
    rw [ht, ← hz]
    exact ⟨z ++ rest, by simp⟩
  refine ⟨(u ++ (k.toList ++ ':' :: ' ' :: x)).length, .mapping (enc es ++ [(.text k, (Y.resolve x).getD (.str x))]), ?_, ?_⟩
  · rw [← List.prefix_iff_eq_take.1 hpre]
    unfold Yaml.read
    rw [written_then Y u es hw, split_last _ hcl, List.map_singleton, (line_colon Y k hkn x).1, value_plain Y k x hp]
    simp [readLines]
  · rw [started_last]
    simp [Conf.set]

theorem dec_div (n : Nat) (h : 10 ≤ n) : dec (n / 10) <+: dec n := by
  conv_rhs => unfold dec
  rw [if_neg (by omega)]
  exact List.prefix_append _ _

/-- A size saved as a number can be read as a tenth of it. -/
theorem C150_digits_refuted (Y : Yaml) (D : String → Text) (hD : PlainBreaks D) (P : Py) (c : Conf) (hc : PlainConf P c) (i : Nat)
    (hi : 10 ≤ i) (h : c "maximum-cache-size" = some (.int i)) :
    ∃ n y, Y.read ((saveText Y D P c).take n) = some y ∧ started P y "maximum-cache-size" = some (.int (i / 10 : Nat)) := by
  have hd : dumpOne P c "maximum-cache-size" = some ("maximum-cache-size", .int i) := by
    unfold dumpOne
    rw [h]
    simp [option, OPTIONS, List.lookup, pyEq]
  obtain ⟨n, y, h1, h2⟩ := C150_refuted Y D hD P c hc _ _ (by decide) hd (dec (i / 10)) (by simpa [scalar] using dec_div i hi) (dec_plain _)
  refine ⟨n, y, h1, ?_⟩
  rw [h2, Y.dec_]
  rfl

/-- A directory can be read as the root of the file system. -/
theorem C150_root_refuted (Y : Yaml) (D : String → Text) (hD : PlainBreaks D) (P : Py) (c : Conf) (hc : PlainConf P c) (s : Text)
    (h : c "user-cache-directory" = some (.str ('/' :: s))) (hne : '/' :: s ≠ P.home ++ "/.cache/earthkit-regrid".toList)
    (hr : Y.resolve ('/' :: s) = none) (hr1 : Y.resolve ['/'] = none) :
    ∃ n y, Y.read ((saveText Y D P c).take n) = some y ∧ started P y "user-cache-directory" = some (.str ['/']) := by
  have hd : dumpOne P c "user-cache-directory" = some ("user-cache-directory", .str ('/' :: s)) := by
    have hq : pyEq (.str ('/' :: s)) (.str (P.home ++ "/.cache/earthkit-regrid".toList)) = false := by
      simp only [pyEq, V.str.injEq]
      exact decide_eq_false hne
    unfold dumpOne
    rw [h]
    show (if pyEq (.str ('/' :: s)) (.str (P.home ++ "/.cache/earthkit-regrid".toList)) = true then none else _) = _
    rw [hq]
    rfl
  obtain ⟨n, y, h1, h2⟩ := C150_refuted Y D hD P c hc _ _ (by decide) hd ['/'] (by simp [scalar, hr]) (by decide)
  refine ⟨n, y, h1, ?_⟩
  rw [h2, hr1]
  rfl

/-! ## A yaml library -/

/-- The number with the digits. -/
def undec (t : Text) : Nat := t.foldl (fun a c => 10 * a + (c.toNat - 48)) 0

theorem digit_val (n : Nat) (h : n < 10) : (Char.ofNat (48 + n)).toNat - 48 = n ∧ (Char.ofNat (48 + n)).isDigit = true := by
  have : ∀ m : Fin 10, (Char.ofNat (48 + m.val)).toNat - 48 = m.val ∧ (Char.ofNat (48 + m.val)).isDigit = true := by decide
  exact this ⟨n, h⟩

theorem undec_dec (n : Nat) : undec (dec n) = n ∧ (dec n).all Char.isDigit = true := by
  induction n using Nat.strong_induction_on with
  | _ n ih =>
    unfold dec
    split
    · rename_i h
      refine ⟨?_, by simp [(digit_val n h).2]⟩
      simp only [undec, List.foldl_cons, List.foldl_nil, (digit_val n h).1]
      omega
    · rename_i h
      obtain ⟨h1, h2⟩ := ih (n / 10) (by omega)
      have hd := digit_val (n % 10) (by omega)
      refine ⟨?_, by simp [h2, hd.2]⟩
      unfold undec at h1 ⊢
      rw [List.foldl_append, h1]
      simp only [List.foldl_cons, List.foldl_nil, hd.1]
      omega

/-- Numbers and the words for None and the truth values. -/
def demoResolve (t : Text) : Option V :=
  if t ≠ [] ∧ t.all Char.isDigit = true then some (.int (undec t))
  else if t = "null".toList then some .none
  else if t = "true".toList ∨ t = "on".toList ∨ t = "yes".toList then some (.bool true)
  else if t = "false".toList ∨ t = "off".toList ∨ t = "no".toList then some (.bool false)
  else none

/-- Values that are not plain are left out. -/
def demoDump (k : String) (v : V) : Text :=
  if k ∈ names ∧ plainV v = true then k.toList ++ ':' :: ' ' :: scalar demoResolve v ++ ['\n'] else []

theorem demo_dec (n : Nat) : demoResolve (dec n) = some (.int n) := by
  obtain ⟨h1, h2⟩ := undec_dec n
  unfold demoResolve
  rw [if_pos ⟨dec_ne n, h2⟩, h1]

theorem dec_clean (n : Nat) : Clean (dec n) := fun c hc => plainChar_break (plain_chars (dec_plain n) c hc)

theorem demo_break (k : String) (v : V) (c : Char) (hc : c ∈ demoDump k v) (hb : isBreak c = true) : c = '\n' := by
  have no : ∀ d, isBreak d = false → c ≠ d := by rintro d hd rfl; simp [hb] at hd
  have plain : ∀ t : Text, plainText t = true → c ∉ t := fun t ht hm => by
    have := plainChar_break (plain_chars ht c hm)
    simp [hb] at this
  unfold demoDump at hc
  split at hc
  · rename_i h
    rcases List.mem_append.1 hc with hc | hc
    · exfalso
      rcases List.mem_append.1 hc with hc | hc
      · exact plain _ (names_plain k h.1) hc
      · rcases List.mem_cons.1 hc with hc | hc
        · exact no ':' (by decide) hc
        · rcases List.mem_cons.1 hc with hc | hc
          · exact no ' ' (by decide) hc
          · match v, h.2 with
            | .none, _ => exact plain _ (by decide) hc
            | .bool true, _ => exact plain _ (by decide) hc
            | .bool false, _ => exact plain _ (by decide) hc
            | .int i, _ => exact plain _ (dec_plain _) hc
            | .str s, hv =>
              have hs : c ∉ s := by
                simp only [plainV, Bool.or_eq_true, List.isEmpty_iff] at hv
                rcases hv with rfl | hv
                · simp
                · exact plain _ hv
              simp only [scalar] at hc
              split at hc
              · rcases List.mem_append.1 hc with hc | hc
                · rcases List.mem_cons.1 hc with hc | hc
                  · exact no '\'' (by decide) hc
                  · exact hs hc
                · exact no '\'' (by decide) (List.mem_singleton.1 hc)
              · exact hs hc
    · exact List.mem_singleton.1 hc
  · cases hc

/-- A yaml library for plain values. -/
def demoYaml : Yaml where
  resolve := demoResolve
  dump := demoDump
  null_ := by decide
  true_ := by decide
  false_ := by decide
  dec_ := demo_dec
  names_ := by decide +kernel
  dump_plain k hk v hv := by unfold demoDump; rw [if_pos ⟨hk, hv⟩]
  dump_break := demo_break

/-- Three options that are not their defaults; the policy has to be quoted. -/
def demoConf : Conf :=
  Conf.set (Conf.set (Conf.set (DEFAULTS py) "maximum-cache-size" (.int 4096)) "user-cache-directory" (.str "/scratch/me".toList))
    "cache-policy" (.str "off".toList)

/-- A description that tries to set an option. -/
def demoDesc (_ : String) : Text := "Two lines.\ncache-policy: user".toList

theorem demo_breaks : PlainBreaks demoDesc := by
  intro k c hc hb
  have : ∀ c ∈ "Two lines.\ncache-policy: user".toList, isBreak c = true → c = '\n' := by decide
  exact this c hc hb

theorem demo_plain : PlainConf py demoConf := by
  refine ⟨by decide, ?_⟩
  have : ∀ k ∈ SORTED, (demoConf k).all plainV = true := by decide +kernel
  intro k hk v hv
  have h := this k hk
  rw [hv] at h
  simpa using h

example : demoYaml.read (saveText demoYaml demoDesc py demoConf) = some (.mapping [(.text "cache-policy", .str "off".toList),
    (.text "maximum-cache-size", .int 4096), (.text "user-cache-directory", .str "/scratch/me".toList), (.text "version", .str py.version)]) := by
  rw [C150_reads_partial demoYaml demoDesc demo_breaks py demoConf demo_plain]
  rfl

example : ∃ n y, demoYaml.read ((saveText demoYaml demoDesc py demoConf).take n) = some y ∧
    started py y "maximum-cache-size" = some (.int (4096 / 10 : Nat)) :=
  C150_digits_refuted demoYaml demoDesc demo_breaks py demoConf demo_plain 4096 (by omega) (by decide +kernel)

example : ∃ n y, demoYaml.read ((saveText demoYaml demoDesc py demoConf).take n) = some y ∧
    started py y "user-cache-directory" = some (.str ['/']) :=
  C150_root_refuted demoYaml demoDesc demo_breaks py demoConf demo_plain "scratch/me".toList (by decide +kernel) (by decide +kernel)
    (by decide +kernel) (by decide +kernel)

/-- `C150_refuted` for the size, of which `40` is left. -/
example : "maximum-cache-size" ∈ SORTED ∧ dumpOne py demoConf "maximum-cache-size" = some ("maximum-cache-size", .int 4096) ∧
    plainText "40".toList = true := by
  decide +kernel

/-- `C150_moment_partial`: an option that was not set has its default at every moment. -/
example (n : Nat) : ∃ x, demoYaml.read ((saveText demoYaml demoDesc py demoConf).take n) = some x ∧
    started py x "url-download-timeout" = some (.str "30s".toList) := by
  obtain ⟨x, o, h, hk⟩ := C150_moment_partial demoYaml demoDesc demo_breaks py demoConf demo_plain n
  refine ⟨x, h, ?_⟩
  rcases hk "url-download-timeout" with h | h | ⟨_, v, w, h, _⟩
  · rw [h]; decide +kernel
  · rw [h]; decide +kernel
  · exact absurd (List.mem_map.2 ⟨_, h, rfl⟩ : "url-download-timeout" ∈ (dump py demoConf).map Prod.fst) (by decide +kernel)

end Verif.Config.SaveText

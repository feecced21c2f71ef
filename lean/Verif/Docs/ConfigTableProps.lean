import Verif.Docs.ConfigTable
import Verif.Config.Props
import Mathlib.Data.List.Sort
import Mathlib.Data.List.Infix
import Mathlib.Data.String.Basic

/-!
# Configuration tables of the documentation (C126)

Specification: what a text of a table stands for (`Stands`), which options a table has (`Wanted`).
-/

namespace Verif.Docs.ConfigTable
open Verif.Config

/-! ## Specification -/

/-- Usual home directories and user names: an absolute path with a slash at the end, a name that is not empty, no dollar signs. -/
structure Usual (home user : List Char) : Prop where
  absolute : home.head? = some '/'
  slash : home.getLast? = some '/'
  plain : '$' ∉ home
  name : user ≠ []
  plainName : '$' ∉ user

/-- A text with `${USER}` after a hyphen, and the text with the name there. -/
inductive Filled (user : List Char) : List Char → List Char → Prop
  | nil : Filled user [] []
  | name (y z : List Char) (h : Filled user y z) : Filled user ("-${USER}".toList ++ y) ('-' :: user ++ z)
  | char (c : Char) (y z : List Char) (hn : ¬ "-${USER}".toList <+: c :: y) (h : Filled user y z) : Filled user (c :: y) (c :: z)

/-- What a reader makes of a text of the table: `${USER}` after a hyphen is their name, a leading `~` their home. -/
inductive Stands (home user : List Char) (y : List Char) : List Char → Prop
  | home (r : List Char) (h : Filled user y ('~' :: '/' :: r)) : Stands home user y (home ++ r)
  | other (z : List Char) (h : Filled user y z) (hn : ¬ "~/".toList <+: z) : Stands home user y z

/-- The page asks for this option: by the beginning of its name, or for all. -/
def Wanted (args : List (List Char)) (name : String) : Prop := args = [] ∨ ∃ a ∈ args, ∃ r, name.toList = a ++ r

/-- A name with hyphens that do not break lines, read as a name. -/
def nameOf (cell : List Char) : List Char := cell.map (fun c => if c = '‑' then '-' else c)

/-! ## Lemmas -/

theorem replaceFrom_hit (old new : List Char) (c : Char) (r : List Char) (h : old <+: c :: r) :
    replaceFrom old new 0 (c :: r) = new ++ replaceFrom old new (old.length - 1) r := by
  simp only [replaceFrom, if_pos h]

theorem replaceFrom_miss (old new : List Char) (c : Char) (r : List Char) (h : ¬ old <+: c :: r) :
    replaceFrom old new 0 (c :: r) = c :: replaceFrom old new 0 r := by
  simp only [replaceFrom, if_neg h]

theorem replaceFrom_append (old new p t : List Char) : replaceFrom old new p.length (p ++ t) = replaceFrom old new 0 t := by
  induction p with
  | nil => rfl
  | cons c p ih => exact ih

theorem dashed_cons {user : List Char} {c : Char} {r : List Char} (h : dashed user <+: c :: r) : c = '-' ∧ user <+: r := by
  have := List.cons_prefix_cons.mp h
  exact ⟨this.1.symm, this.2⟩

theorem filled_skip (user : List Char) (k : Nat) (y : List Char) :
    Filled user (y.drop k) (replaceFrom VARIABLE (dashed user) k y) := by
  induction y generalizing k with
  | nil => cases k <;> exact .nil
  | cons c r ih =>
    cases k with
    | succ k => exact ih k
    | zero =>
      by_cases hm : VARIABLE <+: c :: r
      · rw [replaceFrom_hit _ _ _ _ hm]
        obtain ⟨t, ht⟩ := hm
        have hr : r = "${USER}".toList ++ t := (List.cons.inj (show '-' :: ("${USER}".toList ++ t) = c :: r from ht)).2.symm
        have h2 := ih 7
        rw [hr] at h2
        rw [show ("${USER}".toList ++ t).drop 7 = t from rfl] at h2
        rw [List.drop_zero, ← ht, hr]
        exact .name t _ h2
      · rw [replaceFrom_miss _ _ _ _ hm]
        exact .char c r _ hm (ih 0)

theorem filled_replace (user y : List Char) : Filled user y (replace VARIABLE (dashed user) y) := filled_skip user 0 y

theorem filled_unique {user y z z' : List Char} (h : Filled user y z) (h' : Filled user y z') : z = z' := by
  induction h generalizing z' with
  | nil => cases h'; rfl
  | name y z _ ih =>
    generalize hw : "-${USER}".toList ++ y = w at h'
    cases h' with
    | nil => cases hw
    | name y' z'' h'' =>
      obtain rfl := List.append_cancel_left hw
      rw [ih h'']
    | char c y' z'' hn _ => exact absurd ⟨y, hw⟩ hn
  | char c y z hn _ ih =>
    generalize hw : c :: y = w at h'
    cases h' with
    | nil => cases hw
    | name y' z'' _ => exact absurd ⟨y', hw.symm⟩ hn
    | char c' y' z'' _ h'' =>
      obtain ⟨rfl, rfl⟩ := List.cons.inj hw
      rw [ih h'']

/-- A word without dollar at the start of the new text is at the start of the old one. -/
theorem prefix_of_replaced (user w x : List Char) (hw : '$' ∉ w) (h : w <+: replaceFrom (dashed user) VARIABLE 0 x) : w <+: x := by
  induction x generalizing w with
  | nil => exact h
  | cons c r ih =>
    by_cases hm : dashed user <+: c :: r
    · rw [replaceFrom_hit _ _ _ _ hm] at h
      obtain ⟨hc, -⟩ := dashed_cons hm
      cases w with
      | nil => exact List.nil_prefix
      | cons a w =>
        have h1 := List.cons_prefix_cons.mp (show a :: w <+: '-' :: ('$' :: "{USER}".toList ++ _) from h)
        cases w with
        | nil => rw [h1.1, hc]; exact ⟨r, rfl⟩
        | cons b w =>
          have h2 := List.cons_prefix_cons.mp h1.2
          exact absurd (by rw [h2.1]; simp) hw
    · rw [replaceFrom_miss _ _ _ _ hm] at h
      cases w with
      | nil => exact List.nil_prefix
      | cons a w =>
        have h1 := List.cons_prefix_cons.mp h
        exact List.cons_prefix_cons.mpr ⟨h1.1, ih w (fun hh => hw (List.mem_cons_of_mem _ hh)) h1.2⟩

/-- A word without hyphen at the start of the new text is at the start of the old one. -/
theorem prefix_of_replaced' (user w x : List Char) (hw : '-' ∉ w) (h : w <+: replaceFrom (dashed user) VARIABLE 0 x) : w <+: x := by
  induction x generalizing w with
  | nil => exact h
  | cons c r ih =>
    cases w with
    | nil => exact List.nil_prefix
    | cons a w =>
      by_cases hm : dashed user <+: c :: r
      · rw [replaceFrom_hit _ _ _ _ hm] at h
        have h1 := List.cons_prefix_cons.mp (show a :: w <+: '-' :: ('$' :: "{USER}".toList ++ _) from h)
        exact absurd (by rw [h1.1]; simp) hw
      · rw [replaceFrom_miss _ _ _ _ hm] at h
        have h1 := List.cons_prefix_cons.mp h
        exact List.cons_prefix_cons.mpr ⟨h1.1, ih w (fun hh => hw (List.mem_cons_of_mem _ hh)) h1.2⟩

theorem dashed_not_cons {user : List Char} {c : Char} {t : List Char} (hc : c ≠ '-') (h : ¬ dashed user <:+: t) :
    ¬ dashed user <:+: c :: t := by
  intro hh
  rcases List.infix_cons_iff.mp hh with hp | hi
  · exact hc (dashed_cons hp).1
  · exact h hi

/-- No user name is left. -/
theorem no_name_left (user : List Char) (hu : user ≠ []) (hd : '$' ∉ user) (k : Nat) (x : List Char) :
    ¬ dashed user <:+: replaceFrom (dashed user) VARIABLE k x := by
  have hdash : '$' ∉ dashed user := by
    intro h
    rcases List.mem_cons.mp h with h | h
    · exact absurd h (by decide)
    · exact hd h
  induction x generalizing k with
  | nil =>
    intro h
    have : replaceFrom (dashed user) VARIABLE k [] = [] := by cases k <;> rfl
    rw [this] at h
    exact absurd (List.infix_nil.mp h) (by simp [dashed])
  | cons c r ih =>
    cases k with
    | succ k => exact ih k
    | zero =>
      by_cases hm : dashed user <+: c :: r
      · rw [replaceFrom_hit _ _ _ _ hm]
        show ¬ dashed user <:+: '-' :: '$' :: '{' :: 'U' :: 'S' :: 'E' :: 'R' :: '}' :: replaceFrom _ _ _ r
        have ht := ih ((dashed user).length - 1)
        have h1 : ¬ dashed user <:+: '$' :: '{' :: 'U' :: 'S' :: 'E' :: 'R' :: '}' ::
            replaceFrom (dashed user) VARIABLE ((dashed user).length - 1) r := by
          iterate 7 (apply dashed_not_cons (by decide))
          exact ht
        intro hh
        rcases List.infix_cons_iff.mp hh with hp | hi
        · have := (dashed_cons hp).2
          cases user with
          | nil => exact hu rfl
          | cons a u =>
            have h2 := List.cons_prefix_cons.mp this
            exact hd (by rw [h2.1]; simp)
        · exact h1 hi
      · rw [replaceFrom_miss _ _ _ _ hm]
        intro hh
        rcases List.infix_cons_iff.mp hh with hp | hi
        · apply hm
          apply prefix_of_replaced user _ _ hdash
          rw [replaceFrom_miss _ _ _ _ hm]
          exact hp
        · exact ih 0 hi

/-- Putting the name back. -/
theorem put_back (user : List Char) (k : Nat) (x : List Char) (hx : ¬ VARIABLE <:+: x) :
    replaceFrom VARIABLE (dashed user) 0 (replaceFrom (dashed user) VARIABLE k x) = x.drop k := by
  induction x generalizing k with
  | nil =>
    have : replaceFrom (dashed user) VARIABLE k [] = [] := by cases k <;> rfl
    rw [this]
    cases k <;> rfl
  | cons c r ih =>
    have hr : ¬ VARIABLE <:+: r := fun h => hx (List.infix_cons_iff.mpr (.inr h))
    cases k with
    | succ k => exact ih k hr
    | zero =>
      by_cases hm : dashed user <+: c :: r
      · rw [replaceFrom_hit _ _ _ _ hm]
        obtain ⟨hc, hp⟩ := dashed_cons hm
        have h1 : replaceFrom VARIABLE (dashed user) 0
            (VARIABLE ++ replaceFrom (dashed user) VARIABLE ((dashed user).length - 1) r) =
            dashed user ++ replaceFrom VARIABLE (dashed user) 7
              ("${USER}".toList ++ replaceFrom (dashed user) VARIABLE ((dashed user).length - 1) r) := by
          exact replaceFrom_hit VARIABLE (dashed user) '-' _ ⟨_, rfl⟩
        rw [h1]
        have h2 := replaceFrom_append VARIABLE (dashed user) "${USER}".toList
          (replaceFrom (dashed user) VARIABLE ((dashed user).length - 1) r)
        rw [show "${USER}".toList.length = 7 from rfl] at h2
        rw [h2, ih _ hr, hc]
        obtain ⟨t, ht⟩ := hp
        rw [← ht]
        show '-' :: (user ++ (user ++ t).drop (user.length + 1 - 1)) = _
        simp
      · rw [replaceFrom_miss _ _ _ _ hm, replaceFrom_miss, ih 0 hr]
        · rfl
        · intro hv
          have h1 := List.cons_prefix_cons.mp (show '-' :: "${USER}".toList <+: c :: _ from hv)
          have h2 := prefix_of_replaced' user "${USER}".toList r (by decide) h1.2
          exact hx (List.infix_cons_iff.mpr (.inl (List.cons_prefix_cons.mpr ⟨h1.1, h2⟩)))

/-! ## Texts -/

/-- What `tidy` makes of a text, in one go. -/
def tidied (home user x : List Char) : List Char :=
  replace (dashed user) VARIABLE (if home <+: x then '~' :: '/' :: x.drop home.length else x)

theorem replace_id (user x : List Char) (h : ¬ dashed user <:+: x) : replace (dashed user) VARIABLE x = x := by
  unfold replace
  induction x with
  | nil => rfl
  | cons c r ih =>
    rw [replaceFrom_miss, ih]
    · exact fun hh => h (List.infix_cons_iff.mpr (.inr hh))
    · exact fun hh => h (List.infix_cons_iff.mpr (.inl hh))

theorem tidyText_name (home user : List Char) (hu : Usual home user) (n : Nat) (x : List Char) (hx : ¬ home <+: x) :
    tidyText home user (n + 2) x = some (replace (dashed user) VARIABLE x) := by
  rw [tidyText, if_neg hx]
  by_cases hd : dashed user <:+: x
  · rw [if_pos hd, tidyText, if_neg, if_neg]
    · exact no_name_left user hu.name hu.plainName 0 x
    · exact fun h => hx (prefix_of_replaced user home x hu.plain h)
  · rw [if_neg hd, replace_id user x hd]

theorem not_home_tilde (home user : List Char) (hu : Usual home user) (r : List Char) : ¬ home <+: '~' :: r := by
  intro h
  have := hu.absolute
  cases home with
  | nil => simp at this
  | cons a t =>
    have h1 := (List.cons_prefix_cons.mp h).1
    simp only [List.head?_cons, Option.some.injEq] at this
    rw [this] at h1
    exact absurd h1 (by decide)

theorem tidyText_eq (home user : List Char) (hu : Usual home user) (n : Nat) (x : List Char) :
    tidyText home user (n + 3) x = some (tidied home user x) := by
  unfold tidied
  by_cases hx : home <+: x
  · rw [if_pos hx, tidyText, if_pos hx]
    exact tidyText_name home user hu n _ (not_home_tilde home user hu _)
  · rw [if_neg hx]
    exact tidyText_name home user hu (n + 1) x hx

/-- C126: in a table no text starts with the home directory of who built the pages, nor has their name after a hyphen; whatever number
of calls python allows, from three on. -/
theorem C126_hidden_partial (home user : List Char) (hu : Usual home user) (x : List Char) :
    ∃ y, (∀ fuel, 3 ≤ fuel → tidyText home user fuel x = some y) ∧ ¬ home <+: y ∧ ¬ '-' :: user <:+: y := by
  refine ⟨tidied home user x, ?_, ?_, no_name_left user hu.name hu.plainName 0 _⟩
  · intro fuel hf
    obtain ⟨n, rfl⟩ := Nat.exists_eq_add_of_le hf
    rw [Nat.add_comm]
    exact tidyText_eq home user hu n x
  · intro h
    have h1 := prefix_of_replaced user home _ hu.plain h
    split at h1
    · exact not_home_tilde home user hu _ h1
    · exact absurd h1 (by assumption)

/-- C126: the text of a table stands for the value, for whoever built the pages, unless the value itself starts with `~/` or has
`-${USER}`. -/
theorem C126_back_partial (home user : List Char) (hu : Usual home user) (x : List Char) (h1 : ¬ "~/".toList <+: x)
    (h2 : ¬ "-${USER}".toList <:+: x) :
    ∀ fuel y, 3 ≤ fuel → tidyText home user fuel x = some y → ∀ z, Stands home user y z ↔ z = x := by
  intro fuel y hf hy
  suffices hF : ∃ w, Filled user y w ∧ ((∃ t, x = home ++ t ∧ w = '~' :: '/' :: t) ∨ w = x) by
    obtain ⟨w, hw, hc⟩ := hF
    intro z
    constructor
    · rintro (⟨r, h⟩ | ⟨_, h, hn⟩)
      · have := filled_unique hw h
        subst this
        rcases hc with ⟨t, rfl, ht⟩ | hc
        · injection ht with _ ht
          injection ht with _ ht
          rw [ht]
        · exact absurd ⟨r, hc⟩ h1
      · have := filled_unique hw h
        subst this
        rcases hc with ⟨t, rfl, ht⟩ | hc
        · exact absurd ⟨t, ht.symm⟩ hn
        · exact hc
    · rintro rfl
      rcases hc with ⟨t, ht, rfl⟩ | rfl
      · rw [ht]
        exact .home t hw
      · exact .other _ hw h1
  obtain ⟨n, rfl⟩ := Nat.exists_eq_add_of_le hf
  rw [Nat.add_comm, tidyText_eq home user hu n x] at hy
  obtain rfl := Option.some.inj hy
  unfold tidied
  by_cases hx : home <+: x
  · rw [if_pos hx]
    obtain ⟨t, rfl⟩ := hx
    rw [List.drop_left]
    have hv : ¬ VARIABLE <:+: '~' :: '/' :: t := by
      intro h
      rcases List.infix_cons_iff.mp h with h | h
      · exact absurd (List.cons_prefix_cons.mp (show '-' :: "${USER}".toList <+: _ from h)).1 (by decide)
      · rcases List.infix_cons_iff.mp h with h | h
        · exact absurd (List.cons_prefix_cons.mp (show '-' :: "${USER}".toList <+: _ from h)).1 (by decide)
        · exact h2 (h.trans (List.suffix_append home t).isInfix)
    have h3 := filled_replace user (replace (dashed user) VARIABLE ('~' :: '/' :: t))
    unfold replace at h3 ⊢
    rw [put_back user 0 _ hv] at h3
    exact ⟨_, h3, .inl ⟨t, rfl, rfl⟩⟩
  · rw [if_neg hx]
    have h3 := filled_replace user (replace (dashed user) VARIABLE x)
    unfold replace at h3 ⊢
    rw [put_back user 0 _ h2] at h3
    exact ⟨_, h3, .inr rfl⟩

example : Usual "/home/alice/".toList "alice".toList ∧
    tidyText "/home/alice/".toList "alice".toList 900 "/home/alice/data-alice/x".toList = some "~/data-${USER}/x".toList := by
  refine ⟨⟨rfl, by decide, by decide, by decide, by decide⟩, by decide +kernel⟩

/-- `C126_hidden_partial`, `C126_back_partial` for that text. -/
example : ¬ "-alice".toList <:+: "~/data-${USER}/x".toList ∧
    ∀ z, Stands "/home/alice/".toList "alice".toList "~/data-${USER}/x".toList z ↔ z = "/home/alice/data-alice/x".toList := by
  have hu : Usual "/home/alice/".toList "alice".toList := ⟨rfl, by decide, by decide, by decide, by decide⟩
  have h : tidyText "/home/alice/".toList "alice".toList 900 "/home/alice/data-alice/x".toList = some "~/data-${USER}/x".toList := by
    decide +kernel
  obtain ⟨y, h1, _, h3⟩ := C126_hidden_partial _ _ hu "/home/alice/data-alice/x".toList
  cases (h1 900 (by decide)).symm.trans h
  exact ⟨h3, C126_back_partial _ _ hu _ (by decide) (by decide) 900 _ (by decide) h⟩

/-! ## Tables -/

theorem selected_iff (args : List (List Char)) (name : String) : selected args name = true ↔ Wanted args name := by
  unfold selected Wanted
  rw [Bool.or_eq_true, List.any_eq_true, List.isEmpty_iff]
  constructor
  · rintro (h | ⟨a, ha, h⟩)
    · exact .inl h
    · obtain ⟨r, hr⟩ := List.isPrefixOf_iff_prefix.mp h
      exact .inr ⟨a, ha, r, hr.symm⟩
  · rintro (h | ⟨a, ha, r, hr⟩)
    · exact .inl h
    · exact .inr ⟨a, ha, List.isPrefixOf_iff_prefix.mpr ⟨r, hr.symm⟩⟩

def NAMES : List String := ["user-cache-directory", "temporary-cache-directory-root", "temporary-directory-root", "cache-policy", "maximum-cache-size", "maximum-cache-disk-usage",
  "url-download-timeout", "check-out-of-date-urls", "download-out-of-date-urls", "maximum-weights-memory-cache-size",
  "weights-memory-cache-policy", "weights-memory-cache-strict-mode"]

theorem options_names (P : Py) : (OPTIONS P).map Prod.fst = NAMES := rfl

theorem names_nodup (P : Py) : ((OPTIONS P).map Prod.fst).Nodup := by
  rw [options_names]
  decide

theorem names_hyphens (P : Py) : ∀ n ∈ (OPTIONS P).map Prod.fst, nameOf (cellName n) = n.toList := by
  rw [options_names]
  decide +kernel

theorem sorted_perm (P : Py) : (sortedOptions P).Perm (OPTIONS P) := List.mergeSort_perm _ _

theorem sorted_lt (P : Py) : (sortedOptions P).Pairwise (fun a b => a.1 < b.1) := by
  have h1 : (sortedOptions P).Pairwise (fun a b => decide (a.1 ≤ b.1) = true) := by
    apply List.pairwise_mergeSort
    · intro a b c hab hbc
      exact decide_eq_true (le_trans (of_decide_eq_true hab) (of_decide_eq_true hbc))
    · intro a b
      rcases le_total a.1 b.1 with h | h <;> simp [h]
  have h2 : ((sortedOptions P).map Prod.fst).Nodup := ((sorted_perm P).map Prod.fst).nodup_iff.mpr (names_nodup P)
  have h3 : (sortedOptions P).Pairwise (fun a b => a.1 ≠ b.1) := List.pairwise_map.mp h2
  exact (h1.and h3).imp (fun ⟨h, h'⟩ => lt_of_le_of_ne (of_decide_eq_true h) h')

theorem mapM_forall₂ {α β : Type} (f : α → Option β) : ∀ (l : List α) (r : List β), l.mapM f = some r → List.Forall₂ (fun a b => f a = some b) l r
  | [], r, h => by
    simp only [List.mapM_nil, Option.pure_def, Option.some.injEq] at h
    subst h
    exact .nil
  | a :: l, r, h => by
    rw [List.mapM_cons] at h
    cases ha : f a with
    | none => rw [ha] at h; cases h
    | some b =>
      rw [ha] at h
      cases hl : l.mapM f with
      | none => rw [hl] at h; cases h
      | some t =>
        rw [hl] at h
        obtain rfl := Option.some.inj h
        exact .cons ha (mapM_forall₂ f l t hl)

theorem mapM_some {α β : Type} (f : α → Option β) (l : List α) (h : ∀ a ∈ l, ∃ b, f a = some b) : ∃ r, l.mapM f = some r := by
  induction l with
  | nil => exact ⟨[], rfl⟩
  | cons a l ih =>
    obtain ⟨b, hb⟩ := h a (List.mem_cons_self)
    obtain ⟨r, hr⟩ := ih (fun x hx => h x (List.mem_cons_of_mem _ hx))
    exact ⟨b :: r, by rw [List.mapM_cons, hb, hr]; rfl⟩

theorem forall₂_mem {α β : Type} {R : α → β → Prop} {l : List α} {r : List β} (h : List.Forall₂ R l r) {a : α} (ha : a ∈ l) :
    ∃ b ∈ r, R a b := by
  induction h with
  | nil => cases ha
  | cons hab _ ih =>
    rcases List.mem_cons.mp ha with rfl | ha
    · exact ⟨_, List.mem_cons_self, hab⟩
    · obtain ⟨b, hb, hr⟩ := ih ha
      exact ⟨b, List.mem_cons_of_mem _ hb, hr⟩

/-- C126: a table has the options the page asks for, every one once, in the order of their names, and beside each its default, tidied. -/
theorem C126_rows (P : Py) (home user : List Char) (fuel : Nat) (args : List (List Char)) (rows : List Row)
    (h : table P home user fuel args = some rows) :
    ∃ shown : List (String × OptDef), shown.Pairwise (fun a b => a.1 < b.1) ∧
      (∀ o, o ∈ shown ↔ o ∈ OPTIONS P ∧ Wanted args o.1) ∧
      List.Forall₂ (fun o r => nameOf r.name = o.1.toList ∧ '-' ∉ r.name ∧ tidy home user fuel o.2.default = some r.default) shown rows := by
  refine ⟨(sortedOptions P).filter (fun o => selected args o.1), (sorted_lt P).filter _, ?_, ?_⟩
  · intro o
    rw [List.mem_filter, (sorted_perm P).mem_iff, selected_iff]
  · have h1 := mapM_forall₂ _ _ _ h
    clear h
    have hmem : ∀ o ∈ (sortedOptions P).filter (fun o => selected args o.1), o.1 ∈ (OPTIONS P).map Prod.fst := by
      intro o ho
      exact List.mem_map_of_mem ((sorted_perm P).mem_iff.mp (List.mem_filter.mp ho).1)
    generalize (sortedOptions P).filter (fun o => selected args o.1) = l at h1 hmem
    induction h1 with
    | nil => exact .nil
    | @cons o r l t hor _ ih =>
      refine .cons ?_ (ih (fun x hx => hmem x (List.mem_cons_of_mem _ hx)))
      cases hv : tidy home user fuel o.2.default with
      | none => rw [hv] at hor; cases hor
      | some v =>
        rw [hv] at hor
        obtain rfl := Option.some.inj hor
        refine ⟨names_hyphens P _ (hmem o List.mem_cons_self), ?_, rfl⟩
        unfold cellName
        intro hh
        obtain ⟨c, -, hc⟩ := List.mem_map.mp hh
        split at hc
        · exact absurd hc (by decide)
        · exact absurd hc (by assumption)

/-- C126: with usual names of home and user the table is made. -/
theorem C126_made_partial (P : Py) (home user : List Char) (hu : Usual home user) (fuel : Nat) (hf : 3 ≤ fuel) (args : List (List Char)) :
    ∃ rows, table P home user fuel args = some rows := by
  apply mapM_some
  intro o _
  cases hd : o.2.default with
  | str s =>
    obtain ⟨y, hy, -⟩ := C126_hidden_partial home user hu s
    exact ⟨_, by rw [tidy, hy fuel hf]; rfl⟩
  | none => exact ⟨_, rfl⟩
  | bool b => exact ⟨_, rfl⟩
  | int i => exact ⟨_, rfl⟩
  | other n => exact ⟨_, rfl⟩

/-- C126: the defaults are shown as they are, and the cache directory with a tilde, unless the name of who builds the pages is a
beginning of `regrid`. -/
theorem C126_defaults_partial (P : Py) (user : List Char) (hu : Usual (P.home ++ ['/']) user) (hr : ¬ user <+: "regrid".toList) (fuel : Nat)
    (hf : 3 ≤ fuel) (o : String × OptDef) (ho : o ∈ OPTIONS P) :
    tidy (P.home ++ ['/']) user fuel o.2.default =
      some (if o.1 = "user-cache-directory" then .str "~/.cache/earthkit-regrid".toList else o.2.default) := by
  obtain ⟨n, rfl⟩ := Nat.exists_eq_add_of_le hf
  rw [Nat.add_comm]
  have habs : ∀ c r, c ≠ '/' → ¬ P.home ++ ['/'] <+: c :: r := by
    intro c r hc h
    have := hu.absolute
    cases hh : P.home ++ ['/'] with
    | nil => rw [hh] at this; simp at this
    | cons a t =>
      rw [hh] at this h
      simp only [List.head?_cons, Option.some.injEq] at this
      exact hc ((List.cons_prefix_cons.mp h).1.symm.trans this)
  have hplain : ∀ c r, c ≠ '/' → '-' ∉ c :: r → tidyText (P.home ++ ['/']) user (n + 3) (c :: r) = some (c :: r) := by
    intro c r hc hm
    rw [tidyText, if_neg (habs c r hc), if_neg]
    intro h
    exact hm (h.subset (by simp [dashed]))
  have hcache : tidyText (P.home ++ ['/']) user (n + 3) (P.home ++ "/.cache/earthkit-regrid".toList) =
      some "~/.cache/earthkit-regrid".toList := by
    have hx : P.home ++ "/.cache/earthkit-regrid".toList = (P.home ++ ['/']) ++ ".cache/earthkit-regrid".toList := by
      rw [List.append_assoc]; rfl
    rw [hx, tidyText_eq _ _ hu, tidied, if_pos (List.prefix_append _ _), List.drop_left]
    congr 1
    apply replace_id
    have e : ∀ t, ¬ dashed user <:+: t → ∀ c, c ≠ '-' → ¬ dashed user <:+: c :: t := fun t ht c hc => dashed_not_cons hc ht
    have hlast : ¬ dashed user <:+: '-' :: "regrid".toList := by
      intro h
      rcases List.infix_cons_iff.mp h with h | h
      · exact hr (dashed_cons h).2
      · exact absurd (h.subset (show '-' ∈ dashed user by simp [dashed])) (by decide)
    show ¬ dashed user <:+: '~' :: '/' :: '.' :: 'c' :: 'a' :: 'c' :: 'h' :: 'e' :: '/' :: 'e' :: 'a' :: 'r' :: 't' :: 'h' :: 'k' :: 'i' ::
      't' :: '-' :: "regrid".toList
    iterate 17 (apply e _ _ _ (by decide))
    exact hlast
  unfold OPTIONS at ho
  simp only [List.mem_cons, List.not_mem_nil, or_false] at ho
  rcases ho with rfl | rfl | rfl | rfl | rfl | rfl | rfl | rfl | rfl | rfl | rfl | rfl <;>
    simp only [tidy, String.reduceEq, ↓reduceIte]
  · rw [hcache]; rfl
  · exact congrArg (Option.map V.str) (hplain 'u' _ (by decide) (by decide))
  · exact congrArg (Option.map V.str) (hplain '5' _ (by decide) (by decide))
  · exact congrArg (Option.map V.str) (hplain '3' _ (by decide) (by decide))
  · exact congrArg (Option.map V.str) (hplain '5' _ (by decide) (by decide))
  · exact congrArg (Option.map V.str) (hplain 'l' _ (by decide) (by decide))

/-- C126: the variable shown beside an option is the one that gives its value. -/
theorem C126_variable (P : Py) (args : List (List Char)) :
    ∃ shown : List (String × OptDef), shown.Pairwise (fun a b => a.1 < b.1) ∧ (∀ o, o ∈ shown ↔ o ∈ OPTIONS P ∧ Wanted args o.1) ∧
      List.Forall₂ (fun o (r : List Char × List Char) => nameOf r.1 = o.1.toList ∧
        ∀ (env : Env) (c : Conf) (t : List Char), env r.2 = some t →
          getConf P env c o.1 = convert P o.2.getter o.2.noneOk (.str t)) shown (envTable P args) := by
  refine ⟨(sortedOptions P).filter (fun o => selected args o.1), (sorted_lt P).filter _, ?_, ?_⟩
  · intro o
    rw [List.mem_filter, (sorted_perm P).mem_iff, selected_iff]
  · unfold envTable
    rw [List.forall₂_map_right_iff, List.forall₂_same]
    intro o ho
    have ho := (sorted_perm P).mem_iff.mp (List.mem_filter.mp ho).1
    refine ⟨names_hyphens P _ (List.mem_map_of_mem ho), ?_⟩
    intro env c t ht
    have hopt : option P o.1 = some o.2 := by
      unfold option
      unfold OPTIONS at ho ⊢
      simp only [List.mem_cons, List.not_mem_nil, or_false] at ho
      rcases ho with rfl | rfl | rfl | rfl | rfl | rfl | rfl | rfl | rfl | rfl | rfl | rfl <;> rfl
    unfold getConf
    rw [hopt]
    simp only [ht]

/-- C126 refuted: pages built by somebody called `regrid` show another cache directory; without a home directory
(`os.path.expanduser("~/")` is `~/`) no table is made, however many calls are allowed; a name that does not follow a hyphen is shown. -/
theorem C126_refuted :
    Usual "/home/regrid/".toList "regrid".toList ∧
    (∀ fuel, 3 ≤ fuel → tidyText "/home/regrid/".toList "regrid".toList fuel "/home/regrid/.cache/earthkit-regrid".toList =
      some "~/.cache/earthkit-${USER}".toList) ∧
    (∀ (P : Py) (fuel : Nat), P.home = ['~'] → table P "~/".toList "alice".toList fuel [] = none) ∧
    tidyText "/home/alice/".toList "alice".toList 900 "/scratch/alice".toList = some "/scratch/alice".toList := by
  have hu : Usual ("/home/regrid/".toList) "regrid".toList := ⟨rfl, by decide, by decide, by decide, by decide⟩
  have hloop : ∀ fuel r, tidyText "~/".toList "alice".toList fuel ('~' :: '/' :: r) = none := by
    intro fuel
    induction fuel with
    | zero => intro r; rfl
    | succ n ih =>
      intro r
      rw [tidyText, if_pos ⟨r, rfl⟩]
      exact ih _
  refine ⟨hu, ?_, ?_, by decide +kernel⟩
  · intro fuel hf
    obtain ⟨n, rfl⟩ := Nat.exists_eq_add_of_le hf
    rw [Nat.add_comm, tidyText_eq _ _ hu]
    decide +kernel
  · intro P fuel hP
    cases ht : table P "~/".toList "alice".toList fuel [] with
    | none => rfl
    | some rows =>
      exfalso
      obtain ⟨shown, -, hs, hf⟩ := C126_rows P _ _ _ _ _ ht
      have hm : ("user-cache-directory", OptDef.mk (.str (P.home ++ "/.cache/earthkit-regrid".toList)) .str none false none) ∈ shown :=
        (hs _).mpr ⟨List.mem_cons_self, .inl rfl⟩
      obtain ⟨r, -, hr⟩ := forall₂_mem hf hm
      have h := hr.2.2
      rw [hP] at h
      rw [show tidy "~/".toList "alice".toList fuel (.str (['~'] ++ "/.cache/earthkit-regrid".toList)) = none from
        congrArg (Option.map V.str) (hloop fuel _)] at h
      cases h

example : ∃ rows r, table Verif.Config.py "/home/u/".toList "alice".toList 900 ["cache-policy".toList, "user-cache".toList] = some rows ∧
    r ∈ rows ∧ nameOf r.name = "user-cache-directory".toList ∧ r.default = .str "~/.cache/earthkit-regrid".toList := by
  have hu : Usual (Verif.Config.py.home ++ ['/']) "alice".toList := ⟨rfl, by decide, by decide, by decide, by decide⟩
  obtain ⟨rows, ht⟩ := C126_made_partial Verif.Config.py _ _ hu 900 (by decide) ["cache-policy".toList, "user-cache".toList]
  obtain ⟨shown, -, hs, hf⟩ := C126_rows _ _ _ _ _ _ ht
  have ho : ("user-cache-directory", OptDef.mk (.str (Verif.Config.py.home ++ "/.cache/earthkit-regrid".toList)) .str none false none) ∈
      OPTIONS Verif.Config.py := List.mem_cons_self
  obtain ⟨r, hr, hn, -, hd⟩ := forall₂_mem hf ((hs _).mpr ⟨ho, .inr ⟨"user-cache".toList, by decide, "-directory".toList, by decide⟩⟩)
  refine ⟨rows, r, ht, hr, hn, ?_⟩
  rw [C126_defaults_partial _ _ hu (by decide) 900 (by decide) _ ho, if_pos rfl] at hd
  exact (Option.some.inj hd).symm

end Verif.Docs.ConfigTable

import Mathlib.Data.List.Sort
import Mathlib.Order.Basic

/-! # C172: the scan for backends

`BackendMaker._builtins` (backends/__init__.py:84-107), run once when the package is imported. What importing a module gives is a parameter, a
function of the name of the module. -/

namespace Verif.Regrid.Builtins

/-- What `import_module` and the attribute `backend` of the module give — backends/__init__.py:94-104. -/
inductive Loaded (C : Type) where
  /-- no attribute `backend` -/
  | nothing
  | one (c : C)
  | dict (kvs : List (List Char × C))
  /-- an `Exception`: it is logged -/
  | raises
  /-- a `BaseException` that is not an `Exception` (`SystemExit`, `KeyboardInterrupt`): it is not caught -/
  | exits

/-- The directory: the names in it, which of them are directories, what importing gives. -/
structure Dir (C : Type) where
  names : List (List Char)
  isDir : List Char → Bool
  load : List Char → Loaded C

/-- `os.path.splitext(path)[0]` for a name that does not begin with a dot. -/
def stem (p : List Char) : List Char :=
  if '.' ∈ p then ((p.reverse.dropWhile (fun c => c ≠ '.')).drop 1).reverse else p

/-- `path[0] in ("_", ".")` — line 89; names are not empty -/
def skipped (p : List Char) : Bool := p.head? = some '_' || p.head? = some '.'

/-- line 92 -/
def candidate {C : Type} (d : Dir C) (p : List Char) : Bool := !skipped p && (".py".toList.isSuffixOf p || d.isDir p)

def put {C : Type} (r : List Char → Option C) (k : List Char) (c : C) : List Char → Option C := fun k' => if k' = k then some c else r k'

/-- One turn of the loop; `none`: the exception leaves the function. -/
def turn {C : Type} (d : Dir C) (r : List Char → Option C) (p : List Char) : Option (List Char → Option C) :=
  if candidate d p then
    match d.load (stem p) with
    | .nothing => some r
    | .one c => some (put r (stem p) c)
    | .dict kvs => some (kvs.foldl (fun r kv => put r kv.1 kv.2) r)
    | .raises => some r
    | .exits => none
  else some r

def scan {C : Type} (d : Dir C) : List (List Char) → (List Char → Option C) → Option (List Char → Option C)
  | [], r => some r
  | p :: ps, r => (turn d r p).bind (scan d ps)

/-- `_builtins` -/
def builtins {C : Type} (d : Dir C) : Option (List Char → Option C) := scan d (d.names.insertionSort (· ≤ ·)) (fun _ => none)

/-! ### Specification -/

/-- The last class the file has for the name, if it has one. -/
def Offers {C : Type} (d : Dir C) (p k : List Char) (c : C) : Prop :=
  candidate d p = true ∧ ((d.load (stem p) = .one c ∧ k = stem p) ∨
    ∃ kvs pre post, d.load (stem p) = .dict kvs ∧ kvs = pre ++ (k, c) :: post ∧ ∀ x ∈ post, x.1 ≠ k)

/-- Importing the file ends the program. -/
def Ends {C : Type} (d : Dir C) (p : List Char) : Prop := candidate d p = true ∧ d.load (stem p) = .exits

/-- Importing the file raises an `Exception`. -/
def Broken {C : Type} (d : Dir C) (p : List Char) : Prop := candidate d p = true ∧ d.load (stem p) = .raises

/-! ### Proofs -/

section
variable {C : Type}

theorem foldl_put (kvs : List (List Char × C)) (r : List Char → Option C) (k : List Char) (c : C) :
    kvs.foldl (fun r kv => put r kv.1 kv.2) r k = some c ↔
      (∃ pre post, kvs = pre ++ (k, c) :: post ∧ ∀ x ∈ post, x.1 ≠ k) ∨ (r k = some c ∧ ∀ x ∈ kvs, x.1 ≠ k) := by
  induction kvs generalizing r with
  | nil => simp
  | cons x kvs ih =>
    rw [List.foldl_cons, ih]
    constructor
    · rintro (⟨pre, post, rfl, h⟩ | ⟨h1, h2⟩)
      · exact .inl ⟨x :: pre, post, rfl, h⟩
      · unfold put at h1
        by_cases hk : k = x.1
        · rw [if_pos hk] at h1
          refine .inl ⟨[], kvs, ?_, h2⟩
          rw [List.nil_append]
          congr 1
          exact Prod.ext hk.symm (Option.some.inj h1)
        · rw [if_neg hk] at h1
          refine .inr ⟨h1, fun y hy => ?_⟩
          rcases List.mem_cons.1 hy with rfl | hy
          · exact fun h => hk h.symm
          · exact h2 y hy
    · rintro (⟨pre, post, h, hp⟩ | ⟨h1, h2⟩)
      · cases pre with
        | nil =>
          cases h
          exact .inr ⟨by simp [put], hp⟩
        | cons y pre =>
          cases h
          exact .inl ⟨pre, post, rfl, hp⟩
      · refine .inr ⟨?_, fun y hy => h2 y (List.mem_cons_of_mem _ hy)⟩
        unfold put
        rw [if_neg (fun h => h2 x List.mem_cons_self h.symm)]
        exact h1

theorem turn_spec (d : Dir C) (r r' : List Char → Option C) (p : List Char) (h : turn d r p = some r') (k : List Char) (c : C) :
    r' k = some c ↔ Offers d p k c ∨ (r k = some c ∧ ∀ c', ¬Offers d p k c') := by
  unfold turn at h
  by_cases hc : candidate d p = true
  · rw [if_pos hc] at h
    cases hl : d.load (stem p) with
    | nothing => rw [hl] at h; cases h; simp [Offers, hl]
    | raises => rw [hl] at h; cases h; simp [Offers, hl]
    | exits => rw [hl] at h; cases h
    | one c0 =>
      rw [hl] at h
      cases h
      unfold put Offers
      by_cases hk : k = stem p
      · simp [hl, hc, hk]
      · simp [hl, hc, hk]
    | dict kvs =>
      rw [hl] at h
      cases h
      rw [foldl_put]
      have hno : (∀ c', ¬Offers d p k c') ↔ ∀ x ∈ kvs, x.1 ≠ k := by
        constructor
        · intro ho
          by_contra hcon
          have hex : ∃ c', kvs.foldl (fun r kv => put r kv.1 kv.2) (fun _ => none) k = some c' := by
            by_contra hn
            apply hcon
            intro x hx hxk
            have hlast : ∀ (l : List (List Char × C)) (r : List Char → Option C), (∃ x ∈ l, x.1 = k) ∨ r k ≠ none →
                l.foldl (fun r kv => put r kv.1 kv.2) r k ≠ none := by
              intro l
              induction l with
              | nil => rintro r (⟨x, hx, _⟩ | h); cases hx; exact h
              | cons y l ih =>
                rintro r h
                rw [List.foldl_cons]
                apply ih
                by_cases hy : k = y.1
                · right; simp [put, hy]
                · rcases h with ⟨x, hx, hxk⟩ | h
                  · rcases List.mem_cons.1 hx with rfl | hx
                    · exact absurd hxk.symm hy
                    · exact .inl ⟨x, hx, hxk⟩
                  · right; simpa [put, hy] using h
            have := hlast kvs (fun _ => none) (.inl ⟨x, hx, hxk⟩)
            exact hn (Option.ne_none_iff_exists'.1 this)
          obtain ⟨c', hc'⟩ := hex
          rcases (foldl_put ..).1 hc' with ⟨pre, post, h1, h2⟩ | ⟨h1, _⟩
          · exact ho c' ⟨hc, .inr ⟨kvs, pre, post, hl, h1, h2⟩⟩
          · cases h1
        · rintro hx c' ⟨_, h | ⟨kvs', pre, post, h1, h2, _⟩⟩
          · rw [hl] at h; cases h.1
          · rw [hl] at h1
            cases h1
            exact hx (k, c') (by rw [h2]; simp) rfl
      rw [hno]
      have hof : Offers d p k c ↔ ∃ pre post, kvs = pre ++ (k, c) :: post ∧ ∀ x ∈ post, x.1 ≠ k := by
        unfold Offers
        simp [hl, hc]
      rw [hof]
  · rw [if_neg hc] at h
    cases h
    simp [Offers, hc]

theorem scan_spec (d : Dir C) (ps : List (List Char)) (r r' : List Char → Option C) (h : scan d ps r = some r') (k : List Char) (c : C) :
    r' k = some c ↔ (∃ pre p post, ps = pre ++ p :: post ∧ Offers d p k c ∧ ∀ q ∈ post, ∀ c', ¬Offers d q k c') ∨
      (r k = some c ∧ ∀ q ∈ ps, ∀ c', ¬Offers d q k c') := by
  induction ps generalizing r with
  | nil => cases h; simp
  | cons p ps ih =>
    unfold scan at h
    cases ht : turn d r p with
    | none => rw [ht] at h; cases h
    | some r1 =>
      rw [ht] at h
      rw [ih r1 h, turn_spec d r r1 p ht k c]
      constructor
      · rintro (⟨pre, q, post, rfl, h1, h2⟩ | ⟨h1 | ⟨h1, h2⟩, h3⟩)
        · exact .inl ⟨p :: pre, q, post, rfl, h1, h2⟩
        · exact .inl ⟨[], p, ps, rfl, h1, h3⟩
        · refine .inr ⟨h1, fun q hq => ?_⟩
          rcases List.mem_cons.1 hq with rfl | hq
          · exact h2
          · exact h3 q hq
      · rintro (⟨pre, q, post, h1, h2, h3⟩ | ⟨h1, h2⟩)
        · cases pre with
          | nil => cases h1; exact .inr ⟨.inl h2, h3⟩
          | cons x pre => cases h1; exact .inl ⟨pre, q, post, rfl, h2, h3⟩
        · exact .inr ⟨.inr ⟨h1, h2 p List.mem_cons_self⟩, fun q hq => h2 q (List.mem_cons_of_mem _ hq)⟩

theorem scan_none (d : Dir C) (ps : List (List Char)) (r : List Char → Option C) : scan d ps r = none ↔ ∃ p ∈ ps, Ends d p := by
  induction ps generalizing r with
  | nil => simp [scan]
  | cons p ps ih =>
    unfold scan
    cases ht : turn d r p with
    | none =>
      have : Ends d p := by
        unfold turn at ht
        split at ht
        · rename_i hc
          split at ht <;> first | exact ⟨hc, by assumption⟩ | cases ht
        · cases ht
      simp [this]
    | some r1 =>
      have : ¬Ends d p := by
        rintro ⟨h1, h2⟩
        unfold turn at ht
        rw [if_pos h1, h2] at ht
        cases ht
      simp [ih, this]

theorem scan_broken (d : Dir C) (q : List Char → Bool) (hq : ∀ p, q p = false → Broken d p) (ps : List (List Char)) (r : List Char → Option C) :
    scan d (ps.filter q) r = scan d ps r := by
  induction ps generalizing r with
  | nil => rfl
  | cons p ps ih =>
    cases h : q p with
    | true =>
      rw [List.filter_cons_of_pos h]
      unfold scan
      congr 1
      funext r1
      exact ih r1
    | false =>
      rw [List.filter_cons_of_neg (by simp [h]), ih]
      obtain ⟨h1, h2⟩ := hq p h
      have : turn d r p = some r := by
        unfold turn
        rw [if_pos h1, h2]
      conv_rhs => unfold scan
      rw [this]
      rfl

/-- C172 (part): files whose import raises an `Exception` take nothing from the others: the backends are those of the directory without them. -/
theorem C172_alone_partial (d : Dir C) (q : List Char → Bool) (hq : ∀ p, q p = false → Broken d p) :
    builtins { d with names := d.names.filter q } = builtins d := by
  have h1 : ∀ (l : List (List Char)) (r : List Char → Option C), scan { d with names := d.names.filter q } l r = scan d l r := by
    intro l
    induction l with
    | nil => intro r; rfl
    | cons p l ih =>
      intro r
      unfold scan
      congr 1
      funext r1
      exact ih r1
  unfold builtins
  rw [h1]
  show scan d ((d.names.filter q).insertionSort (· ≤ ·)) _ = _
  rw [← scan_broken d q hq (d.names.insertionSort (· ≤ ·))]
  congr 1
  refine List.Perm.eq_of_pairwise (le := (· ≤ ·)) (fun a b _ _ h1 h2 => List.le_antisymm h1 h2) (List.pairwise_insertionSort _ _) ((List.pairwise_insertionSort _ _).filter _) ?_
  exact (List.perm_insertionSort _ _).trans ((List.perm_insertionSort _ _).symm.filter q)

/-- C172 (part): the backends do not depend on the order in which the system lists the directory. -/
theorem C172_listing_partial (d : Dir C) (names : List (List Char)) (h : names.Perm d.names) : builtins { d with names := names } = builtins d := by
  have h1 : ∀ (l : List (List Char)) (r : List Char → Option C), scan { d with names := names } l r = scan d l r := by
    intro l
    induction l with
    | nil => intro r; rfl
    | cons p l ih =>
      intro r
      unfold scan
      congr 1
      funext r1
      exact ih r1
  unfold builtins
  rw [h1]
  congr 1
  refine List.Perm.eq_of_pairwise (le := (· ≤ ·)) (fun a b _ _ h1 h2 => List.le_antisymm h1 h2) (List.pairwise_insertionSort _ _) (List.pairwise_insertionSort _ _) ?_
  exact (List.perm_insertionSort _ _).trans (h.trans (List.perm_insertionSort _ _).symm)

/-- C172 (exact): the scan raises iff importing some file does something that is not an `Exception`; otherwise a name stands for the class offered by
the last file, in the order of the names, that offers one for it. -/
theorem C172_exact (d : Dir C) :
    (builtins d = none ↔ ∃ p ∈ d.names, Ends d p) ∧
    ∀ r, builtins d = some r → ∀ k c, r k = some c ↔
      ∃ pre p post, d.names.insertionSort (· ≤ ·) = pre ++ p :: post ∧ Offers d p k c ∧ ∀ q ∈ post, ∀ c', ¬Offers d q k c' := by
  unfold builtins
  refine ⟨?_, fun r h k c => ?_⟩
  · rw [scan_none]
    simp only [List.mem_insertionSort]
  · rw [scan_spec d _ _ r h k c]
    simp

end

/-! ### Examples -/

/-- The package as it is, with the outcome of importing each of the three files. -/
def package (db mir pre : Loaded Nat) : Dir Nat where
  names := ["precomputed.py".toList, "__init__.py".toList, "mir.py".toList, "__pycache__".toList, "db.py".toList]
  isDir := fun p => p = "__pycache__".toList
  load := fun n => if n = "db".toList then db else if n = "mir".toList then mir else if n = "precomputed".toList then pre else .nothing

/-- C172 refuted: a module that calls `sys.exit` when it is imported takes all backends away. -/
theorem C172_refuted : builtins (package .nothing .exits (.one 7)) = none ∧
    ∃ r, builtins { package .nothing .exits (.one 7) with names := ["precomputed.py".toList, "db.py".toList] } = some r ∧ r "precomputed".toList = some 7 := by
  refine ⟨Option.isNone_iff_eq_none.1 (by decide +kernel), ?_⟩
  exact Option.bind_eq_some_iff.1 (by decide +kernel)

/-- `C172_exact`: two files offer a class for one name; the later name of a file wins, not the later one in the listing. -/
example : (builtins (package (.dict [("precomputed".toList, 1), ("x".toList, 2)]) .nothing (.one 7))).bind (fun r => r "precomputed".toList) = some 7 ∧
    (builtins (package (.dict [("precomputed".toList, 1), ("x".toList, 2)]) .nothing (.one 7))).bind (fun r => r "x".toList) = some 2 := by
  decide +kernel

/-- `C172_exact`: a class that is there was offered by a file. -/
example (r : List Char → Option Nat) (h : builtins (package .nothing .raises (.one 7)) = some r) (k : List Char) (c : Nat) (hk : r k = some c) :
    ∃ p, Offers (package .nothing .raises (.one 7)) p k c := by
  obtain ⟨_, p, _, _, ho, _⟩ := ((C172_exact _).2 r h k c).1 hk
  exact ⟨p, ho⟩

/-- `mir.py` cannot be imported: the other backend is there, and only that one. -/
example : (builtins (package .nothing .raises (.one 7))).isSome = true ∧
    (builtins (package .nothing .raises (.one 7))).bind (fun r => r "precomputed".toList) = some 7 ∧
    (builtins (package .nothing .raises (.one 7))).bind (fun r => r "mir".toList) = none := by decide +kernel

example : builtins { package .nothing .raises (.one 7) with names := (package .nothing .raises (.one 7)).names.filter (fun p => p ≠ "mir.py".toList) } =
    builtins (package .nothing .raises (.one 7)) :=
  C172_alone_partial _ _ (fun p h => by
    have : p = "mir.py".toList := by simpa using h
    subst this
    exact ⟨by decide +kernel, rfl⟩)

example : builtins { package .nothing (.one 3) (.one 7) with names := (package .nothing (.one 3) (.one 7)).names.reverse } =
    builtins (package .nothing (.one 3) (.one 7)) :=
  C172_listing_partial _ _ (List.reverse_perm _)

end Verif.Regrid.Builtins

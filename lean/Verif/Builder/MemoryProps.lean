import Verif.Builder.Props2

/-!
# C166: the memory recorded for the weights of a built inventory

builder.py:135-146 loads the matrix file just written and records the bytes it takes; the memory cache makes room by that number before it loads
weights (C123). `size` stands for `matrix_memory_size(load_npz(…))`, `mem` for `entry["memory"]`; an entry of the model has one number for all it
has besides grids, method, engine and version.
-/

namespace Verif.Builder
open Verif.GridSpec Verif.Index
open Verif.Regrid (Csr)

/-- The builds of an inventory, one after the other, whatever each of them returned or raised; the path is handed over as a Path (C71). -/
def builds (P : Py) (D : Digests) (as : List Args) (w : World) : World := as.foldl (fun w a => (makeMatrixPath P D a w).2) w

/-! ## Specification -/

/-- Every build of the list returned. -/
def AllReturn (P : Py) (D : Digests) : List Args → World → Prop
  | [], _ => True
  | a :: as, w => (makeMatrixPath P D a w).1 = .ok () ∧ AllReturn P D as (makeMatrixPath P D a w).2

/-- Each entry has its file where lookups read it, and the memory recorded is that of the matrix in it. -/
def Accurate (size : Csr Nat → Nat) (mem : Nat → Nat) (root : List Char) (w : World) : Prop :=
  ∀ f es, w.index = some f → f.matrix = some es → ∀ k r, (k, r) ∈ es →
    ∃ n m, MethodIs r n ∧ w.files (ReadAt root k r.engine r.version n) = some (.npz m) ∧ mem r.extra = size m

/-- The same for the entries with one key. -/
def AccurateFor (size : Csr Nat → Nat) (mem : Nat → Nat) (root : List Char) (k : String) (w : World) : Prop :=
  ∀ f es, w.index = some f → f.matrix = some es → ∀ r, (k, r) ∈ es →
    ∃ n m, MethodIs r n ∧ w.files (ReadAt root k r.engine r.version n) = some (.npz m) ∧ mem r.extra = size m

/-- The keys of the index are distinct, as those of a JSON object that was loaded are. -/
def Distinct (w : World) : Prop := ∀ f es, w.index = some f → f.matrix = some es → (es.map Prod.fst).Nodup

/-! ## Proof -/

theorem bindM_ok {ε α β : Type} {x : Except ε α} {f : α → Except ε β} {b : β} : (x >>= f) = .ok b ↔ ∃ a, x = .ok a ∧ f a = .ok b := by
  cases x with
  | error e => exact ⟨fun h => (by cases h), fun ⟨_, h, _⟩ => (by cases h)⟩
  | ok a => exact ⟨fun h => ⟨a, rfl, h⟩, fun ⟨_, h, h'⟩ => by cases h; exact h'⟩

theorem needs_ok {α : Type} {x : Option α} {a : α} : needs x = .ok a ↔ x = some a := by
  cases x with
  | none => exact ⟨fun h => (by cases h), fun h => (by cases h)⟩
  | some b => exact ⟨fun h => by cases h; rfl, fun h => by cases h; rfl⟩

/-- A plan: the key is a digest, and the matrix goes where an entry with that interpolation is read. -/
theorem plan_ok {D : Digests} {a : Args} {p : Plan} (h : plan D a = .ok p) : ∃ x y i n e v, p.key = D.key x y i ∧ p.inter.engine = some e ∧
    p.inter.version = some v ∧ methodName ⟨none, none, p.inter.method, e, v, 0⟩ = .ok n ∧ p.target = ReadAt a.outputPath p.key e v n := by
  unfold plan at h
  simp only [bindM_ok, needs_ok] at h
  obtain ⟨i, hi, ⟨i', u⟩, hs, dir, hd, src, _, x, _, y, _, hp⟩ := h
  cases hp
  unfold interDir at hd
  simp only at hd ⊢
  cases he : i'.engine with
  | none => rw [he] at hd; cases hd
  | some e =>
    rw [he] at hd
    simp only at hd
    cases hv : i'.version with
    | none => rw [hv] at hd; cases hd
    | some v =>
      rw [hv] at hd
      simp only at hd
      unfold dirName at hd
      rw [bindM_ok] at hd
      obtain ⟨n, hn, hd⟩ := hd
      cases hd
      refine ⟨x, y, i, n, e, v, rfl, rfl, rfl, hn, ?_⟩
      unfold ReadAt
      rw [join_assoc]

/-- What a build that returns does. -/
theorem build_ok {P : Py} {D : Digests} {a : Args} {w w' : World} (h : makeMatrixPath P D a w = (.ok (), w')) :
    ∃ p m f es r, plan D a = .ok p ∧ w'.files = w.files.set p.target (.npz m) ∧ newEntry P D a p m = .ok r ∧
      readIndex w = .ok f ∧ f.matrix = some es ∧ w'.index = some ⟨f.version, some (upsert es p.key r)⟩ := by
  unfold makeMatrixPath makeMatrixWith at h
  cases hp : plan D a with
  | error e => rw [hp] at h; cases h
  | ok p =>
    rw [hp] at h
    simp only at h
    unfold Mir.toFile at h
    simp only [ne_eq, not_true_eq_false, if_false] at h
    cases hs : w.files p.source with
    | none => rw [hs] at h; cases h
    | some c =>
      rw [hs] at h
      cases c with
      | bytes b =>
        simp only at h
        cases hd : Mir.decode b with
        | error e => rw [hd] at h; cases h
        | ok m =>
          rw [hd] at h
          simp only at h
          unfold record at h
          cases hn : newIndex P D a p { w with files := w.files.set p.target (.npz m) } with
          | error e => rw [hn] at h; cases h
          | ok f' =>
            rw [hn] at h
            cases h
            unfold newIndex at hn
            simp only [bindM_ok] at hn
            obtain ⟨f, hf, m', hm', r, hr, hm⟩ := hn
            have hmm : m' = m := by
              unfold readNpz Mir.Files.set at hm'
              simp only [if_pos] at hm'
              cases hm'; rfl
            subst hmm
            have hr : newEntry P D a p m' = .ok r := by
              unfold lift at hr
              cases hx : newEntry P D a p m' with
              | error e => rw [hx] at hr; cases hr
              | ok r' => rw [hx] at hr; cases hr; rfl
            cases hes : f.matrix with
            | none => rw [hes] at hm; cases hm
            | some es =>
              rw [hes] at hm
              cases hm
              exact ⟨p, m', f, es, r, rfl, rfl, hr, hf, hes, rfl⟩
      | _ => cases h

theorem newEntry_ok {P : Py} {D : Digests} {a : Args} {p : Plan} {m : Csr Nat} {r : Raw} (h : newEntry P D a p m = .ok r) :
    ∃ e v nnz, p.inter.engine = some e ∧ p.inter.version = some v ∧ r.engine = e ∧ r.version = v ∧ r.method = p.inter.method ∧
      r.extra = D.extra p.inter p.uid nnz m := by
  unfold newEntry at h
  simp only [bindM_ok, needs_ok] at h
  obtain ⟨i, _, o, _, nnz, _, e, he, v, hv, hr⟩ := h
  cases hr
  exact ⟨e, v, nnz, he, hv, rfl, rfl, rfl, rfl⟩

/-- The invariant of builds that return. -/
structure Kept (D : Digests) (size : Csr Nat → Nat) (mem : Nat → Nat) (root : List Char) (w : World) : Prop where
  accurate : Accurate size mem root w
  keys : ∀ f es, w.index = some f → f.matrix = some es → (es.map Prod.fst).Nodup ∧ ∀ k ∈ es.map Prod.fst, '/' ∉ k.toList

theorem mem_upsert_other {α : Type} {d : List (String × α)} {k : String} {v : α} (hn : (d.map Prod.fst).Nodup) {x : String × α}
    (h : x ∈ upsert d k v) : x = (k, v) ∨ x ∈ d ∧ x.1 ≠ k := by
  induction d with
  | nil => simp [upsert] at h; exact .inl h
  | cons y d ih =>
    obtain ⟨k', v'⟩ := y
    rw [List.map_cons, List.nodup_cons] at hn
    unfold upsert at h
    split at h
    · rename_i hk
      rcases List.mem_cons.1 h with h | h
      · exact .inl h
      · right
        refine ⟨List.mem_cons_of_mem _ h, fun e => hn.1 ?_⟩
        show k' ∈ _
        rw [hk, ← e]
        exact List.mem_map_of_mem h
    · rename_i hk
      rcases List.mem_cons.1 h with rfl | h
      · exact .inr ⟨List.mem_cons_self, hk⟩
      · rcases ih hn.2 h with h | h
        · exact .inl h
        · exact .inr ⟨List.mem_cons_of_mem _ h.1, h.2⟩

theorem kept_build {P : Py} {D : Digests} {size : Csr Nat → Nat} {mem : Nat → Nat} {root : List Char} {a : Args} {w w' : World}
    (hD : ∀ x y i, '/' ∉ (D.key x y i).toList) (hm : ∀ i u n m, mem (D.extra i u n m) = size m) (hr : a.outputPath = root)
    (hk : Kept D size mem root w) (h : makeMatrixPath P D a w = (.ok (), w')) : Kept D size mem root w' := by
  obtain ⟨p, m, f, es, r, hp, hfiles, hne, hf, hes, hix⟩ := build_ok h
  obtain ⟨x, y, i, n, e, v, hkey, he, hv, hn, htgt⟩ := plan_ok hp
  obtain ⟨e', v', nnz, he', hv', hre, hrv, hrm, hrx⟩ := newEntry_ok hne
  rw [he] at he'; cases he'
  rw [hv] at hv'; cases hv'
  have hold : (es.map Prod.fst).Nodup ∧ (∀ k ∈ es.map Prod.fst, '/' ∉ k.toList) ∧ ∀ k r, (k, r) ∈ es →
      ∃ n m, MethodIs r n ∧ w.files (ReadAt root k r.engine r.version n) = some (.npz m) ∧ mem r.extra = size m := by
    unfold readIndex at hf
    cases hw : w.index with
    | none =>
      rw [hw] at hf
      cases hf
      cases hes
      exact ⟨List.nodup_nil, fun k hk => absurd hk (by simp), fun k r hk => absurd hk (by simp)⟩
    | some f0 =>
      rw [hw] at hf
      simp only at hf
      split at hf
      · cases hf
        exact ⟨(hk.keys _ _ hw hes).1, (hk.keys _ _ hw hes).2, hk.accurate _ _ hw hes⟩
      · cases hf
  have hslash : '/' ∉ p.key.toList := by rw [hkey]; exact hD x y i
  constructor
  · intro f' es' hf' hes' k q hq
    rw [hix] at hf'; cases hf'
    cases hes'
    rcases mem_upsert_other hold.1 hq with h1 | ⟨h1, h2⟩
    · cases h1
      refine ⟨n, m, (methodName_ok _ _).1 ?_, ?_, by rw [hrx]; exact hm _ _ _ _⟩
      · rw [← hn]
        unfold methodName
        rw [hrm]
      · rw [hfiles, htgt, hr, hre, hrv]
        unfold Mir.Files.set
        rw [if_pos rfl]
    · obtain ⟨n', m', h3, h4, h5⟩ := hold.2.2 k q h1
      refine ⟨n', m', h3, ?_, h5⟩
      rw [hfiles, htgt, hr]
      unfold Mir.Files.set
      rw [if_neg]
      · exact h4
      · exact readAt_apart root k p.key _ _ _ _ _ _ (hold.2.1 k (List.mem_map_of_mem h1)) hslash h2
  · intro f' es' hf' hes'
    rw [hix] at hf'; cases hf'
    cases hes'
    refine ⟨upsert_nodup _ _ _ hold.1, ?_⟩
    intro k hkm
    rw [upsert_keys] at hkm
    split at hkm
    · exact hold.2.1 k hkm
    · rcases List.mem_append.1 hkm with h1 | h1
      · exact hold.2.1 k h1
      · rw [List.mem_singleton.1 h1]; exact hslash

/-- C166: in an inventory built from nothing by builds that all returned, also repeated ones, the memory recorded for every entry is that of the
matrix lookups read for it. Partial: no build raised, and the path is handed over as a Path. -/
theorem C166_recorded_partial (P : Py) (D : Digests) (size : Csr Nat → Nat) (mem : Nat → Nat) (root : List Char)
    (hD : ∀ x y i, '/' ∉ (D.key x y i).toList) (hm : ∀ i u n m, mem (D.extra i u n m) = size m) (as : List Args) (ha : ∀ a ∈ as, a.outputPath = root)
    (w : World) (hw : w.index = none) (hok : AllReturn P D as w) : Accurate size mem root (builds P D as w) := by
  have h0 : Kept D size mem root w := ⟨fun f es h => (by rw [hw] at h; exact absurd h nofun), fun f es h => (by rw [hw] at h; exact absurd h nofun)⟩
  suffices h : ∀ (as : List Args) (w : World), (∀ a ∈ as, a.outputPath = root) → Kept D size mem root w → AllReturn P D as w →
      Kept D size mem root (builds P D as w) from (h as w ha h0 hok).accurate
  intro as
  induction as with
  | nil => intro w _ hk _; exact hk
  | cons a as ih =>
    intro w ha hk hok
    exact ih _ (fun b hb => ha b (List.mem_cons_of_mem _ hb))
      (kept_build hD hm (ha a List.mem_cons_self) hk (Prod.ext hok.1 rfl)) hok.2

/-- C166 fails after a build that raised: the matrix is replaced first. Whatever was built, a second description of the same interpolation without
the number of its weights raises KeyError; lookups then find its matrix, with the memory of the first one. -/
theorem C166_refuted (P : Py) (D : Digests) (size : Csr Nat → Nat) (mem : Nat → Nat)
    (hm : ∀ i u n m, mem (D.extra i u n m) = size m) (a : Args) (w w' : World) (h : makeMatrixPath P D a w = (.ok (), w')) (src : List Char)
    (b : Mir.Bytes) (m' : Csr Nat) (hb : w'.files src = some (.bytes b)) (hd : Mir.decode b = .ok m')
    (hne : ∀ p m, w'.files p = some (.npz m) → size m ≠ size m') :
    (∃ e, (makeMatrixPath P D { a with desc := { a.desc with cacheFile := some src, nnz := none } } w').1 = .error e) ∧
    ¬Accurate size mem a.outputPath (builds P D [a, { a with desc := { a.desc with cacheFile := some src, nnz := none } }] w) := by
  obtain ⟨p, m, f, es, r, hp, hfiles, hnew, hf, hes, hix⟩ := build_ok h
  obtain ⟨x, y, i, n, e, v, hkey, he, hv, hn, htgt⟩ := plan_ok hp
  obtain ⟨e', v', nnz, he', hv', hre, hrv, hrm, hrx⟩ := newEntry_ok hnew
  rw [he] at he'; cases he'
  rw [hv] at hv'; cases hv'
  have hp' : plan D { a with desc := { a.desc with cacheFile := some src, nnz := none } } = .ok { p with source := src } := by
    unfold plan at hp ⊢
    simp only [bindM_ok, needs_ok] at hp ⊢
    obtain ⟨i, hi, s, hs, dir, hdir, src', _, x, hx, y, hy, hpp⟩ := hp
    refine ⟨i, hi, s, hs, dir, hdir, src, rfl, x, hx, y, hy, ?_⟩
    cases hpp
    rfl
  have hb2 : ∃ er, makeMatrixPath P D { a with desc := { a.desc with cacheFile := some src, nnz := none } } w' =
      (.error er, { w' with files := w'.files.set p.target (.npz m') }) := by
    unfold makeMatrixPath makeMatrixWith
    rw [hp']
    simp only
    unfold Mir.toFile
    simp only [ne_eq, not_true_eq_false, if_false]
    rw [hb]
    simp only
    rw [hd]
    simp only
    unfold record
    cases hnx : newIndex P D { a with desc := { a.desc with cacheFile := some src, nnz := none } } { p with source := src }
        { w' with files := w'.files.set p.target (.npz m') } with
    | error er => exact ⟨er, rfl⟩
    | ok f' =>
      exfalso
      unfold newIndex at hnx
      simp only [bindM_ok] at hnx
      obtain ⟨_, _, m2, _, r2, hr2, _⟩ := hnx
      unfold lift at hr2
      cases hx : newEntry P D { a with desc := { a.desc with cacheFile := some src, nnz := none } } { p with source := src } m2 with
      | error e => rw [hx] at hr2; cases hr2
      | ok r3 =>
        unfold newEntry at hx
        simp only [bindM_ok, needs_ok] at hx
        obtain ⟨_, _, _, _, k, hk, _⟩ := hx
        cases hk
  obtain ⟨er, hb2⟩ := hb2
  refine ⟨⟨er, by rw [hb2]⟩, ?_⟩
  intro hacc
  have hbw : builds P D [a, { a with desc := { a.desc with cacheFile := some src, nnz := none } }] w = { w' with files := w'.files.set p.target (.npz m') } := by
    unfold builds
    simp only [List.foldl_cons, List.foldl_nil]
    rw [h]
    simp only
    rw [hb2]
  rw [hbw] at hacc
  have hin : (p.key, r) ∈ upsert es p.key r := by
    clear hacc hbw hix hes
    induction es with
    | nil => simp [upsert]
    | cons y es ih =>
      unfold upsert
      split
      · exact List.mem_cons_self
      · exact List.mem_cons_of_mem _ ih
  obtain ⟨n', m3, h1, h2, h3⟩ := hacc _ _ hix rfl p.key r hin
  have hnn : n' = n := by
    have h4 := (methodName_ok _ _).2 h1
    have h5 : methodName r = .ok n := by rw [← hn]; unfold methodName; rw [hrm]
    rw [h5] at h4; cases h4; rfl
  subst hnn
  rw [hre, hrv, ← htgt] at h2
  unfold Mir.Files.set at h2
  simp only [if_pos] at h2
  cases h2
  rw [hrx, hm] at h3
  have h6 := hne p.target m (by rw [hfiles]; unfold Mir.Files.set; rw [if_pos rfl])
  exact h6 h3

/-- What any build does, whether it returns or raises. -/
theorem build_any (P : Py) (D : Digests) (a : Args) (w : World) :
    ((makeMatrixPath P D a w).2.files = w.files ∨ ∃ p m, plan D a = .ok p ∧ (makeMatrixPath P D a w).2.files = w.files.set p.target (.npz m)) ∧
    ((makeMatrixPath P D a w).2.index = w.index ∨ (makeMatrixPath P D a w).1 = .ok ()) := by
  cases h : makeMatrixPath P D a w with
  | mk x w' =>
    cases x with
    | ok u =>
      obtain ⟨p, m, f, es, r, hp, hfiles, _⟩ := build_ok h
      exact ⟨.inr ⟨p, m, hp, hfiles⟩, .inr rfl⟩
    | error e =>
      refine ⟨?_, .inl (C71_failed _ P D a w w' e h)⟩
      unfold makeMatrixPath makeMatrixWith at h
      cases hp : plan D a with
      | error e => rw [hp] at h; cases h; exact .inl rfl
      | ok p =>
        rw [hp] at h
        simp only at h
        unfold Mir.toFile at h
        simp only [ne_eq, not_true_eq_false, if_false] at h
        cases hs : w.files p.source with
        | none => rw [hs] at h; cases h; exact .inl rfl
        | some c =>
          rw [hs] at h
          cases c with
          | bytes b =>
            simp only at h
            cases hd : Mir.decode b with
            | error e => rw [hd] at h; cases h; exact .inl rfl
            | ok m =>
              rw [hd] at h
              simp only at h
              unfold record at h
              split at h
              · cases h
              · cases h; exact .inr ⟨p, m, rfl, rfl⟩
          | _ => cases h; exact .inl rfl

theorem readIndex_cases {w : World} {f : IndexFile} {es : List (String × Raw)} (hf : readIndex w = .ok f) (hes : f.matrix = some es) :
    es = [] ∨ w.index = some f := by
  unfold readIndex at hf
  cases hw : w.index with
  | none =>
    rw [hw] at hf
    cases hf
    cases hes
    exact .inl rfl
  | some f0 =>
    rw [hw] at hf
    simp only at hf
    split at hf
    · cases hf; exact .inr rfl
    · cases hf

theorem distinct_build (P : Py) (D : Digests) (a : Args) (w : World) (h : Distinct w) : Distinct (makeMatrixPath P D a w).2 := by
  rcases (build_any P D a w).2 with hi | hi
  · intro f es hf hes
    rw [hi] at hf
    exact h f es hf hes
  · obtain ⟨p, m, f, es, r, _, _, _, hf, hes, hix⟩ := build_ok (w' := (makeMatrixPath P D a w).2) (Prod.ext hi rfl)
    intro f' es' hf' hes'
    rw [hix] at hf'; cases hf'
    cases hes'
    refine upsert_nodup _ _ _ ?_
    rcases readIndex_cases hf hes with rfl | hw
    · exact List.nodup_nil
    · exact h _ _ hw hes

/-- A build that returns makes its own entry accurate, whatever was there. -/
theorem own_build {P : Py} {D : Digests} {size : Csr Nat → Nat} {mem : Nat → Nat} {a : Args} {w : World} {p : Plan}
    (hm : ∀ i u n m, mem (D.extra i u n m) = size m) (hw : Distinct w) (hp : plan D a = .ok p) (h : (makeMatrixPath P D a w).1 = .ok ()) :
    AccurateFor size mem a.outputPath p.key (makeMatrixPath P D a w).2 := by
  obtain ⟨p', m, f, es, r, hp', hfiles, hne, hf, hes, hix⟩ := build_ok (w' := (makeMatrixPath P D a w).2) (Prod.ext h rfl)
  rw [hp] at hp'; cases hp'
  obtain ⟨x, y, i, n, e, v, hkey, he, hv, hn, htgt⟩ := plan_ok hp
  obtain ⟨e', v', nnz, he', hv', hre, hrv, hrm, hrx⟩ := newEntry_ok hne
  rw [he] at he'; cases he'
  rw [hv] at hv'; cases hv'
  intro f' es' hf' hes' q hq
  rw [hix] at hf'; cases hf'
  cases hes'
  have hnd : (es.map Prod.fst).Nodup := by
    rcases readIndex_cases hf hes with rfl | hw'
    · exact List.nodup_nil
    · exact hw _ _ hw' hes
  rcases mem_upsert_other hnd hq with h1 | ⟨h1, h2⟩
  · cases h1
    refine ⟨n, m, (methodName_ok _ _).1 ?_, ?_, by rw [hrx]; exact hm _ _ _ _⟩
    · rw [← hn]
      unfold methodName
      rw [hrm]
    · rw [hfiles, htgt, hre, hrv]
      unfold Mir.Files.set
      rw [if_pos rfl]
  · exact absurd rfl h2

/-- A build for another key, whether it returns or raises, leaves the entry accurate. -/
theorem other_build {P : Py} {D : Digests} {size : Csr Nat → Nat} {mem : Nat → Nat} {a : Args} {w : World} {k : String}
    (hD : ∀ x y i, '/' ∉ (D.key x y i).toList) (hk : '/' ∉ k.toList) (hw : Distinct w)
    (ho : ∀ p, plan D a = .ok p → p.key ≠ k) (h : AccurateFor size mem a.outputPath k w) :
    AccurateFor size mem a.outputPath k (makeMatrixPath P D a w).2 := by
  have hfile : ∀ e v n, (makeMatrixPath P D a w).2.files (ReadAt a.outputPath k e v n) = w.files (ReadAt a.outputPath k e v n) := by
    intro e v n
    rcases (build_any P D a w).1 with hf | ⟨p, m, hp, hf⟩
    · rw [hf]
    · obtain ⟨x, y, i, n', e', v', hkey, _, _, _, htgt⟩ := plan_ok hp
      rw [hf, htgt]
      unfold Mir.Files.set
      rw [if_neg]
      exact readAt_apart a.outputPath k p.key _ _ _ _ _ _ hk (by rw [hkey]; exact hD x y i) (fun e => ho p hp e.symm)
  have hidx : ∀ f es, (makeMatrixPath P D a w).2.index = some f → f.matrix = some es → ∀ r, (k, r) ∈ es →
      ∃ f0 es0, w.index = some f0 ∧ f0.matrix = some es0 ∧ (k, r) ∈ es0 := by
    intro f' es' hf' hes' r hr
    rcases (build_any P D a w).2 with hi | hi
    · rw [hi] at hf'
      exact ⟨_, _, hf', hes', hr⟩
    · obtain ⟨p, m, f, es, r', hp, _, _, hf, hes, hix⟩ := build_ok (w' := (makeMatrixPath P D a w).2) (Prod.ext hi rfl)
      rw [hix] at hf'; cases hf'
      cases hes'
      rcases readIndex_cases hf hes with rfl | hw'
      · simp only [upsert, List.mem_singleton] at hr
        cases hr
        exact absurd rfl (ho p hp)
      · rcases mem_upsert_other (hw _ _ hw' hes) hr with h1 | ⟨h1, _⟩
        · cases h1
          exact absurd rfl (ho p hp)
        · exact ⟨_, _, hw', hes, h1⟩
  intro f es hf hes r hr
  obtain ⟨f0, es0, h1, h2, h3⟩ := hidx f es hf hes r hr
  obtain ⟨n, m, h4, h5, h6⟩ := h f0 es0 h1 h2 r h3
  exact ⟨n, m, h4, by rw [hfile]; exact h5, h6⟩

theorem distinct_builds (P : Py) (D : Digests) (as : List Args) (w : World) (h : Distinct w) : Distinct (builds P D as w) := by
  induction as generalizing w with
  | nil => exact h
  | cons a as ih => exact ih _ (distinct_build P D a w h)

/-- C166 for one interpolation, with builds that raise: whatever was built or failed before, after a build that returned the memory recorded is that
of the matrix lookups read, and builds of other interpolations into the directory, also those that raise, leave it so. -/
theorem C166_each_partial (P : Py) (D : Digests) (size : Csr Nat → Nat) (mem : Nat → Nat) (hD : ∀ x y i, '/' ∉ (D.key x y i).toList)
    (hm : ∀ i u n m, mem (D.extra i u n m) = size m) (before : List Args) (a : Args) (after : List Args) (w : World) (hw : Distinct w) (p : Plan)
    (hp : plan D a = .ok p) (hok : (makeMatrixPath P D a (builds P D before w)).1 = .ok ()) (hroot : ∀ b ∈ after, b.outputPath = a.outputPath)
    (ho : ∀ b ∈ after, ∀ q, plan D b = .ok q → q.key ≠ p.key) :
    AccurateFor size mem a.outputPath p.key (builds P D (before ++ a :: after) w) := by
  have hk : '/' ∉ p.key.toList := by
    obtain ⟨x, y, i, _, _, _, hkey, _⟩ := plan_ok hp
    rw [hkey]; exact hD x y i
  have hsplit : builds P D (before ++ a :: after) w = builds P D after (makeMatrixPath P D a (builds P D before w)).2 := by
    unfold builds
    rw [List.foldl_append, List.foldl_cons]
  rw [hsplit]
  have h0 := distinct_builds P D before w hw
  have h1 := own_build hm h0 hp hok
  have h2 := distinct_build P D a _ h0
  generalize (makeMatrixPath P D a (builds P D before w)).2 = w1 at h1 h2
  induction after generalizing w1 with
  | nil => exact h1
  | cons b after ih =>
    refine ih (fun c hc => hroot c (List.mem_cons_of_mem _ hc)) (fun c hc => ho c (List.mem_cons_of_mem _ hc)) ?_ _ ?_ (distinct_build P D b _ h2)
    · unfold builds
      rw [List.foldl_append, List.foldl_cons]
    · have hb := hroot b List.mem_cons_self
      rw [← hb] at h1 ⊢
      exact other_build hD hk h2 (ho b List.mem_cons_self) h1

/-! ## Examples -/

/-- Four bytes for each number. -/
def bytesOf (m : Csr Nat) : Nat := 4 * (m.data.length + m.indices.length + m.indptr.length)

def plainDigests : Digests := ⟨fun _ _ _ => "k", fun _ => "s".toList, fun _ _ _ m => bytesOf m⟩

/-- A second matrix, with one weight less. -/
def otherMatrix : Mir.MirMatrix := ⟨3, 2, 2, false, 4, 8, [0, 1, 1, 2], [0, 1], [0x3f800000, 0x3f800000]⟩

theorem otherMatrix_wf : otherMatrix.Wf := by constructor <;> decide

def twoFiles (p q : List Char) (b c : Mir.Bytes) : World := ⟨fun x => if x = p then some (.bytes b) else if x = q then some (.bytes c) else none, none⟩

theorem twoFiles_first (p q : List Char) (b c : Mir.Bytes) : (twoFiles p q b c).files p = some (.bytes b) := by simp [twoFiles]

theorem twoFiles_second {p q : List Char} (b c : Mir.Bytes) (h : q ≠ p) : (twoFiles p q b c).files q = some (.bytes (c ++ [])) := by simp [twoFiles, h]

theorem twoFiles_set (p q t : List Char) (b c : Mir.Bytes) (m : Csr Nat) (x : List Char) (m' : Csr Nat)
    (h : (twoFiles p q b c).files.set t (.npz m) x = some (.npz m')) : m' = m := by
  simp only [Mir.Files.set, twoFiles] at h
  split at h
  · cases h; rfl
  · split at h
    · cases h
    · split at h <;> cases h

/-- The cache files of both. -/
def twoCaches : World := twoFiles "cache.mat".toList "other.mat".toList sampleMatrix.file otherMatrix.file

def target : List Char := ReadAt "out".toList "k" "mir".toList "1".toList "linear".toList

theorem sample_built (P : Py) : ∃ ix, makeMatrixPath P plainDigests (sampleArgs (.name "linear".toList)) twoCaches =
    (.ok (), ⟨twoCaches.files.set target (.npz (asCsr sampleMatrix)), ix⟩) := by
  obtain ⟨ver, es', r, h, _⟩ := C71_entry_partial P plainDigests (sampleArgs (.name "linear".toList)) twoCaches (mirLatLon 1 181 360 359)
    (mirLatLon 2 91 180 358)
    ⟨some (.name "linear".toList), some "mir".toList, some "1".toList, 0⟩ _ _ "linear".toList "mir".toList "1".toList "cache.mat".toList 3
    sampleMatrix [] rfl rfl rfl rfl rfl (describes_latlon P 1 181 360 359) (describes_latlon P 2 91 180 358) (.inl rfl) rfl rfl
    (twoFiles_first _ _ _ _) sampleMatrix_wf (.inl ⟨rfl, rfl⟩)
  exact ⟨_, h⟩

/-- `C166_recorded_partial` -/
example (P : Py) : Accurate bytesOf id "out".toList (builds P plainDigests [sampleArgs (.name "linear".toList)] twoCaches) := by
  obtain ⟨ix, h⟩ := sample_built P
  exact C166_recorded_partial P plainDigests bytesOf id "out".toList (fun _ _ _ => by simp only [plainDigests]; decide) (fun _ _ _ _ => rfl)
    [sampleArgs (.name "linear".toList)] (by simp [sampleArgs]) twoCaches rfl ⟨by rw [h], trivial⟩

/-- `C166_each_partial`: between two builds that raise. -/
example (P : Py) : AccurateFor bytesOf id "out".toList "k" (builds P plainDigests [{ sampleArgs (.name "linear".toList) with
    desc := { (sampleArgs (.name "linear".toList)).desc with cacheFile := none } }, sampleArgs (.name "linear".toList),
    { sampleArgs (.name "linear".toList) with desc := { (sampleArgs (.name "linear".toList)).desc with cacheFile := none } }] twoCaches) := by
  obtain ⟨ix, h⟩ := sample_built P
  cases hp : plan plainDigests (sampleArgs (.name "linear".toList)) with
  | error e => cases hp
  | ok p =>
    obtain ⟨x, y, i, _, _, _, hkey, _⟩ := plan_ok hp
    have := C166_each_partial P plainDigests bytesOf id (fun _ _ _ => by simp only [plainDigests]; decide) (fun _ _ _ _ => rfl)
      [{ sampleArgs (.name "linear".toList) with desc := { (sampleArgs (.name "linear".toList)).desc with cacheFile := none } }]
      (sampleArgs (.name "linear".toList))
      [{ sampleArgs (.name "linear".toList) with desc := { (sampleArgs (.name "linear".toList)).desc with cacheFile := none } }]
      twoCaches (fun f es hf => by cases hf) p hp
      (by show (makeMatrixPath P plainDigests (sampleArgs (.name "linear".toList)) twoCaches).1 = _; rw [h])
      (fun b hb => by rw [List.mem_singleton.1 hb]) (fun b hb q hq => by rw [List.mem_singleton.1 hb] at hq; cases hq)
    rw [hkey] at this
    exact this

/-- `C166_refuted` -/
example (P : Py) : ¬Accurate bytesOf id "out".toList (builds P plainDigests [sampleArgs (.name "linear".toList), { sampleArgs (.name "linear".toList) with
    desc := { (sampleArgs (.name "linear".toList)).desc with cacheFile := some "other.mat".toList, nnz := none } }] twoCaches) := by
  obtain ⟨ix, h⟩ := sample_built P
  have hb : (twoCaches.files.set target (.npz (asCsr sampleMatrix))) "other.mat".toList = some (.bytes (otherMatrix.file ++ [])) := by
    unfold Mir.Files.set
    rw [if_neg (by decide +kernel)]
    exact twoFiles_second _ _ (by decide)
  refine (C166_refuted P plainDigests bytesOf id (fun _ _ _ _ => rfl) (sampleArgs (.name "linear".toList)) twoCaches _ h "other.mat".toList _ _ hb
    (Mir.C53_decodes otherMatrix otherMatrix_wf []) ?_).2
  intro p m hp
  have hm : m = asCsr sampleMatrix := twoFiles_set _ _ _ _ _ _ _ _ hp
  subst hm
  decide

end Verif.Builder

import Verif.Index.Spec
import Verif.GridSpec.Props2

namespace Verif.Index
open Verif.GridSpec

theorem methodName_ok (r : Raw) (m : List Char) : methodName r = .ok m ↔ MethodIs r m := by
  unfold methodName
  constructor
  · intro h
    split at h
    · cases h
    · rename_i s hs; cases h; exact .text r _ hs
    · rename_i t o hs; cases h; exact .dict r _ o hs
    · cases h
    · cases h
  · intro h
    cases h with
    | text h => rw [h]
    | dict o h => rw [h]

theorem methodIs_unique {r : Raw} {m n : List Char} (h : MethodIs r m) (h' : MethodIs r n) : m = n := by
  rw [← methodName_ok] at h h'
  rw [h] at h'; cases h'; rfl

theorem matches_true (P : Py) (order : List String) (e : Entry) (gi go : GS) (m : List Char) :
    matches_ P order e gi go m = .ok true ↔ Hit P order gi go m e := by
  unfold matches_ Hit
  rw [← methodName_ok]
  simp only [bind, Except.bind, pure, Except.pure]
  cases methodName e.raw with
  | error x => simp
  | ok n =>
    by_cases hn : n = m
    · subst hn
      simp only [ne_eq, not_true, if_false, true_and]
      cases eq P order e.input gi with
      | error x => simp
      | ok b => cases b <;> simp
    · simp [hn]

theorem matches_false (P : Py) (order : List String) (e : Entry) (gi go : GS) (m : List Char) :
    matches_ P order e gi go m = .ok false ↔ Miss P order gi go m e := by
  have key : Miss P order gi go m e ↔ ∃ n, methodName e.raw = .ok n ∧
    (n ≠ m ∨ eq P order e.input gi = .ok false ∨ eq P order e.input gi = .ok true ∧ eq P order e.output go = .ok false) := by
    unfold Miss; simp only [methodName_ok]
  rw [key]
  unfold matches_
  simp only [bind, Except.bind, pure, Except.pure]
  cases methodName e.raw with
  | error x => simp
  | ok n =>
    by_cases hn : n = m
    · subst hn
      cases eq P order e.input gi with
      | error x => simp
      | ok b => cases b <;> simp
    · simp [hn]

theorem not_hit_of_miss {P : Py} {order : List String} {gi go : GS} {m : List Char} {e : Entry}
    (h : Miss P order gi go m e) : ¬ Hit P order gi go m e := by
  rw [← matches_false] at h
  rw [← matches_true, h]
  simp

theorem search_some (P : Py) (order : List String) (gi go : GS) (m : List Char) (e : Entry) : ∀ ix : Index,
    search P order gi go m ix = .ok (some e) ↔
      ∃ pre k post, ix = pre ++ (k, e) :: post ∧ Hit P order gi go m e ∧ ∀ x ∈ pre, Miss P order gi go m x.2
  | [] => by simp [search]
  | (k', e') :: rest => by
    simp only [search, bind, Except.bind, pure, Except.pure]
    cases hm : matches_ P order e' gi go m with
    | error x =>
      simp only [reduceCtorEq, false_iff]
      rintro ⟨pre, k, post, h1, h2, h3⟩
      cases pre with
      | nil => simp at h1; obtain ⟨⟨_, rfl⟩, _⟩ := h1; rw [← matches_true, hm] at h2; cases h2
      | cons p ps =>
        simp at h1
        have := h3 p (by simp)
        rw [← h1.1, ← matches_false, hm] at this; cases this
    | ok b =>
      cases b with
      | true =>
        simp only [if_true, ok_ok, Option.some.injEq]
        constructor
        · rintro rfl; exact ⟨[], k', rest, rfl, (matches_true ..).1 hm, by simp⟩
        · rintro ⟨pre, k, post, h1, h2, h3⟩
          cases pre with
          | nil => simp at h1; exact h1.1.2
          | cons p ps =>
            simp at h1
            have := h3 p (by simp)
            rw [← h1.1, ← matches_false, hm] at this; cases this
      | false =>
        simp only [Bool.false_eq_true, if_false]
        rw [search_some P order gi go m e rest]
        constructor
        · rintro ⟨pre, k, post, h1, h2, h3⟩
          refine ⟨(k', e') :: pre, k, post, by rw [h1]; rfl, h2, ?_⟩
          intro x hx
          rcases List.mem_cons.1 hx with rfl | hx
          · exact (matches_false ..).1 hm
          · exact h3 x hx
        · rintro ⟨pre, k, post, h1, h2, h3⟩
          cases pre with
          | nil => simp at h1; obtain ⟨⟨_, rfl⟩, _⟩ := h1; rw [← matches_true, hm] at h2; cases h2
          | cons p ps =>
            simp at h1
            exact ⟨ps, k, post, h1.2, h2, fun x hx => h3 x (List.mem_cons_of_mem _ hx)⟩

theorem search_none (P : Py) (order : List String) (gi go : GS) (m : List Char) : ∀ ix : Index,
    search P order gi go m ix = .ok none ↔ ∀ x ∈ ix, Miss P order gi go m x.2
  | [] => by simp [search]
  | (k', e') :: rest => by
    simp only [search, bind, Except.bind, pure, Except.pure, List.forall_mem_cons]
    rw [← matches_false]
    cases hm : matches_ P order e' gi go m with
    | error x => simp
    | ok b =>
      cases b with
      | true => simp
      | false =>
        simp only [Bool.false_eq_true, if_false, true_and]
        exact search_none P order gi go m rest

theorem find_ok (P : Py) (order : List String) (ix : Index) (di dO : Dict) (m : List Char) (r : Option Entry) :
    find P order ix di dO m = .ok r ↔ ∃ gi go, fromDict P di = .ok gi ∧ fromDict P dO = .ok go ∧ search P order gi go m ix = .ok r := by
  unfold find
  simp only [bind_ok]
  constructor
  · rintro ⟨gi, h1, go, h2, h3⟩; exact ⟨gi, go, h1, h2, h3⟩
  · rintro ⟨gi, go, h1, h2, h3⟩; exact ⟨gi, h1, go, h2, h3⟩

/-! ### dicts -/

theorem upsert_keys {α : Type} (d : List (String × α)) (k : String) (v : α) :
    (upsert d k v).map Prod.fst = if k ∈ d.map Prod.fst then d.map Prod.fst else d.map Prod.fst ++ [k] := by
  induction d with
  | nil => simp [upsert]
  | cons p r ih =>
    obtain ⟨k', v'⟩ := p
    unfold upsert
    by_cases h : k' = k
    · subst h; simp
    · rw [if_neg h, List.map_cons, ih]
      have h' : ¬ k = k' := fun e => h e.symm
      simp only [List.map_cons, List.mem_cons, h', false_or]
      split <;> simp

theorem upsert_nodup {α : Type} (d : List (String × α)) (k : String) (v : α) (h : (d.map Prod.fst).Nodup) :
    ((upsert d k v).map Prod.fst).Nodup := by
  rw [upsert_keys]
  split
  · exact h
  · rename_i hk
    rw [List.nodup_append]
    exact ⟨h, by simp, by intro a ha b hb; simp at hb; subst hb; intro e; subst e; exact hk ha⟩

theorem upsert_new {α : Type} (d : List (String × α)) (k : String) (v : α) (h : k ∉ d.map Prod.fst) :
    upsert d k v = d ++ [(k, v)] := by
  induction d with
  | nil => rfl
  | cons p r ih =>
    obtain ⟨k', v'⟩ := p
    simp only [List.map_cons, List.mem_cons, not_or] at h
    rw [upsert, if_neg (fun e => h.1 e.symm), ih h.2]; rfl

theorem upsert_same {α : Type} (d : List (String × α)) (k : String) (v : α) (hn : (d.map Prod.fst).Nodup) (h : (k, v) ∈ d) :
    upsert d k v = d := by
  induction d with
  | nil => simp at h
  | cons p r ih =>
    obtain ⟨k', v'⟩ := p
    simp only [List.map_cons, List.nodup_cons] at hn
    rcases List.mem_cons.1 h with h | h
    · cases h; simp [upsert]
    · have : k' ≠ k := by
        rintro rfl
        exact hn.1 (List.mem_map.2 ⟨_, h, rfl⟩)
      rw [upsert, if_neg this, ih hn.2 h]

theorem key_unique {α : Type} (d : List (String × α)) (k : String) (v w : α) (hn : (d.map Prod.fst).Nodup)
    (h : (k, v) ∈ d) (h' : (k, w) ∈ d) : v = w := by
  induction d with
  | nil => simp at h
  | cons p r ih =>
    simp only [List.map_cons, List.nodup_cons] at hn
    rcases List.mem_cons.1 h with h | h <;> rcases List.mem_cons.1 h' with h' | h'
    · rw [← h'] at h; cases h; rfl
    · exact absurd (List.mem_map.2 ⟨_, h', rfl⟩) (by rw [← h] at hn; exact hn.1)
    · exact absurd (List.mem_map.2 ⟨_, h, rfl⟩) (by rw [← h'] at hn; exact hn.1)
    · exact ih hn.2 h h'

theorem upsert_mem {α : Type} (d : List (String × α)) (k : String) (v : α) (x : String × α) (h : x ∈ upsert d k v) :
    x = (k, v) ∨ x ∈ d := by
  induction d with
  | nil => simp [upsert] at h; exact Or.inl h
  | cons p r ih =>
    obtain ⟨k', v'⟩ := p
    unfold upsert at h
    split at h
    · rcases List.mem_cons.1 h with h | h
      · exact Or.inl h
      · exact Or.inr (List.mem_cons_of_mem _ h)
    · rcases List.mem_cons.1 h with h | h
      · exact Or.inr (by rw [h]; exact List.mem_cons_self ..)
      · rcases ih h with h | h
        · exact Or.inl h
        · exact Or.inr (List.mem_cons_of_mem _ h)

/-! ### loading -/

theorem parse_ok (P : Py) (r : Raw) (gi go : GS) : parse P r = .ok (gi, go) ↔
    (∃ d, r.input = some d ∧ fromDict P d = .ok gi) ∧ (∃ d, r.output = some d ∧ fromDict P d = .ok go) := by
  unfold parse
  cases r.input with
  | none => simp
  | some i =>
    simp only [bind_ok, Option.some.injEq, exists_eq_left']
    cases r.output with
    | none => simp
    | some o =>
      simp only [bind_ok, pure_ok, Option.some.injEq, exists_eq_left', Prod.mk.injEq]
      constructor
      · rintro ⟨a, h1, b, h2, rfl, rfl⟩; exact ⟨h1, h2⟩
      · rintro ⟨h1, h2⟩; exact ⟨gi, h1, go, h2, rfl, rfl⟩

/-- The loaded form of one file entry. -/
def loadedForm (P : Py) (e : String × Raw) : Option (String × Entry) :=
  match parse P e.2 with
  | .ok (gi, go) => some (e.1, ⟨e.1, gi, go, e.2⟩)
  | .error _ => none

theorem loadedForm_some (P : Py) (e : String × Raw) (x : String × Entry) :
    loadedForm P e = some x ↔ x.1 = e.1 ∧ Loaded P e.1 e.2 x.2 := by
  unfold loadedForm Loaded
  cases hp : parse P e.2 with
  | error y =>
    simp only [reduceCtorEq, false_iff]
    rintro ⟨_, _, _, h1, h2⟩
    rw [(parse_ok P e.2 x.2.input x.2.output).2 ⟨h1, h2⟩] at hp
    cases hp
  | ok p =>
    obtain ⟨gi, go⟩ := p
    have h := (parse_ok P e.2 gi go).1 hp
    simp only [Option.some.injEq]
    constructor
    · rintro rfl; exact ⟨rfl, rfl, rfl, h⟩
    · rintro ⟨h1, h2, h3, h4⟩
      have := (parse_ok P e.2 x.2.input x.2.output).2 h4
      rw [hp] at this
      injection this with this
      injection this with e1 e2
      obtain ⟨n, a, b, c, d⟩ := x
      simp at h1 h2 h3 e1 e2
      subst h1; subst h2; subst h3; subst e1; subst e2
      rfl

theorem loadedForm_key (P : Py) (e : String × Raw) (x : String × Entry) (h : loadedForm P e = some x) : x.1 = e.1 :=
  ((loadedForm_some P e x).1 h).1

theorem filterMap_keys (P : Py) (es : List (String × Raw)) (k : String) (h : k ∈ (es.filterMap (loadedForm P)).map Prod.fst) :
    k ∈ es.map Prod.fst := by
  simp only [List.mem_map, List.mem_filterMap] at h ⊢
  obtain ⟨x, ⟨e, he, hx⟩, rfl⟩ := h
  exact ⟨e, he, (loadedForm_key P e x hx).symm⟩

theorem foldl_loadOne (P : Py) : ∀ (es : List (String × Raw)) (ix : Index), (es.map Prod.fst).Nodup →
    (∀ k ∈ ix.map Prod.fst, k ∉ es.map Prod.fst) → es.foldl (loadOne P) ix = ix ++ es.filterMap (loadedForm P)
  | [], ix, _, _ => by simp
  | e :: es, ix, hn, hd => by
    simp only [List.map_cons, List.nodup_cons] at hn
    rw [List.foldl_cons, List.filterMap_cons]
    cases hp : parse P e.2 with
    | error y =>
      have h1 : loadOne P ix e = ix := by simp [loadOne, hp]
      have h2 : loadedForm P e = none := by simp [loadedForm, hp]
      rw [h1, h2, foldl_loadOne P es ix hn.2 (fun k hk hk' => hd k hk (List.mem_cons_of_mem _ hk'))]
    | ok p =>
      obtain ⟨gi, go⟩ := p
      have h1 : loadOne P ix e = upsert ix e.1 ⟨e.1, gi, go, e.2⟩ := by simp [loadOne, hp]
      have h2 : loadedForm P e = some (e.1, ⟨e.1, gi, go, e.2⟩) := by simp [loadedForm, hp]
      have hnew : e.1 ∉ ix.map Prod.fst := fun h => hd _ h (by simp)
      rw [h1, h2, upsert_new _ _ _ hnew, foldl_loadOne P es _ hn.2]
      · simp only [List.append_assoc, List.cons_append, List.nil_append]
      · intro k hk hk'
        rw [List.map_append, List.mem_append] at hk
        rcases hk with hk | hk
        · exact hd k hk (List.mem_cons_of_mem _ hk')
        · simp at hk; subst hk; exact hn.1 hk'

theorem version_iff (v : Option V) : pyEq (v.getD .none) (.int 1) = true ↔ OneVersion v := by
  rw [pyEq_iff]
  constructor
  · intro h
    cases v with
    | none => cases h with | num h _ => cases h
    | some v =>
      have h : Equal v (.int 1) := h
      cases h with
      | num h h' =>
        have hq := (num_iff _ _).2 h'
        simp only [V.num, Option.some.injEq] at hq
        subst hq
        cases h with
        | yes => exact .inr (.inr rfl)
        | int => exact .inl rfl
        | flt => exact .inr (.inl (by simp))
  · rintro (rfl | rfl | rfl)
    · exact .num (q := 1) (by exact_mod_cast Number.int 1) (by exact_mod_cast Number.int 1)
    · exact .num (q := 1) (.flt 1) (by exact_mod_cast Number.int 1)
    · exact .num (q := 1) .yes (by exact_mod_cast Number.int 1)

theorem load_ok (P : Py) (f : IndexFile) (es : List (String × Raw)) (hv : pyEq (f.version.getD .none) VERSION = true)
    (hm : f.matrix = some es) (hn : (es.map Prod.fst).Nodup) : load P f = .ok (es.filterMap (loadedForm P)) := by
  unfold load
  rw [if_pos hv, hm]
  simp only
  rw [foldl_loadOne P es [] hn (by simp), List.nil_append]

/-- What an index can be: loaded forms under their own names. -/
structure Clean (P : Py) (ix : Index) : Prop where
  nodup : (ix.map Prod.fst).Nodup
  forms : ∀ x ∈ ix, Loaded P x.1 x.2.raw x.2

theorem filterMap_nodup (P : Py) : ∀ es : List (String × Raw), (es.map Prod.fst).Nodup →
    ((es.filterMap (loadedForm P)).map Prod.fst).Nodup
  | [], _ => by simp
  | e :: es, h => by
    simp only [List.map_cons, List.nodup_cons] at h
    rw [List.filterMap_cons]
    cases hf : loadedForm P e with
    | none => exact filterMap_nodup P es h.2
    | some x =>
      simp only [List.map_cons, List.nodup_cons]
      refine ⟨fun hk => ?_, filterMap_nodup P es h.2⟩
      rw [loadedForm_key P e x hf] at hk
      exact h.1 (filterMap_keys P es _ hk)

theorem load_clean (P : Py) (f : IndexFile) (ix : Index) (hn : ∀ es, f.matrix = some es → (es.map Prod.fst).Nodup)
    (h : load P f = .ok ix) : Clean P ix := by
  unfold load at h
  split at h
  · cases hm : f.matrix with
    | none => rw [hm] at h; cases h
    | some es =>
      rw [hm] at h
      simp only at h
      rw [foldl_loadOne P es [] (hn es hm) (by simp), List.nil_append] at h
      cases h
      refine ⟨filterMap_nodup P es (hn es hm), ?_⟩
      intro x hx
      simp only [List.mem_filterMap] at hx
      obtain ⟨e, he, hx⟩ := hx
      obtain ⟨h1, h2⟩ := (loadedForm_some P e x).1 hx
      rw [h1, h2.2.1]; exact h2
  · cases h

/-! ### subsets and writing -/

theorem toRaw_matrix (P : Py) (ix : Index) (hc : Clean P ix) :
    (toRaw ix).matrix = some (ix.map (fun x => (x.1, x.2.raw))) := by
  unfold toRaw
  simp only [Option.some.injEq]
  suffices ∀ (r : List (String × Raw)) (ix : Index), (∀ x ∈ ix, x.2.name = x.1) → (ix.map Prod.fst).Nodup →
      (∀ k ∈ r.map Prod.fst, k ∉ ix.map Prod.fst) →
      ix.foldl (fun r e => upsert r e.2.name e.2.raw) r = r ++ ix.map (fun x => (x.1, x.2.raw)) by
    have := this [] ix (fun x hx => (hc.forms x hx).1) hc.nodup (by simp)
    rw [this, List.nil_append]
  intro r ix
  induction ix generalizing r with
  | nil => simp
  | cons x xs ih =>
    intro h1 h2 h3
    simp only [List.map_cons, List.nodup_cons] at h2
    rw [List.foldl_cons, h1 x (by simp), upsert_new _ _ _ (fun h => h3 _ h (by simp)), ih _ (fun y hy => h1 y (by simp [hy])) h2.2]
    · simp
    · intro k hk hk'
      rw [List.map_append, List.mem_append] at hk
      rcases hk with hk | hk
      · exact h3 k hk (by simp only [List.map_cons, List.mem_cons]; exact Or.inr hk')
      · simp at hk; subst hk; exact h2.1 hk'

theorem subset_mem (P : Py) (order : List String) (ix : Index) (b : Bool) (hc : Clean P ix) : ∀ (fs : List Filter) (res res' : Index),
    (∀ x ∈ res, x ∈ ix) → (res.map Prod.fst).Nodup → subset P order ix b fs res = .ok res' →
    (∀ x ∈ res', x ∈ ix) ∧ (res'.map Prod.fst).Nodup ∧ (∀ x ∈ res, x ∈ res') ∧
      (∀ f ∈ fs, ∀ e, find P order ix f.input f.output f.methodOf = .ok (some e) → (e.name, e) ∈ res') ∧
      (∀ f ∈ fs, ∃ r, find P order ix f.input f.output f.methodOf = .ok r ∧ (r = none → b = false))
  | [], res, res', h1, h2, h => by
    unfold subset at h; cases h
    exact ⟨h1, h2, fun x hx => hx, by simp, by simp⟩
  | f :: fs, res, res', h1, h2, h => by
    unfold subset at h
    rw [bind_ok] at h
    obtain ⟨r, hr, h⟩ := h
    cases r with
    | none =>
      simp only at h
      cases b with
      | true => simp at h
      | false =>
        simp only [Bool.false_eq_true, if_false] at h
        obtain ⟨a1, a2, a3, a4, a5⟩ := subset_mem P order ix false hc fs res res' h1 h2 h
        refine ⟨a1, a2, a3, ?_, ?_⟩
        · intro f' hf' e he
          rcases List.mem_cons.1 hf' with rfl | hf'
          · rw [hr] at he; cases he
          · exact a4 f' hf' e he
        · intro f' hf'
          rcases List.mem_cons.1 hf' with rfl | hf'
          · exact ⟨none, hr, fun _ => rfl⟩
          · exact a5 f' hf'
    | some e =>
      simp only at h
      have hin : (e.name, e) ∈ ix := by
        obtain ⟨gi, go, _, _, hs⟩ := (find_ok ..).1 hr
        obtain ⟨pre, k, post, hx, _⟩ := (search_some ..).1 hs
        have hk : (k, e) ∈ ix := by rw [hx]; simp
        have := (hc.forms _ hk).1
        simp only at this
        rw [this]; exact hk
      have hsub : ∀ x ∈ upsert res e.name e, x ∈ ix := by
        intro x hx
        rcases upsert_mem _ _ _ _ hx with rfl | hx
        · exact hin
        · exact h1 x hx
      -- entries under one name are one entry
      have huniq : ∀ v, (e.name, v) ∈ ix → v = e := by
        intro v hv
        exact key_unique ix _ _ _ hc.nodup hv hin
      have hkeep : ∀ x ∈ res, x ∈ upsert res e.name e := by
        by_cases hk : e.name ∈ res.map Prod.fst
        · obtain ⟨y, hy, hye⟩ := List.mem_map.1 hk
          obtain ⟨n, v⟩ := y
          simp only at hye; subst hye
          have := huniq v (h1 _ hy)
          subst this
          rw [upsert_same _ _ _ h2 hy]; exact fun x hx => hx
        · rw [upsert_new _ _ _ hk]; intro x hx; simp [hx]
      have hthere : (e.name, e) ∈ upsert res e.name e := by
        by_cases hk : e.name ∈ res.map Prod.fst
        · obtain ⟨y, hy, hye⟩ := List.mem_map.1 hk
          obtain ⟨n, v⟩ := y
          simp only at hye; subst hye
          have := huniq v (h1 _ hy)
          subst this
          rw [upsert_same _ _ _ h2 hy]; exact hy
        · rw [upsert_new _ _ _ hk]; simp
      obtain ⟨a1, a2, a3, a4, a5⟩ := subset_mem P order ix b hc fs _ res' hsub (upsert_nodup _ _ _ h2) h
      refine ⟨a1, a2, fun x hx => a3 x (hkeep x hx), ?_, ?_⟩
      · intro f' hf' e' he'
        rcases List.mem_cons.1 hf' with rfl | hf'
        · rw [hr] at he'; cases he'; exact a3 _ hthere
        · exact a4 f' hf' e' he'
      · intro f' hf'
        rcases List.mem_cons.1 hf' with rfl | hf'
        · exact ⟨some e, hr, by simp⟩
        · exact a5 f' hf'

end Verif.Index

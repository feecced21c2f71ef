import Verif.GridSpec.Plain
import Verif.Index.Props

/-!
# Which weights a lookup chooses (C132)

Specification on the index file and the request as given; `Matches` and `Plain` are the relations of C131.
-/

namespace Verif.Index
open Verif.GridSpec

/-! ## Specification -/

/-- Descriptions this version accepts (C131). -/
def Accepted (P : Py) (d : Option Dict) : Prop := ∃ x k, d = some x ∧ IsKind P x k ∧ (k = .ll ∨ k = .rgg → Readable k x)

/-- The entry is for the request, and of grids this version supports. -/
inductive Answers (P : Py) (di dO : Dict) (m : List Char) (r : Raw) : Prop
  | mk (i o : Dict) (hm : MethodIs r m) (hi : r.input = some i) (ho : r.output = some o) (mi : Matches P i di) (mo : Matches P o dO)
      (ai : Accepted P (some i)) (ao : Accepted P (some o))

/-- Entries as they are published: a method, and plain grids. -/
inductive PlainEntry (P : Py) (r : Raw) : Prop
  | mk (m : List Char) (i o : Dict) (hm : MethodIs r m) (hi : r.input = some i) (ho : r.output = some o) (pi : Plain P i) (po : Plain P o)

/-- Entries of an index this version can use as a whole: published ones, or ones of grids it does not know yet. -/
def Usable (P : Py) (r : Raw) : Prop := PlainEntry P r ∨ ¬(Accepted P r.input ∧ Accepted P r.output)

/-- The first entry with a property. -/
inductive First (A : Raw → Prop) : List (String × Raw) → Option (String × Raw) → Prop
  | nothing : First A [] none
  | here (x : String × Raw) (xs : List (String × Raw)) (h : A x.2) : First A (x :: xs) (some x)
  | later (x : String × Raw) (xs : List (String × Raw)) (r : Option (String × Raw)) (h : ¬A x.2) (hr : First A xs r) : First A (x :: xs) r

/-- What the user sees of an entry found. -/
def Entry.shown (e : Entry) : String × Raw := (e.name, e.raw)

/-! ## Lemmas -/

theorem accepted_iff (P : Py) (d : Option Dict) : Accepted P d ↔ SupportedGrid P d := by
  constructor
  · rintro ⟨x, k, hx, hk, hr⟩
    obtain ⟨s, hs⟩ := (C131_accepted P x).2 ⟨k, hk, hr⟩
    exact ⟨x, s, hx, hs⟩
  · rintro ⟨x, s, hx, hs⟩
    obtain ⟨k, hk, hr⟩ := (C131_accepted P x).1 ⟨s, hs⟩
    exact ⟨x, k, hx, hk, hr⟩

theorem matches_accepted {P : Py} {d e : Dict} (h : Matches P d e) {s t : GS} (hs : fromDict P d = .ok s) (ht : fromDict P e = .ok t)
    {order : List String} (ho : Enumerates order) : eq P order s t = .ok true := (C131_exact P order ho d e s t hs ht).2 h

theorem first_unique {A : Raw → Prop} {es : List (String × Raw)} {r r' : Option (String × Raw)} (h : First A es r) (h' : First A es r') : r = r' := by
  induction h with
  | nothing => cases h'; rfl
  | here x xs ha =>
    cases h' with
    | here => rfl
    | later _ _ _ hn => exact absurd ha hn
  | later x xs r hn _ ih =>
    cases h' with
    | here _ _ ha => exact absurd ha hn
    | later _ _ _ _ hr => exact ih hr

theorem loadOne_keys (P : Py) (ix : Index) (e : String × Raw) : ∀ k ∈ (loadOne P ix e).map Prod.fst, k ∈ ix.map Prod.fst ∨ k = e.1 := by
  intro k hk
  unfold loadOne at hk
  split at hk
  · rw [upsert_keys] at hk
    split at hk
    · exact .inl hk
    · simpa using hk
  · exact .inl hk

/-- Loading goes on at the end of the index. -/
theorem foldl_load (P : Py) (es : List (String × Raw)) (ix : Index) (hn : (es.map Prod.fst).Nodup)
    (hd : ∀ k ∈ es.map Prod.fst, k ∉ ix.map Prod.fst) : es.foldl (loadOne P) ix = ix ++ es.foldl (loadOne P) [] := by
  induction es generalizing ix with
  | nil => simp
  | cons e es ih =>
    simp only [List.map_cons, List.nodup_cons] at hn
    have hnew : e.1 ∉ ix.map Prod.fst := hd e.1 (by simp)
    simp only [List.foldl_cons]
    have h1 : loadOne P ix e = ix ++ loadOne P [] e := by
      unfold loadOne
      cases parse P e.2 with
      | error _ => simp
      | ok g => exact upsert_new _ _ _ hnew
    rw [ih (loadOne P ix e) hn.2, ih (loadOne P [] e) hn.2, h1, List.append_assoc]
    · intro k hk h
      rcases loadOne_keys P [] e k h with h | rfl
      · simp at h
      · exact hn.1 hk
    · intro k hk h
      rcases loadOne_keys P ix e k h with h | rfl
      · exact hd k (by simp [hk]) h
      · exact hn.1 hk

theorem parse_plain {P : Py} {r : Raw} (h : PlainEntry P r) : ∃ gi go i o, parse P r = .ok (gi, go) ∧ r.input = some i ∧ r.output = some o ∧
    fromDict P i = .ok gi ∧ fromDict P o = .ok go ∧ Plain P i ∧ Plain P o := by
  obtain ⟨m, i, o, hm, hi, ho, pi, po⟩ := h
  obtain ⟨gi, h1⟩ := plain_accepted pi
  obtain ⟨go, h2⟩ := plain_accepted po
  refine ⟨gi, go, i, o, ?_, hi, ho, h1, h2, pi, po⟩
  unfold parse
  rw [hi, ho]
  simp only [h1, h2, bind, Except.bind]
  rfl

theorem parse_ok_accepted {P : Py} {r : Raw} {g : GS × GS} (h : parse P r = .ok g) : Accepted P r.input ∧ Accepted P r.output := by
  unfold parse at h
  cases hi : r.input with
  | none => rw [hi] at h; cases h
  | some i =>
    rw [hi] at h
    simp only [bind_ok] at h
    obtain ⟨gi, h1, h⟩ := h
    cases ho : r.output with
    | none => rw [ho] at h; cases h
    | some o =>
      rw [ho] at h
      simp only [bind_ok] at h
      obtain ⟨go, h2, h⟩ := h
      exact ⟨(accepted_iff P _).2 ⟨i, gi, rfl, h1⟩, (accepted_iff P _).2 ⟨o, go, rfl, h2⟩⟩

/-- The comparison of a loaded entry with the request. -/
theorem matches_plain (P : Py) (order : List String) (ho : Enumerates order) (di dO : Dict) (gi go : GS) (hi : fromDict P di = .ok gi)
    (hO : fromDict P dO = .ok go) (pi : Plain P di) (pO : Plain P dO) (m : List Char) (name : String) (r : Raw) (ei eo : GS) (i o : Dict)
    (n : List Char) (hm : MethodIs r n) (h1 : r.input = some i) (h2 : r.output = some o) (h3 : fromDict P i = .ok ei) (h4 : fromDict P o = .ok eo)
    (p1 : Plain P i) (p2 : Plain P o) :
    ∃ b, matches_ P order ⟨name, ei, eo, r⟩ gi go m = .ok b ∧ (b = true ↔ Answers P di dO m r) := by
  obtain ⟨a, ha⟩ := plain_returns P order ho i di ei gi h3 hi p1 pi
  obtain ⟨c, hc⟩ := plain_returns P order ho o dO eo go h4 hO p2 pO
  have ma := C131_exact P order ho i di ei gi h3 hi
  have mc := C131_exact P order ho o dO eo go h4 hO
  have hname : methodName r = .ok n := (methodName_ok r n).2 hm
  rw [ha] at ma
  rw [hc] at mc
  have key : Answers P di dO m r ↔ n = m ∧ Matches P i di ∧ Matches P o dO := by
    constructor
    · rintro ⟨i', o', hm', hi', ho', mi, mo, _, _⟩
      rw [h1] at hi'; rw [h2] at ho'
      cases hi'; cases ho'
      exact ⟨methodIs_unique hm hm', mi, mo⟩
    · rintro ⟨rfl, mi, mo⟩
      exact ⟨i, o, hm, h1, h2, mi, mo, (accepted_iff P _).2 ⟨i, ei, rfl, h3⟩, (accepted_iff P _).2 ⟨o, eo, rfl, h4⟩⟩
  rw [key, ← ma, ← mc]
  unfold matches_
  simp only [hname, bind, Except.bind]
  by_cases hnm : n = m
  · subst hnm
    simp only [ne_eq, not_true_eq_false, if_false, ha, Except.ok.injEq, true_and]
    cases a with
    | false => exact ⟨false, rfl, by simp⟩
    | true => exact ⟨c, by simpa [pure, Except.pure] using hc, by simp⟩
  · simp only [ne_eq, hnm, not_false_eq_true, if_true]
    exact ⟨false, rfl, by simp⟩

theorem search_first (P : Py) (order : List String) (ho : Enumerates order) (di dO : Dict) (gi go : GS) (hi : fromDict P di = .ok gi)
    (hO : fromDict P dO = .ok go) (pi : Plain P di) (pO : Plain P dO) (m : List Char) (es : List (String × Raw))
    (hn : (es.map Prod.fst).Nodup) (hu : ∀ e ∈ es, Usable P e.2) :
    ∃ r, search P order gi go m (es.foldl (loadOne P) []) = .ok r ∧ First (Answers P di dO m) es (r.map Entry.shown) := by
  induction es with
  | nil => exact ⟨none, rfl, .nothing⟩
  | cons e es ih =>
    simp only [List.map_cons, List.nodup_cons] at hn
    obtain ⟨r, h1, h2⟩ := ih hn.2 (fun x hx => hu x (by simp [hx]))
    simp only [List.foldl_cons]
    rw [foldl_load P es (loadOne P [] e) hn.2]
    · rcases hu e (by simp) with hp | hnot
      · obtain ⟨n, hm⟩ : ∃ n, MethodIs e.2 n := by obtain ⟨n, _, _, hm, _⟩ := hp; exact ⟨n, hm⟩
        obtain ⟨ei, eo, i, o, hpar, g1, g2, g3, g4, p1, p2⟩ := parse_plain hp
        obtain ⟨b, hb, hb'⟩ := matches_plain P order ho di dO gi go hi hO pi pO m e.1 e.2 ei eo i o n hm g1 g2 g3 g4 p1 p2
        have hl : loadOne P [] e = [(e.1, ⟨e.1, ei, eo, e.2⟩)] := by
          unfold loadOne
          rw [hpar]
          rfl
        rw [hl]
        simp only [List.singleton_append, search, hb, bind, Except.bind]
        cases b with
        | true => exact ⟨some ⟨e.1, ei, eo, e.2⟩, rfl, .here e es (hb'.1 rfl)⟩
        | false => exact ⟨r, by simpa using h1, .later e es _ (fun h => by cases hb'.2 h) h2⟩
      · have hl : loadOne P [] e = [] := by
          unfold loadOne
          cases hp : parse P e.2 with
          | error _ => rfl
          | ok g => exact absurd (parse_ok_accepted hp) hnot
        rw [hl]
        refine ⟨r, h1, .later e es _ ?_ h2⟩
        rintro ⟨i, o, _, h3, h4, _, _, h5, h6⟩
        rw [h3, h4] at hnot
        exact hnot ⟨h5, h6⟩
    · intro k hk h
      rcases loadOne_keys P [] e k h with h | rfl
      · simp at h
      · exact hn.1 hk

/-! ## C132 -/

/-- C132: in an inventory of published entries (and entries of grids this version does not know) every plain request is answered, by the first
entry for it; nothing is found exactly if there is none. -/
theorem C132_found_partial (P : Py) (order : List String) (ho : Enumerates order) (f : IndexFile) (es : List (String × Raw)) (hv : OneVersion f.version)
    (hf : f.matrix = some es) (hn : (es.map Prod.fst).Nodup) (hu : ∀ e ∈ es, Usable P e.2) (di dO : Dict) (pi : Plain P di) (pO : Plain P dO)
    (m : List Char) :
    ∃ ix r, load P f = .ok ix ∧ find P order ix di dO m = .ok r ∧ First (Answers P di dO m) es (r.map Entry.shown) := by
  obtain ⟨gi, hi⟩ := plain_accepted pi
  obtain ⟨go, hO⟩ := plain_accepted pO
  obtain ⟨r, h1, h2⟩ := search_first P order ho di dO gi go hi hO pi pO m es hn hu
  obtain ⟨ix, hl, _⟩ := C40_kept P f es hv hf hn
  refine ⟨ix, r, hl, ?_, h2⟩
  have : ix = es.foldl (loadOne P) [] := by
    unfold load at hl
    split at hl
    · rw [hf] at hl; exact (Except.ok.inj hl).symm
    · cases hl
  subst this
  unfold find
  simp only [hi, hO, bind, Except.bind]
  exact h1

/-- C132: entries for other requests do not disturb: with or without them the same is found. -/
theorem C132_undisturbed_partial (P : Py) (order : List String) (ho : Enumerates order) (v : Option V) (a b : List (String × Raw)) (e : String × Raw)
    (hv : OneVersion v) (hn : ((a ++ e :: b).map Prod.fst).Nodup) (hu : ∀ x ∈ a ++ e :: b, Usable P x.2) (di dO : Dict) (pi : Plain P di)
    (pO : Plain P dO) (m : List Char) (he : ¬Answers P di dO m e.2) :
    ∃ ix ix' r r', load P ⟨v, some (a ++ e :: b)⟩ = .ok ix ∧ load P ⟨v, some (a ++ b)⟩ = .ok ix' ∧ find P order ix di dO m = .ok r ∧
      find P order ix' di dO m = .ok r' ∧ r.map Entry.shown = r'.map Entry.shown := by
  have hsub : (a ++ b).Sublist (a ++ e :: b) := List.Sublist.append_left (List.sublist_cons_self _ _) _
  obtain ⟨ix, r, h1, h2, h3⟩ := C132_found_partial P order ho ⟨v, some (a ++ e :: b)⟩ _ hv rfl hn hu di dO pi pO m
  obtain ⟨ix', r', h1', h2', h3'⟩ := C132_found_partial P order ho ⟨v, some (a ++ b)⟩ _ hv rfl (hn.sublist (hsub.map _))
    (fun x hx => hu x (hsub.subset hx)) di dO pi pO m
  refine ⟨ix, ix', r, r', h1, h1', h2, h2', ?_⟩
  have skip : ∀ (a : List (String × Raw)) (o : Option (String × Raw)), First (Answers P di dO m) (a ++ b) o → First (Answers P di dO m) (a ++ e :: b) o := by
    intro a
    induction a with
    | nil => intro o h; exact .later _ _ _ he h
    | cons x xs ih =>
      intro o h
      cases h with
      | here _ _ hx => exact .here _ _ hx
      | later _ _ _ hx hr => exact .later _ _ _ hx (ih _ hr)
  exact first_unique h3 (skip a _ h3')

/-- How a method that cannot be read is reported. -/
inductive NoMethod (r : Raw) : Err → Prop
  | missing (h : r.method = none) : NoMethod r .key
  | untyped (o : Nat) (h : r.method = some (.dict none o)) : NoMethod r .key
  | other (h : r.method = some .other) : NoMethod r .value

/-- C132 is false of inventories with an entry of supported grids whose method cannot be read: every lookup that comes to that entry raises,
also for weights that are in the inventory. -/
theorem C132_spoilt_refuted (P : Py) (order : List String) (v : Option V) (hv : OneVersion v) (x : String × Raw) (es : List (String × Raw))
    (hn : ((x :: es).map Prod.fst).Nodup) (hi : Accepted P x.2.input) (hO : Accepted P x.2.output) (err : Err) (hm : NoMethod x.2 err) (di dO : Dict)
    (ai : Accepted P (some di)) (ao : Accepted P (some dO)) (m : List Char) :
    ∃ ix, load P ⟨v, some (x :: es)⟩ = .ok ix ∧ find P order ix di dO m = .error err := by
  obtain ⟨ix, hl, _⟩ := C40_kept P ⟨v, some (x :: es)⟩ _ hv rfl hn
  refine ⟨ix, hl, ?_⟩
  have : ix = (x :: es).foldl (loadOne P) [] := by
    unfold load at hl
    split at hl
    · exact (Except.ok.inj hl).symm
    · cases hl
  subst this
  simp only [List.map_cons, List.nodup_cons] at hn
  obtain ⟨_, gi, e1, hgi⟩ := (accepted_iff P _).1 ai
  obtain ⟨_, go, e2, hgo⟩ := (accepted_iff P _).1 ao
  cases e1; cases e2
  obtain ⟨i, ei, hi', hei⟩ := (accepted_iff P _).1 hi
  obtain ⟨o, eo, ho', heo⟩ := (accepted_iff P _).1 hO
  have hpar : parse P x.2 = .ok (ei, eo) := by
    unfold parse
    rw [hi', ho']
    simp only [hei, heo, bind, Except.bind]
    rfl
  have hone : loadOne P [] x = [(x.1, ⟨x.1, ei, eo, x.2⟩)] := by
    unfold loadOne
    rw [hpar]
    rfl
  have hname : methodName x.2 = .error err := by
    unfold methodName
    cases hm with
    | missing h => rw [h]
    | untyped o h => rw [h]
    | other h => rw [h]
  unfold find
  simp only [hgi, hgo, bind, Except.bind, List.foldl_cons]
  rw [foldl_load P es (loadOne P [] x) hn.2, hone]
  · simp only [List.singleton_append, search, matches_, hname, bind, Except.bind]
  · intro k hk h
    rcases loadOne_keys P [] x k h with h | rfl
    · simp at h
    · exact hn.1 hk

/-! ## The hypotheses can be met -/

theorem orca_kind (P : Py) (sh : Option V) : IsKind P (orca sh) .orca := .named rfl

theorem orca_plain (P : Py) (sh : Option V) : Plain P (orca sh) := .orca (orca_kind P sh) "ORCA1_T".toList rfl

theorem orca_accepted (P : Py) (sh : Option V) : Accepted P (some (orca sh)) := ⟨_, .orca, rfl, orca_kind P sh, fun h => by rcases h with h | h <;> cases h⟩

theorem orca_matches (P : Py) (a b : Option V) (h : ∀ x y, a = some x → b = some y → Equal (asList x) (asList y)) : Matches P (orca a) (orca b) := by
  refine .orca (orca_kind P a) (orca_kind P b) ⟨⟨_, _, rfl, rfl, .names _ _ rfl⟩, ?_, ?_⟩
  · intro k hk
    simp only [List.mem_cons, List.not_mem_nil, or_false] at hk
    rcases hk with rfl | rfl | rfl <;> exact ⟨.int 0, .int 0, rfl, rfl, .integers _ _ _ rfl rfl (.int 0) (.int 0)⟩
  · intro x y hx hy
    exact h x y (by simpa [orca] using hx) (by simpa [orca] using hy)

/-- An entry of a grid this version does not know. -/
def iconRaw : Raw := ⟨some icon, some (orca none), some (.name "linear".toList), "mir".toList, "1".toList, 0⟩

theorem icon_unaccepted (P : Py) : ¬Accepted P (some icon) := fun h => icon_unsupported P ((accepted_iff P _).1 h)

theorem rawOf_plain (P : Py) (sh : Option V) : PlainEntry P (rawOf sh) :=
  ⟨"linear".toList, _, _, .text _ _ rfl, rfl, rfl, orca_plain P sh, orca_plain P none⟩

/-- Three entries: of an unknown grid, of grids of shape 1, of grids of any shape. -/
def threeEntries : List (String × Raw) := [("i", iconRaw), ("a", rawOf (some (.int 1))), ("b", rawOf none)]

theorem three_usable (P : Py) : ∀ e ∈ threeEntries, Usable P e.2 := by
  intro e he
  simp only [threeEntries, List.mem_cons, List.not_mem_nil, or_false] at he
  rcases he with rfl | rfl | rfl
  · exact .inr (fun h => icon_unaccepted P h.1)
  · exact .inl (rawOf_plain P _)
  · exact .inl (rawOf_plain P _)

theorem three_apart (P : Py) : ¬Answers P (orca (some (.int 2))) (orca none) "linear".toList (rawOf (some (.int 1))) := by
  rintro ⟨i, o, _, hi, _, mi, _⟩
  cases hi
  have hc : Common P (orca (some (.int 1))) (orca (some (.int 2))) := by
    have no : ∀ k, k ≠ .orca → ¬IsKind P (orca (some (.int 1))) k := by
      rintro k hk (h | ⟨h | h, _⟩)
      · have h : "orca".toList = (typeName k).toList := V.str.inj (Option.some.inj h)
        revert h hk
        cases k <;> decide
      · cases h
      · cases h
    cases mi with
    | orca _ _ h => exact h
    | healpix hd => exact absurd hd (no _ (by decide))
    | rggSame hd => exact absurd hd (no _ (by decide))
    | rggGlobal hd => exact absurd hd (no _ (by decide))
    | llSame hd => exact absurd hd (no _ (by decide))
    | llGlobal hd => exact absurd hd (no _ (by decide))
  have := hc.shape (.int 1) (.int 2) rfl rfl
  rw [← pyEq_iff] at this
  revert this
  decide

/-- `C132_found_partial`: the entry of an unknown grid and the one of another shape are passed over. -/
example (P : Py) (order : List String) (ho : Enumerates order) : ∃ ix r, load P ⟨some (.int 1), some threeEntries⟩ = .ok ix ∧
    find P order ix (orca (some (.int 2))) (orca none) "linear".toList = .ok r ∧ r.map Entry.shown = some ("b", rawOf none) := by
  obtain ⟨ix, r, h1, h2, h3⟩ := C132_found_partial P order ho ⟨some (.int 1), some threeEntries⟩ threeEntries (.inl rfl) rfl (by decide) (three_usable P)
    (orca (some (.int 2))) (orca none) (orca_plain P _) (orca_plain P _) "linear".toList
  refine ⟨ix, r, h1, h2, first_unique h3 (.later _ _ _ ?_ (.later _ _ _ (three_apart P) (.here _ _ ?_)))⟩
  · rintro ⟨i, o, _, hi, _, _, _, ai, _⟩
    cases hi
    exact icon_unaccepted P ai
  · exact ⟨_, _, .text _ _ rfl, rfl, rfl, orca_matches P _ _ (fun x y h => by cases h), orca_matches P _ _ (fun x y h => by cases h),
      orca_accepted P _, orca_accepted P _⟩

/-- `C132_undisturbed_partial`: without the entry of another shape the same is found. -/
example (P : Py) (order : List String) (ho : Enumerates order) : ∃ ix ix' r r',
    load P ⟨some (.int 1), some ([("i", iconRaw)] ++ ("a", rawOf (some (.int 1))) :: [("b", rawOf none)])⟩ = .ok ix ∧
    load P ⟨some (.int 1), some ([("i", iconRaw)] ++ [("b", rawOf none)])⟩ = .ok ix' ∧
    find P order ix (orca (some (.int 2))) (orca none) "linear".toList = .ok r ∧
    find P order ix' (orca (some (.int 2))) (orca none) "linear".toList = .ok r' ∧ r.map Entry.shown = r'.map Entry.shown :=
  C132_undisturbed_partial P order ho _ _ _ _ (.inl rfl) (by decide) (three_usable P) _ _ (orca_plain P _) (orca_plain P _) _ (three_apart P)

/-- `C132_spoilt_refuted`: an entry without method before the one asked for. -/
example (P : Py) (order : List String) : ∃ ix,
    load P ⟨some (.int 1), some [("x", ⟨some (orca none), some (orca none), none, [], [], 0⟩), ("b", rawOf none)]⟩ = .ok ix ∧
    find P order ix (orca none) (orca none) "linear".toList = .error .key :=
  C132_spoilt_refuted P order _ (.inl rfl) _ _ (by decide) (orca_accepted P _) (orca_accepted P _) _ (.missing rfl) _ _ (orca_accepted P _)
    (orca_accepted P _) _


end Verif.Index

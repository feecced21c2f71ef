import Verif.GridSpec.MatchProps

/-! # Plain descriptions: comparing them never raises (for C132) -/

namespace Verif.GridSpec
open Verif.Humanize

/-! ## Specification -/

/-- The area has four numbers. -/
inductive Box (k : Kind) (d : Dict) : Prop
  | mk (a n w s e : V) (qn qw qs qe : ℚ) (ha : AreaOf k d a) (hi : Items a [n, w, s, e]) (hn : Number n qn) (hw : Number w qw)
      (hs : Number s qs) (he : Number e qe)

/-- Descriptions as they are documented: two increments and an area of four numbers, or a name with a number in the range (reduced Gaussian:
and an area of four numbers; HEALPix: and one of the two orders), or the name of an ORCA grid. -/
inductive Plain (P : Py) (d : Dict) : Prop
  | ll (h : IsKind P d .ll) (x y : V) (p q : ℚ) (hg : asked d "grid" = some (.list [x, y])) (hx : Number x p) (hy : Number y q) (hb : Box .ll d)
  | rgg (h : IsKind P d .rgg) (x : ℚ) (hx : Increment P d .rgg x) (hb : Box .rgg d)
  | healpix (h : IsKind P d .healpix) (o : List Char) (ho : HealpixOrder P d o)
  | orca (h : IsKind P d .orca) (g : List Char) (hg : asked d "grid" = some (.str g))

/-! ## They are accepted -/

theorem near_or_apart (eps : ℚ) (xs ys : List V) (hl : xs.length = ys.length) (hx : ∀ x ∈ xs, ∃ q, Number x q) (hy : ∀ y ∈ ys, ∃ q, Number y q) :
    List.Forall₂ (Near eps) xs ys ∨ Apart eps xs ys := by
  induction xs generalizing ys with
  | nil =>
    cases ys with
    | nil => exact .inl .nil
    | cons => simp at hl
  | cons x xs ih =>
    cases ys with
    | nil => simp at hl
    | cons y ys =>
      obtain ⟨p, hp⟩ := hx x (by simp)
      obtain ⟨q, hq⟩ := hy y (by simp)
      by_cases h : |p - q| < eps
      · rcases ih ys (by simpa using hl) (fun z hz => hx z (by simp [hz])) (fun z hz => hy z (by simp [hz])) with h' | h'
        · exact .inl (.cons ⟨p, q, hp, hq, h⟩ h')
        · exact .inr (.later _ _ _ _ ⟨p, q, hp, hq, h⟩ h')
      · exact .inr (.here _ _ _ _ _ _ hp hq h)

theorem four (n w s e : V) (qn qw qs qe : ℚ) (hn : Number n qn) (hw : Number w qw) (hs : Number s qs) (he : Number e qe) :
    ∀ x ∈ [n, w, s, e], ∃ q, Number x q := by
  intro x hx
  simp only [List.mem_cons, List.not_mem_nil, or_false] at hx
  rcases hx with rfl | rfl | rfl | rfl
  · exact ⟨_, hn⟩
  · exact ⟨_, hw⟩
  · exact ⟨_, hs⟩
  · exact ⟨_, he⟩

theorem box_compare {k k' : Kind} {d e : Dict} (eps : ℚ) (hd : Box k d) (he : Box k' e) :
    ∃ a b, AreaOf k d a ∧ AreaOf k' e b ∧ (Together eps a b ∨ Differ eps a b) := by
  obtain ⟨a, x1, x2, x3, x4, p1, p2, p3, p4, ha, hi, h1, h2, h3, h4⟩ := hd
  obtain ⟨b, y1, y2, y3, y4, q1, q2, q3, q4, hb, hj, g1, g2, g3, g4⟩ := he
  refine ⟨a, b, ha, hb, ?_⟩
  rcases near_or_apart eps [x1, x2, x3, x4] [y1, y2, y3, y4] rfl (four _ _ _ _ _ _ _ _ h1 h2 h3 h4) (four _ _ _ _ _ _ _ _ g1 g2 g3 g4) with h | h
  · exact .inl ⟨_, _, hi, hj, h⟩
  · exact .inr ⟨_, _, hi, hj, .inr h⟩

theorem box_readable {k : Kind} {d : Dict} (h : Box k d) : Readable k d := by
  obtain ⟨a, x1, x2, x3, x4, p1, p2, p3, p4, ha, hi, h1, h2, h3, h4⟩ := h
  rcases near_or_apart (1 / 100000000) [x1, x2, x3, x4] [.int 90, .int 0, .int (-90), .int 360] rfl (four _ _ _ _ _ _ _ _ h1 h2 h3 h4)
    (four _ _ _ _ _ _ _ _ (.int _) (.int _) (.int _) (.int _)) with h | h
  · exact .same a ha ⟨_, _, hi, .list _, h⟩
  · exact .differ a ha ⟨_, _, hi, .list _, .inr h⟩

theorem plain_accepted {P : Py} {d : Dict} (h : Plain P d) : ∃ s, fromDict P d = .ok s := by
  rw [C131_accepted]
  cases h with
  | ll h x y p q hg hx hy hb => exact ⟨_, h, fun _ => box_readable hb⟩
  | rgg h x hx hb => exact ⟨_, h, fun _ => box_readable hb⟩
  | healpix h => exact ⟨_, h, fun h => by rcases h with h | h <;> cases h⟩
  | orca h => exact ⟨_, h, fun h => by rcases h with h | h <;> cases h⟩

/-! ## Comparisons end -/

/-- The call returns. -/
def Returns {α : Type} (x : M α) : Prop := ∃ v, x = .ok v

theorem Returns.bind {α β : Type} {x : M α} {f : α → M β} (hx : Returns x) (hf : ∀ a, x = .ok a → Returns (f a)) : Returns (x >>= f) := by
  obtain ⟨a, ha⟩ := hx
  obtain ⟨b, hb⟩ := hf a ha
  exact ⟨b, (bind_ok _ _ _).2 ⟨a, ha, hb⟩⟩

theorem Returns.pure {α : Type} (a : α) : Returns (pure a : M α) := ⟨a, rfl⟩

theorem Returns.ite {α : Type} (c : Prop) [Decidable c] {x y : M α} (hx : Returns x) (hy : Returns y) : Returns (if c then x else y) := by
  by_cases h : c
  · rw [if_pos h]; exact hx
  · rw [if_neg h]; exact hy

theorem compareKey_returns (P : Py) (k : String) (a b : V) (h : k ≠ "grid" ∨ (∀ xs, a ≠ .list xs) ∨
    ∃ x y x' y' p q p' q', a = .list [x, y] ∧ b = .list [x', y'] ∧ Number x p ∧ Number y q ∧ Number x' p' ∧ Number y' q') :
    Returns (compareKey P k a b) := by
  unfold compareKey
  split
  · exact ⟨_, rfl⟩
  · rename_i xs ys
    by_cases hk : k = "grid"
    · rw [if_pos hk]
      rcases h with h | h | ⟨x, y, x', y', p, q, p', q', ha, hb, h1, h2, h3, h4⟩
      · exact absurd hk h
      · exact absurd rfl (h xs)
      · cases ha; cases hb
        unfold allclose
        have e1 : nums [x, y] = .ok [p, q] := (nums_iff _ _).2 (.cons h1 (.cons h2 .nil))
        have e2 : nums [x', y'] = .ok [p', q'] := (nums_iff _ _).2 (.cons h3 (.cons h4 .nil))
        rw [e1, e2]
        exact ⟨_, rfl⟩
    · rw [if_neg hk]; exact ⟨_, rfl⟩
  · exact ⟨_, rfl⟩
  · exact Returns.ite _ ⟨_, rfl⟩ ⟨_, rfl⟩

theorem compareKeys_returns (P : Py) (s t : Dict) (ks : List String) (h : ∀ k ∈ ks, ∃ a b, s k = some a ∧ t k = some b ∧ Returns (compareKey P k a b)) :
    Returns (compareKeys P s t ks) := by
  induction ks with
  | nil => exact ⟨_, rfl⟩
  | cons k ks ih =>
    obtain ⟨a, b, ha, hb, hr⟩ := h k (by simp)
    have ih := ih (fun k hk => h k (by simp [hk]))
    unfold compareKeys
    refine Returns.bind ⟨a, (item_ok _ _ _).2 ha⟩ fun a' ha' => Returns.bind ⟨b, (item_ok _ _ _).2 hb⟩ fun b' hb' => ?_
    rw [item_ok] at ha' hb'
    rw [ha] at ha'; rw [hb] at hb'
    cases ha'; cases hb'
    exact Returns.bind hr fun r _ => Returns.ite _ ih (Returns.pure _)

theorem asked_flag (d : Dict) (k : String) (hk : k ∈ ["i_scans_negatively", "j_points_consecutive", "j_scans_positively"]) :
    ∃ v, asked d k = some v := by
  unfold asked
  cases d k with
  | some v => exact ⟨_, rfl⟩
  | none => exact ⟨_, if_pos hk⟩

theorem pyEq_str (x y : List Char) : pyEq (.str x) (.str y) = true ↔ x = y := by
  rw [pyEq]; simp

/-- What is asked of the grids of two descriptions of one type. -/
def GridsCompare (d e : Dict) : Prop :=
  (∃ a b, asked d "grid" = some (.str a) ∧ asked e "grid" = some (.str b)) ∨
    ∃ x y x' y' p q p' q', asked d "grid" = some (.list [x, y]) ∧ asked e "grid" = some (.list [x', y']) ∧
      Number x p ∧ Number y q ∧ Number x' p' ∧ Number y' q'

theorem eqBase_returns (P : Py) (order : List String) (ho : Enumerates order) (d e : Dict) (s t : GS) (hs : fromDict P d = .ok s)
    (ht : fromDict P e = .ok t) (h : s.kind = t.kind → GridsCompare d e) : Returns (eqBase P order s.d t.d) := by
  have hst := fromDict_type P d s hs
  have htt := fromDict_type P e t ht
  unfold eqBase
  by_cases hk : s.kind = t.kind
  · refine Returns.ite _ ⟨_, rfl⟩ (Returns.bind (compareKeys_returns P _ _ _ ?_) fun r _ => Returns.ite _ (Returns.pure _) (Returns.pure _))
    intro k hk'
    have hmem := (ho k).1 hk'
    by_cases h1 : k = "type"
    · subst h1
      exact ⟨_, _, hst, htt, compareKey_returns P _ _ _ (.inl (by decide))⟩
    · by_cases h2 : k = "grid"
      · subst h2
        rw [asked_eq P d s hs "grid" (by decide) (by decide), asked_eq P e t ht "grid" (by decide) (by decide)]
        rcases h hk with ⟨a, b, ha, hb⟩ | ⟨x, y, x', y', p, q, p', q', ha, hb, h3⟩
        · exact ⟨_, _, ha, hb, compareKey_returns P _ _ _ (.inr (.inl (by simp)))⟩
        · exact ⟨_, _, ha, hb, compareKey_returns P _ _ _ (.inr (.inr ⟨x, y, x', y', p, q, p', q', rfl, rfl, h3⟩))⟩
      · have hflag : k ∈ ["i_scans_negatively", "j_points_consecutive", "j_scans_positively"] := by
          simp only [COMPARE_KEYS, List.mem_cons, List.not_mem_nil, or_false] at hmem ⊢
          rcases hmem with h | h | h
          · exact absurd h h1
          · exact absurd h h2
          · exact h
        have hu : Untouched k := by
          simp only [List.mem_cons, List.not_mem_nil, or_false] at hflag
          rcases hflag with rfl | rfl | rfl <;> decide
        obtain ⟨a, ha⟩ := asked_flag d k hflag
        obtain ⟨b, hb⟩ := asked_flag e k hflag
        rw [asked_eq P d s hs k hu h1, asked_eq P e t ht k hu h1]
        exact ⟨a, b, ha, hb, compareKey_returns P _ _ _ (.inl h2)⟩
  · rw [hst, htt]
    have : pyEq ((some (V.str s.kind.name)).getD (.str [])) ((some (V.str t.kind.name)).getD (.str [])) = false := by
      rw [Bool.eq_false_iff]
      intro h
      have h := (pyEq_str _ _).1 h
      revert h hk
      cases s.kind <;> cases t.kind <;> decide
    rw [this]
    exact ⟨false, rfl⟩

theorem coord_returns (P : Py) (d : Dict) (s : GS) (hs : fromDict P d = .ok s) (hk : s.kind = .ll ∨ s.kind = .rgg) (hb : Box s.kind d) (i : Nat)
    (hi : i < 4) : Returns (coord s i) := by
  obtain ⟨a, n, w, so, e, qn, qw, qs, qe, ha, hl, h1, h2, h3, h4⟩ := hb
  have : ∃ x q, [n, w, so, e][i]? = some x ∧ Number x q := by
    match i, hi with
    | 0, _ => exact ⟨n, qn, rfl, h1⟩
    | 1, _ => exact ⟨w, qw, rfl, h2⟩
    | 2, _ => exact ⟨so, qs, rfl, h3⟩
    | 3, _ => exact ⟨e, qe, rfl, h4⟩
  obtain ⟨x, q, hx, hq⟩ := this
  exact ⟨q, (edge_iff P d s hs hk i q).2 ⟨a, _, x, ha, hl, hx, hq⟩⟩

theorem global_returns (P : Py) (d : Dict) (s : GS) (hs : fromDict P d = .ok s) (hk : s.kind = .ll ∨ s.kind = .rgg) (hb : Box s.kind d)
    (hx : ∃ x, Increment P d s.kind x) : Returns (isGlobalEw P s) := by
  obtain ⟨x, hx⟩ := hx
  unfold isGlobalEw
  cases s.gew with
  | some b => exact ⟨b, rfl⟩
  | none =>
    show Returns (computeGlobalEw P s)
    unfold computeGlobalEw
    exact Returns.bind (coord_returns P d s hs hk hb 1 (by decide)) fun _ _ => Returns.bind (coord_returns P d s hs hk hb 3 (by decide)) fun _ _ =>
      Returns.ite _ (Returns.pure _) (Returns.ite _ (Returns.pure _)
        (Returns.bind ⟨x, (increment_iff P d s hs hk x).2 hx⟩ fun _ _ => Returns.pure _))

theorem area_returns (P : Py) (d e : Dict) (s t : GS) (hs : fromDict P d = .ok s) (ht : fromDict P e = .ok t) (hk : s.kind = .ll ∨ s.kind = .rgg)
    (hk' : t.kind = .ll ∨ t.kind = .rgg) (hb : Box s.kind d) (hb' : Box t.kind e) (eps : ℚ) :
    ∃ a b, s.d "area" = some a ∧ t.d "area" = some b ∧ Returns (sameArea eps a b) := by
  obtain ⟨a, b, ha, hb, h⟩ := box_compare eps hb hb'
  refine ⟨a, b, (area_iff P d s hs hk a).2 ha, (area_iff P e t ht hk' b).2 hb, ?_⟩
  rcases h with h | h
  · exact ⟨true, (together_iff _ _ _).2 h⟩
  · exact ⟨false, (differ_iff _ _ _).2 h⟩

theorem plain_kind {P : Py} {d : Dict} {s : GS} (hs : fromDict P d = .ok s) (h : Plain P d) :
    (s.kind = .ll ∧ (∃ x y p q, asked d "grid" = some (.list [x, y]) ∧ Number x p ∧ Number y q) ∧ Box .ll d) ∨
    (s.kind = .rgg ∧ (∃ x, Increment P d .rgg x) ∧ Box .rgg d) ∨ (s.kind = .healpix ∧ ∃ o, HealpixOrder P d o) ∨
    (s.kind = .orca ∧ ∃ g, asked d "grid" = some (.str g)) := by
  cases h with
  | ll h x y p q hg hx hy hb => exact .inl ⟨(kind_iff P d s hs _).1 h, ⟨x, y, p, q, hg, hx, hy⟩, hb⟩
  | rgg h x hx hb => exact .inr (.inl ⟨(kind_iff P d s hs _).1 h, ⟨x, hx⟩, hb⟩)
  | healpix h o ho => exact .inr (.inr (.inl ⟨(kind_iff P d s hs _).1 h, o, ho⟩))
  | orca h g hg => exact .inr (.inr (.inr ⟨(kind_iff P d s hs _).1 h, g, hg⟩))

theorem increment_name {P : Py} {d : Dict} {x : ℚ} (h : Increment P d .rgg x) : ∃ g, asked d "grid" = some (.str g) := by
  cases h with
  | rgg g o r n hg => exact ⟨g, hg⟩

theorem order_name {P : Py} {d : Dict} {o : List Char} (h : HealpixOrder P d o) : ∃ g, asked d "grid" = some (.str g) := by
  obtain ⟨c, x, r, n, hg, _⟩ := h
  exact ⟨_, hg⟩

theorem plain_grids {P : Py} {d e : Dict} {s t : GS} (hs : fromDict P d = .ok s) (ht : fromDict P e = .ok t) (hd : Plain P d) (he : Plain P e)
    (hk : s.kind = t.kind) : GridsCompare d e := by
  have name : ∀ {d : Dict} {s : GS}, fromDict P d = .ok s → Plain P d → s.kind ≠ .ll → ∃ g, asked d "grid" = some (.str g) := by
    intro d s hs h hne
    rcases plain_kind hs h with ⟨h, _⟩ | ⟨_, ⟨x, hx⟩, _⟩ | ⟨_, o, ho⟩ | ⟨_, h⟩
    · exact absurd h hne
    · exact increment_name hx
    · exact order_name ho
    · exact h
  by_cases hl : s.kind = .ll
  · have hl' : t.kind = .ll := hk ▸ hl
    rcases plain_kind hs hd with ⟨_, ⟨x, y, p, q, h1, h2, h3⟩, _⟩ | ⟨h, _⟩ | ⟨h, _⟩ | ⟨h, _⟩
    · rcases plain_kind ht he with ⟨_, ⟨x', y', p', q', h1', h2', h3'⟩, _⟩ | ⟨h, _⟩ | ⟨h, _⟩ | ⟨h, _⟩
      · exact .inr ⟨x, y, x', y', p, q, p', q', h1, h1', h2, h3, h2', h3'⟩
      all_goals rw [hl'] at h; cases h
    all_goals rw [hl] at h; cases h
  · obtain ⟨a, ha⟩ := name hs hd hl
    obtain ⟨b, hb⟩ := name ht he (by rw [← hk]; exact hl)
    exact .inl ⟨a, b, ha, hb⟩

theorem plain_box {P : Py} {d : Dict} {s : GS} (hs : fromDict P d = .ok s) (h : Plain P d) (hk : s.kind = .ll ∨ s.kind = .rgg) :
    Box s.kind d ∧ ∃ x, Increment P d s.kind x := by
  rcases plain_kind hs h with ⟨h, ⟨x, y, p, q, h1, h2, h3⟩, hb⟩ | ⟨h, ⟨x, hx⟩, hb⟩ | ⟨h, _⟩ | ⟨h, _⟩
  · rw [h]; exact ⟨hb, _, .ll _ x [y] p h1 (.list _) h2⟩
  · rw [h]; exact ⟨hb, x, hx⟩
  all_goals rw [h] at hk; rcases hk with hk | hk <;> cases hk

/-- Comparing plain descriptions returns. -/
theorem plain_returns (P : Py) (order : List String) (ho : Enumerates order) (d e : Dict) (s t : GS) (hs : fromDict P d = .ok s)
    (ht : fromDict P e = .ok t) (hd : Plain P d) (he : Plain P e) : Returns (eq P order s t) := by
  have hb := eqBase_returns P order ho d e s t hs ht (plain_grids hs ht hd he)
  have types : ∀ b, eqBase P order s.d t.d = .ok b → b = true → s.kind = t.kind := by
    rintro b h rfl
    exact ((common_iff P order ho d e s t hs ht).1 h).1
  unfold eq
  cases hk : s.kind with
  | orca => exact hb
  | healpix =>
    show Returns (eqHealpix P order s t)
    unfold eqHealpix
    refine Returns.bind hb fun b hb' => ?_
    cases b with
    | false => exact ⟨false, rfl⟩
    | true =>
      have hk' : t.kind = .healpix := (types _ hb' rfl) ▸ hk
      rcases plain_kind hs hd with ⟨h, _⟩ | ⟨h, _⟩ | ⟨_, o, h1⟩ | ⟨h, _⟩
      · rw [hk] at h; cases h
      · rw [hk] at h; cases h
      · rcases plain_kind ht he with ⟨h, _⟩ | ⟨h, _⟩ | ⟨_, o', h2⟩ | ⟨h, _⟩
        · rw [hk'] at h; cases h
        · rw [hk'] at h; cases h
        · exact Returns.bind ⟨o, (healpixOrder_iff P d s hs hk o).2 h1⟩ fun _ _ =>
            Returns.bind ⟨o', (healpixOrder_iff P e t ht hk' o').2 h2⟩ fun _ _ => Returns.pure _
        · rw [hk'] at h; cases h
      · rw [hk] at h; cases h
  | rgg =>
    show Returns (eqRGG P order s t)
    unfold eqRGG
    refine Returns.bind hb fun b hb' => ?_
    cases b with
    | false => exact ⟨false, rfl⟩
    | true =>
      have ks : s.kind = .ll ∨ s.kind = .rgg := .inr hk
      have kt : t.kind = .ll ∨ t.kind = .rgg := .inr ((types _ hb' rfl) ▸ hk)
      obtain ⟨bs, is⟩ := plain_box hs hd ks
      obtain ⟨bt, it⟩ := plain_box ht he kt
      obtain ⟨a, a', h1, h2, h3⟩ := area_returns P d e s t hs ht ks kt bs bt RGG_EPS
      refine Returns.bind ⟨a, (item_ok _ _ _).2 h1⟩ fun x hx => Returns.bind ⟨a', (item_ok _ _ _).2 h2⟩ fun y hy => ?_
      rw [item_ok] at hx hy
      rw [h1] at hx; rw [h2] at hy
      cases hx; cases hy
      refine Returns.bind h3 fun _ _ => Returns.ite _ (Returns.pure _) (Returns.bind (global_returns P d s hs ks bs is) fun _ _ =>
        Returns.ite _ (Returns.pure _) (Returns.bind (global_returns P e t ht kt bt it) fun _ _ => Returns.ite _ (Returns.pure _)
          (Returns.bind (coord_returns P d s hs ks bs 1 (by decide)) fun _ _ => Returns.bind (coord_returns P e t ht kt bt 1 (by decide)) fun _ _ =>
            Returns.pure _)))
  | ll =>
    show Returns (eqLL P order s t)
    unfold eqLL
    refine Returns.bind hb fun b hb' => ?_
    cases b with
    | false => exact ⟨false, rfl⟩
    | true =>
      have ks : s.kind = .ll ∨ s.kind = .rgg := .inl hk
      have kt : t.kind = .ll ∨ t.kind = .rgg := .inl ((types _ hb' rfl) ▸ hk)
      obtain ⟨bs, is⟩ := plain_box hs hd ks
      obtain ⟨bt, it⟩ := plain_box ht he kt
      obtain ⟨a, a', h1, h2, h3⟩ := area_returns P d e s t hs ht ks kt bs bt DEGREE_EPS
      refine Returns.bind ⟨a, (item_ok _ _ _).2 h1⟩ fun x hx => Returns.bind ⟨a', (item_ok _ _ _).2 h2⟩ fun y hy => ?_
      rw [item_ok] at hx hy
      rw [h1] at hx; rw [h2] at hy
      cases hx; cases hy
      have cs := fun i hi => coord_returns P d s hs ks bs i hi
      have ct := fun i hi => coord_returns P e t ht kt bt i hi
      refine Returns.bind h3 fun _ _ => Returns.ite _ (Returns.pure _) (Returns.bind (cs 0 (by decide)) fun _ _ => Returns.bind (ct 0 (by decide)) fun _ _ =>
        Returns.ite _ (Returns.pure _) (Returns.bind (cs 2 (by decide)) fun _ _ => Returns.bind (ct 2 (by decide)) fun _ _ =>
        Returns.ite _ (Returns.pure _) (Returns.bind (global_returns P d s hs ks bs is) fun _ _ =>
        Returns.ite _ (Returns.pure _) (Returns.bind (global_returns P e t ht kt bt it) fun _ _ => Returns.ite _ (Returns.pure _)
          (Returns.bind (cs 1 (by decide)) fun _ _ => Returns.bind (ct 1 (by decide)) fun _ _ => Returns.pure _)))))

/-- C131: comparing plain descriptions never raises: they match, or are found not to. -/
theorem C131_decided (P : Py) (order : List String) (ho : Enumerates order) (d e : Dict) (hd : Plain P d) (he : Plain P e) :
    ∃ s t b, fromDict P d = .ok s ∧ fromDict P e = .ok t ∧ eq P order s t = .ok b ∧ (b = true ↔ Matches P d e) := by
  obtain ⟨s, hs⟩ := plain_accepted hd
  obtain ⟨t, ht⟩ := plain_accepted he
  obtain ⟨b, hb⟩ := plain_returns P order ho d e s t hs ht hd he
  refine ⟨s, t, b, hs, ht, hb, ?_⟩
  rw [← C131_exact P order ho d e s t hs ht, hb]
  simp

/-- `C131_decided`: the grids from 0 to 359 and from 360 to 719 of C131 are plain. -/
theorem oneDegree_plain (P : Py) (w e : ℤ) : Plain P (oneDegree w e) :=
  .ll (oneDegree_kind P w e) (.int 1) (.flt 1) _ _ rfl (.int 1) (.flt 1)
    ⟨_, _, _, _, _, _, _, _, _, oneDegree_area w e, .list _, .int _, .int _, .int _, .int _⟩

example (P : Py) (order : List String) (ho : Enumerates order) : ∃ s t b, fromDict P (oneDegree 0 359) = .ok s ∧
    fromDict P (oneDegree 360 719) = .ok t ∧ eq P order s t = .ok b ∧ (b = true ↔ Matches P (oneDegree 0 359) (oneDegree 360 719)) :=
  C131_decided P order ho _ _ (oneDegree_plain P _ _) (oneDegree_plain P _ _)

end Verif.GridSpec

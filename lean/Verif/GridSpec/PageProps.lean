import Verif.GridSpec.Plain

/-!
# The page of gridspecs — docs/guide/precomputed/gridspec.rst (C159)

The page lists the descriptions of grids that `regrid` understands. `Grid` is what a user means, `Written` how the page writes it.
-/

namespace Verif.GridSpec
open Verif.Humanize

/-! ## Specification -/

/-- The digits of a number as text. -/
def digitText (ds : List (Fin 10)) : List Char := ds.map (fun i => Char.ofNat (48 + i.val))

/-- Their value. -/
def digitValue : List (Fin 10) → Nat
  | [] => 0
  | d :: ds => d.val * 10 ^ ds.length + digitValue ds

/-- What python does with plain ascii text: lower and upper case letter by letter, `int` of decimal digits (up to the 4300 digits python reads). -/
structure PlainText (P : Py) : Prop where
  lower : ∀ s : List Char, (∀ c ∈ s, c.toNat < 128) → P.lower s = s.map Char.toLower
  upper : ∀ s : List Char, (∀ c ∈ s, c.toNat < 128) → P.upper s = s.map Char.toUpper
  int : ∀ ds : List (Fin 10), ds ≠ [] → ds.length ≤ 4300 → P.pyInt (digitText ds) = some (digitValue ds : Int)

/-- The grids named on the page. -/
inductive Grid where
  | octahedral (ds : List (Fin 10))
  | reduced (ds : List (Fin 10))
  | nested (ds : List (Fin 10))
  | ring (ds : List (Fin 10))
  | orca (ds : List (Fin 10)) (subtype : Char)
  deriving DecidableEq

/-- How the page writes them: `[Oo]XXX`, `[Nn]XXX`, `[Hh]XXX` with the order (which may be omitted for "ring"), `eORCAXXX_subtype`. -/
inductive Written : Grid → Dict → Prop
  | octahedral (c : Char) (hc : c ∈ ['O', 'o']) (ds) : Written (.octahedral ds) (named (String.ofList (c :: digitText ds)))
  | reduced (c : Char) (hc : c ∈ ['N', 'n']) (ds) : Written (.reduced ds) (named (String.ofList (c :: digitText ds)))
  | nested (c : Char) (hc : c ∈ ['H', 'h']) (ds) : Written (.nested ds) (healpixOf (c :: digitText ds) "order" "nested")
  | ring (c : Char) (hc : c ∈ ['H', 'h']) (ds) : Written (.ring ds) (healpixOf (c :: digitText ds) "order" "ring")
  | omitted (c : Char) (hc : c ∈ ['H', 'h']) (ds) : Written (.ring ds) (named (String.ofList (c :: digitText ds)))
  | orca (ds) (c : Char) (hc : c ∈ ['T', 'U', 'V', 'W']) :
      Written (.orca ds c) (named (String.ofList ("eORCA".toList ++ digitText ds ++ ['_', c])))

/-- The number is one: some digits, and (but for ORCA grids, where it is a label) from 1 to a million. -/
def Grid.Numbered : Grid → Prop
  | .orca ds _ => ds ≠ []
  | .octahedral ds => ds ≠ [] ∧ ds.length ≤ 4300 ∧ 1 ≤ digitValue ds ∧ digitValue ds ≤ 1000000
  | .reduced ds => ds ≠ [] ∧ ds.length ≤ 4300 ∧ 1 ≤ digitValue ds ∧ digitValue ds ≤ 1000000
  | .nested ds => ds ≠ [] ∧ ds.length ≤ 4300 ∧ 1 ≤ digitValue ds ∧ digitValue ds ≤ 1000000
  | .ring ds => ds ≠ [] ∧ ds.length ≤ 4300 ∧ 1 ≤ digitValue ds ∧ digitValue ds ≤ 1000000

/-- The subtype "W". -/
def Grid.IsW : Grid → Prop
  | .orca _ c => c = 'W'
  | _ => False

/-- The class of the grid. -/
def Grid.kind : Grid → Kind
  | .octahedral _ => .rgg
  | .reduced _ => .rgg
  | .nested _ => .healpix
  | .ring _ => .healpix
  | .orca _ _ => .orca

/-! ## Text -/

theorem digit_char (i : Fin 10) : (Char.ofNat (48 + i.val)).toNat = 48 + i.val := by
  revert i; decide

theorem digitText_ascii (ds : List (Fin 10)) : ∀ c ∈ digitText ds, c.toNat < 128 := by
  intro c hc
  simp only [digitText, List.mem_map] at hc
  obtain ⟨i, _, rfl⟩ := hc
  rw [digit_char]; omega

theorem digit_lower (i : Fin 10) : (Char.ofNat (48 + i.val)).toLower = Char.ofNat (48 + i.val) := by
  revert i; decide

theorem digit_upper (i : Fin 10) : (Char.ofNat (48 + i.val)).toUpper = Char.ofNat (48 + i.val) := by
  revert i; decide

theorem digitText_lower (ds : List (Fin 10)) : (digitText ds).map Char.toLower = digitText ds := by
  simp only [digitText, List.map_map]
  exact List.map_congr_left fun i _ => digit_lower i

theorem digitText_upper (ds : List (Fin 10)) : (digitText ds).map Char.toUpper = digitText ds := by
  simp only [digitText, List.map_map]
  exact List.map_congr_left fun i _ => digit_upper i

theorem digitText_inj {a b : List (Fin 10)} (h : digitText a = digitText b) : a = b := by
  refine List.map_injective_iff.2 ?_ h
  intro i j hij
  have := congrArg Char.toNat hij
  simp only [digit_char] at this
  exact Fin.ext (by omega)

theorem digitText_digit (P : Py) (ds : List (Fin 10)) : ∀ c ∈ digitText ds, P.C.isDigit c = true := by
  intro c hc
  simp only [digitText, List.mem_map] at hc
  obtain ⟨i, _, rfl⟩ := hc
  exact (P.C.ascii_digit i.val i.isLt).1

theorem digitText_cons {ds : List (Fin 10)} (h : ds ≠ []) : ∃ x r, digitText ds = x :: r := by
  cases ds with
  | nil => exact absurd rfl h
  | cons d ds => exact ⟨_, _, rfl⟩

theorem named_grid (l : List Char) : named (String.ofList l) "grid" = some (.str l) := by
  simp [named]

theorem named_other (l : List Char) (k : String) (h : k ≠ "grid") : named (String.ofList l) k = none := by
  simp [named, h]

/-! ## What is written is plain -/

theorem named_box (l : List Char) : Box .rgg (named (String.ofList l)) :=
  ⟨GLOBE, .int 90, .int 0, .int (-90), .int 360, 90, 0, -90, 360, .whole (named_other l _ (by decide)) (.inl (by decide)), .list _,
    by simpa using Number.int 90, by simpa using Number.int 0, by simpa using Number.int (-90), by simpa using Number.int 360⟩

theorem asked_named (l : List Char) : asked (named (String.ofList l)) "grid" = some (.str l) := by
  simp [asked, named_grid, asList]

theorem gaussian_plain (P : Py) (hp : PlainText P) (c : Char) (hc : c ∈ ['O', 'o', 'N', 'n']) (ds : List (Fin 10))
    (h : ds ≠ [] ∧ ds.length ≤ 4300 ∧ 1 ≤ digitValue ds ∧ digitValue ds ≤ 1000000) :
    Plain P (named (String.ofList (c :: digitText ds))) ∧ IsKind P (named (String.ofList (c :: digitText ds))) .rgg := by
  obtain ⟨h0, h1, h2, h3⟩ := h
  obtain ⟨x, r, hx⟩ := digitText_cons h0
  have hd : P.C.isDigit x = true := digitText_digit P ds x (by rw [hx]; simp)
  have hs : Supported P .rgg (.str (c :: digitText ds)) := by
    rw [hx]; exact .rgg c x r hc hd
  have hk : IsKind P (named (String.ofList (c :: digitText ds))) .rgg :=
    .inferred (.inl (named_other _ _ (by decide))) _ (named_grid _) hs
  have hi := hp.int ds h0 h1
  have hu : P.upper (c :: digitText ds) = c.toUpper :: digitText ds := by
    rw [P.upper_head c _ hc, hp.upper _ (digitText_ascii ds), digitText_upper]
  exact ⟨.rgg hk _ (.rgg _ _ _ _ (asked_named _) hs hu hi (by omega) (by omega)) (named_box _), hk⟩

theorem healpix_plain (P : Py) (hp : PlainText P) (c : Char) (hc : c ∈ ['H', 'h']) (ds : List (Fin 10))
    (h : ds ≠ [] ∧ ds.length ≤ 4300 ∧ 1 ≤ digitValue ds ∧ digitValue ds ≤ 1000000) (d : Dict) (ht : d "type" = none)
    (hg : d "grid" = some (.str (c :: digitText ds))) (o : List Char) (hv : o ∈ ["ring".toList, "nested".toList])
    (ho : askedOrder d = .str o) : HealpixOrder P d o ∧ IsKind P d .healpix := by
  obtain ⟨h0, h1, h2, h3⟩ := h
  have hi := hp.int ds h0 h1
  obtain ⟨x, r, hx⟩ := digitText_cons h0
  have hd : P.C.isDigit x = true := digitText_digit P ds x (by rw [hx]; simp)
  rw [hx] at hg hi
  exact ⟨⟨c, x, r, _, by simp [asked, hg, asList], hc, hd, hi, by omega, by omega, hv, ho⟩,
    .inferred (.inl ht) _ hg (.healpix c x r hc hd)⟩

/-- The order a written HEALPix grid has. -/
def Grid.order? : Grid → Option (List Char)
  | .nested _ => some "nested".toList
  | .ring _ => some "ring".toList
  | _ => none

/-- The name of a written grid, in lower case. -/
def Grid.label : Grid → List Char
  | .octahedral ds => 'o' :: digitText ds
  | .reduced ds => 'n' :: digitText ds
  | .nested ds => 'h' :: digitText ds
  | .ring ds => 'h' :: digitText ds
  | .orca ds c => "eorca".toList ++ digitText ds ++ ['_', c.toLower]

theorem written_plain (P : Py) (hp : PlainText P) (g : Grid) (d : Dict) (hw : Written g d) (hn : g.Numbered) (hW : ¬g.IsW) :
    Plain P d ∧ IsKind P d g.kind ∧ (∀ o, g.order? = some o → HealpixOrder P d o) := by
  cases hw with
  | octahedral c hc ds =>
    have := gaussian_plain P hp c (by simp only [List.mem_cons, List.not_mem_nil, or_false] at hc ⊢; tauto) ds hn
    exact ⟨this.1, this.2, fun o h => by cases h⟩
  | reduced c hc ds =>
    have := gaussian_plain P hp c (by simp only [List.mem_cons, List.not_mem_nil, or_false] at hc ⊢; tauto) ds hn
    exact ⟨this.1, this.2, fun o h => by cases h⟩
  | nested c hc ds =>
    have := healpix_plain P hp c hc ds hn (healpixOf (c :: digitText ds) "order" "nested") (by simp [healpixOf]) (by simp [healpixOf])
      "nested".toList (by simp) (by simp [askedOrder, healpixOf])
    exact ⟨.healpix this.2 _ this.1, this.2, fun o h => by cases h; exact this.1⟩
  | ring c hc ds =>
    have := healpix_plain P hp c hc ds hn (healpixOf (c :: digitText ds) "order" "ring") (by simp [healpixOf]) (by simp [healpixOf])
      "ring".toList (by simp) (by simp [askedOrder, healpixOf])
    exact ⟨.healpix this.2 _ this.1, this.2, fun o h => by cases h; exact this.1⟩
  | omitted c hc ds =>
    have := healpix_plain P hp c hc ds hn (named (String.ofList (c :: digitText ds))) (by simp [named]) (named_grid _)
      "ring".toList (by simp) (by simp [askedOrder, named])
    exact ⟨.healpix this.2 _ this.1, this.2, fun o h => by cases h; exact this.1⟩
  | orca ds c hc =>
    have hc' : c ∈ ['F', 'T', 'U', 'V'] := by
      have : c ≠ 'W' := hW
      simp only [List.mem_cons, List.not_mem_nil, or_false] at hc ⊢
      tauto
    have hk : IsKind P (named (String.ofList ("eORCA".toList ++ digitText ds ++ ['_', c]))) .orca :=
      .inferred (.inl (named_other _ _ (by decide))) _ (named_grid _)
        (.orca ['e'] (digitText ds) [] c (by simp) (by
          obtain ⟨x, r, hx⟩ := digitText_cons hn
          rw [hx]; simp) (digitText_digit P ds) hc' (by simp))
    exact ⟨.orca hk _ (asked_named _), hk, fun o h => by cases h⟩

theorem written_label (P : Py) (hp : PlainText P) (g : Grid) (d : Dict) (hw : Written g d) :
    ∃ l, asked d "grid" = some (.str l) ∧ P.lower l = g.label := by
  have low : ∀ c : Char, c.toNat < 128 → ∀ ds, P.lower (c :: digitText ds) = c.toLower :: digitText ds := by
    intro c hc ds
    rw [hp.lower _ (by
      intro x hx
      rcases List.mem_cons.1 hx with rfl | hx
      · exact hc
      · exact digitText_ascii ds x hx), List.map_cons, digitText_lower]
  cases hw with
  | octahedral c hc ds =>
    refine ⟨_, asked_named _, ?_⟩
    simp only [List.mem_cons, List.not_mem_nil, or_false] at hc
    rcases hc with rfl | rfl <;> exact low _ (by decide) ds
  | reduced c hc ds =>
    refine ⟨_, asked_named _, ?_⟩
    simp only [List.mem_cons, List.not_mem_nil, or_false] at hc
    rcases hc with rfl | rfl <;> exact low _ (by decide) ds
  | nested c hc ds =>
    refine ⟨c :: digitText ds, by simp [asked, healpixOf, asList], ?_⟩
    simp only [List.mem_cons, List.not_mem_nil, or_false] at hc
    rcases hc with rfl | rfl <;> exact low _ (by decide) ds
  | ring c hc ds =>
    refine ⟨c :: digitText ds, by simp [asked, healpixOf, asList], ?_⟩
    simp only [List.mem_cons, List.not_mem_nil, or_false] at hc
    rcases hc with rfl | rfl <;> exact low _ (by decide) ds
  | omitted c hc ds =>
    refine ⟨_, asked_named _, ?_⟩
    simp only [List.mem_cons, List.not_mem_nil, or_false] at hc
    rcases hc with rfl | rfl <;> exact low _ (by decide) ds
  | orca ds c hc =>
    refine ⟨_, asked_named _, ?_⟩
    have hc' : c.toNat < 128 := by
      simp only [List.mem_cons, List.not_mem_nil, or_false] at hc
      rcases hc with rfl | rfl | rfl | rfl <;> decide
    rw [hp.lower _ (by
      intro x hx
      simp only [List.mem_append] at hx
      rcases hx with (hx | hx) | hx
      · revert x; decide
      · exact digitText_ascii ds x hx
      · simp only [List.mem_cons, List.not_mem_nil, or_false] at hx
        rcases hx with rfl | rfl
        · decide
        · exact hc')]
    rw [List.map_append, List.map_append, digitText_lower]
    rfl

theorem written_flags (g : Grid) (d : Dict) (hw : Written g d) :
    (∀ k ∈ ["i_scans_negatively", "j_points_consecutive", "j_scans_positively"], asked d k = some (.int 0)) ∧ d "shape" = none := by
  constructor
  · intro k hk
    simp only [List.mem_cons, List.not_mem_nil, or_false] at hk
    cases hw <;> rcases hk with rfl | rfl | rfl <;> simp [asked, named, healpixOf]
  · cases hw <;> simp [named, healpixOf]

theorem written_subtype (g : Grid) (d : Dict) (hw : Written g d) : ∀ ds c, g = .orca ds c → c ∈ ['T', 'U', 'V', 'W'] := by
  cases hw with
  | orca ds c hc => intro ds' c' h; cases h; exact hc
  | _ => intro ds' c' h; cases h

/-- Names and orders tell the grids apart. -/
theorem label_order_inj (g g' : Grid) (hg : ∀ ds c, g = .orca ds c → c ∈ ['T', 'U', 'V', 'W'])
    (hg' : ∀ ds c, g' = .orca ds c → c ∈ ['T', 'U', 'V', 'W']) (h : g.label = g'.label) (ho : g.order? = g'.order?) : g = g' := by
  have tail : ∀ (a b : List Char) (x y : Char), "eorca".toList ++ a ++ ['_', x] = "eorca".toList ++ b ++ ['_', y] → a = b ∧ x = y := by
    intro a b x y h
    rw [List.append_assoc, List.append_assoc] at h
    have h := List.append_cancel_left h
    have h2 := List.append_inj' h rfl
    exact ⟨h2.1, by simpa using h2.2⟩
  have ne : ∀ (c : Char) (hc : c ≠ 'e') (l r s : List Char), c :: l ≠ "eorca".toList ++ r ++ s := by
    intro c hc l r s h
    have : c = 'e' := (List.cons.inj h).1
    exact hc this
  cases g with
  | octahedral ds =>
    cases g' with
    | octahedral ds' => simp only [Grid.label, List.cons.injEq, true_and] at h; rw [digitText_inj h]
    | reduced ds' => simp [Grid.label] at h
    | nested ds' => simp [Grid.label] at h
    | ring ds' => simp [Grid.label] at h
    | orca ds' c => exact absurd h (ne _ (by decide) _ _ _)
  | reduced ds =>
    cases g' with
    | octahedral ds' => simp [Grid.label] at h
    | reduced ds' => simp only [Grid.label, List.cons.injEq, true_and] at h; rw [digitText_inj h]
    | nested ds' => simp [Grid.label] at h
    | ring ds' => simp [Grid.label] at h
    | orca ds' c => exact absurd h (ne _ (by decide) _ _ _)
  | nested ds =>
    cases g' with
    | octahedral ds' => simp [Grid.label] at h
    | reduced ds' => simp [Grid.label] at h
    | nested ds' => simp only [Grid.label, List.cons.injEq, true_and] at h; rw [digitText_inj h]
    | ring ds' => exact absurd (Option.some.inj ho) (by decide)
    | orca ds' c => exact absurd h (ne _ (by decide) _ _ _)
  | ring ds =>
    cases g' with
    | octahedral ds' => simp [Grid.label] at h
    | reduced ds' => simp [Grid.label] at h
    | nested ds' => exact absurd (Option.some.inj ho) (by decide)
    | ring ds' => simp only [Grid.label, List.cons.injEq, true_and] at h; rw [digitText_inj h]
    | orca ds' c => exact absurd h (ne _ (by decide) _ _ _)
  | orca ds c =>
    cases g' with
    | octahedral ds' => exact absurd h.symm (ne _ (by decide) _ _ _)
    | reduced ds' => exact absurd h.symm (ne _ (by decide) _ _ _)
    | nested ds' => exact absurd h.symm (ne _ (by decide) _ _ _)
    | ring ds' => exact absurd h.symm (ne _ (by decide) _ _ _)
    | orca ds' c' =>
      obtain ⟨h1, h2⟩ := tail _ _ _ _ h
      rw [digitText_inj h1]
      have e1 := hg ds c rfl
      have e2 := hg' ds' c' rfl
      have : ∀ c ∈ ['T', 'U', 'V', 'W'], ∀ c' ∈ ['T', 'U', 'V', 'W'], c.toLower = c'.toLower → c = c' := by decide
      rw [this c e1 c' e2 h2]

theorem isKind_unique {P : Py} {d : Dict} {s : GS} (hs : fromDict P d = .ok s) {k k' : Kind} (h : IsKind P d k) (h' : IsKind P d k') : k = k' := by
  rw [kind_iff P d s hs] at h h'
  rw [← h, ← h']

theorem order_unique {P : Py} {d : Dict} {o o' : List Char} (h : HealpixOrder P d o) (h' : HealpixOrder P d o') : o = o' := by
  obtain ⟨_, _, _, _, _, _, _, _, _, _, _, h1⟩ := h
  obtain ⟨_, _, _, _, _, _, _, _, _, _, _, h2⟩ := h'
  rw [h1] at h2
  exact V.str.inj h2

/-! ## C159 -/

/-- **C159, without the subtype "W".**  Every description of a named grid that follows the page is accepted and given its type, and two of
them match exactly if they mean the same grid: the letter may be of either case, and "ring" may be left out.  Missing: the subtype "W"
(`C159_subtype_refuted`). -/
theorem C159_page_partial (P : Py) (hp : PlainText P) (order : List String) (ho : Enumerates order) (g g' : Grid) (d e : Dict)
    (hd : Written g d) (he : Written g' e) (hn : g.Numbered) (hn' : g'.Numbered) (hW : ¬g.IsW) (hW' : ¬g'.IsW) :
    ∃ s t, fromDict P d = .ok s ∧ fromDict P e = .ok t ∧ s.kind = g.kind ∧ t.kind = g'.kind ∧ eq P order s t = .ok (decide (g = g')) := by
  obtain ⟨pd, kd, od⟩ := written_plain P hp g d hd hn hW
  obtain ⟨pe, ke, oe⟩ := written_plain P hp g' e he hn' hW'
  obtain ⟨s, t, b, hs, ht, hb, hm⟩ := C131_decided P order ho d e pd pe
  refine ⟨s, t, hs, ht, (kind_iff P d s hs _).1 kd, (kind_iff P e t ht _).1 ke, ?_⟩
  rw [hb]
  congr 1
  rw [Bool.eq_iff_iff, hm, decide_eq_true_iff]
  obtain ⟨l, al, ll⟩ := written_label P hp g d hd
  obtain ⟨l', al', ll'⟩ := written_label P hp g' e he
  obtain ⟨fd, sd⟩ := written_flags g d hd
  obtain ⟨fe, se⟩ := written_flags g' e he
  have common : Common P d e → g.label = g'.label := by
    intro h
    obtain ⟨a, b, ha, hb, hab⟩ := h.grid
    rw [al] at ha; rw [al'] at hb
    cases ha; cases hb
    cases hab with
    | names _ _ h => rw [← ll, ← ll', h]
    | others _ _ h => exact absurd ⟨rfl, rfl⟩ h
  constructor
  · intro h
    have fin : ∀ k, IsKind P d k → k ≠ .healpix → g.order? = none := by
      intro k hk hne
      have := isKind_unique hs kd hk
      cases g <;> first | rfl | exact absurd this.symm hne
    have fin' : ∀ k, IsKind P e k → k ≠ .healpix → g'.order? = none := by
      intro k hk hne
      have := isKind_unique ht ke hk
      cases g' <;> first | rfl | exact absurd this.symm hne
    have close : ∀ k, IsKind P d k → IsKind P e k → k ≠ .healpix → Common P d e → g = g' := fun k h1 h2 h3 h4 =>
      label_order_inj g g' (written_subtype g d hd) (written_subtype g' e he) (common h4) (by rw [fin k h1 h3, fin' k h2 h3])
    cases h with
    | orca h1 h2 h => exact close _ h1 h2 (by decide) h
    | rggSame h1 h2 h => exact close _ h1 h2 (by decide) h
    | rggGlobal h1 h2 h => exact close _ h1 h2 (by decide) h
    | llSame h1 h2 h => exact close _ h1 h2 (by decide) h
    | llGlobal h1 h2 h => exact close _ h1 h2 (by decide) h
    | healpix h1 h2 h o h3 h4 =>
      refine label_order_inj g g' (written_subtype g d hd) (written_subtype g' e he) (common h) ?_
      have some1 : g.order? = some o := by
        have := isKind_unique hs kd h1
        cases hg : g.order? with
        | none => cases g <;> first | (cases this; done) | (cases hg; done)
        | some o' => rw [order_unique (od o' hg) h3]
      have some2 : g'.order? = some o := by
        have := isKind_unique ht ke h2
        cases hg : g'.order? with
        | none => cases g' <;> first | (cases this; done) | (cases hg; done)
        | some o' => rw [order_unique (oe o' hg) h4]
      rw [some1, some2]
  · intro h
    subst h
    have hc : Common P d e := by
      refine ⟨⟨_, _, al, al', .names _ _ (by rw [ll, ll'])⟩, fun k hk => ⟨_, _, fd k hk, fe k hk, .integers _ _ 0 rfl rfl ?_ ?_⟩, ?_⟩
      · simpa using Number.int 0
      · simpa using Number.int 0
      · intro a b h; rw [sd] at h; cases h
    cases hg : g.kind with
    | ll => cases g <;> cases hg
    | orca => rw [hg] at kd ke; exact .orca kd ke hc
    | healpix =>
      rw [hg] at kd ke
      cases hor : g.order? with
      | none => cases g <;> first | (cases hg; done) | (cases hor; done)
      | some o => exact .healpix kd ke hc o (od o hor) (oe o hor)
    | rgg =>
      rw [hg] at kd ke
      have area : ∀ d, Written g d → AreaOf .rgg d GLOBE := by
        intro d h
        refine .whole ?_ (.inl (by decide))
        cases h <;> simp [named, healpixOf]
      refine .rggSame kd ke hc _ _ (area d hd) (area e he) ⟨_, _, .list _, .list _, ?_⟩
      have : ∀ z : ℤ, Near (12 / 100) (.int z) (.int z) := fun z => ⟨z, z, .int z, .int z, by norm_num⟩
      exact .cons (this _) (.cons (this _) (.cons (this _) (.cons (this _) .nil)))

/-- **C159, lat-lon grids of the page.**  `{"grid": [DLON, DLAT]}`, as list or tuple of any two numbers, is accepted as a lat-lon grid that goes round
the globe and begins at the meridian 0. -/
theorem C159_latlon (P : Py) (v x y : V) (p q : ℚ) (hv : v = .list [x, y] ∨ v = .tuple [x, y]) (hx : Number x p) (hy : Number y q) :
    let d : Dict := fun k => if k = "grid" then some v else none
    ∃ s, fromDict P d = .ok s ∧ s.kind = .ll ∧ isGlobalEw P s = .ok true ∧ Edge .ll d 1 0 := by
  intro d
  have hg : d "grid" = some v := rfl
  have hl : asList v = .list [x, y] := by rcases hv with rfl | rfl <;> rfl
  have ha : asked d "grid" = some (.list [x, y]) := by simp [asked, hg, hl]
  have hk : IsKind P d .ll := .inferred (.inl rfl) v hg (hl ▸ .ll x y)
  have nolist : ∀ {z : V} {r : ℚ}, Number z r → pyType z ≠ .list := by
    intro z r h; cases h <;> simp [pyType]
  have area : ∃ a n s e, AreaOf .ll d a ∧ Items a [n, .int 0, s, e] := by
    by_cases h : ∃ r ∈ LISTED, Number x r ∧ Number y r
    · obtain ⟨r, hr, h1, h2⟩ := h
      exact ⟨_, _, _, _, .listed rfl rfl rfl _ [] x y r ha (.list _) h1 h2 hr, .list _⟩
    · exact ⟨_, _, _, _, .unlisted rfl rfl rfl _ [] x y ha (.list _) (nolist hx) (nolist hy) h, .list _⟩
  obtain ⟨a, n, so, e, hA, hI⟩ := area
  obtain ⟨s, hs⟩ := (C131_accepted P d).2 ⟨.ll, hk, fun _ => .short rfl rfl rfl a hA⟩
  have hk' := (kind_iff P d s hs _).1 hk
  refine ⟨s, hs, hk', ?_, ⟨a, _, .int 0, hA, hI, rfl, by simpa using Number.int 0⟩⟩
  have := (round_iff P d s hs (.inl hk')).2 (by rw [hk']; exact .flagged (.short rfl rfl rfl))
  exact this

/-- The names of ORCA grids that are accepted: with the subtypes F, T, U and V. -/
theorem orca_refused (P : Py) (ds : List (Fin 10)) (c : Char) (hc : c ∉ ['F', 'T', 'U', 'V', '\n']) (k : Kind) :
    ¬Supported P k (.str ("eORCA".toList ++ digitText ds ++ ['_', c])) := by
  intro h
  generalize hl : "eORCA".toList ++ digitText ds ++ ['_', c] = l at h
  have he : ∃ r, l = 'e' :: r := ⟨_, hl.symm⟩
  generalize hv : V.str l = v at h
  cases h with
  | ll x y => cases hv
  | rgg a b r ha =>
    obtain ⟨r', rfl⟩ := he
    cases hv
    revert ha; decide
  | healpix a b r ha =>
    obtain ⟨r', rfl⟩ := he
    cases hv
    revert ha; decide
  | orca pre xs tail a _ _ _ ha ht =>
    cases hv
    have hlast := congrArg List.reverse hl
    simp only [List.mem_cons, List.not_mem_nil, or_false] at ht
    rcases ht with rfl | rfl
    · simp at hlast
      have := hlast.1
      subst this
      refine hc ?_
      simp only [List.mem_cons, List.not_mem_nil, or_false] at ha ⊢
      tauto
    · simp at hlast
      obtain ⟨rfl, _⟩ := hlast
      exact hc (by simp)

/-- **C159 refuted.**  The page allows the subtypes "T", "U", "V" and "W": every grid of subtype "W" is refused with ValueError, whereas "F",
not on the page, is accepted. -/
theorem C159_subtype_refuted (P : Py) (ds : List (Fin 10)) (h : ds ≠ []) :
    (∀ d, Written (.orca ds 'W') d → fromDict P d = .error .value) ∧
      ∃ s, fromDict P (named (String.ofList ("eORCA".toList ++ digitText ds ++ ['_', 'F']))) = .ok s ∧ s.kind = .orca := by
  constructor
  · intro d hd
    cases hd with
    | orca _ _ hc =>
      exact C30_unsupported_refused P _ _ (named_grid _) (.inl (named_other _ _ (by decide)))
        (fun k => orca_refused P ds 'W' (by decide) k)
  · have hk : IsKind P (named (String.ofList ("eORCA".toList ++ digitText ds ++ ['_', 'F']))) .orca :=
      .inferred (.inl (named_other _ _ (by decide))) _ (named_grid _)
        (.orca ['e'] (digitText ds) [] 'F' (by simp) (by
          obtain ⟨x, r, hx⟩ := digitText_cons h
          rw [hx]; simp) (digitText_digit P ds) (by simp) (by simp))
    obtain ⟨s, hs⟩ := plain_accepted (P := P) (.orca hk _ (asked_named _))
    exact ⟨s, hs, (kind_iff P _ s hs _).1 hk⟩

/-! ## The hypotheses can be met -/

theorem ascii_cases (n : Nat) (h : n < 128) : (((Char.ofNat n).toLower).toUpper = (Char.ofNat n).toUpper) := by
  revert n; decide

theorem asciiPy_plainText : PlainText asciiPy where
  lower s _ := rfl
  upper s hs := by
    show (s.map Char.toLower).map Char.toUpper = s.map Char.toUpper
    rw [List.map_map]
    refine List.map_congr_left fun c hc => ?_
    have := ascii_cases c.toNat (hs c hc)
    rwa [Char.ofNat_toNat] at this
  int ds h _ := by
    show (if ((digitText ds).map Char.toLower).all ascii.isDigit && !(digitText ds).isEmpty then some ((decVal ascii ((digitText ds).map Char.toLower) : Nat) : Int) else none) = _
    rw [digitText_lower]
    have h1 : (digitText ds).all ascii.isDigit = true := List.all_eq_true.2 (digitText_digit asciiPy ds)
    have h2 : (digitText ds).isEmpty = false := by
      obtain ⟨x, r, hx⟩ := digitText_cons h
      rw [hx]; rfl
    have h3 : decVal ascii (digitText ds) = digitValue ds := by
      clear h h1 h2
      rename_i hx
      clear hx
      induction ds with
      | nil => rfl
      | cons d ds ih =>
        have : ascii.digitVal (Char.ofNat (48 + d.val)) = d.val := (ascii.ascii_digit d.val d.isLt).2
        show ascii.digitVal (Char.ofNat (48 + d.val)) * 10 ^ (digitText ds).length + decVal ascii (digitText ds) = _
        rw [ih, this]
        simp [digitValue, digitText]
    rw [h1, h2, h3]
    rfl

/-- `C159_page_partial`: "O320" and "o320" match; "H512" is the ring grid and not the nested one; "O320" is not "N320". -/
example (order : List String) (ho : Enumerates order) :
    (∃ s t, fromDict asciiPy (named "O320") = .ok s ∧ fromDict asciiPy (named "o320") = .ok t ∧ eq asciiPy order s t = .ok true) ∧
    (∃ s t, fromDict asciiPy (named "h512") = .ok s ∧ fromDict asciiPy (healpixOf "H512".toList "order" "ring") = .ok t ∧
      eq asciiPy order s t = .ok true) ∧
    (∃ s t, fromDict asciiPy (named "h512") = .ok s ∧ fromDict asciiPy (healpixOf "H512".toList "order" "nested") = .ok t ∧
      eq asciiPy order s t = .ok false) ∧
    (∃ s t, fromDict asciiPy (named "eORCA025_T") = .ok s ∧ fromDict asciiPy (named "eORCA025_U") = .ok t ∧ eq asciiPy order s t = .ok false) := by
  have n320 : ([3, 2, 0] : List (Fin 10)) ≠ [] ∧ ([3, 2, 0] : List (Fin 10)).length ≤ 4300 ∧ 1 ≤ digitValue [3, 2, 0] ∧ digitValue [3, 2, 0] ≤ 1000000 := by
    decide
  have n512 : ([5, 1, 2] : List (Fin 10)) ≠ [] ∧ ([5, 1, 2] : List (Fin 10)).length ≤ 4300 ∧ 1 ≤ digitValue [5, 1, 2] ∧ digitValue [5, 1, 2] ≤ 1000000 := by
    decide
  have n025 : ([0, 2, 5] : List (Fin 10)) ≠ [] := by decide
  refine ⟨?_, ?_, ?_, ?_⟩
  · obtain ⟨s, t, h1, h2, _, _, h3⟩ := C159_page_partial asciiPy asciiPy_plainText order ho _ _ _ _
      (.octahedral 'O' (by simp) [3, 2, 0]) (.octahedral 'o' (by simp) [3, 2, 0]) n320 n320 id id
    exact ⟨s, t, h1, h2, h3⟩
  · obtain ⟨s, t, h1, h2, _, _, h3⟩ := C159_page_partial asciiPy asciiPy_plainText order ho _ _ _ _
      (.omitted 'h' (by simp) [5, 1, 2]) (.ring 'H' (by simp) [5, 1, 2]) n512 n512 id id
    exact ⟨s, t, h1, h2, h3⟩
  · obtain ⟨s, t, h1, h2, _, _, h3⟩ := C159_page_partial asciiPy asciiPy_plainText order ho _ _ _ _
      (.omitted 'h' (by simp) [5, 1, 2]) (.nested 'H' (by simp) [5, 1, 2]) n512 n512 id id
    exact ⟨s, t, h1, h2, h3⟩
  · obtain ⟨s, t, h1, h2, _, _, h3⟩ := C159_page_partial asciiPy asciiPy_plainText order ho _ _ _ _
      (.orca [0, 2, 5] 'T' (by simp)) (.orca [0, 2, 5] 'U' (by simp)) n025 n025 (by simp [Grid.IsW]) (by simp [Grid.IsW])
    exact ⟨s, t, h1, h2, h3⟩

/-- `C159_latlon`: `{"grid": [1, 1]}`, and `(0.7, 0.35)`, a pair that is not in the table of areas. -/
example (P : Py) : ∃ s, fromDict P (fun k => if k = "grid" then some (.list [.int 1, .int 1]) else none) = .ok s ∧ s.kind = .ll ∧
    isGlobalEw P s = .ok true ∧ Edge .ll (fun k => if k = "grid" then some (.list [.int 1, .int 1]) else none) 1 0 :=
  C159_latlon P _ _ _ 1 1 (.inl rfl) (by simpa using Number.int 1) (by simpa using Number.int 1)
example (P : Py) : ∃ s, fromDict P (fun k => if k = "grid" then some (.tuple [.flt (7 / 10), .flt (35 / 100)]) else none) = .ok s ∧ s.kind = .ll ∧
    isGlobalEw P s = .ok true ∧ Edge .ll (fun k => if k = "grid" then some (.tuple [.flt (7 / 10), .flt (35 / 100)]) else none) 1 0 :=
  C159_latlon P _ _ _ _ _ (.inr rfl) (.flt _) (.flt _)

/-- `C159_subtype_refuted`: "eORCA025_W". -/
example (P : Py) : fromDict P (named "eORCA025_W") = .error .value :=
  (C159_subtype_refuted P [0, 2, 5] (by decide)).1 _ (.orca [0, 2, 5] 'W' (by simp))

end Verif.GridSpec

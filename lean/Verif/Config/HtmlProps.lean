import Verif.Config.Html

/-!
# C153: the displays of the configuration can be read back
-/

namespace Verif.Config.Html
open Verif.Config Verif.Config.Show

/-- What a row shows in its value column: with a variable, the variable and its text on the first line and the stored value in
parentheses on the second. -/
def valueCell (R : Repr) (row : Row) : Cell :=
  match row.var with
  | some (n, t) => [n ++ '=' :: R.text t, '(' :: (R.value row.value ++ [')'])]
  | none => [R.value row.value]

/-- The texts of a row are not markup. -/
structure RowPlain (R : Repr) (row : Row) : Prop where
  name : Plain row.name.toList
  value : Plain (R.value row.value)
  default : Plain (defaultText R row.default)
  var : ∀ n t, row.var = some (n, t) → Plain n ∧ Plain (R.text t)

/-- The three column names. -/
def columns : List Cell := [["Name".toList], ["Value".toList], ["Default".toList]]

theorem plain_cons (c : Char) (t : Text) (hc : c ≠ '<') (hc' : c ≠ '&') (h : Plain t) : Plain (c :: t) := by
  refine ⟨?_, ?_⟩ <;> rw [List.mem_cons, not_or]
  · exact ⟨fun e => hc e.symm, h.1⟩
  · exact ⟨fun e => hc' e.symm, h.2⟩

theorem plain_append (a b : Text) (ha : Plain a) (hb : Plain b) : Plain (a ++ b) := by
  refine ⟨?_, ?_⟩ <;> rw [List.mem_append, not_or]
  · exact ⟨ha.1, hb.1⟩
  · exact ⟨ha.2, hb.2⟩

theorem plain_nil : Plain [] := ⟨List.not_mem_nil, List.not_mem_nil⟩

theorem lit_open : "<tr><td>".toList = tagText "tr".toList ++ tagText "td".toList := by decide +kernel
theorem lit_mid : "</td><td>".toList = tagText "/td".toList ++ tagText "td".toList := by decide +kernel
theorem lit_midp : ")</td><td>".toList = [')'] ++ (tagText "/td".toList ++ tagText "td".toList) := by decide +kernel
theorem lit_br : "<br>(".toList = tagText "br".toList ++ ['('] := by decide +kernel
theorem lit_eq : "=".toList = ['='] := by decide +kernel
theorem lit_close : "</td></tr>".toList = tagText "/td".toList ++ tagText "/tr".toList := by decide +kernel

theorem feed_row (R : Repr) (row : Row) (h : RowPlain R row) (d : List (List Cell)) :
    Page.feed ⟨d, [], none, none, true⟩ (rowText R row) =
      ⟨d ++ [[[row.name.toList], valueCell R row, [defaultText R row.default]]], [], none, none, true⟩ := by
  have hp1 : Plain ['='] := plain_cons _ _ (by decide) (by decide) plain_nil
  have hp2 : Plain ['('] := plain_cons _ _ (by decide) (by decide) plain_nil
  have hp3 : Plain [')'] := plain_cons _ _ (by decide) (by decide) plain_nil
  obtain ⟨name, var, value, default⟩ := row
  cases var with
  | none =>
    show Page.feed _ ("<tr><td>".toList ++ name.toList ++ "</td><td>".toList ++ R.value value ++
      "</td><td>".toList ++ defaultText R default ++ "</td></tr>".toList) = _
    rw [lit_open, lit_mid, lit_close]
    simp only [feed_append, feed_tr, feed_td, feed_endTd, feed_endTr, feed_plain _ _ _ _ _ _ h.name, feed_plain _ _ _ _ _ _ h.value,
      feed_plain _ _ _ _ _ _ h.default]
    rfl
  | some nt =>
    obtain ⟨n, t⟩ := nt
    obtain ⟨hn, ht⟩ := h.var n t rfl
    show Page.feed _ ("<tr><td>".toList ++ name.toList ++ "</td><td>".toList ++ n ++ "=".toList ++ R.text t ++ "<br>(".toList ++
      R.value value ++ ")</td><td>".toList ++ defaultText R default ++ "</td></tr>".toList) = _
    rw [lit_open, lit_mid, lit_close, lit_midp, lit_br, lit_eq]
    simp only [feed_append, feed_tr, feed_td, feed_endTd, feed_endTr, feed_br, feed_plain _ _ _ _ _ _ h.name,
      feed_plain _ _ _ _ _ _ h.value, feed_plain _ _ _ _ _ _ h.default, feed_plain _ _ _ _ _ _ hn, feed_plain _ _ _ _ _ _ ht,
      feed_plain _ _ _ _ _ _ hp1, feed_plain _ _ _ _ _ _ hp2, feed_plain _ _ _ _ _ _ hp3]
    simp [valueCell, defaultText]

theorem feed_rows (R : Repr) (g : Row → List Cell) (rs : List Row)
    (h : ∀ row ∈ rs, ∀ d, Page.feed ⟨d, [], none, none, true⟩ (rowText R row) = ⟨d ++ [g row], [], none, none, true⟩)
    (d : List (List Cell)) :
    Page.feed ⟨d, [], none, none, true⟩ (rs.map (rowText R)).flatten = ⟨d ++ rs.map g, [], none, none, true⟩ := by
  induction rs generalizing d with
  | nil => simp [Page.feed]
  | cons row rs ih =>
    rw [List.map_cons, List.flatten_cons, feed_append, h row List.mem_cons_self,
      ih (fun r hr => h r (List.mem_cons_of_mem _ hr)), List.map_cons, List.append_assoc]
    rfl

theorem feed_head : Page.feed ⟨[], [], none, none, true⟩ (css ++ "<table class='ek'>".toList ++ header) =
    ⟨[columns], [], none, none, true⟩ := by decide +kernel

theorem feed_end (d : List (List Cell)) : Page.feed ⟨d, [], none, none, true⟩ "</table>".toList = ⟨d, [], none, none, true⟩ := by
  rw [show "</table>".toList = tagText "/table".toList from by decide +kernel, feed_tag _ _ _ _ _ (by decide),
    show kind "/table".toList = .other from by decide +kernel]
  rfl

theorem table_cells (R : Repr) (g : Row → List Cell) (rs : List Row)
    (h : ∀ row ∈ rs, ∀ d, Page.feed ⟨d, [], none, none, true⟩ (rowText R row) = ⟨d ++ [g row], [], none, none, true⟩) :
    table (page R rs) = some (columns :: rs.map g) := by
  unfold table page
  rw [feed_append, feed_append, feed_head, feed_rows R g rs h, feed_end]
  rfl

/-- The cells of a row whose texts are not markup. -/
def cells (R : Repr) (row : Row) : List Cell := [[row.name.toList], valueCell R row, [defaultText R row.default]]

/-- The page of rows whose texts are not markup. -/
theorem table_page (R : Repr) (rs : List Row) (h : ∀ row ∈ rs, RowPlain R row) : table (page R rs) = some (columns :: rs.map (cells R)) :=
  table_cells R (cells R) rs (fun row hr d => feed_row R row (h row hr) d)

theorem row_var (env : Env) (items : List (String × V)) (hn : (items.map Prod.fst).Nodup) (k : String) (v : V) (hm : (k, v) ∈ items) :
    (envOf env items).lookup k = (env (envName k)).map (fun t => (envName k, t)) := by
  cases he : env (envName k) with
  | some t =>
    rw [Option.map_some, lookup_iff _ (envOf_nodup _ _ hn), envOf_mem]
    exact ⟨⟨v, hm⟩, rfl, he⟩
  | none =>
    cases hl : (envOf env items).lookup k with
    | none => rfl
    | some nt =>
      obtain ⟨n, t⟩ := nt
      rw [lookup_iff _ (envOf_nodup _ _ hn), envOf_mem, he] at hl
      cases hl.2.2

/-- The row of a stored value. -/
theorem row_of (P : Py) (env : Env) (items : List (String × V)) (hn : (items.map Prod.fst).Nodup) (k : String) (v : V) (hm : (k, v) ∈ items) :
    ⟨k, (env (envName k)).map (fun t => (envName k, t)), v, (option P k).map OptDef.default⟩ ∈ rows P env items := by
  rw [← row_var env items hn k v hm]
  exact List.mem_map.2 ⟨(k, v), (sort_perm items).mem_iff.2 hm, rfl⟩

/-! ### the claims -/

/-- What the row of an option shows, by whether its variable is set. -/
inductive Shows (P : Py) (R : Repr) (s : St) (name : String) (r : Rule) (var : String) (d : V) : List Cell → Prop where
  | variable (t : Text) (v : V) (set : s.env var.toList = some t)
      (value : s.view P name = match r.applyEnv P t with
        | some w => .ok w
        | none => .error .value) :
      Shows P R s name r var d [[name.toList], [var.toList ++ '=' :: R.text t, '(' :: (R.value v ++ [')'])], [R.value d]]
  | stored (v : V) (unset : s.env var.toList = none) (value : InForce P r v (s.view P name)) :
      Shows P R s name r var d [[name.toList], [R.value v], [R.value d]]

/-- **C153.**  At any point of any program, when no text put into the page is markup, the page is a table with the three column names
and then, for every option, one row with its name, what is in force, and its default. -/
theorem C153_html_partial (P : Py) (W : Raises) (p : Prog) (path old : String) (env : Env) (files : String → Option File) (s : St)
    (hs : s = (run P W p (start P path old env files)).2) (items : List (String × V)) (hl : Lists s.top.conf items)
    (R : Repr) (hp : ∀ row ∈ rows P s.env items, RowPlain R row) :
    ∃ body, table (htmlText P R s.env items) =
        some ([["Name".toList], ["Value".toList], ["Default".toList]] :: body) ∧
      (body.map List.head?).Nodup ∧
      ∀ name r, ruleOf name = some r → ∃ var d c, variableOf name = some var ∧ defaultOf P name = some d ∧ c ∈ body ∧
        Shows P R s name r var d c := by
  refine ⟨(rows P s.env items).map (cells R), table_page R _ hp, ?_, ?_⟩
  · have hsort := (C113_rows P W p path old env files s hs items hl).1
    rw [List.map_map, List.Nodup, List.pairwise_map]
    refine hsort.imp ?_
    intro a b hab he
    simp only [Function.comp, cells, List.head?_cons, Option.some.injEq, List.cons.injEq, and_true] at he
    exact absurd (String.toList_inj.1 he) (ne_of_lt hab)
  · intro name r hr
    have hfull := (hs ▸ run_full P W p path old env files : StFull s).top name r hr
    obtain ⟨v, hv⟩ := Option.isSome_iff_exists.1 hfull
    have hm := (hl.2 name v).2 hv
    have hrow := row_of P s.env items hl.1 name v hm
    have hall : ∀ a ∈ SORTED, variableOf a = some (String.ofList (envName a)) := by decide +kernel
    obtain ⟨o, ho, _⟩ := option_rule P name r hr
    have hd : defaultOf P name = some o.default := by rw [← defaultOf_eq]; unfold DEFAULTS; rw [ho]; rfl
    refine ⟨_, o.default, _, hall name (sorted_mem name r hr), hd, List.mem_map.2 ⟨_, hrow, rfl⟩, ?_⟩
    rw [ho]
    cases he : s.env (envName name) with
    | some t =>
      have := Shows.variable (P := P) (R := R) (s := s) (name := name) (r := r) (var := String.ofList (envName name)) (d := o.default) t v
        (by rw [String.toList_ofList]; exact he) (C17_variable_wins P s name r t hr he)
      rw [String.toList_ofList] at this
      exact this
    | none =>
      exact Shows.stored v (by rw [String.toList_ofList]; exact he) (getConf_inForce P s.env _ name r hr he v v hv (Or.inl rfl))

/-- **C153, what can be told.**  Two configurations whose pages are the same text, made of texts that are not markup, by a `repr` that
tells the values and texts in them apart, have the same options in force. -/
theorem C153_values_partial (P : Py) (R : Repr) (ea eb : Env) (ca cb : Conf) (a b : List (String × V)) (ha : Lists ca a) (hb : Lists cb b)
    (hpa : ∀ row ∈ rows P ea a, RowPlain R row) (hpb : ∀ row ∈ rows P eb b, RowPlain R row)
    (hv : ∀ x ∈ a, ∀ y ∈ b, R.value x.2 = R.value y.2 → x.2 = y.2) (ht : ∀ x y, R.text x = R.text y → x = y)
    (h : htmlText P R ea a = htmlText P R eb b) (name : String) :
    (∀ v, ca name = some v → getConf P ea ca name = getConf P eb cb name) ∧ ca name = cb name := by
  have hrows : (rows P ea a).map (cells R) = (rows P eb b).map (cells R) := by
    have h1 := table_page R _ hpa
    have h2 := table_page R _ hpb
    have h3 : page R (rows P ea a) = page R (rows P eb b) := h
    rw [h3, h2] at h1
    exact ((List.cons.inj (Option.some.inj h1)).2).symm
  have key : ∀ (ea eb : Env) (ca cb : Conf) (a b : List (String × V)), Lists ca a → Lists cb b →
      (∀ x ∈ a, ∀ y ∈ b, R.value x.2 = R.value y.2 → x.2 = y.2) →
      (rows P ea a).map (cells R) = (rows P eb b).map (cells R) → ∀ v, ca name = some v →
      cb name = some v ∧ ea (envName name) = eb (envName name) := by
    intro ea eb ca cb a b ha hb hv hrows v hcv
    have hm := (ha.2 name v).2 hcv
    have hrow := List.mem_map_of_mem (f := cells R) (row_of P ea a ha.1 name v hm)
    rw [hrows] at hrow
    obtain ⟨row, hrow, he⟩ := List.mem_map.1 hrow
    obtain ⟨⟨k, w⟩, hmem, rfl⟩ := List.mem_map.1 hrow
    have hmem := (sort_perm b).mem_iff.1 hmem
    simp only [row_var eb b hb.1 k w hmem, cells] at he
    rw [List.cons.injEq, List.cons.injEq, List.cons.injEq, String.toList_inj] at he
    obtain ⟨⟨hk, -⟩, he, -⟩ := he
    subst hk
    cases h1 : ea (envName k) with
    | none =>
      cases h2 : eb (envName k) with
      | none =>
        rw [h1, h2] at he
        have : R.value w = R.value v := (List.cons.inj he).1
        have hvw := hv _ hm _ hmem this.symm
        exact ⟨(hb.2 _ _).1 (by rw [show v = w from hvw]; exact hmem), rfl⟩
      | some t =>
        rw [h1, h2] at he
        exact absurd (congrArg List.length he) (by simp [valueCell])
    | some t =>
      cases h2 : eb (envName k) with
      | none =>
        rw [h1, h2] at he
        exact absurd (congrArg List.length he) (by simp [valueCell])
      | some t' =>
        rw [h1, h2] at he
        obtain ⟨h3, h4⟩ := List.cons.inj he
        have ht' := ht _ _ (List.cons.inj (List.append_cancel_left h3)).2
        have h5 := (List.cons.inj (List.cons.inj h4).1).2
        have hvw := hv _ hm _ hmem (List.append_cancel_right h5).symm
        exact ⟨(hb.2 _ _).1 (by rw [show v = w from hvw]; exact hmem), by rw [ht']⟩
  constructor
  · intro v hcv
    obtain ⟨h1, h2⟩ := key ea eb ca cb a b ha hb hv hrows v hcv
    unfold getConf
    rw [h2, hcv, h1]
  · cases hcv : ca name with
    | some v => exact ((key ea eb ca cb a b ha hb hv hrows v hcv).1).symm
    | none =>
      cases hcw : cb name with
      | none => rfl
      | some w =>
        have := (key eb ea cb ca b a hb ha (fun x hx y hy e => (hv y hy x hx e.symm).symm) hrows.symm w hcw).1
        rw [hcv] at this; cases this

/-! #### the printed text -/

theorem sep_inj {c : Char} {a b x y : Text} (ha : c ∉ a) (hb : c ∉ b) (h : a ++ c :: x = b ++ c :: y) : a = b ∧ x = y := by
  induction a generalizing b with
  | nil =>
    cases b with
    | nil => exact ⟨rfl, (List.cons.inj h).2⟩
    | cons e b =>
      have := (List.cons.inj h).1
      exact absurd (this ▸ List.mem_cons_self) hb
  | cons e a ih =>
    cases b with
    | nil =>
      have := (List.cons.inj h).1
      exact absurd (this ▸ List.mem_cons_self) ha
    | cons f b =>
      obtain ⟨h1, h2⟩ := List.cons.inj h
      rw [List.mem_cons, not_or] at ha hb
      obtain ⟨h3, h4⟩ := ih ha.2 hb.2 h2
      exact ⟨by rw [h1, h3], h4⟩

theorem no_sep {c : Char} {a b y : Text} (ha : c ∉ a) (h : a = b ++ c :: y) : False :=
  ha (h ▸ List.mem_append_right _ List.mem_cons_self)

/-- The text of a default. -/
def strDefault (P : Py) : Option V → Text
  | some d => P.strOf d
  | none => []

/-- The texts of a printed row have neither commas nor line ends, the name no colon, the variable no equals sign. -/
structure RowClean (P : Py) (row : Row) : Prop where
  name : ':' ∉ row.name.toList ∧ ',' ∉ row.name.toList ∧ '\n' ∉ row.name.toList
  value : ',' ∉ P.strOf row.value ∧ '\n' ∉ P.strOf row.value
  default : ',' ∉ strDefault P row.default ∧ '\n' ∉ strDefault P row.default
  var : ∀ n t, row.var = some (n, t) → ('=' ∉ n ∧ ',' ∉ n ∧ '\n' ∉ n) ∧ ',' ∉ t ∧ '\n' ∉ t

theorem line_none (P : Py) (k : String) (v : V) (d : Option V) :
    line P ⟨k, none, v, d⟩ = (k.toList ++ ':' :: ' ' :: '(' :: P.strOf v) ++ ',' :: ' ' :: (strDefault P d ++ [')']) := by
  unfold line
  rw [show ": (".toList = [':', ' ', '('] from by decide +kernel, show ", ".toList = [',', ' '] from by decide +kernel,
    show ")".toList = [')'] from by decide +kernel]
  cases d <;> simp [strDefault]

theorem line_some (P : Py) (k : String) (n t : Text) (v : V) (d : Option V) :
    line P ⟨k, some (n, t), v, d⟩ = (k.toList ++ ':' :: ' ' :: '(' :: (n ++ '=' :: t)) ++
      ',' :: ((' ' :: P.strOf v) ++ ',' :: ' ' :: (strDefault P d ++ [')'])) := by
  unfold line
  rw [show ": (".toList = [':', ' ', '('] from by decide +kernel, show ", ".toList = [',', ' '] from by decide +kernel,
    show ")".toList = [')'] from by decide +kernel, show "=".toList = ['='] from by decide +kernel]
  cases d <;> simp [strDefault]

/-- What a printed row tells. -/
def told (P : Py) (row : Row) : String × Option (Text × Text) × Text := (row.name, row.var, P.strOf row.value)

theorem line_inj (P : Py) (a b : Row) (ha : RowClean P a) (hb : RowClean P b) (h : line P a = line P b) : told P a = told P b := by
  obtain ⟨ka, va, xa, da⟩ := a
  obtain ⟨kb, vb, xb, db⟩ := b
  have hA := ha.name; have hB := hb.name; have hAv := ha.value; have hBv := hb.value
  have hAd := ha.default; have hBd := hb.default
  simp only at hA hB hAv hBv hAd hBd
  have hd : ∀ d : Option V, ',' ∉ strDefault P d → ',' ∉ ' ' :: (strDefault P d ++ [')']) := by
    intro d h; simp [h]
  cases va with
  | none =>
    cases vb with
    | none =>
      rw [line_none, line_none] at h
      obtain ⟨h1, _⟩ := sep_inj (by simp [hA.2.1, hAv.1]) (by simp [hB.2.1, hBv.1]) h
      obtain ⟨h2, h3⟩ := sep_inj hA.1 hB.1 h1
      simp only [List.cons.injEq, true_and] at h3
      unfold told; simp only [String.toList_inj.1 h2, h3]
    | some nt =>
      obtain ⟨n, t⟩ := nt
      obtain ⟨h5, h6⟩ := hb.var n t rfl
      rw [line_none, line_some] at h
      obtain ⟨_, h1⟩ := sep_inj (by simp [hA.2.1, hAv.1]) (by simp [hB.2.1, h5.2.1, h6.1]) h
      exact (no_sep (hd da hAd.1) h1).elim
  | some nt =>
    obtain ⟨n, t⟩ := nt
    obtain ⟨h5, h6⟩ := ha.var n t rfl
    cases vb with
    | none =>
      rw [line_none, line_some] at h
      obtain ⟨_, h1⟩ := sep_inj (by simp [hA.2.1, h5.2.1, h6.1]) (by simp [hB.2.1, hBv.1]) h
      exact (no_sep (hd db hBd.1) h1.symm).elim
    | some nt' =>
      obtain ⟨n', t'⟩ := nt'
      obtain ⟨h7, h8⟩ := hb.var n' t' rfl
      rw [line_some, line_some] at h
      obtain ⟨h1, h2⟩ := sep_inj (by simp [hA.2.1, h5.2.1, h6.1]) (by simp [hB.2.1, h7.2.1, h8.1]) h
      obtain ⟨h3, h4⟩ := sep_inj hA.1 hB.1 h1
      simp only [List.cons.injEq, true_and] at h4
      obtain ⟨h9, h10⟩ := sep_inj h5.1 h7.1 h4
      obtain ⟨h11, _⟩ := sep_inj (by simp [hAv.1]) (by simp [hBv.1]) h2
      simp only [List.cons.injEq, true_and] at h11
      unfold told; simp only [String.toList_inj.1 h3, h9, h10, h11]

theorem line_oneline (P : Py) (a : Row) (ha : RowClean P a) : '\n' ∉ line P a ∧ line P a ≠ [] := by
  obtain ⟨k, va, x, d⟩ := a
  have hA := ha.name; have hAv := ha.value; have hAd := ha.default
  simp only at hA hAv hAd
  cases va with
  | none =>
    rw [line_none]
    exact ⟨by simp [hA.2.2, hAv.2, hAd.2], by simp⟩
  | some nt =>
    obtain ⟨n, t⟩ := nt
    obtain ⟨h5, h6⟩ := ha.var n t rfl
    rw [line_some]
    exact ⟨by simp [hA.2.2, hAv.2, hAd.2, h5.2.2, h6.2], by simp⟩

theorem inter_one (l : Text) : ['\n'].intercalate [l] = l := by simp [List.intercalate]

theorem inter_more (l m : Text) (ls : List Text) : ['\n'].intercalate (l :: m :: ls) = l ++ '\n' :: ['\n'].intercalate (m :: ls) := by
  simp [List.intercalate]

theorem text_inj (P : Py) (a b : List Row) (ha : ∀ row ∈ a, RowClean P row) (hb : ∀ row ∈ b, RowClean P row)
    (h : ['\n'].intercalate (a.map (line P)) = ['\n'].intercalate (b.map (line P))) : a.map (told P) = b.map (told P) := by
  induction a generalizing b with
  | nil =>
    cases b with
    | nil => rfl
    | cons y b =>
      have hy := line_oneline P y (hb y List.mem_cons_self)
      cases b with
      | nil => simp only [List.map_cons, List.map_nil, inter_one] at h; exact absurd h.symm hy.2
      | cons z b =>
        rw [List.map_cons, List.map_cons, inter_more] at h
        exact absurd (congrArg List.length h) (by simp [List.intercalate])
  | cons x a ih =>
    have hx := line_oneline P x (ha x List.mem_cons_self)
    cases b with
    | nil =>
      cases a with
      | nil => simp only [List.map_cons, List.map_nil, inter_one] at h; exact absurd h hx.2
      | cons z a =>
        rw [List.map_cons, List.map_cons, inter_more] at h
        exact absurd (congrArg List.length h) (by simp [List.intercalate])
    | cons y b =>
      have hy := line_oneline P y (hb y List.mem_cons_self)
      cases a with
      | nil =>
        cases b with
        | nil =>
          simp only [List.map_cons, List.map_nil, inter_one] at h
          rw [List.map_cons, List.map_cons, line_inj P x y (ha x List.mem_cons_self) (hb y List.mem_cons_self) h]
        | cons z b =>
          simp only [List.map_cons, List.map_nil, inter_one, inter_more] at h
          exact (no_sep hx.1 h).elim
      | cons z a =>
        cases b with
        | nil =>
          simp only [List.map_cons, List.map_nil, inter_one, inter_more] at h
          exact (no_sep hy.1 h.symm).elim
        | cons w b =>
          rw [List.map_cons, List.map_cons, List.map_cons, List.map_cons, inter_more, inter_more] at h
          obtain ⟨h1, h2⟩ := sep_inj hx.1 hy.1 h
          rw [List.map_cons, List.map_cons (l := w :: b), line_inj P x y (ha x List.mem_cons_self) (hb y List.mem_cons_self) h1,
            ih (w :: b) (fun r hr => ha r (List.mem_cons_of_mem _ hr)) (fun r hr => hb r (List.mem_cons_of_mem _ hr)) h2]

/-- **C153, printing.**  Two configurations that print the same text, made of texts without commas and line ends, have row by row the
same name, the same variable with the same text, and values with the same `str`. -/
theorem C153_print_partial (P : Py) (ea eb : Env) (a b : List (String × V)) (ha : ∀ row ∈ rows P ea a, RowClean P row)
    (hb : ∀ row ∈ rows P eb b, RowClean P row) (h : reprText P ea a = reprText P eb b) :
    (rows P ea a).map (fun row => (row.name, row.var, P.strOf row.value)) = (rows P eb b).map (fun row => (row.name, row.var, P.strOf row.value)) :=
  text_inj P _ _ ha hb (by
    unfold reprText at h
    rw [show "\n".toList = ['\n'] from by decide +kernel] at h
    exact h)

/-- `repr` for texts without quotes, backslashes and control characters. -/
def simple : Repr where
  value
    | .none => "None".toList
    | .bool true => "True".toList
    | .bool false => "False".toList
    | .int i => (toString i).toList
    | .str s => '\'' :: (s ++ ['\''])
    | .other _ => "object".toList
  text t := '\'' :: (t ++ ['\''])

/-- One option set to something else. -/
def put (k : String) (v : V) (e : String × V) : String × V := if e.1 = k then (k, v) else e

theorem put_fst (k : String) (v : V) (e : String × V) : (put k v e).1 = e.1 := by
  unfold put
  split
  · rename_i h; exact h.symm
  · rfl

theorem rows_put (P : Py) (items : List (String × V)) (k : String) (v : V) :
    rows P (fun _ => none) (items.map (put k v)) =
      (sortItems items).map (fun e => ⟨e.1, none, (put k v e).2, (option P e.1).map OptDef.default⟩) := by
  have hsort : sortItems (items.map (put k v)) = (sortItems items).map (put k v) := by
    unfold sortItems
    symm
    apply List.map_mergeSort
    intro a _ b _
    rw [put_fst, put_fst]
  unfold rows
  rw [hsort, envOf_empty, List.map_map]
  apply List.map_congr_left
  intro e _
  simp only [Function.comp, put_fst]
  rfl

/-- Decidable form of `RowPlain` for rows without a variable. -/
theorem plain_row (R : Repr) (name : String) (v : V) (d : Option V)
    (h : ('<' ∉ name.toList ∧ '&' ∉ name.toList) ∧ ('<' ∉ R.value v ∧ '&' ∉ R.value v) ∧ ('<' ∉ defaultText R d ∧ '&' ∉ defaultText R d)) :
    RowPlain R ⟨name, none, v, d⟩ :=
  ⟨h.1, h.2.1, h.2.2, fun _ _ h => by cases h⟩

theorem plain_defaults : ∀ e ∈ defaultItems py,
    ('<' ∉ e.1.toList ∧ '&' ∉ e.1.toList) ∧
    ('<' ∉ simple.value (put "user-cache-directory" (.str "/a".toList) e).2 ∧ '&' ∉ simple.value (put "user-cache-directory" (.str "/a".toList) e).2) ∧
    ('<' ∉ defaultText simple ((option py e.1).map OptDef.default) ∧ '&' ∉ defaultText simple ((option py e.1).map OptDef.default)) := by
  decide +kernel

/-- The row of a directory with markup in its name shows the directory without it. -/
theorem feed_markup (d : List (List Cell)) (df : Option V) (hd : Plain (defaultText simple df)) :
    Page.feed ⟨d, [], none, none, true⟩ (rowText simple ⟨"user-cache-directory", none, .str "/a<b>".toList, df⟩) =
      ⟨d ++ [cells simple ⟨"user-cache-directory", none, .str "/a".toList, df⟩], [], none, none, true⟩ := by
  show Page.feed _ ("<tr><td>".toList ++ "user-cache-directory".toList ++ "</td><td>".toList ++ simple.value (.str "/a<b>".toList) ++
      "</td><td>".toList ++ defaultText simple df ++ "</td></tr>".toList) = _
  have h1 : simple.value (.str "/a<b>".toList) = "'/a".toList ++ tagText "b".toList ++ "'".toList := by decide +kernel
  have hp1 : Plain "user-cache-directory".toList := ⟨by decide +kernel, by decide +kernel⟩
  have hp2 : Plain "'/a".toList := ⟨by decide +kernel, by decide +kernel⟩
  have hp3 : Plain "'".toList := ⟨by decide +kernel, by decide +kernel⟩
  have hb : ∀ (d : List (List Cell)) (r : List Cell) (c : Option (Cell × Text)) (k : Bool),
      Page.feed ⟨d, r, c, none, k⟩ (tagText "b".toList) = ⟨d, r, c, none, k⟩ := by
    intro d r c k
    rw [feed_tag _ _ _ _ _ (by decide), show kind "b".toList = .other from by decide +kernel]; rfl
  rw [lit_open, lit_mid, lit_close, h1]
  simp only [feed_append, feed_tr, feed_td, feed_endTd, feed_endTr, hb, feed_plain _ _ _ _ _ _ hp1, feed_plain _ _ _ _ _ _ hp2,
    feed_plain _ _ _ _ _ _ hp3, feed_plain _ _ _ _ _ _ hd]
  rfl

/-- **C153 refuted in general.**  Values are put into the page as they are: the configurations with the cache directories `/a` and
`/a<b>`, both made by `set`, show the same table. -/
theorem C153_markup_refuted : ∃ (ca cb : Conf) (a b : List (String × V)) (t : List (List Cell)), Lists ca a ∧ Lists cb b ∧
    (∀ e ∈ a, (run py quiet (.act (.set (.pos "user-cache-directory" [.str "/a".toList] false))) fresh).2.top.conf e.1 = some e.2) ∧
    (∀ e ∈ b, (run py quiet (.act (.set (.pos "user-cache-directory" [.str "/a<b>".toList] false))) fresh).2.top.conf e.1 = some e.2) ∧
    table (htmlText py simple (fun _ => none) a) = some t ∧ table (htmlText py simple (fun _ => none) b) = some t ∧
    getConf py (fun _ => none) ca "user-cache-directory" = .ok (.str "/a".toList) ∧
    getConf py (fun _ => none) cb "user-cache-directory" = .ok (.str "/a<b>".toList) := by
  have hdef : DEFAULTS py "user-cache-directory" = some (.str "/home/u/.cache/earthkit-regrid".toList) := by decide +kernel
  refine ⟨_, _, (defaultItems py).map (put "user-cache-directory" (.str "/a".toList)),
    (defaultItems py).map (put "user-cache-directory" (.str "/a<b>".toList)),
    columns :: (sortItems (defaultItems py)).map (fun e => cells simple
      ⟨e.1, none, (put "user-cache-directory" (.str "/a".toList) e).2, (option py e.1).map OptDef.default⟩),
    lists_set _ _ (lists_defaults py) "user-cache-directory" (.str "/a".toList) _ hdef,
    lists_set _ _ (lists_defaults py) "user-cache-directory" (.str "/a<b>".toList) _ hdef, ?_, ?_, ?_, ?_, ?_, ?_⟩
  · decide +kernel
  · decide +kernel
  · unfold htmlText
    rw [table_page]
    · rw [rows_put, List.map_map]; rfl
    intro row hr
    rw [rows_put] at hr
    obtain ⟨e, he, rfl⟩ := List.mem_map.1 hr
    exact plain_row _ _ _ _ (plain_defaults e ((sort_perm _).mem_iff.1 he))
  · unfold htmlText
    rw [table_cells simple (fun row => if row.name = "user-cache-directory" then cells simple { row with value := .str "/a".toList }
      else cells simple row)]
    · rw [rows_put, List.map_map]
      congr 2
      apply List.map_congr_left
      intro e _
      simp only [Function.comp, put]
      by_cases h : e.1 = "user-cache-directory"
      · simp only [if_pos h]
      · simp only [if_neg h]
    intro row hr d
    rw [rows_put] at hr
    obtain ⟨e, he, rfl⟩ := List.mem_map.1 hr
    have hp := plain_defaults e ((sort_perm _).mem_iff.1 he)
    by_cases h : e.1 = "user-cache-directory"
    · simp only [put, if_pos h]
      have := feed_markup d ((option py e.1).map OptDef.default) hp.2.2
      rw [h] at this ⊢
      exact this
    · simp only [put, if_neg h] at hp ⊢
      exact feed_row _ _ (plain_row _ _ _ _ hp) d
  · decide +kernel
  · decide +kernel

/-! ### the hypotheses can be met -/

theorem rows_all (P : Py) (env : Env) (items : List (String × V)) (hn : (items.map Prod.fst).Nodup) (q : Row → Prop)
    (h : ∀ e ∈ items, q ⟨e.1, (env (envName e.1)).map (fun t => (envName e.1, t)), e.2, (option P e.1).map OptDef.default⟩) :
    ∀ row ∈ rows P env items, q row := by
  intro row hr
  obtain ⟨e, he, rfl⟩ := List.mem_map.1 hr
  have hm := (sort_perm items).mem_iff.1 he
  simp only [row_var env items hn e.1 e.2 hm]
  exact h e hm

/-- The texts of a row. -/
def texts (R : Repr) (row : Row) : List Text :=
  [row.name.toList, R.value row.value, defaultText R row.default] ++ (match row.var with | some (n, t) => [n, R.text t] | none => [])

theorem rowPlain_of (R : Repr) (row : Row) (h : ∀ t ∈ texts R row, '<' ∉ t ∧ '&' ∉ t) : RowPlain R row := by
  obtain ⟨k, v, x, d⟩ := row
  refine ⟨h _ (by simp [texts]), h _ (by simp [texts]), h _ (by simp [texts]), ?_⟩
  rintro n t rfl
  exact ⟨h _ (by simp [texts]), h _ (by simp [texts])⟩

theorem rowClean_of (P : Py) (row : Row) (h : ':' ∉ row.name.toList ∧
    (∀ t ∈ [row.name.toList, P.strOf row.value, strDefault P row.default] ++ (match row.var with | some (n, t) => [n, t] | none => []),
      ',' ∉ t ∧ '\n' ∉ t) ∧ '=' ∉ (match row.var with | some (n, _) => n | none => [])) : RowClean P row := by
  obtain ⟨k, v, x, d⟩ := row
  obtain ⟨h1, h2, h3⟩ := h
  refine ⟨⟨h1, h2 _ (by simp)⟩, h2 _ (by simp), h2 _ (by simp), ?_⟩
  rintro n t rfl
  exact ⟨⟨h3, h2 _ (by simp)⟩, h2 _ (by simp)⟩

/-- The environment that turns the cache off. -/
def off : Env := oneVar (envName "cache-policy") "off".toList

theorem nodup_defaults : ((defaultItems py).map Prod.fst).Nodup := (lists_defaults py).1

theorem plain_off : ∀ row ∈ rows py off (defaultItems py), RowPlain simple row :=
  rows_all py off _ nodup_defaults _ (fun e he => rowPlain_of _ _ ((by decide +kernel :
    ∀ e ∈ defaultItems py, ∀ t ∈ texts simple ⟨e.1, (off (envName e.1)).map (fun t => (envName e.1, t)), e.2, (option py e.1).map OptDef.default⟩,
      '<' ∉ t ∧ '&' ∉ t) e he))

/-- `C153_html_partial`: the row of an option whose variable is set, and that of one whose is not. -/
example : ∃ body, table (htmlText py simple off (defaultItems py)) = some (columns :: body) ∧
    [["cache-policy".toList], ["EARTHKIT_REGRID_CACHE_POLICY='off'".toList, "('user')".toList], ["'user'".toList]] ∈ body ∧
    [["temporary-directory-root".toList], ["None".toList], ["None".toList]] ∈ body := by
  obtain ⟨body, h1, _, _⟩ := C153_html_partial py quiet (.act (.reset none)) "/cfg" "/old" off (fun _ => none) _ rfl
    (defaultItems py) (lists_defaults py) simple plain_off
  have h1 : table (htmlText py simple off (defaultItems py)) = some (columns :: body) := h1
  refine ⟨body, h1, ?_, ?_⟩
  · rw [htmlText, table_page _ _ plain_off] at h1
    obtain ⟨-, h⟩ := List.cons.inj (Option.some.inj h1)
    rw [← h]
    exact List.mem_map.2 ⟨_, row_of py off _ nodup_defaults "cache-policy" (.str "user".toList) (by decide +kernel), by decide +kernel⟩
  · rw [htmlText, table_page _ _ plain_off] at h1
    obtain ⟨-, h⟩ := List.cons.inj (Option.some.inj h1)
    rw [← h]
    exact List.mem_map.2 ⟨_, row_of py off _ nodup_defaults "temporary-directory-root" .none (by decide +kernel), by decide +kernel⟩

/-- `C153_values_partial`: the page of the defaults, with the variable set, tells the options in force. -/
example (eb : Env) (cb : Conf) (b : List (String × V)) (hb : Lists cb b) (hpb : ∀ row ∈ rows py eb b, RowPlain simple row)
    (hv : ∀ x ∈ defaultItems py, ∀ y ∈ b, simple.value x.2 = simple.value y.2 → x.2 = y.2)
    (h : htmlText py simple off (defaultItems py) = htmlText py simple eb b) :
    getConf py eb cb "cache-policy" = .ok (.str "off".toList) := by
  rw [← (C153_values_partial py simple off eb (DEFAULTS py) cb _ b (lists_defaults py) hb plain_off hpb hv
    (fun x y e => List.append_cancel_right (List.cons.inj e).2) h "cache-policy").1 (.str "user".toList) (by decide +kernel)]
  decide +kernel

/-- `C153_values_partial`: its hypotheses are met by a directory that is not set and one named `None`, whose printed texts are the same. -/
example : htmlText py simple (fun _ => none) (defaultItems py) ≠
    htmlText py simple (fun _ => none) ((defaultItems py).map (put "temporary-directory-root" (.str "None".toList))) := by
  intro h
  have hb := lists_set _ _ (lists_defaults py) "temporary-directory-root" (.str "None".toList) .none (by decide +kernel)
  have := (C153_values_partial py simple (fun _ => none) (fun _ => none) _ _ _ _ (lists_defaults py) hb
    (rows_all py _ _ nodup_defaults _ (fun e he => rowPlain_of _ _ ((by decide +kernel :
      ∀ e ∈ defaultItems py, ∀ t ∈ texts simple ⟨e.1, none, e.2, (option py e.1).map OptDef.default⟩, '<' ∉ t ∧ '&' ∉ t) e he)))
    (rows_all py _ _ hb.1 _ (fun e he => rowPlain_of _ _ ((by decide +kernel :
      ∀ e ∈ (defaultItems py).map (put "temporary-directory-root" (.str "None".toList)),
        ∀ t ∈ texts simple ⟨e.1, none, e.2, (option py e.1).map OptDef.default⟩, '<' ∉ t ∧ '&' ∉ t) e he)))
    (by decide +kernel) (fun x y e => List.append_cancel_right (List.cons.inj e).2) h "temporary-directory-root").2
  exact absurd this (by decide +kernel)

/-- `C153_print_partial` -/
example (eb : Env) (b : List (String × V)) (hb : ∀ row ∈ rows py eb b, RowClean py row)
    (h : reprText py off (defaultItems py) = reprText py eb b) :
    ("cache-policy", some ("EARTHKIT_REGRID_CACHE_POLICY".toList, "off".toList), "user".toList) ∈
      (rows py eb b).map (fun row => (row.name, row.var, py.strOf row.value)) := by
  rw [← C153_print_partial py off eb (defaultItems py) b
    (rows_all py off _ nodup_defaults _ (fun e he => rowClean_of _ _ ((by decide +kernel : ∀ e ∈ defaultItems py, ':' ∉ e.1.toList ∧
      (∀ t ∈ [e.1.toList, py.strOf e.2, strDefault py ((option py e.1).map OptDef.default)] ++
        (match (off (envName e.1)).map (fun t => (envName e.1, t)) with | some (n, t) => [n, t] | none => []), ',' ∉ t ∧ '\n' ∉ t) ∧
      '=' ∉ (match (off (envName e.1)).map (fun t => (envName e.1, t)) with | some (n, _) => n | none => [])) e he))) hb h]
  exact List.mem_map.2 ⟨_, row_of py off _ nodup_defaults "cache-policy" (.str "user".toList) (by decide +kernel), by decide +kernel⟩

end Verif.Config.Html

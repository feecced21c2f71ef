import Verif.Config.Show

/-!
# The html display of the configuration — src/earthkit/regrid/utils/config.py:472-494, utils/html.py:13-16

`%r` of python is a parameter: `repr` of values and `quoted` of texts. The texts put into the page are those of the code. What a
browser makes of the page is the specification side: a machine that reads the page character by character (`Page.feed`).
-/

namespace Verif.Config.Html
open Verif.Config Verif.Config.Show

abbrev Text := List Char

/-- `%r`: of a value, and of a text of the environment. -/
structure Repr where
  value : V → Text
  text : Text → Text

/-- `css("table")` — html.py:13-16; the file is src/earthkit/regrid/conf/css/table.css -/
def css : Text :=
  "<style type=\"text/css\">".toList ++
  "table.ek td {\n    vertical-align: top;\n    text-align: left !important;\n}\n\ntable.ek th {\n    vertical-align: top;\n    text-align: left !important;\n}".toList ++
  "</style>".toList

/-- `"</th><th>".join(columns)` in its row — config.py:477-478 -/
def header : Text :=
  "<tr><th>".toList ++ "</th><th>".toList.intercalate ["Name".toList, "Value".toList, "Default".toList] ++ "</th></tr>".toList

/-- `default = config.default if config else ""` under `%r` — config.py:482, 485, 489 -/
def defaultText (R : Repr) : Option V → Text
  | some d => R.value d
  | none => R.text []

/-- One row — config.py:483-489 -/
def rowText (R : Repr) (r : Row) : Text :=
  match r.var with
  | some (n, t) =>
    "<tr><td>".toList ++ r.name.toList ++ "</td><td>".toList ++ n ++ "=".toList ++ R.text t ++ "<br>(".toList ++ R.value r.value ++
      ")</td><td>".toList ++ defaultText R r.default ++ "</td></tr>".toList
  | none =>
    "<tr><td>".toList ++ r.name.toList ++ "</td><td>".toList ++ R.value r.value ++
      "</td><td>".toList ++ defaultText R r.default ++ "</td></tr>".toList

/-- The page made of rows — config.py:473-475, 491-492 -/
def page (R : Repr) (rs : List Row) : Text :=
  css ++ "<table class='ek'>".toList ++ header ++ (rs.map (rowText R)).flatten ++ "</table>".toList

/-- `_repr_html_` — config.py:472-492 -/
def htmlText (P : Py) (R : Repr) (env : Env) (items : List (String × V)) : Text :=
  page R (rows P env items)

/-! ### reading a page (specification) -/

/-- A cell is its lines. -/
abbrev Cell := List Text

/-- The tags that matter to the content of a table. -/
inductive Tag where
  | tr
  | td
  | endTd
  | endTr
  | br
  | other
  deriving DecidableEq

/-- Which tag it is, by what stands between `<` and `>`. -/
def kind (t : Text) : Tag :=
  if t = ['t', 'r'] then .tr
  else if t = ['t', 'd'] ∨ t = ['t', 'h'] then .td
  else if t = ['/', 't', 'd'] ∨ t = ['/', 't', 'h'] then .endTd
  else if t = ['/', 't', 'r'] then .endTr
  else if t = ['b', 'r'] then .br
  else .other

/-- A page being read. -/
structure Page where
  /-- finished rows -/
  done : List (List Cell)
  /-- finished cells of the row -/
  row : List Cell
  /-- the open cell: its finished lines and its last line -/
  cell : Option (Cell × Text)
  /-- within `<…`: what was read of it -/
  tag : Option Text
  /-- no `&` was met within a cell: character references are not described -/
  clear : Bool
  deriving DecidableEq

def Page.apply (s : Page) : Tag → Page
  | .tr => { s with row := [] }
  | .td => { s with cell := some ([], []) }
  | .endTd => match s.cell with
    | some (ls, l) => { s with row := s.row ++ [ls ++ [l]], cell := none }
    | none => s
  | .endTr => { s with done := s.done ++ [s.row], row := [] }
  | .br => { s with cell := s.cell.map (fun c => (c.1 ++ [c.2], [])) }
  | .other => s

def Page.step (s : Page) (c : Char) : Page :=
  match s.tag with
  | some t => if c = '>' then { s with tag := none }.apply (kind t) else { s with tag := some (t ++ [c]) }
  | none =>
    if c = '<' then { s with tag := some [] }
    else match s.cell with
      | some (ls, l) => if c = '&' then { s with clear := false } else { s with cell := some (ls, l ++ [c]) }
      | none => s

def Page.feed (s : Page) (t : Text) : Page := t.foldl Page.step s

/-- The table a page shows. -/
def table (t : Text) : Option (List (List Cell)) :=
  let s := Page.feed ⟨[], [], none, none, true⟩ t
  if s.clear then some s.done else none

/-- Text that is not markup. -/
def Plain (t : Text) : Prop := '<' ∉ t ∧ '&' ∉ t

/-! ### lemmas -/

theorem feed_append (s : Page) (a b : Text) : s.feed (a ++ b) = (s.feed a).feed b := List.foldl_append

theorem feed_plain (d : List (List Cell)) (r : List Cell) (ls : Cell) (l : Text) (k : Bool) (t : Text) (h : Plain t) :
    Page.feed ⟨d, r, some (ls, l), none, k⟩ t = ⟨d, r, some (ls, l ++ t), none, k⟩ := by
  induction t generalizing l with
  | nil => simp [Page.feed]
  | cons c t ih =>
    obtain ⟨h1, h2⟩ := h
    rw [List.mem_cons, not_or] at h1 h2
    have hstep : Page.step ⟨d, r, some (ls, l), none, k⟩ c = ⟨d, r, some (ls, l ++ [c]), none, k⟩ := by
      show (if c = '<' then _ else if c = '&' then _ else _) = _
      rw [if_neg (fun e => h1.1 e.symm), if_neg (fun e => h2.1 e.symm)]
    show Page.feed (Page.step _ c) t = _
    rw [hstep, ih _ ⟨h1.2, h2.2⟩, List.append_assoc]; rfl

/-- Outside of cells text is not part of the table. -/
theorem feed_outside (d : List (List Cell)) (r : List Cell) (k : Bool) (t : Text) (h : '<' ∉ t) :
    Page.feed ⟨d, r, none, none, k⟩ t = ⟨d, r, none, none, k⟩ := by
  induction t with
  | nil => rfl
  | cons c t ih =>
    rw [List.mem_cons, not_or] at h
    have hstep : Page.step ⟨d, r, none, none, k⟩ c = ⟨d, r, none, none, k⟩ := by
      show (if c = '<' then _ else _) = _
      rw [if_neg (fun e => h.1 e.symm)]
    show Page.feed (Page.step _ c) t = _
    rw [hstep, ih h.2]

theorem feed_in_tag (d : List (List Cell)) (r : List Cell) (c : Option (Cell × Text)) (k : Bool) (a t : Text) (h : '>' ∉ t) :
    Page.feed ⟨d, r, c, some a, k⟩ t = ⟨d, r, c, some (a ++ t), k⟩ := by
  induction t generalizing a with
  | nil => simp [Page.feed]
  | cons x t ih =>
    rw [List.mem_cons, not_or] at h
    have hstep : Page.step ⟨d, r, c, some a, k⟩ x = ⟨d, r, c, some (a ++ [x]), k⟩ := by
      show (if x = '>' then _ else _) = _
      rw [if_neg (fun e => h.1 e.symm)]
    show Page.feed (Page.step _ x) t = _
    rw [hstep, ih _ h.2, List.append_assoc]; rfl

/-- A tag as text. -/
def tagText (t : Text) : Text := '<' :: (t ++ ['>'])

theorem feed_tag (d : List (List Cell)) (r : List Cell) (c : Option (Cell × Text)) (k : Bool) (t : Text) (h : '>' ∉ t) :
    Page.feed ⟨d, r, c, none, k⟩ (tagText t) = Page.apply ⟨d, r, c, none, k⟩ (kind t) := by
  show Page.feed (Page.step ⟨d, r, c, none, k⟩ '<') (t ++ ['>']) = _
  rw [feed_append]
  show Page.feed (Page.feed ⟨d, r, c, some [], k⟩ t) ['>'] = _
  rw [feed_in_tag _ _ _ _ _ _ h]
  rfl

theorem feed_tr (d : List (List Cell)) (r : List Cell) (c : Option (Cell × Text)) (k : Bool) :
    Page.feed ⟨d, r, c, none, k⟩ (tagText "tr".toList) = ⟨d, [], c, none, k⟩ := by
  rw [feed_tag _ _ _ _ _ (by decide), show kind "tr".toList = .tr from by decide +kernel]; rfl

theorem feed_td (d : List (List Cell)) (r : List Cell) (c : Option (Cell × Text)) (k : Bool) :
    Page.feed ⟨d, r, c, none, k⟩ (tagText "td".toList) = ⟨d, r, some ([], []), none, k⟩ := by
  rw [feed_tag _ _ _ _ _ (by decide), show kind "td".toList = .td from by decide +kernel]; rfl

theorem feed_endTd (d : List (List Cell)) (r : List Cell) (ls : Cell) (l : Text) (k : Bool) :
    Page.feed ⟨d, r, some (ls, l), none, k⟩ (tagText "/td".toList) = ⟨d, r ++ [ls ++ [l]], none, none, k⟩ := by
  rw [feed_tag _ _ _ _ _ (by decide), show kind "/td".toList = .endTd from by decide +kernel]; rfl

theorem feed_br (d : List (List Cell)) (r : List Cell) (ls : Cell) (l : Text) (k : Bool) :
    Page.feed ⟨d, r, some (ls, l), none, k⟩ (tagText "br".toList) = ⟨d, r, some (ls ++ [l], []), none, k⟩ := by
  rw [feed_tag _ _ _ _ _ (by decide), show kind "br".toList = .br from by decide +kernel]; rfl

theorem feed_endTr (d : List (List Cell)) (r : List Cell) (k : Bool) :
    Page.feed ⟨d, r, none, none, k⟩ (tagText "/tr".toList) = ⟨d ++ [r], [], none, none, k⟩ := by
  rw [feed_tag _ _ _ _ _ (by decide), show kind "/tr".toList = .endTr from by decide +kernel]; rfl

end Verif.Config.Html

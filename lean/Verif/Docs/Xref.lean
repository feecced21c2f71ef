/-!
# Cross references of the documentation

`xref` — src/earthkit/regrid/sphinxext/xref.py:16-38, with the table `xref_links` of docs/conf.py:72-90 and the expression
`caption_ref_re` of sphinx (sphinx/util/nodes.py: `^(.+?)\s*(?<!\x00)<([^<]*?)>$`, DOTALL), for texts without NUL that do not end with a
line break. `setup` and `get_refs` (xref.py:41-48) hand the table over.
-/

namespace Verif.Docs.Xref

abbrev Text := List Char

/-- `xref_links`: a dict from targets to a title and an address. -/
abbrev Links := List (Text × Text × Text)

def find (l : Links) (t : Text) : Option (Text × Text) := (l.find? (fun e => e.1 == t)).map (·.2)

/-- `str.isspace`, as `\s` -/
def isSpace (c : Char) : Bool := c == ' ' || c == '\t' || c == '\n' || c == '\r' || c == Char.ofNat 11 || c == Char.ofNat 12

/-- `(.+?)\s*` on a text that is not empty: the first character, and the rest up to its trailing white space. -/
def lazyTitle : Text → Text
  | [] => []
  | c :: r => c :: (r.reverse.dropWhile isSpace).reverse

/-- The text before the last `<`, and after it. -/
def lastBrace (t : Text) : Text × Text :=
  (((t.reverse.dropWhile (· != '<')).drop 1).reverse, (t.reverse.takeWhile (· != '<')).reverse)

/-- `caption_ref_re.match(text)` for a text with a `<`: title and target. -/
def captionRef (t : Text) : Option (Text × Text) :=
  let (a, b) := lastBrace t
  if a ≠ [] ∧ b.getLast? = some '>' then some (lazyTitle a, b.dropLast) else none

/-- What a role gives: the node it makes has this title and this address. -/
inductive Out where
  | node (title uri : Text)
  | keyError (target : Text)
deriving DecidableEq

/-- `xref` — xref.py:16-38 -/
def xref (links : Links) (text : Text) : Out :=
  if '<' ∈ text then
    let (title, target) := match captionRef text with
      | some (title, target) => (title, target)
      -- everything after the first '<' is the target
      | none => (text.takeWhile (· != '<'), (text.dropWhile (· != '<')).drop 1)
    match find links target with
    | some (_, uri) => .node title uri
    | none => .keyError target
  else
    match find links text with
    | some (title, uri) => .node title uri
    | none => .keyError text

/-- docs/conf.py:72-90 -/
def docsLinks : Links := [
  ("earthkit".toList, "earthkit".toList, "https://earthkit.readthedocs.io/en/latest/".toList),
  ("earthkit-data".toList, "earthkit-data".toList, "https://earthkit-data.readthedocs.io/en/latest/".toList),
  ("earthkit-plots".toList, "earthkit-plots".toList, "https://earthkit-plots.readthedocs.io/en/latest/".toList),
  ("fieldlist".toList, "fieldlist".toList, "https://earthkit-data.readthedocs.io/en/latest/guide/data_format/grib.html".toList),
  ("field".toList, "field".toList, "https://earthkit-data.readthedocs.io/en/latest/guide/data_format/grib.html".toList)]

/-- The texts of the `:xref:` roles in docs/ (60 uses). -/
def used : List Text := ["earthkit-data".toList, "earthkit-plots".toList, "earthkit".toList, "field".toList, "fieldlist".toList]

end Verif.Docs.Xref

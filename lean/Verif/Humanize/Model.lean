import Mathlib.Data.Rat.Floor
import Mathlib.Algebra.Order.Floor.Ring

/-!
# Model of src/earthkit/regrid/utils/humanize.py

Text is `List Char`. Floats are exact rationals; the only float arithmetic here is in `bytes`, where python divides by
powers of two and rounds to tenths.
-/

namespace Verif.Humanize

/-! ### `as_number` and friends -/

/-- The unicode character classes used by the regular expression `\s`, `\d`, `[%\w]` and by `int`.
The laws hold of the python tables: white space is neither word character nor `%`, a decimal digit is a word
character, `\n` is white space, a blank is white space, the ascii letters are word
characters and not digits, the ascii digits are digits. -/
structure CharClass where
  isSpace : Char → Bool
  isDigit : Char → Bool
  isWord : Char → Bool
  digitVal : Char → Nat
  space_not_word : ∀ c, isSpace c = true → isWord c = false
  percent_not_space : isSpace '%' = false
  digit_word : ∀ c, isDigit c = true → isWord c = true
  nl_space : isSpace '\n' = true
  space_space : isSpace ' ' = true
  ascii_letter : ∀ n < 26, isWord (Char.ofNat (65 + n)) = true ∧ isDigit (Char.ofNat (65 + n)) = false ∧
    isWord (Char.ofNat (97 + n)) = true ∧ isDigit (Char.ofNat (97 + n)) = false
  ascii_digit : ∀ n < 10, isDigit (Char.ofNat (48 + n)) = true ∧ digitVal (Char.ofNat (48 + n)) = n

/-- Greedy `p*` followed by the continuation `k`, with backtracking, as python's `re` explores it. -/
def star {α : Type} (p : Char → Bool) (k : List Char → List Char → Option α) (acc : List Char) :
    List Char → Option α
  | [] => k acc []
  | c :: cs => if p c then (star p k (acc ++ [c]) cs) <|> k acc (c :: cs) else k acc (c :: cs)

/-- Greedy `p+`. -/
def plus {α : Type} (p : Char → Bool) (k : List Char → List Char → Option α) : List Char → Option α
  | [] => none
  | c :: cs => if p c then star p k [c] cs else none

/-- `$` without MULTILINE: at the end or before a final newline. -/
def atEnd (s : List Char) : Bool := s == [] || s == ['\n']

/-- `[%\w]` -/
def CharClass.isUnit (C : CharClass) (c : Char) : Bool := c == '%' || C.isWord c

/-- The part `\s*$`. -/
def matchTail {α : Type} (C : CharClass) (r : α) (s : List Char) : Option α :=
  star C.isSpace (fun _ s' => if atEnd s' then some r else none) [] s

/-- The part `([%\w]+)?\s*$`. -/
def matchUnit (C : CharClass) (s : List Char) : Option (Option (List Char)) :=
  (plus C.isUnit (fun u s' => matchTail C (some u) s') s) <|> matchTail C none s

/-- `re.search(r"^\s*(\d+)\s*([%\w]+)?\s*$", value)` — humanize.py:80. Result: groups 1 and 2. -/
def matchNumber (C : CharClass) (value : List Char) : Option (List Char × Option (List Char)) :=
  star C.isSpace (fun _ s1 =>
    plus C.isDigit (fun ds s2 =>
      star C.isSpace (fun _ s3 => (matchUnit C s3).map (fun u => (ds, u))) [] s2) s1) [] value

/-- `int(text)` of decimal digits. -/
def intOf (C : CharClass) (ds : List Char) : Nat := ds.foldl (fun n c => 10 * n + C.digitVal c) 0

inductive NumErr where
  /-- `invalid number/unit` -/
  | invalid
  /-- `invalid unit` -/
  | unit
  deriving DecidableEq, Repr

/-- `dict` lookup. -/
def lookupUnit (units : List (Char × Nat)) (c : Char) : Option Nat :=
  (units.find? (fun p => p.1 == c)).map Prod.snd

/-- `as_number` — humanize.py:74-90. `value = none` is python's `None`; otherwise it is `str(value)`.
With `None` and `none_ok` false the text is `"None"`. -/
def asNumber (C : CharClass) (units : List (Char × Nat)) (noneOk : Bool) (value : Option (List Char)) :
    Except NumErr (Option Nat) :=
  if value.isNone && noneOk then .ok none
  else
    let text := value.getD "None".toList
    match matchNumber C text with
    | none => .error .invalid
    | some (ds, none) => .ok (some (intOf C ds))
    | some (ds, some u) =>
      match u with
      | [] => .error .invalid  -- not reached: group 2 is `[%\w]+`
      | c :: _ =>
        match lookupUnit units c with
        | none => .error .unit
        | some f => .ok (some (intOf C ds * f))

/-- humanize.py:94 -/
def secondUnits : List (Char × Nat) := [('s', 1), ('m', 60), ('h', 3600), ('d', 86400), ('w', 86400 * 7)]
/-- humanize.py:99 -/
def percentUnits : List (Char × Nat) := [('%', 1)]

/-- The loop of humanize.py:104-109. -/
def byteUnitsFrom : List Char → Nat → List (Char × Nat)
  | [], _ => []
  | u :: us, n => (u, n * 1024) :: (u.toLower, n * 1024) :: byteUnitsFrom us (n * 1024)
def byteUnits : List (Char × Nat) := byteUnitsFrom ['K', 'M', 'G', 'T', 'P'] 1

/-- `as_seconds` — humanize.py:93-95 -/
def asSeconds (C : CharClass) := asNumber C secondUnits
/-- `as_percent` — humanize.py:98-100 -/
def asPercent (C : CharClass) := asNumber C percentUnits
/-- `as_bytes` — humanize.py:103-111 -/
def asBytes (C : CharClass) := asNumber C byteUnits

/-! ### `bytes` -/

/-- Decimal text of a natural number (`str(n)`). -/
def natText (n : Nat) : List Char :=
  if n < 10 then [Char.ofNat (48 + n)] else natText (n / 10) ++ [Char.ofNat (48 + n % 10)]

/-- `int(x)` of a float: truncation toward zero. -/
def pyTrunc (x : ℚ) : Int := if 0 ≤ x then ⌊x⌋ else ⌈x⌉

/-- The loop `while n >= 1024: n /= 1024.0; i += 1` — humanize.py:27-29. The fuel is the number of divisions
allowed; `n` itself is always enough (proved). -/
def scale : Nat → ℚ → Nat → ℚ × Nat
  | 0, n, i => (n, i)
  | fuel + 1, n, i => if 1024 ≤ n then scale fuel (n / 1024) (i + 1) else (n, i)

/-- `"%g" % (k / 10.0)`: at most six significant digits without trailing zeros. For fewer than six
digits before the rounding point the result is exact; `other` stands for the remaining cases. -/
def fmtG (other : Int → List Char) (k : Int) : List Char :=
  if k.natAbs < 1000000 then
    (if k < 0 then ['-'] else []) ++ natText (k.natAbs / 10) ++
      (if k.natAbs % 10 = 0 then [] else '.' :: natText (k.natAbs % 10))
  else other k

/-- humanize.py:25 -/
def sizeUnits : List (List Char) :=
  ["".toList, " KiB".toList, " MiB".toList, " GiB".toList, " TiB".toList, " PiB".toList, " EiB".toList,
    " ZiB".toList, " YiB".toList]

/-- `bytes` — humanize.py:13-30. `none`: IndexError. Note `n -= 0`: a negative number stays negative. -/
def bytes (other : Int → List Char) (n : Int) : Option (List Char) :=
  let sign := if n < 0 then ['-'] else []
  let r := scale n.natAbs (n : ℚ) 0
  match sizeUnits[r.2]? with
  | none => none
  | some u => some (sign ++ fmtG other (pyTrunc (r.1 * 10 + 1 / 2)) ++ u)

/-! ### `string_distance` and `did_you_mean` -/

/-- Assignment `d[i, j] = v`. -/
def setD (d : Nat → Nat → Nat) (i j v : Nat) : Nat → Nat → Nat :=
  fun a b => if a = i ∧ b = j then v else d a b

/-- One execution of the loop body — humanize.py:47-53. Indices into the texts are in range. -/
def body {α : Type} [DecidableEq α] (s t : List α) (i j : Nat) (d : Nat → Nat → Nat) : Nat → Nat → Nat :=
  let cost := if s[i - 1]? = t[j - 1]? then 0 else 1
  setD d i j (min (d (i - 1) j + 1) (min (d i (j - 1) + 1) (d (i - 1) (j - 1) + cost)))

/-- `for j in range(1, n+1)`, the first `n` passes. -/
def innerLoop {α : Type} [DecidableEq α] (s t : List α) (i : Nat) : Nat → (Nat → Nat → Nat) → (Nat → Nat → Nat)
  | 0, d => d
  | n + 1, d => body s t i (n + 1) (innerLoop s t i n d)

/-- `for i in range(1, m+1)`, the first `m` passes. -/
def outerLoop {α : Type} [DecidableEq α] (s t : List α) : Nat → (Nat → Nat → Nat) → (Nat → Nat → Nat)
  | 0, d => d
  | m + 1, d => innerLoop s t (m + 1) t.length (outerLoop s t m d)

/-- `d = zeros; d[:, 0] = arange(m+1); d[0, :] = arange(n+1)` — humanize.py:38-44. -/
def initD : Nat → Nat → Nat := fun i j => if i = 0 then j else if j = 0 then i else 0

/-- `string_distance` — humanize.py:33-55. -/
def stringDistance {α : Type} [DecidableEq α] (s t : List α) : Nat :=
  outerLoop s t s.length initD s.length t.length

/-- Tuple comparison `(d, w) < (d', w')`. -/
def pairLt (lt : List Char → List Char → Bool) (a b : Nat × List Char) : Bool :=
  a.1 < b.1 || (a.1 == b.1 && lt a.2 b.2)

/-- `min` of a sequence: the running minimum is replaced by a strictly smaller element. -/
def pyMin (lt : List Char → List Char → Bool) (b : Nat × List Char) : List (Nat × List Char) → Nat × List Char
  | [] => b
  | x :: xs => if pairLt lt x b then pyMin lt x xs else pyMin lt b xs

/-- `did_you_mean` — humanize.py:58-61. `lt` is the comparison of texts. `none`: `min()` of nothing raises. -/
def didYouMean (lt : List Char → List Char → Bool) (word : List Char) (vocabulary : List (List Char)) :
    Option (List Char) :=
  match vocabulary.map (fun w => (stringDistance word w, w)) with
  | [] => none
  | x :: xs => some (pyMin lt x xs).2

/-! ### `list_to_human` -/

/-- `sep.join(lst)` -/
def join (sep : List Char) : List (List Char) → List Char
  | [] => []
  | [a] => a
  | a :: b :: rest => a ++ sep ++ join sep (b :: rest)

/-- `list_to_human` — humanize.py:64-71. -/
def listToHuman (conjunction : List Char) (lst : List (List Char)) : List Char :=
  if lst = [] then "??".toList
  else
    let lst' := if lst.length > 2 then [join ", ".toList lst.dropLast, lst.getLastD []] else lst
    join (' ' :: (conjunction ++ [' '])) lst'

end Verif.Humanize

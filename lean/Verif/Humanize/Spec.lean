import Verif.Humanize.Model

/-! Specification vocabulary for humanize.py; nothing here mentions the matcher, the loops or the table. -/

namespace Verif.Humanize

/-- All characters of `s` are in the class. -/
def All (p : Char → Bool) (s : List Char) : Prop := ∀ c ∈ s, p c = true

/-- The grammar: spaces, digits, spaces, unit word, spaces; the digits are as many as possible. -/
structure Parsed (C : CharClass) (text ds u : List Char) : Prop where
  split : ∃ a b c, text = a ++ ds ++ b ++ u ++ c ∧ All C.isSpace a ∧ All C.isSpace b ∧ All C.isSpace c ∧
    (b = [] → ∀ x r, u = x :: r → C.isDigit x = false)
  digits : All C.isDigit ds
  nonempty : ds ≠ []
  unit : All (fun c => c == '%' || C.isWord c) u

/-- Positional value. -/
def decVal (C : CharClass) : List Char → Nat
  | [] => 0
  | c :: cs => C.digitVal c * 10 ^ cs.length + decVal C cs

/-- Documented factors. -/
def byteFactor (c : Char) : Option Nat :=
  if c = 'K' ∨ c = 'k' then some 1024
  else if c = 'M' ∨ c = 'm' then some (1024 ^ 2)
  else if c = 'G' ∨ c = 'g' then some (1024 ^ 3)
  else if c = 'T' ∨ c = 't' then some (1024 ^ 4)
  else if c = 'P' ∨ c = 'p' then some (1024 ^ 5)
  else none

def secondFactor (c : Char) : Option Nat :=
  if c = 's' then some 1 else if c = 'm' then some 60 else if c = 'h' then some (60 * 60)
  else if c = 'd' then some (24 * 60 * 60) else if c = 'w' then some (7 * 24 * 60 * 60) else none

def percentFactor (c : Char) : Option Nat := if c = '%' then some 1 else none

/-- The value denoted by a text, if any. -/
def Denotes (C : CharClass) (factor : Char → Option Nat) (text : List Char) (v : Nat) : Prop :=
  ∃ ds u, Parsed C text ds u ∧
    ((u = [] ∧ v = decVal C ds) ∨ ∃ c r f, u = c :: r ∧ factor c = some f ∧ v = decVal C ds * f)

/-- One edit of a text. -/
inductive Edit {α : Type} : List α → List α → Prop
  | insert (a b : List α) (c : α) : Edit (a ++ b) (a ++ c :: b)
  | delete (a b : List α) (c : α) : Edit (a ++ c :: b) (a ++ b)
  | subst (a b : List α) (c d : α) : Edit (a ++ c :: b) (a ++ d :: b)

/-- `n` edits, one after the other. -/
inductive Edits {α : Type} : Nat → List α → List α → Prop
  | refl (s : List α) : Edits 0 s s
  | step {n : Nat} {s t u : List α} : Edit s t → Edits n t u → Edits (n + 1) s u

/-- A number of tenths as text. -/
def tenthsText (k : Nat) : List Char :=
  if k % 10 = 0 then natText (k / 10) else natText (k / 10) ++ '.' :: natText (k % 10)

/-- English enumeration: `a`, `a and b`, `a, b and c`, ... -/
def enumeration (conj : List Char) : List (List Char) → List Char
  | [] => "??".toList
  | [a] => a
  | [a, b] => a ++ " ".toList ++ conj ++ " ".toList ++ b
  | a :: b :: c :: rest => a ++ ", ".toList ++ enumeration conj (b :: c :: rest)

end Verif.Humanize

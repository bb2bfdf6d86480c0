import Verif.Spec.Listing
/-
Names of versions (C131).
-/
namespace Bean.Spec

/-- A name made of texts and decimal numbers without leading zeros. -/
def versionName (t : List Char) (l : List (Nat × List Char)) : List Char := t ++ l.flatMap (fun x => Nat.toDigits 10 x.1 ++ x.2)

/-- Texts between numbers, not in capital letters. -/
def LowerText (t : List Char) : Prop := ∀ c ∈ t, c.isDigit = false ∧ c.toLower = c

/-- There is a text between each two numbers. -/
def Separated : List (Nat × List Char) → Prop
  | [] => True
  | [x] => LowerText x.2
  | x :: y :: l => LowerText x.2 ∧ x.2 ≠ [] ∧ Separated (y :: l)

/-- Usual names of versions. -/
def VersionName (s : List Char) : Prop := ∃ t l, LowerText t ∧ Separated l ∧ s = versionName t l

/-- The name does not end with a digit. -/
def NoDigitAtEnd (p : List Char) : Prop := ∀ c, p.getLast? = some c → c.isDigit = false

/-- The name does not start with a digit. -/
def NoDigitAtStart (p : List Char) : Prop := ∀ c, p.head? = some c → c.isDigit = false

/-- Digits of a number, possibly with leading zeros. -/
def IsNumber (x : List Char) : Prop := x ≠ [] ∧ ∀ c ∈ x, c.isDigit = true

/-- The same text, ignoring case. -/
def SameLetters (a b : List Char) : Prop := a.map Char.toLower = b.map Char.toLower

end Bean.Spec

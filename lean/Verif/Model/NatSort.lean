import Verif.Model.CompareRun
import Verif.Model.ElfVars
/-
Order of versions and objects in the comparison of versions (tools/compare.py:86-87), given by `natsorted` of the package natsort. Names have ASCII characters only.
-/
namespace Bean
namespace NatSort

/-- One more character at the start of a name; see `splitNums`. -/
def addChar (c : Char) (k : Str × List (Str × Str)) : Str × List (Str × Str) :=
  if c.isDigit then
    if k.1 = [] then
      match k.2 with
      | [] => ([], [([c], [])])
      | x :: l => ([], (c :: x.1, x.2) :: l)
    else ([], ([c], k.1) :: k.2)
  else (c :: k.1, k.2)

/-- Texts and numbers of a name, alternately: the text before the first number, and each number with the text behind it. natsort splits names with the regular expression `\d+`;
a missing text at the start is an empty text there, too. -/
def splitNums : Str → Str × List (Str × Str)
  | [] => ([], [])
  | c :: s => addChar c (splitNums s)

/-- Value of decimal digits. -/
def decValue (d : Str) : Nat := d.foldl (fun n c => 10 * n + (c.toNat - '0'.toNat)) 0

/-- compare.py:86-87, `alg=ns.IGNORECASE`: the key of a name. A name that ends with a number has no text behind it; here it is empty, which is smaller than all other texts, too. -/
def natKey (s : Str) : Str × List (Nat × Str) :=
  ((splitNums (s.map Char.toLower)).1, (splitNums (s.map Char.toLower)).2.map (fun x => (decValue x.1, x.2)))

/-- Order of tuples in Python. -/
def partsLt : List (Nat × Str) → List (Nat × Str) → Bool
  | _, [] => false
  | [], _ :: _ => true
  | (n, t) :: l, (m, u) :: r => n < m || n == m && (t < u || t == u && partsLt l r)

/-- Order of keys. -/
def keyLt (a b : Str × List (Nat × Str)) : Bool := a.1 < b.1 || a.1 == b.1 && partsLt a.2 b.2

/-- Comparison of names by their keys. -/
def natCmp (a b : Str) : Int := if keyLt (natKey a) (natKey b) then -1 else if keyLt (natKey b) (natKey a) then 1 else 0

/-- compare.py:86-87 `natsorted`, a stable sort. The argument is a set; `dirs` are its elements in the order of iteration, which depends on hashes of the paths and is different for
each run. -/
def natSorted (dirs : List Str) : List Str := pySorted natCmp dirs

end NatSort
end Bean

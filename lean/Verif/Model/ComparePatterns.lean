import Verif.Model.Compare
/-
Patterns for the names of versions and files (tools/compare.py:33, 38, 57-63, 73-77). The patterns are regular expressions of Python; modelled are single
characters, `.`, `^`, `$`, sequences, alternatives, groups and repetitions by `*`. Flags, sets of characters, references and greedy choice (which has no influence on whether there is a match) are
not modelled. That Python reads the text of a pattern (`patText`) as this pattern is assumed.
-/
namespace Bean

/-- Regular expressions. -/
inductive Rx where
  | empty
  | char (c : Char)
  | any
  | bol
  | eol
  | seq (a b : Rx)
  | alt (a b : Rx)
  | star (a : Rx)
deriving DecidableEq, Repr

/-- Text of a character: those with a meaning get a backslash. -/
def charText (c : Char) : Str := if "\\.^$*+?{}[]|()".toList.contains c then ['\\', c] else [c]

/-- Text of an expression as part of a sequence: alternatives and what is repeated are in groups. -/
def seqText : Rx → Str
  | .empty => []
  | .char c => charText c
  | .any => ['.']
  | .bol => ['^']
  | .eol => ['$']
  | .seq a b => seqText a ++ seqText b
  | .alt a b => "(?:".toList ++ seqText a ++ ['|'] ++ seqText b ++ [')']
  | .star a => "(?:".toList ++ seqText a ++ ")*".toList

/-- Text of a pattern: its alternatives, which are not in a group. -/
def patText (p : List Rx) : Str := List.intercalate ['|'] (p.map seqText)

/-- Place in a text: is it the start, and the rest of the text. -/
abbrev RxPos := Bool × Str

/-- Repetitions from a place, at most `n` of them that take a character. -/
def starRests (f : RxPos → List RxPos) : Nat → RxPos → List RxPos
  | 0, p => [p]
  | n + 1, p => p :: ((f p).filter (fun q => q.2.length < p.2.length)).flatMap (starRests f n)

/-- Places behind the matches of an expression at a place. The end is also in front of a last line feed. -/
def rxRests : Rx → RxPos → List RxPos
  | .empty, p => [p]
  | .char c, p => match p.2 with
    | [] => []
    | x :: r => if x = c then [(false, r)] else []
  | .any, p => match p.2 with
    | [] => []
    | x :: r => if x = '\n' then [] else [(false, r)]
  | .bol, p => if p.1 then [p] else []
  | .eol, p => if p.2 = [] ∨ p.2 = ['\n'] then [p] else []
  | .seq a b, p => (rxRests a p).flatMap (rxRests b)
  | .alt a b, p => rxRests a p ++ rxRests b p
  | .star a, p => starRests (rxRests a) p.2.length p

/-- `re.search` for a pattern with these alternatives: is there a match anywhere? -/
def rxSearch (p : List Rx) (s : Str) : Bool :=
  (List.range (s.length + 1)).any (fun i => p.any (fun b => !(rxRests b (i == 0, s.drop i)).isEmpty))

/-- The last alternative is followed by `$`. -/
def closeLast : List Rx → List Rx
  | [] => []
  | [b] => [.seq b .eol]
  | b :: c :: l => b :: closeLast (c :: l)

/-- compare.py:60, 74: `r'^{}$'.format(pattern)` -/
def wrapPattern : List Rx → List Rx
  | [] => []
  | b :: l => closeLast (.seq .bol b :: l)

/-- compare.py:60, 74: the test for a pattern. -/
def patternFits (p : List Rx) (name : Str) : Bool := rxSearch (wrapPattern p) name

/-- compare.py:33, 38: options with patterns for versions and files. -/
def patternArgs (verdir lib : List (List Rx)) : CompareArgs := { verdir := verdir.map patternFits, lib := lib.map patternFits }

end Bean

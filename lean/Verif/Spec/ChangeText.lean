import Verif.Spec.Listing
import Verif.Spec.Map
import Verif.Model.Tools
/-
Reading the output of bean-diff and bean-map.
-/
namespace Bean.Spec
open Bean

/-- The text behind an escape sequence that ends with `m`. -/
def skipColor (s : List Char) : List Char := (s.dropWhile (· ≠ 'm')).drop 1

/-- A line of the listing of changes: sign and facts. -/
def readChange (s : List Char) : Option (Mark × Row) :=
  match skipColor s with
  | '-' :: l => (readRow l).map (fun r => (.removed, r.1))
  | '+' :: l => (readRow l).map (fun r => (.added, r.1))
  | ' ' :: l => (readRow l).map (fun r => (.kept, r.1))
  | _ => none

/-- The listing of changes between the header and the end of the colors. -/
def readChanges (s : List Char) : List (Option (Mark × Row)) := (readLines s).tail.dropLast.map readChange

/-- The words `sym …` or `-> …` of a line. -/
def readTagged (tag : List Char) (s : List Char) : Option (List Char) :=
  if (skipColor s).take tag.length = tag then some ((skipColor s).drop tag.length) else none

/-- Blocks with one or two lines, ended by a line without words: the line of the old symbol and that of the new one. -/
def readPairs : List (List Char) → Option (List (List Char × Option (List Char)))
  | [] => some []
  | x :: y :: l =>
    match readTagged "sym ".toList x, readTagged " -> ".toList y, l with
    | some s, some t, z :: l => if skipColor z = [] then (readPairs l).map ((s, some t) :: ·) else none
    | some s, none, l => if skipColor y = [] then (readPairs l).map ((s, none) :: ·) else none
    | _, _, _ => none
  | _ => none

/-- The paths of the files in the first two lines. -/
def readPaths : List (List Char) → Option (List Char × List Char)
  | x :: y :: _ =>
    match readTagged "file ".toList x with
    | some p => some (p, (y.drop 5).take (y.length - 9))
    | none => none
  | _ => none

/-- Text about a mapping: paths of the files, and the pairs of lines. -/
def readMapping (s : List Char) : Option ((List Char × List Char) × List (List Char × Option (List Char))) :=
  match readPaths (readLines s), readPairs ((readLines s).drop 3) with
  | some p, some l => some (p, l)
  | _, _ => none

/-- The counterpart of an old symbol according to a mapping: the symbol at or in front of the address its address is mapped to. -/
def Counterpart (m : List (Addr × Addr)) (new : List Symbol) (s : Symbol) : Option Symbol → Prop
  | some y => ∃ v, (s.address, v) ∈ m ∧ Closest new v y
  | none => ∀ v, (s.address, v) ∉ m

end Bean.Spec

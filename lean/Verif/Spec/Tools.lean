import Verif.Model.Tools
/-
Vocabulary for the example programs, without reference to the functions of `Verif.Model.Tools`.
-/
namespace Bean.Spec

/-- The arguments of a command line without the values of `-b`. -/
def options : List Str → List Str
  | [] => []
  | [a] => [a]
  | a :: v :: rest => if a = "-b".toList then a :: options rest else a :: options (v :: rest)

/-- The values of `-b`. -/
def bases : List Str → List Str
  | [] => []
  | [_] => []
  | a :: v :: rest => if a = "-b".toList then v :: bases rest else bases (v :: rest)

/-- The arguments that are neither options nor values. -/
def files (args : List Str) : List Str := (options args).filter (fun a => a.head? ≠ some '-')

/-- The option `-i` for one of the comparison modes: a dash and the given number of letters. -/
def modeOption (k : Nat) : Str := '-' :: List.replicate k 'i'

/-- All letters `i` in options starting with `-i`. -/
def modeLetters (args : List Str) : Nat :=
  (((options args).filter (fun a => a.take 2 = "-i".toList)).map (fun a => a.length - 1)).sum

/-- Number of symbols of a kind. -/
def number (p : Symbol → Bool) (l : List Symbol) : Nat := (l.filter p).length

/-- Bytes of all symbols of a kind. -/
def bytes (p : Symbol → Bool) (l : List Symbol) : Nat := ((l.filter p).map (fun s => s.size.toNat)).sum

/-- A DOT identifier without quotes: letters, digits and underscores, not starting with a digit. -/
def IsDotId (s : Str) : Prop :=
  s ≠ [] ∧ (∀ c ∈ s, (c.isAlphanum = true ∨ c = '_')) ∧ ∀ c, s.head? = some c → c.isDigit = false

/-- A cluster with its nodes. -/
def clusterBlock (g : String × List Addr) : List DotLine :=
  .open_ (some g.1) :: g.2.map .node ++ [.close]

/-- Depth of the braces after the lines. -/
def depth (l : List DotLine) : Int := l.foldl (fun d x => match x with
  | .open_ _ => d + 1
  | .close => d - 1
  | _ => d) 0

/-- Text made of lines with newline. -/
def joinLines (lines : List Str) : Str := lines.flatMap (· ++ ['\n'])

/-- Text with an empty line. -/
def HasEmptyLine (text : Str) : Prop := ∃ pre post, text = pre ++ '\n' :: post ∧ (pre = [] ∨ pre.getLast? = some '\n')

end Bean.Spec

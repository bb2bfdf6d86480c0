import Verif.Model.ListTools
/-
Vocabulary for the command lines of the programs for lists of files (C103), without reference to the functions of the model.
-/
namespace Bean.Spec
open Bean

/-- Options with a value. -/
def HasValue (t : ListTool) (a : Str) : Prop := a = ['-', 'b'] ∨ (t = .graph ∧ a = ['-', 'f'])

instance (t : ListTool) (a : Str) : Decidable (HasValue t a) := by unfold HasValue; infer_instance

/-- The arguments with their values. -/
def items (t : ListTool) : List Str → List (Str × Option Str)
  | [] => []
  | [a] => [(a, none)]
  | a :: v :: rest => if HasValue t a then (a, some v) :: items t rest else (a, none) :: items t (v :: rest)

/-- An argument that is the path of a file. -/
def IsPath (a : Str) : Prop := a.head? ≠ some '-'

instance (a : Str) : Decidable (IsPath a) := by unfold IsPath; infer_instance

/-- Letters of the options without value. -/
def switches : ListTool → List Char
  | .hash => ['s', 'k', 'r', 'R', 'a']
  | .graph => ['s', 'k', 'r', 'R', 'a', 'e', 'E', 'c']

/-- The arguments named by the usage. -/
def Known (t : ListTool) (a : Str) : Prop :=
  IsPath a ∨ HasValue t a ∨ (∃ c ∈ switches t, a = ['-', c]) ∨ ∃ n, a = '-' :: List.replicate (n + 1) 'v'

/-- An option was given. -/
def Given (l : List (Str × Option Str)) (a : Str) : Prop := a ∈ l.map Prod.fst

/-- Value of the last one of these options, absent if there is none. -/
def lastValue (a : Str) (l : List (Str × Option Str)) : Option (Option Str) := ((l.filter (fun x => x.1 = a)).map Prod.snd).getLast?

/-- Letters `v` given so far. -/
def letters (l : List (Str × Option Str)) : Nat := ((l.filter (fun x => x.1.take 2 = ['-', 'v'])).map (fun x => x.1.length - 1)).sum

/-- Paths given so far. -/
def pathCount (l : List (Str × Option Str)) : Nat := (l.filter (fun x => IsPath x.1)).length

/-- The settings are those of the arguments so far. Levels of verbosity are bytes. -/
structure Described (l : List (Str × Option Str)) (s : Settings) : Prop where
  dbgsym : s.dbgsym = true ↔ Given l ['-', 's']
  keep : s.keep = true ↔ Given l ['-', 'k']
  resolve : s.resolve = true ↔ Given l ['-', 'r']
  reconstruct : s.reconstruct = true ↔ Given l ['-', 'R']
  attributes : s.attributes = true ↔ Given l ['-', 'a']
  extern_ : s.extern_ = true ↔ Given l ['-', 'e']
  entry : s.entry = true ↔ Given l ['-', 'E']
  concentrate : s.concentrate = true ↔ Given l ['-', 'c']
  base : (lastValue ['-', 'b'] l = none ∧ s.base = none) ∨ lastValue ['-', 'b'] l = some s.base
  font : (lastValue ['-', 'f'] l = none ∧ s.font = some "Fira Mono".toList) ∨ lastValue ['-', 'f'] l = some s.font
  verbose : s.verbose.toNat = letters l % 256
  debug : s.debug = true ↔ ∃ p f q, l = p ++ f :: q ∧ IsPath f.1 ∧ 2 ≤ letters p % 256

end Bean.Spec

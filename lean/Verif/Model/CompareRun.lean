import Verif.Model.Compare
/-
Calls of the program for differences by the comparison of versions (tools/compare.py).
-/
namespace Bean

/-- Options that are passed on (compare.py:34, 37-38, 42); `internal` is the number of letters `i`. -/
structure CompareOptions where
  dbgsym : Bool := false
  dependencies : Bool := false
  relocations : Bool := false
  internal : Nat := 0
deriving DecidableEq, Repr

/-- compare.py:47-48: at most three letters. -/
def internalLevel (s : CompareOptions) : Nat := if s.internal > 3 then 3 else s.internal

/-- compare.py:222-228: options without value. -/
def diffFlags (s : CompareOptions) : List Str :=
  (if s.dependencies then [['-', 'd']] else []) ++ (if s.relocations then [['-', 'r']] else []) ++
  (if internalLevel s > 0 then ['-' :: List.replicate (internalLevel s) 'i'] else [])

/-- `str(a.joinpath(o))` for a directory and a relative path. -/
def joinPath (a o : Str) : Str := a ++ '/' :: o

/-- compare.py:236-237, 240-241: arguments for the object `o` in the directories `a` and `b`. -/
def diffCommand (s : CompareOptions) (a b o : Str) : List Str :=
  (if s.dbgsym then diffFlags s ++ [['-', 's'], ['-', 'b'], a, ['-', 'b'], b] else diffFlags s) ++ [joinPath a o, joinPath b o]

/-- compare.py:230-243: the pairs of directories whose results are shown in a table with one row, each with the column it is for. -/
def linearPairs (last : Option Str) : List Str → List (Str × Str)
  | [] => []
  | a :: rest => (match last with
    | some l => l
    | none => a, a) :: linearPairs (some a) rest

/-- compare.py:230-238: the pairs for a table with all pairs. -/
def matrixPairs (dirs : List Str) : List (Str × Str) := dirs.flatMap (fun a => dirs.map (fun b => (a, b)))

/-- compare.py:230-243: all calls for an object. -/
def diffCommands (matrix : Bool) (s : CompareOptions) (o : Str) (dirs : List Str) : List (List Str) :=
  (if matrix then matrixPairs dirs else linearPairs none dirs).map (fun p => diffCommand s p.1 p.2 o)

end Bean

import Verif.Model.DeclFile
import Verif.Spec.PyFiles
/-
Names of source files according to the DWARF standard (C120).
-/
namespace Bean
namespace Spec
open DeclFile

/-- `x` has the number `i`: numbers start with 0 since version 5, before with 1. -/
def Numbered {α : Type} (version : Nat) (l : List α) (i : Nat) (x : α) : Prop :=
  ∃ pre post, l = pre ++ x :: post ∧ i = pre.length + (if version < 5 then 1 else 0)

/-- Parts of the path of a name seen from a directory. -/
def partsFrom (dir : List Str) (name : Str) (ps : List Str) : Prop :=
  (AbsoluteName name ∧ ps = pathParts name) ∨ (¬ AbsoluteName name ∧ ps = dir ++ pathParts name)

/-- The directory with number `d`: directories are relative to the one of the compilation, which has number 0 before version 5. -/
def DirParts (p : LineProgram) (comp : Str) (d : Nat) (ps : List Str) : Prop :=
  (p.version < 5 ∧ d = 0 ∧ ps = pathParts comp) ∨ ∃ inc, Numbered p.version p.includes d inc ∧ partsFrom (pathParts comp) inc ps

/-- The path of the file with number `i`. -/
def SourceParts (p : LineProgram) (comp : Str) (i : Nat) (ps : List Str) : Prop :=
  ∃ f dir, Numbered p.version p.files i f ∧ DirParts p comp f.2 dir ∧ partsFrom dir f.1 ps

/-- Directories are absolute or start with a dot. -/
def DottedDirs (p : LineProgram) : Prop := ∀ d ∈ p.includes, AbsoluteName d ∨ ∃ rest, d = '.' :: rest

/-- Path without `..`. -/
def resolveDots (ps : List Str) : List Str := ps.foldl (fun acc q => if q = "..".toList then acc.dropLast else acc ++ [q]) []

/-- The parts as an absolute path. -/
def slashed (ps : List Str) : Str := ps.flatMap (fun q => '/' :: q)

/-- Directories of system headers. -/
def systemParts : List (List Str) := [["usr".toList, "lib".toList, "gcc".toList], ["usr".toList, "local".toList, "include".toList], ["usr".toList, "include".toList]]

/-- The path is within a directory of system headers. -/
def SystemHeader (ps : List Str) : Prop := ∃ d ∈ systemParts, ∃ x rest, ps = d ++ x :: rest

end Spec
end Bean

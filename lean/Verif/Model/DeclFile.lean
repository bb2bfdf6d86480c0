import Verif.Model.DebugSym
import Verif.Model.DwarfParse
import Verif.Model.ElfSummary
/-
Names of source files in the debug information (tools/dwarfparse.py:114-143).

Assumed about elftools: `file_entry` and `include_directory` are the lists of the line program in their order, starting with the first stored entry
in all versions of the format; they can be accessed alike in all versions.
-/
namespace Bean
namespace DeclFile

/-- Header of the line program of a unit: version, directories, and files with the number of their directory. -/
structure LineProgram where
  version : Nat
  includes : List Str
  files : List (Str × Nat)
deriving DecidableEq, Repr

/-- `posixpath.join(a, b)` -/
def posixJoin (a b : Str) : Str :=
  if b.head? = some '/' then b
  else if a = [] ∨ a.getLast? = some '/' then a ++ b
  else a ++ '/' :: b

/-- dwarfparse.py:128, 131: `value if ver5 else value - 1`; absent for a negative index. -/
def startIndex (version value : Nat) : Option Nat := if version ≥ 5 then some value else if value = 0 then none else some (value - 1)

/-- dwarfparse.py:134-139: the directory; absent for an exception (index out of range, variable without value). -/
def declDir (p : LineProgram) (comp : Option Str) (d : Nat) : Option Str :=
  match startIndex p.version d with
  | some i =>
    match p.includes[i]?, comp with
    | none, _ => none
    | some dir, none => some dir
    | some dir, some c => if dir.head? = some '.' ∧ c ≠ [] then some (posixJoin c dir) else some dir
  | none =>
    match comp with
    | some c => if c = [] then none else some c
    | none => none

/-- dwarfparse.py:122-143 `_desc_decl_file` for the value `i`, where `comp` is the directory of the compilation (114-119); absent for an exception. -/
def declFile (p : LineProgram) (comp : Option Str) (i : Nat) : Option Str :=
  match startIndex p.version i with
  | none => none
  | some k =>
    match p.files[k]? with
    | none => none
    | some f => (declDir p comp f.2).map (fun dir => posixJoin dir f.1)

end DeclFile
end Bean

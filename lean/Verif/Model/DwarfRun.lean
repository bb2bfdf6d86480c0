import Verif.Model.PyFiles
/-
Start of the program for debug information (tools/dwarfvars.py:36-66, 367-401): which file is read. Paths are texts. The list of variables, types or functions of a file is in Model/DwarfText.lean.
-/
namespace Bean
namespace DwarfRun
open PyFiles

/-- What the program finds: existing paths, directories, real paths, files with debug information, and the search for debug symbols (dbgsym.py) of a file with a root directory, absent
for an exception. -/
structure World where
  exists_ : Str → Bool
  isDir : Str → Bool
  realpath : Str → Str
  hasInfo : Str → Bool
  find : Str → Str → Option (Option Str)

/-- Outcomes: exceptions for the base directory (`NotADirectoryError`), for files (`FileNotFoundError`) or in the search; the message with exit code 1; or the file that is read. -/
inductive Outcome where
  | notDir
  | message
  | notFound (path : Str)
  | failed
  | noInfo
  | reads (path : Str)
deriving DecidableEq, Repr

/-- dwarfvars.py:369-376 `dir_path`: the root directory for the option `-b`, which is empty by default; absent for an exception. -/
def rootOf (w : World) (base : Str) : Option Str :=
  if base.length = 0 then some base else if w.isDir base then some (w.realpath base) else none

/-- dwarfvars.py:36-66 `DwarfVars`: the file that is read last. -/
def openInfo (w : World) (root file : Str) : Outcome :=
  match dwarfPath w.exists_ w.realpath root file with
  | none => .notFound (root ++ dwarfStrip root (dwarfReal w.exists_ w.realpath root file))
  | some p =>
    if w.hasInfo p then .reads p
    else
      match w.find root p with
      | none => .failed
      | some none => .noInfo
      | some (some q) => .reads q

/-- dwarfvars.py:367-401: options and file of the command line. -/
def start (w : World) (base file : Str) : Outcome :=
  match rootOf w base with
  | none => .notDir
  | some root => if w.exists_ file then openInfo w root file else .message

end DwarfRun
end Bean

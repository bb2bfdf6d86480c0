import Verif.Model.CompareText
/-
Files with the results of the comparison of versions (tools/compare.py:40, 299-332). Files are opened for writing while the arguments are read (`argparse.FileType('w')`), which empties them.
The option takes any number of names; if it is given more than once, the names of the last time are kept (argparse's action `store`). Opening is assumed to succeed, and the name `-`
(standard output) is not modelled.
-/
namespace Bean
namespace CompareExport

/-- Formats of the library that records the output. -/
inductive Format where
  | html
  | svg
  | text
deriving DecidableEq, Repr

/-- `str.lower`; for the endings looked at only letters of ASCII matter. -/
def lowerStr (s : Str) : Str := s.map Char.toLower

/-- compare.py:327-331: the format depends on the end of the name. -/
def formatOf (name : Str) : Format :=
  if "htm".toList.isSuffixOf (lowerStr name) || "html".toList.isSuffixOf (lowerStr name) then .html
  else if "svg".toList.isSuffixOf (lowerStr name) then .svg
  else .text

/-- Contents of files by name. -/
abbrev Files := Str → Option Str

/-- A file with new contents. -/
def put (fs : Files) (name : Str) (c : Str) : Files := fun n => if n = name then some c else fs n

/-- compare.py:40: files are opened in the order of the arguments. -/
def openAll (uses : List (List Str)) (fs : Files) : Files := uses.flatten.foldl (fun g n => put g n []) fs

/-- The value of the option: the names of its last use. -/
def lastUse (uses : List (List Str)) : List Str :=
  match uses.getLast? with
  | some l => l
  | none => []

/-- compare.py:324-332: every file of the option gets the recorded output. -/
def writeAll (recorded : Format → Str) (names : List Str) (fs : Files) : Files := names.foldl (fun g n => put g n (recorded (formatOf n))) fs

/-- Files after a run with the uses of the option `-o` and the output recorded. -/
def exportFiles (recorded : Format → Str) (uses : List (List Str)) (fs : Files) : Files := writeAll recorded (lastUse uses) (openAll uses fs)

end CompareExport
end Bean

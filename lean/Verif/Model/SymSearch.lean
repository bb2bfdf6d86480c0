import Verif.Model.Download
/-
The program that searches for the debug symbols of files (tools/dbgsym.py:119-157).

All files are opened in advance by the library for arguments; here, they can be opened. The directory (`-b`) is given by its place without symbolic links
(dbgsym.py:15, 124). Absolute paths are made from the current directory, without regard to symbolic links and `..` (dbgsym.py:25).
-/
namespace Bean
namespace PyFiles

/-- A file of the command line: its path, whether it has the format ELF, and its sections. -/
structure SearchFile where
  path : SymPath
  elf : Bool := true
  secs : List DbgSec := []

/-- The text of a path. -/
def SymPath.text (p : SymPath) : Str := if p.absolute then '/' :: ['/'].intercalate p.parts else ['/'].intercalate p.parts

/-- dbgsym.py:19-25: directory and name relative to the root; absent for an exception. The root itself is a directory and cannot be opened as a file. -/
def relOf (cwd root : PyPath) (f : SearchFile) : Option (PyPath × Str) :=
  if f.elf then
    match relativeTo root (f.path.place cwd) with
    | some rel => rel.getLast?.map (fun name => (rel.dropLast, name))
    | none => none
  else none

/-- What is searched for (dbgsym.py:91-98); an empty link is ignored (dbgsym.py:64). -/
def queryFor (root : PyPath) (rel : PyPath × Str) (link : Option Str) (secs : List DbgSec) : SymQuery where
  root := root
  parent := rel.1
  name := rel.2
  link := link.filter (· ≠ [])
  buildid := dbgBuildId secs

/-- dbgsym.py:136-140: with the option `-v`. -/
def headLines (verbose : Bool) (root : PyPath) (rel : PyPath × Str) : List Str :=
  if verbose then [[], "ELF ".toList ++ SymPath.text ⟨false, rel.1 ++ [rel.2]⟩, "  - base: ".toList ++ SymPath.text ⟨true, root⟩] else []

/-- dbgsym.py:141-147: with the option `-v`. -/
def infoLines (verbose : Bool) (q : SymQuery) : List Str :=
  if verbose then
    (match q.link with
      | some l => ["  - debug_link: ".toList ++ l]
      | none => []) ++
    (match q.buildid with
      | some i => ["  - buildid: ".toList ++ i]
      | none => [])
  else []

/-- dbgsym.py:149-153 -/
def resultLine : Option SymPath → Str
  | some p => p.text
  | none => "no debug file found".toList

/-- Result of the program: lines, requested addresses, files, and whether it ended without exception. -/
structure SearchOut where
  lines : List Str
  asked : List Str
  files : FileSys
  ended : Bool

/-- dbgsym.py:133-153: the files one after another; `online` is the option `-d`. -/
def searchRun (net : Str → Answer) (cwd root : PyPath) (verbose online : Bool) : List SearchFile → FileSys → SearchOut
  | [], fs => ⟨[], [], fs, true⟩
  | f :: rest, fs =>
    match relOf cwd root f with
    | none => ⟨[], [], fs, false⟩
    | some rel =>
      match dbgLink f.secs with
      | none => ⟨headLines verbose root rel, [], fs, false⟩
      | some link =>
        let q := queryFor root rel link f.secs
        let r := findSymbols net cwd q online fs
        let o := searchRun net cwd root verbose online rest r.files
        ⟨headLines verbose root rel ++ (infoLines verbose q ++ resultLine r.path :: o.lines), r.asked ++ o.asked, o.files, o.ended⟩

end PyFiles
end Bean

import Verif.Model.DebugSym
/-
Files and debug symbols in the Python tools (tools/elfvars.py:73-127, 357-374, tools/dbgsym.py:13-60, tools/dwarfvars.py:36-63).

Assumed about elftools: the notes of sections of type `SHT_NOTE` are delivered in their order; the type is called `NT_GNU_BUILD_ID` for the
number 3 whatever the name of the note is; `n_size` is the size of header, name and description, the latter two rounded up to multiples of
four; `n_desc` is the lowercase hexadecimal form of the description.
-/
namespace Bean
namespace PyFiles

/-! ### Build identifier and debug link -/

/-- Bytes of the name of a note, with the terminating null character. -/
def nameBytes : Option String → Nat
  | none => 0
  | some s => s.utf8ByteSize + 1

/-- Alignment of the parts of a note. -/
def roundUp4 (n : Nat) : Nat := (n + 3) / 4 * 4

/-- `note['n_size']` of elftools. -/
def noteSize (n : Note) : Nat := 12 + roundUp4 (nameBytes n.name) + roundUp4 n.desc.length

/-- dbgsym.py:43, elfvars.py:110: `note['n_type'] == 'NT_GNU_BUILD_ID' and note['n_size'] == 36`. -/
def pyIsBuildId (n : Note) : Bool := n.type == NT_GNU_BUILD_ID && noteSize n == 36

/-- dbgsym.py:40-45, elfvars.py:108-112: first identifier of a section. -/
def sectionBuildId (s : NoteSec) : Option Str :=
  if s.isNote then (s.notes.find? pyIsBuildId).map (fun n => n.desc.flatMap renderByte) else none

/-- dbgsym.py:35-47 `get_buildid`: the first section with an identifier. -/
def dbgBuildId (secs : List DbgSec) : Option Str := secs.findSome? (fun s => sectionBuildId s.notes)

/-- elfvars.py:104-112: one section. -/
def elfSection (acc : Option Str) (s : DbgSec) : Option Str :=
  if s.name = ".gnu_debuglink".toList ∨ s.name = ".comment".toList then acc
  else match sectionBuildId s.notes with
    | some t => some t
    | none => acc

/-- elfvars.py:100-112: the `break` ends only the loop over the notes of a section. -/
def elfBuildId (secs : List DbgSec) : Option Str := secs.foldl elfSection none

/-- `data().split(b'\x00', 1)[0].decode('ascii')`; `none` for an exception. -/
def decodeAscii (data : Str) : Option Str :=
  if (cString data).all (fun c => c.toNat < 128) then some (cString data) else none

/-- dbgsym.py:49-60 `get_debuglink`: the first section; the outer level is absent for an exception. -/
def dbgLink : List DbgSec → Option (Option Str)
  | [] => some none
  | s :: rest => if s.name = ".gnu_debuglink".toList then (decodeAscii s.data).map some else dbgLink rest

/-- elfvars.py:104-107: the sections with links and comments, `acc` is the link up to here. -/
def elfLinks (acc : Option Str) : List DbgSec → Option (Option Str)
  | [] => some acc
  | s :: rest =>
    if s.name = ".gnu_debuglink".toList then
      match decodeAscii s.data with
      | some t => elfLinks (some t) rest
      | none => none
    else if s.name = ".comment".toList then
      match decodeAscii s.data with
      | some _ => elfLinks acc rest
      | none => none
    else elfLinks acc rest

/-- elfvars.py:101-107. -/
def elfLink (secs : List DbgSec) : Option (Option Str) := elfLinks none secs

/-! ### Files -/

/-- The file system: existence of a path, and resolution of symbolic links. -/
structure PyFs where
  exists_ : PyPath → Bool
  resolve : PyPath → PyPath

/-- elfvars.py:75-86: the file of `ElfVar` for a name; `none` for an exception. An empty root is the current directory. -/
def elfPath (fs : PyFs) (cwd : PyPath) (root file : Str) : Option PyPath :=
  if fs.exists_ (pyJoin cwd file) then some (pyJoin cwd file)
  else if fs.exists_ (pyJoin (pyJoin cwd root) file) then some (pyJoin (pyJoin cwd root) file)
  else none

/-- `path.relative_to(root)`; `none` for an exception. -/
def relativeTo : PyPath → PyPath → Option PyPath
  | [], p => some p
  | _ :: _, [] => none
  | r :: root, q :: p => if r = q then relativeTo root p else none

/-- What decides about debug symbols: options `-d` and `-D`, debug information in the file, link and build identifier. -/
structure PyDebug where
  dbgsym : Bool
  extern : Bool
  embedded : Bool
  link : Option Str
  buildid : Option Str

/-- dbgsym.py:13-26, 91-104: `DebugSymbol(path, root).find(link, buildid)` (without downloads and their cache). The last part of the path is the name.
Not modelled: an empty link or identifier is read again from the file. -/
def externFile (fs : PyFs) (root path : PyPath) (link buildid : Option Str) : Option (Option PyPath) :=
  match relativeTo (fs.resolve root) path with
  | none => none
  | some rel =>
    match rel.getLast? with
    | none => none
    | some name => some (pyFind fs.exists_ (fs.resolve root) rel.dropLast name link buildid)

/-- elfvars.py:114-118, 365-366: file with the debug symbols; the outer level is absent for an exception, which ends the analysis (371-374). -/
def debugFile (fs : PyFs) (root path : PyPath) (d : PyDebug) : Option (Option PyPath) :=
  if d.dbgsym then
    if d.embedded then some (some path)
    else if d.extern then externFile fs root path d.link d.buildid
    else some none
  else some none

/-- dwarfvars.py:41-44: the real path of the given file, or of the text behind the root directory. -/
def dwarfReal (exists_ : Str → Bool) (realpath : Str → Str) (root file : Str) : Str :=
  if exists_ (realpath file) then realpath file else realpath (root ++ file)

/-- dwarfvars.py:45-46: the root directory is removed. -/
def dwarfStrip (root f : Str) : Str := if root ≠ [] ∧ root <+: f then f.drop root.length else f

/-- dwarfvars.py:41-51: path of the file whose debug information is read, as texts; `none` for an exception. -/
def dwarfPath (exists_ : Str → Bool) (realpath : Str → Str) (root file : Str) : Option Str :=
  if exists_ (root ++ dwarfStrip root (dwarfReal exists_ realpath root file)) then
    some (root ++ dwarfStrip root (dwarfReal exists_ realpath root file))
  else none

end PyFiles
end Bean

import Verif.Model.BuildId
/-
Search for separate debug symbols (src/debug_sym.cpp, include/bean/helper/debug_sym.hpp and tools/dbgsym.py).

Strings are lists of characters. The file system is a parameter. Assumptions on the library dlh, whose source is not part of
/repo: a `StringStream<n>` holds up to `n - 1` characters and drops further ones, `clear` empties it; `File::pathsplit`
splits a path at its last slash (both parts without it); `String::compare(a, b, n)` compares the first `n` characters.
-/
namespace Bean

/-- Text without null character. -/
abbrev Str := List Char

/-- The operating system: `File::absolute`, `stat` with `S_ISDIR`, `File::exists`. -/
structure Fs where
  absolute : Str → Option Str
  isDir : Str → Bool
  exists_ : Str → Bool

/-- `PATH_MAX` of Linux -/
def PATH_MAX : Nat := 4096

/-- Text of a C string in a buffer. -/
def cString (buf : Str) : Str := buf.takeWhile (· != '\x00')

/-- Members of `DebugSymbol` (debug_sym.hpp:12-18); `dir` and `file` are absent for null pointers. -/
structure DebugSymbol where
  root : Str := []
  dir : Option Str := none
  file : Option Str := none
  stream : Str := []
deriving DecidableEq, Repr

/-- `File::pathsplit` -/
def pathSplit (p : Str) : Str × Str :=
  let file := (p.reverse.takeWhile (· != '/')).reverse
  (p.take (p.length - file.length - 1), file)

/-- debug_sym.cpp:26-28: slashes at the end are removed. -/
def stripEnd (p : Str) : Str := (p.reverse.dropWhile (· == '/')).reverse

/-- debug_sym.cpp:17-32: the root directory, absent for a null pointer. -/
def debugRoot (fs : Fs) : Option Str → Str
  | none => []
  | some root =>
    if root = [] ∨ root = ['/'] then []
    else
      let abs := match fs.absolute root with
        | some p => p
        | none => root.take PATH_MAX
      if fs.isDir abs then stripEnd abs else []

/-- debug_sym.cpp:44-48: the directory relative to the root. -/
def relativeDir (root dir : Str) : Str :=
  let dir := if dir.take root.length = root then dir.drop root.length else dir
  dir.dropWhile (· == '/')

/-- debug_sym.cpp:15-53: the constructor. -/
def debugSymbol (fs : Fs) (path : Option Str) (root : Option Str) : DebugSymbol :=
  let root := debugRoot fs root
  match path with
  | none => { root := root }
  | some path =>
    if path = [] then { root := root }
    else
      let abs := match fs.absolute path with
        | some p => p
        | none => (root ++ '/' :: path).take PATH_MAX
      if fs.exists_ abs then
        { root := root, dir := some (relativeDir root (pathSplit abs).1), file := some (pathSplit abs).2 }
      else { root := root }

/-- debug_sym.cpp:55 -/
def debugDirs : List Str := ["usr/lib/debug".toList]

/-- `root / a / b …` as written by the stream. -/
def slashes (root : Str) (parts : List Str) : Str := parts.foldl (fun p q => p ++ '/' :: q) root

/-- debug_sym.cpp:62-81: the candidates for a debug link. There is no slash between directory and link below the global
directory (line 76). -/
def linkPaths (root dir : Str) : Option Str → List Str
  | none => []
  | some link =>
    [slashes root [dir, link], slashes root [dir, ".debug".toList, link]] ++
      debugDirs.map (fun d => slashes root [d, dir ++ link])

/-- debug_sym.cpp:84-92: the candidates for a build identifier (the buffer of `BuildID`). -/
def buildIdPaths (root value : Str) : List Str :=
  if available value then
    debugDirs.map (fun d => slashes root [d, ".build-id".toList, value.take 2, cString (value.drop 2) ++ ".debug".toList])
  else []

/-- debug_sym.cpp:95-128: the remaining candidates. -/
def defaultPaths (root dir file : Str) : List Str :=
  [slashes root [dir, file ++ ".debug".toList], slashes root [dir, ".debug".toList, file ++ ".debug".toList]] ++
    debugDirs.map (fun d => slashes root [d, dir, file ++ ".debug".toList]) ++
    [slashes root [dir, ".debug".toList, file]] ++ debugDirs.map (fun d => slashes root [d, dir, file])

/-- debug_sym.cpp:63-67 (and so on): candidates are appended to the stream, which is cleared only if there is no such file. -/
def tryPaths (fs : Fs) : Str → List Str → Option Str × Str
  | stream, [] => (none, stream)
  | stream, p :: ps =>
    let s := (stream ++ p).take PATH_MAX
    if fs.exists_ s then (some s, s) else tryPaths fs [] ps

/-- debug_sym.cpp:57-133 `find(debug_link, build_id)`: the result and the new state of the object. -/
def debugFind (fs : Fs) (ds : DebugSymbol) (link : Option Str) (value : Str) : Option Str × DebugSymbol :=
  match ds.dir, ds.file with
  | some dir, some file =>
    let r := tryPaths fs ds.stream (linkPaths ds.root dir link ++ buildIdPaths ds.root value ++ defaultPaths ds.root dir file)
    (r.1, { ds with stream := r.2 })
  | _, _ => (none, ds)

/-- The part of a section that matters for `find(Elf)`. -/
structure DbgSec where
  name : Str
  data : Str
  notes : NoteSec
deriving DecidableEq, Repr

/-- debug_sym.cpp:139-150: the sections. A null pointer is written to the stream if the file of the object does not exist,
whose effect is not determined by the sources. The first component of the result is a debug file found on the way. -/
def debugSections (fs : Fs) : DebugSymbol → Option Str → List DbgSec → M (Option Str × Option Str × DebugSymbol)
  | ds, link, [] => .ok (none, link, ds)
  | ds, link, sec :: rest =>
    if sec.name = ".gnu_debuglink".toList then debugSections fs ds (some (cString sec.data)) rest
    else if sec.name.take 7 = ".debug_".toList then
      match ds.dir, ds.file with
      | some dir, some file =>
        let s := (ds.stream ++ ds.stream ++ slashes ds.root [dir, file]).take PATH_MAX
        if fs.exists_ s then .ok (some s, link, { ds with stream := s })
        else debugSections fs { ds with stream := [] } link rest
      | _, _ => .error .ub
    else debugSections fs ds link rest

/-- debug_sym.cpp:135-155 `find(binary)`; `valid` is false for files without valid header and core dumps. -/
def debugFindElf (b : Build) (junk : Str) (fs : Fs) (ds : DebugSymbol) (valid : Bool) (secs : List DbgSec) :
    M (Option Str × DebugSymbol) :=
  if valid then do
    let (found, link, ds) ← debugSections fs ds none secs
    match found with
    | some p => return (some p, ds)
    | none => do
      let value ← buildIdOf b junk (some (secs.map (·.notes)))
      return debugFind fs ds link value
  else .ok (none, ds)

/-! tools/dbgsym.py -/

/-- A path of the module `pathlib`: its parts without the root. -/
abbrev PyPath := List Str

/-- The text between slashes. -/
def splitSlash : Str → List Str
  | [] => [[]]
  | c :: rest =>
    if c = '/' then [] :: splitSlash rest
    else match splitSlash rest with
      | [] => [[c]]
      | p :: ps => (c :: p) :: ps

/-- The parts of a text: empty ones and `.` are dropped. -/
def pathParts (s : Str) : PyPath := (splitSlash s).filter (fun p => p != [] && p != ['.'])

/-- The operator `/`: an absolute path replaces the left operand. -/
def pyJoin (p : PyPath) (s : Str) : PyPath := if s.head? = some '/' then pathParts s else p ++ pathParts s

/-- `name[:-len(suffix)]` for a suffix starting with the last dot (neither the first nor the last character). -/
def pyStem (name : Str) : Str :=
  let ext := (name.reverse.takeWhile (· != '.')).reverse
  let n := name.length - ext.length - 1
  if 0 < n ∧ ext ≠ [] ∧ '.' ∈ name then name.take n else name

/-- `with_suffix('.debug')` -/
def withDebug : PyPath → PyPath
  | [] => []
  | [name] => [pyStem name ++ ".debug".toList]
  | p :: q :: rest => p :: withDebug (q :: rest)

/-- dbgsym.py:64-69: places for a debug link. -/
def pyLink (root parent : PyPath) : Option Str → List PyPath
  | none => []
  | some link =>
    [pyJoin (root ++ parent) link, pyJoin (root ++ parent ++ [".debug".toList]) link] ++
      debugDirs.map (fun d => pyJoin (root ++ pathParts d ++ parent) link)

/-- dbgsym.py:71-74: places for a build identifier. -/
def pyBuildId (root : PyPath) : Option Str → List PyPath
  | none => []
  | some id => debugDirs.map (fun d => withDebug (pyJoin (pyJoin (root ++ pathParts d ++ [".build-id".toList]) (id.take 2))
      (id.drop 2)))

/-- dbgsym.py:63-84 `debug_symbol_paths` up to the global directories (without the cache of downloads); `parent` and `name`
are the path of the file relative to the root. -/
def pyPaths (root parent : PyPath) (name : Str) (link buildid : Option Str) : List PyPath :=
  pyLink root parent link ++ pyBuildId root buildid ++
  ([withDebug (root ++ parent ++ [name]), withDebug (root ++ parent ++ [".debug".toList] ++ [name])] ++
  debugDirs.map (fun d => withDebug (root ++ pathParts d ++ parent ++ [name])) ++
  [root ++ parent ++ [".debug".toList] ++ [name]] ++
  debugDirs.map (fun d => root ++ pathParts d ++ parent ++ [name]))

/-- dbgsym.py:91-104 `find`: the first path that exists (without the cache and the download). -/
def pyFind (exists_ : PyPath → Bool) (root parent : PyPath) (name : Str) (link buildid : Option Str) : Option PyPath :=
  (pyPaths root parent name link buildid).find? exists_

end Bean

import Verif.Model.PyFiles
/-
Search for debug symbols with the cache of downloads and the services for debug information (tools/dbgsym.py:13-33, 62-116), and their use in the
summary of variables (tools/elfvars.py:282-283).

Files are given by their place. Directories that are made for a download (dbgsym.py:111) are not recorded. An empty debug link is no link.
-/
namespace Bean
namespace PyFiles

/-- A path as the tools write it: absolute, or relative to the current directory. -/
structure SymPath where
  absolute : Bool
  parts : PyPath
deriving DecidableEq, Repr

/-- The place in the file system. -/
def SymPath.place (cwd : PyPath) (p : SymPath) : PyPath := if p.absolute then p.parts else cwd ++ p.parts

/-- Contents of files by place. -/
abbrev FileSys := PyPath → Option Str

def FileSys.write (fs : FileSys) (p : PyPath) (data : Str) : FileSys := fun q => if q = p then some data else fs q

/-- What is searched for: path of the file (relative to the root), debug link and build identifier; and the directory of the cache. -/
structure SymQuery where
  root : PyPath
  parent : PyPath
  name : Str
  link : Option Str
  buildid : Option Str
  cache : Str := ".debug-cache".toList

/-- dbgsym.py:88, 110: file of the cache. -/
def cacheFile (cache id : Str) : SymPath where
  absolute := cache.head? = some '/'
  parts := withDebug (pyJoin (pyJoin (pathParts cache ++ [".build-id".toList]) (id.take 2)) (id.drop 2))

/-- dbgsym.py:87, 107: is there a build identifier and a cache? -/
def cacheId (q : SymQuery) : Option Str :=
  match q.buildid with
  | some (c :: id) => if q.cache = [] then none else some (c :: id)
  | _ => none

/-- dbgsym.py:62-88 `debug_symbol_paths`. -/
def symPaths (q : SymQuery) : List SymPath :=
  (pyPaths q.root q.parent q.name q.link q.buildid).map (fun p => ⟨true, p⟩) ++
    match cacheId q with
    | some id => [cacheFile q.cache id]
    | none => []

/-- What a service answers: nothing, a part of the file before the connection is lost, or the file. -/
inductive Answer where
  | failed
  | broken (got : Str)
  | full (data : Str)
deriving DecidableEq, Repr

/-- dbgsym.py:108 -/
def services : List Str :=
  ["https://debuginfod.debian.net".toList, "https://debuginfod.ubuntu.com".toList, "https://debuginfod.elfutils.org/".toList]

/-- dbgsym.py:109 -/
def requestUrl (service id : Str) : Str := service ++ "/buildid/".toList ++ id ++ "/debuginfo".toList

/-- Result of a search: path, requested addresses and files. -/
structure SymFound where
  path : Option SymPath
  asked : List Str
  files : FileSys

/-- dbgsym.py:108-116: the loop over the services. The file is written while it is received. -/
def fetch (net : Str → Answer) (cwd : PyPath) (target : SymPath) (id : Str) : List Str → FileSys → SymFound
  | [], fs => ⟨none, [], fs⟩
  | s :: rest, fs =>
    match net (requestUrl s id) with
    | .failed =>
      let r := fetch net cwd target id rest fs
      ⟨r.path, requestUrl s id :: r.asked, r.files⟩
    | .broken got =>
      let r := fetch net cwd target id rest (fs.write (target.place cwd) got)
      ⟨r.path, requestUrl s id :: r.asked, r.files⟩
    | .full data => ⟨some target, [requestUrl s id], fs.write (target.place cwd) data⟩

/-- dbgsym.py:91-116 `find`. -/
def findSymbols (net : Str → Answer) (cwd : PyPath) (q : SymQuery) (online : Bool) (fs : FileSys) : SymFound :=
  match (symPaths q).find? (fun p => (fs (p.place cwd)).isSome) with
  | some p => ⟨some p, [], fs⟩
  | none =>
    match cacheId q with
    | none => ⟨none, [], fs⟩
    | some id => if online then fetch net cwd (cacheFile q.cache id) id services fs else ⟨none, [], fs⟩

/-- elfvars.py:282-283: the member `debug` of the summary; `none` for an exception. The root is absolute (elfvars.py:76). -/
def debugMember (root : PyPath) (p : SymPath) : Option PyPath := if p.absolute then relativeTo root p.parts else none

end PyFiles
end Bean

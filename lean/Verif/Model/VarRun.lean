import Verif.Model.PyFiles
import Verif.Model.Daemon
import Verif.Model.CompareRun
/-
The program for variables with several files (tools/elfvars.py:439-482), and its use by the comparison of versions (tools/compare.py).
-/
namespace Bean
namespace VarRun
open PyFiles

/-- The result for a file (elfvars.py:276-352): the member `file` and the other members with their hashes. -/
structure VarResult where
  file : PyPath
  members : SummaryHashes
deriving DecidableEq

/-- elfvars.py:76, 439-446: the base directory, by default the current one. A base directory that does not exist ends the program (not modelled). -/
def baseDir (fs : PyFs) (cwd : PyPath) (base : Str) : PyPath := if base = [] then cwd else fs.resolve (pyJoin cwd base)

/-- elfvars.py:77-79, 464: path of a file given at the command line, which was opened before. The name `-` is not modelled. -/
def openedPath (fs : PyFs) (cwd : PyPath) (name : Str) : PyPath := fs.resolve (pyJoin cwd name)

/-- elfvars.py:357-374 without cache: the result for a file; `summary` are the members of the summary except `file`, absent for an exception. The member `file`
is computed in any case (277). -/
def fileResult (fs : PyFs) (cwd : PyPath) (base : Str) (summary : PyPath → Option SummaryHashes) (name : Str) : Option VarResult :=
  match summary (openedPath fs cwd name) with
  | none => none
  | some members =>
    match relativeTo (baseDir fs cwd base) (openedPath fs cwd name) with
    | none => none
    | some file => some ⟨file, members⟩

/-- elfvars.py:464-465, 473-482: the list that is printed; absent if a file cannot be opened, which ends the program before anything is printed. -/
def listFiles (fs : PyFs) (cwd : PyPath) (base : Str) (summary : PyPath → Option SummaryHashes) (files : List Str) : Option (List (Option VarResult)) :=
  if files.all (fun f => fs.exists_ (pyJoin cwd f)) then some (files.map (fileResult fs cwd base summary)) else none

/-- elfvars.py:464-482 with a cache (option `-c`): `buildid` as in `VarRequest`; the new cache is not part of the result. -/
def cachedFiles (fs : PyFs) (cwd : PyPath) (base : Str) (args : VarArgs) (buildid : PyPath → Option (Option Str)) (summary : PyPath → Option SummaryHashes)
    (cache : VarCache VarResult) (files : List Str) : Option (List (Option VarResult)) :=
  if files.all (fun f => fs.exists_ (pyJoin cwd f)) then
    some (getAll cache (files.map (fun f => ⟨args, buildid (openedPath fs cwd f), fileResult fs cwd base summary f⟩)))
  else none

/-- The members of a result as a dictionary; only `file` is certain to be there. -/
def asMembers (r : VarResult) : SummaryHashes := ("file".toList, none) :: r.members

/-- elfvars.py:475-478: the text that is printed with option `-p`; `print` adds the end of a line. -/
def plainFiles (fs : PyFs) (cwd : PyPath) (base : Str) (summary : PyPath → Option SummaryHashes) (files : List Str) : Option Str :=
  (listFiles fs cwd base summary files).map (fun l => l.flatMap (fun r => simplify (r.map asMembers) ++ ['\n']))

/-- compare.py:231-232: base directory and file in the call for the object `o` of the version in directory `a`. -/
def hashCall (nodbgsym : Bool) (a o : Str) : Str × Str := (if nodbgsym then [] else a, joinPath a o)

/-- compare.py:246-256: the hashes of a version from the list that was printed, empty without result. -/
def hashesFrom : Option (List (Option VarResult)) → Hashes
  | some (some r :: _) => (asMembers r).filterMap (fun m => m.2.map (fun h => (m.1, h)))
  | _ => []

/-- compare.py:230-256: the tools for an object as used by the verdicts. `summary` depends on the use of debug symbols. -/
def versionTools (fs : PyFs) (cwd : PyPath) (nodbgsym : Bool) (summary : Bool → PyPath → Option SummaryHashes) (diff : Str → Str → List DiffMember) (o : Str) :
    CompareTools :=
  ⟨diff, fun a => hashesFrom (listFiles fs cwd (hashCall nodbgsym a o).1 (summary (!nodbgsym)) [(hashCall nodbgsym a o).2])⟩

end VarRun
end Bean

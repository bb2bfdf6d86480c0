import Verif.Model.File
import Verif.Model.Tools
import Verif.Model.Diff
/-
The program `update` from its arguments to its exit code (examples/update.cpp), and the files of all programs that compare two files.
-/
namespace Bean
namespace TwoFiles

/-- update.cpp:29-36, 77-78: flags of the analysis; the flag for debug output is left out. -/
def cliFlags (c : Cli) : AnalyzeFlags where
  resolve_internal := c.resolve
  reconstruct := c.reconstruct
  keep_unused := c.keep
  hash_attributes := c.attributes

/-- update.cpp:105: name of the new file; `p` is the one of the old file. -/
def newName (c : Cli) (p : Str) : Str :=
  match c.newPath with
  | none => p
  | some q => q

/-- update.cpp:105: directory for the new file. -/
def newRoot (c : Cli) : Option Str :=
  match c.newBase with
  | none => c.oldBase
  | some r => some r

/-- update.cpp:104-105 (diff.cpp:101-102, diffstat.cpp:79, map.cpp:102-103, update-code.cpp:168-169): the files that are opened, the old one first. Without any file, a null pointer
is used as a path. -/
def openTwo (env : Env) (b : Build) (junk : Str) (disk : Disk) (c : Cli) : M (Opened (AState × AState)) :=
  match c.oldPath with
  | none => .error .ub
  | some p =>
    match beanFile env b junk disk p c.dbgsym (cliFlags c) c.oldBase with
    | .error e => .error e
    | .ok .died => .ok .died
    | .ok (.ready old) =>
      match beanFile env b junk disk (newName c p) c.dbgsym (cliFlags c) (newRoot c) with
      | .error e => .error e
      | .ok .died => .ok .died
      | .ok (.ready new) => .ok (.ready (old, new))

/-- Ends of the program: `refused` for wrong arguments, `died` for a file that cannot be used, both with an exit code for failure; or the verdict. -/
inductive UpdateEnd where
  | refused
  | died
  | verdict (updateable : Bool)
deriving DecidableEq, Repr

/-- update.cpp:12-121: the whole program; its output is left out. -/
def updateRun (env : Env) (b : Build) (h : BitVec 64 → BitVec 32) (junk : Str) (disk : Disk) (args : List Str) : M UpdateEnd :=
  match parseArgs .update {} args with
  | .error e => .error e
  | .ok .failure => .ok .refused
  | .ok (.go c) =>
    if startsWith (.go c) then
      match openTwo env b junk disk c with
      | .error e => .error e
      | .ok .died => .ok .died
      | .ok (.ready (old, new)) =>
        match patchableWith b h new.symbols old.symbols c.deps c.mode with
        | .error e => .error e
        | .ok v => .ok (.verdict v)
    else .ok .refused

end TwoFiles
end Bean

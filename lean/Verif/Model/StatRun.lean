import Verif.Model.TwoFiles
import Verif.Model.StatText
import Verif.Model.CompareRun
/-
The program `diffstat` from its arguments to its output (examples/diffstat.cpp).
-/
namespace Bean
namespace StatRun
open TwoFiles

/-- file.hpp:73-76: the binary of a file that was opened. -/
def binaryOf (disk : Disk) (path : Str) (root : Option Str) : M (Opened Image) :=
  match resolvePath disk path root with
  | .error e => .error e
  | .ok p => elfFile disk { text := p } false

/-- diffstat.cpp:80: the identification of a file; `junk` is the content of the uninitialised buffer. A file without valid header
was refused before. -/
def idOf (b : Build) (junk : Str) (img : Image) : M Str :=
  match buildIdOf b junk (some (img.sections.map (·.notes))) with
  | .error e => .error e
  | .ok v => .ok (cString v)

/-- diffstat.cpp:80: the identifications of both files; `p` is the name of the old file. -/
def bothIds (b : Build) (ids : Str × Str) (disk : Disk) (c : Cli) (p : Str) : M (Opened (Str × Str)) :=
  match binaryOf disk p c.oldBase, binaryOf disk (newName c p) (newRoot c) with
  | .ok (.ready old), .ok (.ready new) =>
    match idOf b ids.1 old with
    | .error e => .error e
    | .ok va =>
      match idOf b ids.2 new with
      | .error e => .error e
      | .ok vb => .ok (.ready (va, vb))
  | .error e, _ => .error e
  | _, .error e => .error e
  | _, _ => .ok .died

/-- diffstat.cpp:78-152: both files are opened and the summary is written; absent if the program ends before. -/
def printSummary (env : Env) (b : Build) (h : BitVec 64 → BitVec 32) (word : Bool → Str) (junk : Str) (ids : Str × Str) (disk : Disk) (c : Cli) : M (Option Str) :=
  match c.oldPath, openTwo env b junk disk c with
  | none, _ => .error .ub
  | _, .error e => .error e
  | _, .ok .died => .ok none
  | some p, .ok (.ready (old, new)) =>
    match bothIds b ids disk c p with
    | .error e => .error e
    | .ok .died => .ok none
    | .ok (.ready (va, vb)) =>
      match summaryOf b h old.symbols new.symbols va vb c.resolve c.deps c.mode with
      | .error e => .error e
      | .ok s => .ok (some (summaryText word s))

/-- diffstat.cpp:155-231: the whole program. The result is its output; absent for an exit code for failure. -/
def statRun (env : Env) (b : Build) (h : BitVec 64 → BitVec 32) (word : Bool → Str) (junk : Str) (ids : Str × Str) (disk : Disk) (args : List Str) : M (Option Str) :=
  match parseArgs .diffstat {} args with
  | .error e => .error e
  | .ok .failure => .ok none
  | .ok (.go c) => if startsWith (.go c) then printSummary env b h word junk ids disk c else .ok none

end StatRun
end Bean

import Verif.Model.TwoFiles
import Verif.Model.ChangeText
/-
The programs `diff`, `map` and `update-code` from their arguments to their output, for the levels `NONE` and `VERBOSE`.
-/
namespace Bean
namespace OtherRuns
open TwoFiles

/-- diff.cpp:23-102, map.cpp:24-103, update-code.cpp:86-176: the arguments are read and both files are opened; `main` is the remaining part of the program. The result is the output;
absent for an exit code for failure. -/
def compareTwo (t : Tool) (main : Cli → SymTree → SymTree → M Str) (env : Env) (b : Build) (junk : Str) (disk : Disk) (args : List Str) : M (Option Str) :=
  match parseArgs t {} args with
  | .error e => .error e
  | .ok .failure => .ok none
  | .ok (.go c) =>
    if startsWith (.go c) then
      match openTwo env b junk disk c with
      | .error e => .error e
      | .ok .died => .ok none
      | .ok (.ready (old, new)) =>
        match main c old.symbols new.symbols with
        | .error e => .error e
        | .ok s => .ok (some s)
    else .ok none

/-- examples/diff.cpp -/
def diffRun (env : Env) (b : Build) (h : BitVec 64 → BitVec 32) : Str → Disk → List Str → M (Option Str) := compareTwo .diff (diffMain b h) env b

/-- examples/map.cpp -/
def mapRun (env : Env) (b : Build) (h : BitVec 64 → BitVec 32) : Str → Disk → List Str → M (Option Str) := compareTwo .map (mapMain b h) env b

/-- examples/update-code.cpp -/
def codeRun (env : Env) (b : Build) (h : BitVec 64 → BitVec 32) : Str → Disk → List Str → M (Option Str) := compareTwo .updateCode (updateCodeMain b h) env b

end OtherRuns
end Bean

import Verif.Model.FindFunctions
import Verif.Model.Reconstruct
import Verif.Model.HashExternal
import Verif.Model.OffsetIds
/-
The complete analysis of a file (src/analyze.hpp:537-568).
-/
namespace Bean


/-- analyze.hpp:542-543: the sections of the separate debug symbols if there are some. -/
def readDebug (b : Build) (st : AState) : Option Elf → M AState
  | some d => readSections b false st d.sections
  | none => .ok st

/-- analyze.hpp:540-553: symbols and flags. Initially there are no symbols (bean.cpp:17-19). -/
def gather (env : Env) (fl : AnalyzeFlags) (elf : Elf) (dbgsym : Option Elf) : M AState := do
  let st ← readSegments env.build {} elf.segments
  let st ← readSections env.build true st elf.sections
  let st ← readDebug env.build st dbgsym
  let st ← readTargets env.build st
  let st ← findFunctions env fl st
  return { st with symbols := addFlags elf.entry st.section_flags st.symbols }

/-- analyze.hpp:555-567: relocations and identifiers. -/
def identify (env : Env) (fl : AnalyzeFlags) (st : AState) : M AState := do
  let st ← if fl.reconstruct then reconstruct env st else .ok st
  let st ← hashInternal env fl st
  let st ← hashExternal env st
  if fl.reconstruct then functionOffsets env st else return st

/-- analyze.hpp:538-568 `run`; bean.cpp:15-38 delivers the symbols. -/
def analyze (env : Env) (fl : AnalyzeFlags) (elf : Elf) (dbgsym : Option Elf) : M AState := do
  identify env fl (← gather env fl elf dbgsym)

end Bean

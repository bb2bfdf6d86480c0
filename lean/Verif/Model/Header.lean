import Verif.Model.Run
/-
Construction of the symbols of a file (src/bean.cpp:15-38, 272-274; src/analyze.hpp:78-100; src/analyze_x86.hpp:1071-1083; src/capstone.cpp:20-34).

Only members of the headers that are checked are part of the model; their values are numbers. Whether a header is valid is decided by Elfo, which is
not part of /repo. The class of the header decides which of both constructors (bean.cpp:272, 274) is used. The sums of addresses in 32-bit files are
taken as 64 bit wide.
-/
namespace Bean

/-- `ehdr_machine` as far as it is distinguished (bean.cpp:22-29). -/
inductive Machine where
  | i386
  | i486
  | x86_64
  | other (n : Nat)
deriving DecidableEq, Repr

/-- Members of the header of a file that are checked (analyze.hpp:83-95). -/
structure Header where
  valid : Bool := true
  ident_class : Nat := 2
  ident_data : Nat := 1
  ident_version : Nat := 1
  ident_abi : Nat := 0
  ident_abiversion : Nat := 0
  type : Nat := 3
  machine : Machine := .x86_64
  version : Nat := 1
deriving DecidableEq, Repr

/-- A file with its header. -/
structure Binary where
  header : Header
  elf : Elf

/-- Results of capstone: setting the functions for memory (capstone.cpp:31) and opening a handle (analyze_x86.hpp:1076). -/
structure Capstone where
  init : Bool := true
  opens : Bool := true

/-- analyze.hpp:87-95: assertions for separate debug symbols. -/
def checkDebug (b : Build) (h : Header) : Option Header → M Unit
  | none => .ok ()
  | some d => do
    massert b d.valid
    massert b (h.ident_class == d.ident_class)
    massert b (h.ident_data == d.ident_data)
    massert b (h.ident_version == d.ident_version)
    massert b (h.ident_abi == d.ident_abi)
    massert b (h.ident_abiversion == d.ident_abiversion)
    massert b (h.type == d.type)
    massert b (h.machine == d.machine)
    massert b (h.version == d.version)

/-- analyze_x86.hpp:1075-1082: the handle; without it, an uninitialised one is used. -/
def openHandle (b : Build) (cap : Capstone) (h : Header) : M Unit := do
  massert b (h.ident_class != 0)
  if cap.opens then return ()
  else
    massert b false
    .error .ub

/-- analyze.hpp:79-97 and analyze_x86.hpp:1072-1083: constructors. -/
def prepare (b : Build) (cap : Capstone) (h : Header) (d : Option Header) : M Unit := do
  massert b h.valid
  checkDebug b h d
  openHandle b cap h

/-- bean.cpp:25: constructor and `run`, where `run` is the one for the machine. -/
def analyzeX86 (b : Build) (cap : Capstone) (run : Elf → Option Elf → M AState) (file : Binary) (dbg : Option Binary) : M SymTree := do
  prepare b cap file.header (dbg.map (·.header))
  return (← run file.elf (dbg.map (·.elf))).symbols

/-- bean.cpp:31, 35: no analysis at all. -/
def noAnalysis (b : Build) : M SymTree := do
  massert b false
  return []

/-- bean.cpp:40-77: the kind of file, as far as it matters for the constructor of relocations. -/
def archOf (h : Header) : Arch :=
  match h.ident_class, h.machine with
  | 1, .i386 => .i386
  | 1, .i486 => .i386
  | 2, .x86_64 => .x86_64
  | _, _ => .mixed

/-- The analysis of a file with this header. `decode` is the function for the mode given by the class (analyze_x86.hpp:1076), sizes and values of
relocations are those for the machine. -/
def envFor (env : Env) (h : Header) : Env := { env with arch := archOf h }

/-- bean.cpp:15-38, 272-274: the symbols of a file. -/
def construct (env : Env) (cap : Capstone) (fl : AnalyzeFlags) (file : Binary) (dbg : Option Binary) : M SymTree :=
  if cap.init then
    match file.header.machine with
    | .i386 => analyzeX86 env.build cap (analyze (envFor env file.header) fl) file dbg
    | .i486 => analyzeX86 env.build cap (analyze (envFor env file.header) fl) file dbg
    | .x86_64 => analyzeX86 env.build cap (analyze (envFor env file.header) fl) file dbg
    | .other _ => noAnalysis env.build
  else noAnalysis env.build

end Bean

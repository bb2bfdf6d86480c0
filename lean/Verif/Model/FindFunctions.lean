import Verif.Model.Read
/-
Search for functions in executable sections (src/analyze_x86.hpp:61-201).

`.plt.` sections get names of imports if attributes are part of the identifiers (or with debug output, which is left out).
-/
namespace Bean

/-- Variables of the loop in analyze_x86.hpp:93-96: the symbols and `start`, `max_branch`, `ret`. -/
structure FindState where
  symbols : SymTree
  start : Addr
  max_branch : Addr
  ret : Bool := false
deriving DecidableEq, Repr

/-- analyze_x86.hpp:115, 124: insertion of a function at `start`. -/
def insertStart (b : Build) (sec : ElfSec) (address : Addr) (f : FindState) : M FindState := do
  massert b sec.executable
  let symbols ← insertSymbol b f.symbols (plainArgs sec (TLS.trans_addr address sec.tls) .func)
  return { f with symbols := symbols, start := address, max_branch := address }

/-- analyze_x86.hpp:98-130: start of a function according to the instruction (not a NOP). -/
def findStart (env : Env) (sec : ElfSec) (insn : Insn) (f : FindState) : M FindState :=
  match env.kind insn.id with
  | .jmp => .ok { f with ret := true }
  | .halt => .ok { f with ret := true }
  | .endbr =>
    if f.ret then do
      let f ← insertStart env.build sec insn.address f
      return { f with ret := false }
    else .ok { f with start := insn.address }
  | _ =>
    if f.ret ∧ f.max_branch < insn.address then do
      let f ← insertStart env.build sec insn.address f
      return { f with ret := false }
    else .ok { f with ret := false }

/-- analyze_x86.hpp:157-165, 173-181: direct target of a branch or call. It is taken from the last operand; the access to
an instruction without operands is undefined. -/
def directTarget (insn : Insn) : M (Option Addr) :=
  match insn.ops.getLast? with
  | none => .error .ub
  | some (.imm v _) => .ok (some v)
  | some (.mem _ base _ _ disp _) =>
    .ok (if base = X86_REG_RIP then some (insn.address + BitVec.ofNat 64 insn.size + disp) else none)
  | some _ => .ok none

/-- analyze_x86.hpp:135-154: name of the function at `start` in a PLT; `after` is the address behind the jump. In case of
other operands the displacement is read from unrelated data. -/
def nameImport (b : Build) (st : AState) (insn : Insn) (after : Addr) (f : FindState) : M FindState := do
  massert b (insn.ops.length == 1)
  match insn.ops with
  | .mem _ base _ _ disp _ :: _ =>
    massert b (base == X86_REG_RIP)
    let rel ← mderef b (Tree.find st.relocations (insn.address + BitVec.ofNat 64 insn.size + disp))
    match rel.symbol with
    | none => return f
    | some sym =>
      match Tree.find f.symbols f.start with
      | some _ => return { f with symbols := Tree.modify f.symbols f.start (fun s => { s with name := sym.name }) }
      | none =>
        let sec ← mderef b (Tree.floor st.sections f.start)
        return { f with symbols := (Tree.insert f.symbols (newSymbol { plainArgs sec f.start with
          size := TLS.trans_addr (after - f.start) sec.tls, name := sym.name })).1 }
  | _ =>
    massert b false
    .error .ub

/-- analyze_x86.hpp:134-165: jump. -/
def findJump (b : Build) (st : AState) (plt : Bool) (insn : Insn) (after : Addr) (f : FindState) : M FindState :=
  if plt then nameImport b st insn after f
  else do
    match ← directTarget insn with
    | some target => return if target > f.max_branch then { f with max_branch := target } else f
    | none => return f

/-- analyze_x86.hpp:168-188: call. -/
def findCall (b : Build) (st : AState) (insn : Insn) (f : FindState) : M FindState := do
  match ← directTarget insn with
  | some target =>
    match Tree.floor st.sections target with
    | some sec =>
      if sec.executable then do
        let symbols ← insertSymbol b f.symbols (plainArgs sec (TLS.trans_addr target sec.tls) .func)
        return { f with symbols := symbols }
      else return f
    | none => return f
  | none => return f

/-- analyze_x86.hpp:132-195: one group of the instruction. -/
def findGroup (b : Build) (st : AState) (plt : Bool) (insn : Insn) (after : Addr) (f : FindState) : InsGroup → M FindState
  | .jump => findJump b st plt insn after f
  | .call => findCall b st insn f
  | .ret => .ok { f with ret := true }
  | .iret => .ok { f with ret := true }
  | .other => .ok f

/-- analyze_x86.hpp:94-196: one instruction. -/
def findInsn (env : Env) (st : AState) (sec : ElfSec) (plt : Bool) (f : FindState) (s : Step) : M FindState :=
  if env.kind s.insn.id = .nop then .ok f
  else do
    let f ← findStart env sec s.insn f
    s.insn.groups.foldlM (findGroup env.build st plt s.insn s.address) f

/-- analyze_x86.hpp:79-86: is the section named? -/
def namesPlt (fl : AnalyzeFlags) (sec : ElfSec) : Bool := fl.hash_attributes && hasPrefix ".plt." (some sec.name)

/-- analyze_x86.hpp:71-198: one section. -/
def findSection (env : Env) (fl : AnalyzeFlags) (st : AState) (symbols : SymTree) (sec : ElfSec) : M SymTree := do
  let symbols ← insertSymbol env.build symbols (plainArgs sec (TLS.trans_addr sec.virt_addr sec.tls))
  if sec.executable then do
    let bytes ← readBytes sec.data 0 sec.size
    let f ← (disasm env sec.virt_addr bytes).foldlM (findInsn env st sec (namesPlt fl sec))
      { symbols := symbols, start := sec.virt_addr, max_branch := sec.virt_addr }
    return f.symbols
  else return symbols

/-- analyze_x86.hpp:69-201 `find_additional_functions`. -/
def findFunctions (env : Env) (fl : AnalyzeFlags) (st : AState) : M AState := do
  let symbols ← st.sections.foldlM (findSection env fl st) st.symbols
  return { st with symbols := symbols }

end Bean

import Verif.Model.FindFunctions
/-
Specification vocabulary for the search for functions.
-/
namespace Bean.Spec

/-- There is a symbol at the address. -/
def HasSym (t : SymTree) (k : Addr) : Prop := ∃ s ∈ t, s.address = k

/-- The instruction names an address directly, as immediate value or relative to the following instruction. -/
inductive Direct (i : Insn) : Addr → Prop
  | imm (v : Addr) (a : BitVec 8) : i.ops.getLast? = some (.imm v a) → Direct i v
  | rip (segment index : Reg) (scale : BitVec 32) (disp : BitVec 64) (a : BitVec 8) :
      i.ops.getLast? = some (.mem segment X86_REG_RIP index scale disp a) →
      Direct i (i.address + BitVec.ofNat 64 i.size + disp)

/-- `steps` are the instructions of an executable section. -/
def SectionCode (env : Env) (st : AState) (sec : ElfSec) (steps : List Step) : Prop :=
  sec ∈ st.sections ∧ sec.executable = true ∧
    ∃ bytes, readBytes sec.data 0 sec.size = .ok bytes ∧ steps = disasm env sec.virt_addr bytes

/-- A call with a direct target in an executable section; `k` is the address of the symbol for this target. -/
def CallsTo (st : AState) (i : Insn) (k : Addr) : Prop :=
  .call ∈ i.groups ∧ ∃ t sec, Direct i t ∧ Tree.floor st.sections t = some sec ∧ sec.executable = true ∧
    k = TLS.trans_addr t sec.tls

/-- The instruction does not continue with the following one (according to its number or its groups). -/
def Ends (env : Env) (x : Step) : Prop :=
  env.kind x.insn.id = .jmp ∨ env.kind x.insn.id = .halt ∨ .ret ∈ x.insn.groups ∨ .iret ∈ x.insn.groups

/-- The last instruction other than NOP does not continue. -/
def AfterEnd (env : Env) (pre : List Step) : Prop :=
  ∃ p, (pre.filter (fun x => decide (env.kind x.insn.id ≠ .nop))).getLast? = some p ∧ Ends env p

/-- A jump with a direct target. -/
def JumpsTo (env : Env) (x : Step) (t : Addr) : Prop :=
  env.kind x.insn.id ≠ .nop ∧ .jump ∈ x.insn.groups ∧ Direct x.insn t

/-- An ordinary instruction: no NOP, no end, no mark. -/
def Ordinary : InsKind → Prop
  | .nop => False
  | .jmp => False
  | .halt => False
  | .endbr => False
  | _ => True

/-- Addresses that are considered to be the start of something: sections, targets of calls, marks (ENDBR) that follow the end
of some code, and further instructions that follow the end of some code if none of the jumps since a previous start (or the
start of the section) leads to or over them. Jumps in named PLT sections make the last mark in front a start as well. -/
inductive Start (env : Env) (fl : AnalyzeFlags) (st : AState) (t' : SymTree) : Addr → Prop
  | sec (sec : ElfSec) : sec ∈ st.sections → Start env fl st t' (TLS.trans_addr sec.virt_addr sec.tls)
  | called (sec : ElfSec) (steps : List Step) (x : Step) (k : Addr) : SectionCode env st sec steps → x ∈ steps →
      env.kind x.insn.id ≠ .nop → CallsTo st x.insn k → Start env fl st t' k
  | mark (sec : ElfSec) (pre : List Step) (x : Step) (post : List Step) : SectionCode env st sec (pre ++ x :: post) →
      env.kind x.insn.id = .endbr → AfterEnd env pre → Start env fl st t' (TLS.trans_addr x.insn.address sec.tls)
  | next (sec : ElfSec) (pre1 pre2 : List Step) (x : Step) (post : List Step) :
      SectionCode env st sec (pre1 ++ pre2 ++ x :: post) → Ordinary (env.kind x.insn.id) → AfterEnd env (pre1 ++ pre2) →
      (pre1 = [] ∨ ∃ y l, pre2 = y :: l ∧ HasSym t' (TLS.trans_addr y.insn.address sec.tls)) →
      (namesPlt fl sec = false → ∀ y ∈ pre2, ∀ t, JumpsTo env y t → t < x.insn.address) →
      Start env fl st t' (TLS.trans_addr x.insn.address sec.tls)
  | plt (sec : ElfSec) (steps : List Step) (k : Addr) : SectionCode env st sec steps → namesPlt fl sec = true →
      (k = sec.virt_addr ∨ ∃ x ∈ steps, k = x.insn.address) → Start env fl st t' k

end Bean.Spec

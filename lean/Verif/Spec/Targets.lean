import Verif.Spec.Image
import Verif.Spec.Hash
/-
Vocabulary for pointers to symbols and for the flags of symbols.
-/
namespace Bean.Spec

/-- The relocation adds its load address to the addend. -/
def RelativeType (t : BitVec 64) : Prop := t = R_X86_64_RELATIVE ∨ t = R_X86_64_RELATIVE64 ∨ t = R_X86_64_IRELATIVE

instance (t : BitVec 64) : Decidable (RelativeType t) := by unfold RelativeType; infer_instance

/-- The section is a table of addresses or code for jumps to other libraries. -/
def LinkSection (sec : Section) : Prop := sec.name = some ".got" ∨ (sec.executable = true ∧ hasPrefix ".plt" sec.name = true)

instance (sec : Section) : Decidable (LinkSection sec) := by unfold LinkSection; infer_instance

/-- Jumps. -/
def JumpKind (k : InsKind) : Prop := k = .jmp ∨ k = .ljmp

instance (k : InsKind) : Decidable (JumpKind k) := by unfold JumpKind; infer_instance

/-- Operands that leave the jump a plain one: a branch to somewhere outside of the symbol, a register, or an address at a fixed
distance. -/
def PlainOperand (cx : SymCtx) (k : InsKind) : Operand → Prop
  | .imm v _ => Branching k ∧ ¬ InSym cx v
  | .mem segment base _ _ _ _ => segment ≠ X86_REG_FS ∧ base = X86_REG_RIP
  | .reg _ => True
  | .other => True

instance (cx : SymCtx) (k : InsKind) (op : Operand) : Decidable (PlainOperand cx k op) := by
  cases op <;> unfold PlainOperand <;> infer_instance

/-- The instruction does not rule out that the function only jumps. -/
def PlainStep (env : Env) (cx : SymCtx) (s : Step) : Prop :=
  (JumpKind (env.kind s.insn.id) ∨ env.kind s.insn.id = .endbr) ∧
    ∀ op ∈ s.insn.ops, PlainOperand cx (env.kind s.insn.id) op

instance (env : Env) (cx : SymCtx) (s : Step) : Decidable (PlainStep env cx s) := by unfold PlainStep; infer_instance

/-- The function consists of a single jump out of it, besides marks for targets of indirect branches. -/
def OnlyJumps (env : Env) (cx : SymCtx) (steps : List Step) : Prop :=
  (∀ s ∈ relevant env steps, PlainStep env cx s) ∧
    ((relevant env steps).filter (fun s => decide (JumpKind (env.kind s.insn.id)))).length = 1

instance (env : Env) (cx : SymCtx) (steps : List Step) : Decidable (OnlyJumps env cx steps) := by
  unfold OnlyJumps; infer_instance

/-- The code has a mark for targets of indirect branches. -/
def Marked (env : Env) (steps : List Step) : Prop := ∃ x, Relevant env steps x ∧ env.kind x.insn.id = .endbr

/-- The instructions in the `n` bytes at an address (up to the first undecodable one) are NOPs. -/
structure OnlyNops (env : Env) (sec : ElfSec) (k n : Addr) : Prop where
  inside : (TLS.virt_addr k - sec.virt_addr).toNat + n.toNat ≤ sec.data.length
  nops : ∀ x ∈ disasm env (TLS.virt_addr k) ((sec.data.drop (TLS.virt_addr k - sec.virt_addr).toNat).take n.toNat),
    env.kind x.insn.id = .nop

end Bean.Spec

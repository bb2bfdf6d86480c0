import Verif.Model.Elf
/-
Specification vocabulary for 32-bit files.
-/
namespace Bean.Spec

/-- A file for 386 or 486. In the 32-bit mode of the processor there are no operands relative to the instruction pointer. -/
structure Narrow (env : Env) : Prop where
  arch : env.arch = .i386
  mode : ∀ a bytes i, env.decode a bytes = some i → ∀ segment index scale disp access,
    Operand.mem segment X86_REG_RIP index scale disp access ∉ i.ops

/-- Types of relocations for 386 (of the processor supplement of the System V ABI). -/
def R_386_TLS_TPOFF32 : BitVec 64 := 37
def R_386_IRELATIVE : BitVec 64 := 42

end Bean.Spec

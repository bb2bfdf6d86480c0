import Verif.Model.HashInternal
/-
Specification vocabulary for the internal identifiers.
-/
namespace Bean.Spec

/-- The range of a symbol does not exceed the address space. -/
def SymFits (cx : SymCtx) : Prop := cx.address.toNat + cx.size.toNat < 2 ^ 64

/-- The target is inside of the symbol. -/
def InSym (cx : SymCtx) (target : Addr) : Prop :=
  cx.address.toNat ≤ target.toNat ∧ target.toNat < cx.address.toNat + cx.size.toNat

instance (cx : SymCtx) (t : Addr) : Decidable (InSym cx t) := by unfold InSym; infer_instance

/-- Jumps, returns and halts: execution does not continue behind the instruction. -/
def Leaving (k : InsKind) : Prop := k = .jmp ∨ k = .ljmp ∨ k = .ret ∨ k = .halt

instance (k : InsKind) : Decidable (Leaving k) := by unfold Leaving; infer_instance

/-- Instructions with a branch target as immediate operand. -/
def Branching (k : InsKind) : Prop := k = .jmp ∨ k = .call ∨ k = .condBranch

instance (k : InsKind) : Decidable (Branching k) := by unfold Branching; infer_instance

/-- A leaving instruction followed by nothing but zeros. -/
def FinalStep (env : Env) (s : Step) : Prop := Leaving (env.kind s.insn.id) ∧ ∀ b ∈ s.rest, b = 0

instance (env : Env) (s : Step) : Decidable (FinalStep env s) := by unfold FinalStep; infer_instance

/-- The instruction is part of the function: not a NOP and not in the padding of zeros behind a leaving instruction. -/
def Relevant (env : Env) (steps : List Step) (s : Step) : Prop :=
  env.kind s.insn.id ≠ .nop ∧ ∃ pre post, steps = pre ++ s :: post ∧ ∀ x ∈ pre, ¬ FinalStep env x

/-- Address of the following instruction. -/
def nextAddress (i : Insn) : Addr := i.address + BitVec.ofNat 64 i.size

/-- The operand refers to an address in the (not thread-local) address space outside of the symbol. -/
inductive FarTarget (cx : SymCtx) (k : InsKind) (next : Addr) : Operand → Addr → Prop
  | branch (v : Addr) (a : BitVec 8) : Branching k → ¬ InSym cx v → FarTarget cx k next (.imm v a) v
  | rip (segment index : Reg) (scale : BitVec 32) (disp : BitVec 64) (a : BitVec 8) :
      ¬ InSym cx (next + disp) → FarTarget cx k next (.mem segment X86_REG_RIP index scale disp a) (next + disp)

/-- The operand refers to a thread-local variable. -/
inductive TlsTarget (cx : SymCtx) : Operand → Addr → Prop
  | fs (base index : Reg) (scale : BitVec 32) (disp : BitVec 64) (a : BitVec 8) :
      TlsTarget cx (.mem X86_REG_FS base index scale disp a) (TLS.trans_addr (cx.tls_end + disp) true)

/-- The address inside of the symbol an operand refers to. -/
def nearTarget (cx : SymCtx) (k : InsKind) (next : Addr) : Operand → Option Addr
  | .imm v _ => if Branching k ∧ InSym cx v then some v else none
  | .mem _ base _ _ disp _ => if base = X86_REG_RIP ∧ InSym cx (next + disp) then some (next + disp) else none
  | _ => none

/-- The instructions of the function in their order (see `Relevant`). -/
def relevant (env : Env) : List Step → List Step
  | [] => []
  | s :: l =>
    if env.kind s.insn.id = .nop then relevant env l
    else if FinalStep env s then [s]
    else s :: relevant env l

/-- The targets inside of the function in the order of the instructions. -/
def nearTargets (env : Env) (cx : SymCtx) (steps : List Step) : List Addr :=
  (relevant env steps).flatMap
    (fun s => s.insn.ops.filterMap (nearTarget cx (env.kind s.insn.id) (nextAddress s.insn)))

/-- The function is taken to continue in the following symbol: its last instruction does not leave it, or its last
target inside of it lies behind the last instruction. -/
def Continues (env : Env) (cx : SymCtx) (steps : List Step) : Prop :=
  ∃ s, (relevant env steps).getLast? = some s ∧
    (¬ Leaving (env.kind s.insn.id) ∨ ∃ t, (nearTargets env cx steps).getLast? = some t ∧ s.address.toNat < t.toNat)

/-- A function refers to an address. -/
def CodeRefers (env : Env) (cx : SymCtx) (steps : List Step) (t : Addr) : Prop :=
  ∃ s, Relevant env steps s ∧ ∃ op ∈ s.insn.ops,
    FarTarget cx (env.kind s.insn.id) (nextAddress s.insn) op t ∨ TlsTarget cx op t

/-- Operands that are the same up to the location of the code: targets inside of the function have the same distance to
its start, targets outside are arbitrary. -/
inductive OpSim (cx cx' : SymCtx) (k : InsKind) (next next' : Addr) : Operand → Operand → Prop
  | reg (r : Reg) : OpSim cx cx' k next next' (.reg r) (.reg r)
  | imm (v : Addr) (a a' : BitVec 8) : ¬ Branching k → OpSim cx cx' k next next' (.imm v a) (.imm v a')
  | near (v v' : Addr) (a a' : BitVec 8) : Branching k → InSym cx v → InSym cx' v' →
      v.toNat - cx.address.toNat = v'.toNat - cx'.address.toNat → OpSim cx cx' k next next' (.imm v a) (.imm v' a')
  | far (v v' : Addr) (a a' : BitVec 8) : Branching k → ¬ InSym cx v → ¬ InSym cx' v' →
      OpSim cx cx' k next next' (.imm v a) (.imm v' a')
  | ripNear (segment segment' index index' : Reg) (scale scale' : BitVec 32) (disp disp' : BitVec 64) (a a' : BitVec 8) :
      (segment = X86_REG_FS ↔ segment' = X86_REG_FS) → InSym cx (next + disp) → InSym cx' (next' + disp') →
      (next + disp).toNat - cx.address.toNat = (next' + disp').toNat - cx'.address.toNat →
      OpSim cx cx' k next next' (.mem segment X86_REG_RIP index scale disp a)
        (.mem segment' X86_REG_RIP index' scale' disp' a')
  | ripFar (segment segment' index index' : Reg) (scale scale' : BitVec 32) (disp disp' : BitVec 64) (a a' : BitVec 8) :
      (segment = X86_REG_FS ↔ segment' = X86_REG_FS) → ¬ InSym cx (next + disp) → ¬ InSym cx' (next' + disp') →
      OpSim cx cx' k next next' (.mem segment X86_REG_RIP index scale disp a)
        (.mem segment' X86_REG_RIP index' scale' disp' a')
  | mem (segment base index : Reg) (scale : BitVec 32) (disp : BitVec 64) (a a' : BitVec 8) : base ≠ X86_REG_RIP →
      OpSim cx cx' k next next' (.mem segment base index scale disp a) (.mem segment base index scale disp a')
  | other : OpSim cx cx' k next next' .other .other

/-- Lists that are related element by element. -/
inductive Zip {α β : Type} (R : α → β → Prop) : List α → List β → Prop
  | nil : Zip R [] []
  | cons {x : α} {y : β} {xs : List α} {ys : List β} : R x y → Zip R xs ys → Zip R (x :: xs) (y :: ys)

/-- Instructions that are the same up to the location of the code; both or none are followed by padding. -/
structure StepSim (env : Env) (cx cx' : SymCtx) (s s' : Step) : Prop where
  id : s.insn.id = s'.insn.id
  «prefix» : s.insn.prefix = s'.insn.prefix
  opcode : s.insn.opcode = s'.insn.opcode
  ops : Zip (OpSim cx cx' (env.kind s.insn.id) (nextAddress s.insn) (nextAddress s'.insn)) s.insn.ops s'.insn.ops
  final : FinalStep env s ↔ FinalStep env s'

/-- Instruction sequences that are the same up to NOPs, padding and the location of the code. -/
inductive CodeSim (env : Env) (cx cx' : SymCtx) : List Step → List Step → Prop
  | nil : CodeSim env cx cx' [] []
  | nopLeft {s : Step} {l l' : List Step} : env.kind s.insn.id = .nop → CodeSim env cx cx' l l' →
      CodeSim env cx cx' (s :: l) l'
  | nopRight {s : Step} {l l' : List Step} : env.kind s.insn.id = .nop → CodeSim env cx cx' l l' →
      CodeSim env cx cx' l (s :: l')
  | step {s s' : Step} {l l' : List Step} : StepSim env cx cx' s s' → CodeSim env cx cx' l l' →
      CodeSim env cx cx' (s :: l) (s' :: l')
  | final {s s' : Step} {l l' : List Step} : StepSim env cx cx' s s' → FinalStep env s →
      CodeSim env cx cx' (s :: l) (s' :: l')

/-- `steps` are the instructions of the symbol in the section it belongs to. -/
def CodeOf (env : Env) (st : AState) (s : Symbol) (steps : List Step) : Prop :=
  ∃ sec bytes, Tree.floor st.sections s.address = some sec ∧
    readBytes sec.data (TLS.virt_addr s.address - sec.virt_addr) s.size = .ok bytes ∧
    steps = disasm env (TLS.virt_addr s.address) bytes

/-! The bytes that identify a function. -/

/-- Up to four bytes in front of the first zero. -/
def leading (l : List (BitVec 8)) : List (BitVec 8) := (l.take 4).takeWhile (· != 0)

/-- What an operand contributes. -/
def operandBytes (cx : SymCtx) (k : InsKind) (next : Addr) : Operand → List (BitVec 8)
  | .reg r => le32 r
  | .imm v _ => if Branching k then (if InSym cx v then le64 (v - cx.address) else le32 0xF00) else le64 v
  | .mem segment base index scale disp _ =>
    (if segment = X86_REG_FS then le32 0xF01 else []) ++
    (if base = X86_REG_RIP then
      (if InSym cx (next + disp) then le64 (next + disp - cx.address) else le32 0xF02)
    else le32 segment ++ le32 base ++ le32 index ++ le32 scale ++ le64 disp)
  | .other => []

/-- What an instruction contributes. -/
def insnBytes (env : Env) (cx : SymCtx) (i : Insn) : List (BitVec 8) :=
  le32 i.id ++ leading i.prefix ++ leading i.opcode ++ i.ops.flatMap (operandBytes cx (env.kind i.id) (nextAddress i))

/-- The bytes that identify a function (without attributes). -/
def codeInput (env : Env) (cx : SymCtx) (steps : List Step) : List (BitVec 8) :=
  (relevant env steps).flatMap (fun s => insnBytes env cx s.insn)

/-- The form of an operand. -/
inductive Form where
  | reg | value | near | far | mem (fs : Bool) | ripNear (fs : Bool) | ripFar (fs : Bool) | other
deriving DecidableEq

/-- The form of an operand in a function. -/
def form (cx : SymCtx) (k : InsKind) (next : Addr) : Operand → Form
  | .reg _ => .reg
  | .imm v _ => if Branching k then (if InSym cx v then .near else .far) else .value
  | .mem segment base _ _ disp _ =>
    if base = X86_REG_RIP then
      (if InSym cx (next + disp) then .ripNear (decide (segment = X86_REG_FS))
       else .ripFar (decide (segment = X86_REG_FS)))
    else .mem (decide (segment = X86_REG_FS))
  | .other => .other

/-- The aligned end of a section in the address space of the symbols. -/
def sectionEnd (env : Env) (sec : ElfSec) : Addr :=
  TLS.trans_addr (env.align_up (sec.virt_addr + sec.size) sec.alignment) sec.tls

/-- An operand of code that is moved by `d`: branch targets are given as absolute addresses. -/
def moveOp (k : InsKind) (d : Addr) : Operand → Operand
  | .imm v a => .imm (if Branching k then v + d else v) a
  | op => op

/-- An instruction moved by `d`. -/
def moveInsn (env : Env) (d : Addr) (i : Insn) : Insn :=
  { i with address := i.address + d, ops := i.ops.map (moveOp (env.kind i.id) d) }

/-- Decoding the same bytes at an address that is higher by `d` gives the instruction moved by `d`. -/
def MovesWith (env : Env) (d : Addr) : Prop :=
  ∀ a bytes, env.decode (a + d) bytes = (env.decode a bytes).map (moveInsn env d)

/-- A decoded instruction moved by `d`. -/
def moveStep (env : Env) (d : Addr) (s : Step) : Step :=
  { s with insn := moveInsn env d s.insn, address := s.address + d }

end Bean.Spec

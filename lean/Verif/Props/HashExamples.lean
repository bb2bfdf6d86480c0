import Verif.Spec.Hash
/-
A small instruction set and files for the examples beside the theorems on identifiers.
-/
namespace Bean

/-- Decidable form of a successful outcome. -/
theorem ok_of_decide {α : Type} [DecidableEq α] {m : M α} {a : α}
    (h : (match m with
      | .ok x => decide (x = a)
      | .error _ => false) = true) : m = .ok a := by
  cases m with
  | error e => cases h
  | ok x => rw [of_decide_eq_true h]

/-- Instruction with a branch target. -/
def exBranch (a : Addr) (id : BitVec 32) (opcode d : BitVec 8) (group : InsGroup) : Insn where
  address := a
  size := 2
  id := id
  opcode := [opcode]
  groups := [group]
  ops := [.imm (a + (2 + d.signExtend 64)) 0]
  imm_offset := 1
  imm_size := 1

/-- Load relative to the instruction pointer. -/
def exLoad (a : Addr) (d : BitVec 8) : Insn where
  address := a
  size := 2
  id := 7
  opcode := [0x8b]
  ops := [.reg 5, .mem 0 X86_REG_RIP 0 1 (d.signExtend 64) 1]
  disp_offset := 1
  disp_size := 1

/-- Store of an immediate value; the prefix 0x66 (third group) selects the operand size. -/
def exStore (a : Addr) (size : Nat) (word : BitVec 8) (v : BitVec 8) : Insn where
  address := a
  size := size
  id := 7
  «prefix» := [0, 0, word, 0]
  opcode := [0xc7]
  ops := [.mem 0 1 0 1 0 2, .imm (v.setWidth 64) 1]

/-- Decoder of a few instructions; displacements have one byte. -/
def exDecode (a : Addr) : List (BitVec 8) → Option Insn
  | 0x90#8 :: _ => some { address := a, size := 1, id := 1, opcode := [0x90] }
  | 0xc3#8 :: _ => some { address := a, size := 1, id := 2, opcode := [0xc3] }
  | 0x00#8 :: _ :: _ => some { address := a, size := 2, id := 3, ops := [.mem 0 1 0 1 0 3, .reg 5] }
  | 0xe8#8 :: d :: _ => some (exBranch a 4 0xe8 d .call)
  | 0xeb#8 :: d :: _ => some (exBranch a 5 0xeb d .jump)
  | 0x75#8 :: d :: _ => some (exBranch a 6 0x75 d .jump)
  | 0x8b#8 :: d :: _ => some (exLoad a d)
  | 0xc7#8 :: v :: _ => some (exStore a 2 0 v)
  | 0x66#8 :: 0xc7#8 :: v :: _ => some (exStore a 3 0x66 v)
  | _ => none

/-- Classes of the instruction numbers used by `exDecode`. -/
def exKind (id : BitVec 32) : InsKind :=
  if id = 1 then .nop else if id = 2 then .ret else if id = 4 then .call else if id = 5 then .jmp
  else if id = 6 then .condBranch else .other

/-- Environment for examples: the hash is the sum of the bytes weighted by position. -/
def exEnv : Env where
  decode := exDecode
  kind := exKind
  align_up := fun a _ => a
  xxhash := fun l => l.foldl (fun h b => h * 31 + b.setWidth 64 + 1) 7
  str_bytes := fun o => match o with
    | some s => s.toUTF8.toList.map (·.toBitVec)
    | none => []
  push_str := fun s => s.toUTF8.toList.map (·.toBitVec)
  reloc_size := fun t => if t = 0 then 0 else 8
  reloc_value := fun r _ => match r.symbol with
    | some s => s.value + r.addend
    | none => r.addend
  junk := fun _ _ => (0, 0)

/-- A file with one executable section at `base`. -/
def exCode (base : Addr) (code : List (BitVec 8)) (symbols : SymTree) : AState where
  sections := [{ name := ".text", virt_addr := base, size := BitVec.ofNat 64 code.length, executable := true,
                 data := code }]
  symbols := symbols

/-- An untyped symbol. -/
def exSym (a : Addr) : Symbol := { address := a }

example : (hashInternal exEnv {} (exCode 0x1000 [0xe8, 0x10, 0x75, 0xfc, 0xc3, 0x90, 0xc3] [exSym 0x1000, exSym 0x1006])).map
    (fun r => r.symbols.map (fun s => (s.address, s.size, s.refs))) =
    .ok [(0x1000, 6, [0x1012]), (0x1006, 1, [])] := by
  rfl

end Bean

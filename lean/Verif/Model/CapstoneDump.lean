import Verif.Model.CodeText
/-
Dump of machine code (src/capstone.cpp:63-89, src/capstone.hpp:12-16). Mnemonic and operands are written by capstone, here they are arbitrary texts for the bytes of an instruction; `env.decode` stands for
capstone in 64-bit mode, which is always used here (capstone.cpp:67), whatever the file is.
-/
namespace Bean
namespace CapDump

/-- capstone.cpp:76-81: a position of the fifteen for bytes. -/
def cell (bytes : List (BitVec 8)) (i : Nat) : Str :=
  match bytes[i]? with
  | some v => hexByte v ++ [' ']
  | none => [' ', ' ', ' ']

/-- capstone.cpp:73-83: text for an instruction. -/
def line (words : Addr → List (BitVec 8) → Wording) (i : Insn) (bytes : List (BitVec 8)) : Str :=
  '0' :: 'x' :: (padZeros 6 (Nat.toDigits 16 i.address.toNat) ++ (':' :: ' ' :: ((List.range 15).flatMap (cell bytes) ++
    ((words i.address bytes).mnemonic ++ ' ' :: (words i.address bytes).op_str))))

/-- capstone.cpp:72-84: the loop; `bytes` is what is left of the code. -/
def loop (words : Addr → List (BitVec 8) → Wording) : List Step → List (BitVec 8) → Str
  | [], _ => []
  | s :: rest, bytes => line words s.insn (bytes.take s.insn.size) ++ '\n' :: loop words rest s.rest

/-- capstone.cpp:63-89: result and text; `ready` tells if capstone could be opened and has memory for an instruction. -/
def dump (env : Env) (words : Addr → List (BitVec 8) → Wording) (ready : Bool) (start : Addr) (bytes : List (BitVec 8)) : Bool × Str :=
  if ready then (true, loop words (disasm env start bytes) bytes) else (false, [])

end CapDump
end Bean

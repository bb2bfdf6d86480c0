import Verif.Spec.Run
import Verif.Spec.Hash
/-
Code of sections with entries for imported functions (C111).
-/
namespace Bean.Spec

/-- Code that consists of entries for imported functions: a marker for targets of indirect branches, a jump through a slot, and padding.
The second list has the address of each entry and the name of the function whose address is put in the slot. -/
inductive Stubs (env : Env) (rels : List ElfRel) : List Step → List (Addr × Option String) → Prop
  | nil : Stubs env rels [] []
  | pad (x : Step) (rest : List Step) (l : List (Addr × Option String)) : env.kind x.insn.id = .nop → Stubs env rels rest l →
      Stubs env rels (x :: rest) l
  | stub (e : Step) (pads : List Step) (j : Step) (rest : List Step) (l : List (Addr × Option String)) (sg ix : Reg) (sc : BitVec 32) (disp : Addr) (ac : BitVec 8)
      (rel : ElfRel) (sym : ElfSym) :
      env.kind e.insn.id = .endbr → (∀ g ∈ e.insn.groups, g = .other) → (∀ p ∈ pads, env.kind p.insn.id = .nop) →
      env.kind j.insn.id = .jmp → .jump ∈ j.insn.groups → (∀ g ∈ j.insn.groups, g = .jump ∨ g = .other) →
      j.insn.ops = [.mem sg X86_REG_RIP ix sc disp ac] → rel ∈ rels → rel.offset = nextAddress j.insn + disp →
      (∀ rel' ∈ rels, rel'.offset = rel.offset → rel' = rel) → rel.symbol = some sym → Stubs env rels rest l →
      Stubs env rels (e :: (pads ++ j :: rest)) ((e.insn.address, sym.name) :: l)

end Bean.Spec

import Verif.Spec.Image
import Verif.Model.GraphMarks
/-
Vocabulary for the marks of the graph (C104).
-/
namespace Bean.Spec

/-- The entry of a symbol table of `d` is about the (translated) address `k`; thread-local ones are relative to the segment of the
binary for thread-local storage. -/
def DeclaredAt (elf d : Elf) (e : ElfSym) (k : Addr) : Prop :=
  DefinesAt d e k ∨ (e.type = .tls ∧ (∃ sec, InSection d.sections e sec) ∧
    ∃ seg, tlsSegment elf = some seg ∧ k = TLS.trans_addr (seg.virt_addr + e.value) true)

/-- Some table of the binary or of its debug symbols has a global symbol at `k`. -/
def GlobalAt (elf : Elf) (dbgsym : Option Elf) (k : Addr) : Prop :=
  ∃ d, Part elf dbgsym d ∧ ∃ e, TableEntry d e ∧ e.bind = .global ∧ DeclaredAt elf d e k

/-- Some table of the binary or of its debug symbols has a symbol at `k` that can be used by other files. -/
def VisibleAt (elf : Elf) (dbgsym : Option Elf) (k : Addr) : Prop :=
  ∃ d, Part elf dbgsym d ∧ ∃ e, TableEntry d e ∧ e.bind ≠ .local ∧ DeclaredAt elf d e k

/-- The lines that leave the node for the entry point. -/
def isEntryEdge : GraphLine → Bool
  | .entryEdge _ => true
  | _ => false

end Bean.Spec

import Verif.Model.Run
import Verif.Spec.Insert
import Verif.Spec.HashExternal
/-
Vocabulary for the properties of the complete analysis.
-/
namespace Bean.Spec

/-- A file that takes part in the analysis: the binary itself and its separate debug symbols. -/
def Part (elf : Elf) (dbgsym : Option Elf) (d : Elf) : Prop := d = elf ∨ dbgsym = some d

/-- An entry of a symbol table of a file. -/
def TableEntry (d : Elf) (sym : ElfSym) : Prop :=
  ∃ tbl ∈ d.sections, (tbl.type = .symtab ∨ tbl.type = .dynsym) ∧ tbl.size ≠ 0 ∧ sym ∈ tbl.symbols

/-- The entry defines a symbol at the (translated) address `k`. -/
def DefinesAt (d : Elf) (sym : ElfSym) (k : Addr) : Prop :=
  ∃ sec, Defines d.sections sym sec ∧ k = TLS.trans_addr sym.value sec.tls

/-- A section of the file that is part of the memory image. -/
def Loaded (elf : Elf) (sec : ElfSec) : Prop := sec ∈ elf.sections ∧ sec.allocate = true ∧ sec.size ≠ 0

instance (elf : Elf) (sec : ElfSec) : Decidable (Loaded elf sec) := by unfold Loaded; infer_instance

/-- Translated address of a section. -/
def secStart (sec : ElfSec) : Addr := TLS.trans_addr sec.virt_addr sec.tls

/-- Symbols do not get the names of the functions the procedure linkage table leads to. -/
def NoImportNames (fl : AnalyzeFlags) (elf : Elf) : Prop := ∀ sec, Loaded elf sec → namesPlt fl sec = false

/-- `k` is the address of code in a procedure linkage table whose functions get the names of imported ones: the start of the
section or one of its instructions. -/
def PltCode (env : Env) (fl : AnalyzeFlags) (elf : Elf) (k : Addr) : Prop :=
  ∃ sec, Loaded elf sec ∧ namesPlt fl sec = true ∧ sec.executable = true ∧ ∃ bytes, readBytes sec.data 0 sec.size = .ok bytes ∧
    (k = sec.virt_addr ∨ ∃ x ∈ disasm env sec.virt_addr bytes, k = x.insn.address)

end Bean.Spec

import Verif.Spec.Total
import Verif.Spec.FindFunctions
/-
Vocabulary for the addresses at which symbols start.
-/
namespace Bean.Spec

/-- Ends of segments that separate symbols: the end of the stored content of a loaded segment with further (zeroed) memory, and the
end of memory that is read-only after relocation. -/
def SegmentMark (seg : ElfSeg) (k : Addr) : Prop :=
  ((seg.type = .load ∧ seg.size < seg.virt_size) ∨ seg.type = .gnuRelro) ∧ k = seg.virt_addr + seg.size

/-- An entry of a symbol table makes symbols at its address and at its end (but for thread-local variables). -/
def EntryMark (elf d : Elf) (sym : ElfSym) (k : Addr) : Prop :=
  ∃ sec, LocatedAt elf d sym sec k ∨
    (InSection d.sections sym sec ∧ sym.type ≠ .tls ∧ sym.value ≠ 0 ∧ sec.allocate = true ∧ sym.size ≠ 0 ∧
      k = TLS.trans_addr (sym.value + sym.size) sec.tls)

/-- Pointers that are relocated with the base address: named by a relocation, or stored at the location of a packed relocation (and
not in front of all sections). -/
inductive PointerMark (elf : Elf) (dbgsym : Option Elf) : Addr → Prop
  | named (rel : ElfRel) : rel ∈ allRelocations elf dbgsym → RelativeType rel.type → PointerMark elf dbgsym rel.addend
  | stored (loc : Addr) (sec to : ElfSec) : loc ∈ allRelative elf dbgsym → SectionOf elf loc sec →
      (loc - sec.virt_addr).toNat + 8 ≤ sec.data.length →
      SectionOf elf (leValue ((sec.data.drop (loc - sec.virt_addr).toNat).take 8)) to →
      PointerMark elf dbgsym (leValue ((sec.data.drop (loc - sec.virt_addr).toNat).take 8))

/-- The sections of the file in memory. -/
def imageOf (elf : Elf) : AState :=
  { sections := Tree.ofList (elf.sections.filter (fun sec => sec.allocate && decide (sec.size ≠ 0))) }

/-- Reasons for a symbol at an address, given all symbols `t`. -/
inductive Boundary (env : Env) (fl : AnalyzeFlags) (elf : Elf) (dbgsym : Option Elf) (t : SymTree) (k : Addr) : Prop
  | segment (seg : ElfSeg) : seg ∈ elf.segments → SegmentMark seg k → Boundary env fl elf dbgsym t k
  | entry (d : Elf) (sym : ElfSym) : Part elf dbgsym d → TableEntry d sym → EntryMark elf d sym k → Boundary env fl elf dbgsym t k
  | pointer : PointerMark elf dbgsym k → Boundary env fl elf dbgsym t k
  | code : Start env fl (imageOf elf) t k → Boundary env fl elf dbgsym t k

/-- Addresses that are expected to be the start of a symbol, whichever other symbols there are. -/
inductive Expected (env : Env) (elf : Elf) (dbgsym : Option Elf) : Addr → Prop
  | segment (seg : ElfSeg) (k : Addr) : seg ∈ elf.segments → SegmentMark seg k → Expected env elf dbgsym k
  | entry (d : Elf) (sym : ElfSym) (k : Addr) : Part elf dbgsym d → TableEntry d sym → EntryMark elf d sym k →
      Expected env elf dbgsym k
  | sec (sec : ElfSec) : Loaded elf sec → Expected env elf dbgsym (secStart sec)
  | called (sec : ElfSec) (steps : List Step) (x : Step) (k : Addr) : SectionCode env (imageOf elf) sec steps → x ∈ steps →
      env.kind x.insn.id ≠ .nop → CallsTo (imageOf elf) x.insn k → Expected env elf dbgsym k
  | mark (sec : ElfSec) (pre : List Step) (x : Step) (post : List Step) : SectionCode env (imageOf elf) sec (pre ++ x :: post) →
      env.kind x.insn.id = .endbr → AfterEnd env pre → Expected env elf dbgsym (TLS.trans_addr x.insn.address sec.tls)
  | next (sec : ElfSec) (pre : List Step) (x : Step) (post : List Step) : SectionCode env (imageOf elf) sec (pre ++ x :: post) →
      Ordinary (env.kind x.insn.id) → AfterEnd env pre → sec.virt_addr < x.insn.address →
      (∀ y ∈ pre, y.insn.address < x.insn.address) → (∀ y ∈ pre, ∀ t, JumpsTo env y t → t < x.insn.address) →
      Expected env elf dbgsym (TLS.trans_addr x.insn.address sec.tls)

end Bean.Spec

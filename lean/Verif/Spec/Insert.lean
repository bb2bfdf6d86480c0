import Verif.Model.Read
import Verif.Spec.Lookup
/-
Vocabulary for the properties of symbol insertion and of reading the symbol tables (C27 to C31).
-/
namespace Bean.Spec

/-- A sequence of calls of `insert_symbol`, first one first. -/
def insertAll (b : Build) (t : SymTree) (as : List InsertArgs) : M SymTree := as.foldlM (insertSymbol b) t

/-- The range of an insertion ends below the end of the address space. -/
def Fits (a : InsertArgs) : Prop := a.address.toNat + a.size.toNat < 2 ^ 64

instance (a : InsertArgs) : Decidable (Fits a) := inferInstanceAs (Decidable (_ < _))
instance (s : Symbol) : Decidable (NoWrap s) := inferInstanceAs (Decidable (_ < _))

/-- Reading all entries of one symbol table. -/
def readSymbols (b : Build) (elf_sections : List ElfSec) (st : AState) (syms : List ElfSym) : M AState :=
  syms.foldlM (readSymbol b elf_sections) st

/-- The section an entry of a symbol table refers to. -/
def InSection (elf_sections : List ElfSec) (sym : ElfSym) (sec : ElfSec) : Prop :=
  ∃ n, sym.shndx = .index n ∧ elf_sections[n]? = some sec

/-- Entry of a symbol table that defines a symbol in section `sec`: not thread-local, with an address, in an allocated
section. -/
structure Defines (elf_sections : List ElfSec) (sym : ElfSym) (sec : ElfSec) : Prop where
  index : InSection elf_sections sym sec
  not_tls : sym.type ≠ .tls
  value : sym.value ≠ 0
  allocated : sec.allocate = true

/-- A symbol lies in a region, as numbers: both ends are inside of `[start, start + size]`. -/
def Inside (s : Symbol) (f : SectionFlag) : Prop :=
  f.start.toNat ≤ s.address.toNat ∧ s.address.toNat + s.size.toNat ≤ f.start.toNat + f.size.toNat

instance (s : Symbol) (f : SectionFlag) : Decidable (Inside s f) := inferInstanceAs (Decidable (_ ∧ _))

end Bean.Spec

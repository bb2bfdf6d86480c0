import Verif.Spec.Boundary
/-
Vocabulary for files whose symbols can be told to lie in their sections without analysing them.
-/
namespace Bean.Spec

/-- Addresses the file refers to as start or end of something: ends of segments, entries of symbol tables and their ends,
relocated pointers and targets of calls. -/
inductive FileMark (env : Env) (elf : Elf) (dbgsym : Option Elf) : Addr → Prop
  | segment (seg : ElfSeg) (k : Addr) : seg ∈ elf.segments → SegmentMark seg k → FileMark env elf dbgsym k
  | entry (d : Elf) (sym : ElfSym) (k : Addr) : Part elf dbgsym d → TableEntry d sym → EntryMark elf d sym k →
      FileMark env elf dbgsym k
  | pointer (k : Addr) : PointerMark elf dbgsym k → FileMark env elf dbgsym k
  | called (sec : ElfSec) (steps : List Step) (x : Step) (k : Addr) : SectionCode env (imageOf elf) sec steps → x ∈ steps →
      env.kind x.insn.id ≠ .nop → CallsTo (imageOf elf) x.insn k → FileMark env elf dbgsym k

/-- Addresses at which symbols may start: those, the starts of sections, and any instruction. -/
inductive Place (env : Env) (elf : Elf) (dbgsym : Option Elf) : Addr → Prop
  | mark (k : Addr) : FileMark env elf dbgsym k → Place env elf dbgsym k
  | sec (sec : ElfSec) : Loaded elf sec → Place env elf dbgsym (secStart sec)
  | insn (sec : ElfSec) (steps : List Step) (x : Step) : SectionCode env (imageOf elf) sec steps → x ∈ steps →
      Place env elf dbgsym (TLS.trans_addr x.insn.address sec.tls)

/-- End of the memory of a section with the padding for its alignment. -/
def secTop (env : Env) (sec : ElfSec) : Addr := env.align_up (sec.virt_addr + sec.size) sec.alignment

/-- Addresses at which symbols in a section may end: the end of the section, the start of another symbol, the end of an
entry of a symbol table, or the end of a jump in a PLT section (whose entries are named). -/
inductive Cut (env : Env) (elf : Elf) (dbgsym : Option Elf) (sec : ElfSec) : Addr → Prop
  | top : Cut env elf dbgsym sec (secTop env sec)
  | place (k : Addr) : Place env elf dbgsym k → secStart sec ≤ k → k ≤ secEnd env sec →
      Cut env elf dbgsym sec (TLS.virt_addr k)
  | entry (d : Elf) (sym : ElfSym) (from_ : ElfSec) (k : Addr) : Part elf dbgsym d → TableEntry d sym →
      LocatedAt elf d sym from_ k → SectionOf elf k sec → Cut env elf dbgsym sec (TLS.virt_addr k + sym.size)
  | slot (steps : List Step) (x : Step) : SectionCode env (imageOf elf) sec steps → hasPrefix ".plt." (some sec.name) = true →
      x ∈ steps → .jump ∈ x.insn.groups → Cut env elf dbgsym sec x.address

/-- A file whose marks and entries lie in its sections, whose sections lie in its segments, and whose relocations are not cut
by symbols. -/
structure Tidy (env : Env) (elf : Elf) (dbgsym : Option Elf) : Prop where
  bounds : ∀ sec, Loaded elf sec → sec.virt_addr.toNat + sec.size.toNat ≤ (secTop env sec).toNat ∧
    (secTop env sec).toNat < 2 ^ 52
  disjoint : ∀ sec sec', Loaded elf sec → Loaded elf sec' → (secStart sec).toNat < (secStart sec').toNat →
    (secStart sec).toNat + sec.size.toNat ≤ (secStart sec').toNat
  marks : ∀ k, FileMark env elf dbgsym k → ∃ sec, SectionOf elf k sec ∧ k ≤ secEnd env sec
  entries : ∀ d, Part elf dbgsym d → ∀ sym, TableEntry d sym → ∀ from_ k, LocatedAt elf d sym from_ k →
    ∀ sec, SectionOf elf k sec →
      (from_.executable = true → sec.executable = true) ∧ k.toNat + sym.size.toNat ≤ (secEnd env sec).toNat
  segments : ∀ seg ∈ elf.segments, seg.type = .load → seg.size < seg.virt_size → seg.executable = true →
    ∀ sec, SectionOf elf (seg.virt_addr + seg.size) sec → sec.executable = true
  code : ∀ sec, Loaded elf sec → sec.executable = true → sec.tls = false ∧ sec.type ≠ .nobits ∧
    ∃ k, Expected env elf dbgsym k ∧ secEnd env sec ≤ k
  memory : ∀ sec, Loaded elf sec → ∀ a : Addr, sec.virt_addr ≤ a → a ≤ secTop env sec →
    ∃ seg, SegmentFor elf sec a seg ∧ secTop env sec ≤ env.align_up (seg.virt_addr + seg.virt_size) seg.alignment
  stored : ∀ sec, Loaded elf sec → sec.type ≠ .nobits → (secTop env sec).toNat ≤ sec.virt_addr.toNat + sec.data.length
  pointers : ∀ sec, Loaded elf sec → sec.type ≠ .nobits → ∀ o ∈ allRelative elf dbgsym, sec.virt_addr ≤ o →
    o < secTop env sec → (o - sec.virt_addr).toNat + 8 ≤ sec.data.length
  whole : ∀ sec, Loaded elf sec → sec.type ≠ .nobits → ∀ p, Cut env elf dbgsym sec p → ∀ e ∈ allRelocations elf dbgsym,
    sec.virt_addr ≤ e.offset → e.offset < p → e.offset.toNat + (env.reloc_size e.type).toNat ≤ p.toNat
  wholePacked : ∀ sec, Loaded elf sec → sec.type ≠ .nobits → ∀ p, Cut env elf dbgsym sec p → ∀ o ∈ allRelative elf dbgsym,
    sec.virt_addr ≤ o → o < p → o.toNat + (env.reloc_size R_X86_64_RELATIVE).toNat ≤ p.toNat

/-- For the reconstruction of relocations: an entry of a symbol table with name and type is in front of everything that relocations
and instructions refer to. (If imports are named then their symbols have names.) -/
def Fronted (env : Env) (fl : AnalyzeFlags) (elf : Elf) (dbgsym : Option Elf) : Prop :=
  ∃ d sym from_ low, Part elf dbgsym d ∧ TableEntry d sym ∧ LocatedAt elf d sym from_ low ∧ sym.name ≠ none ∧
    (∀ d', Part elf dbgsym d' → ∀ sym', TableEntry d' sym' → ∀ sec, LocatedAt elf d' sym' sec low → sym'.type ≠ .notype) ∧
    (∀ plt, Loaded elf plt → namesPlt fl plt = true → ∀ e ∈ allRelocations elf dbgsym, ∀ y, e.symbol = some y → y.name ≠ none) ∧
    (∀ e ∈ allRelocations elf dbgsym, ∀ a, (relOfElf env a fl.resolve_internal (gotAddress elf) e).target = 0 ∨
      low ≤ (relOfElf env a fl.resolve_internal (gotAddress elf) e).target) ∧
    (∀ o ∈ allRelative elf dbgsym, ∀ sec ∈ elf.sections,
      leValue ((sec.data.drop (o - sec.virt_addr).toNat).take 8) = 0 ∨
      low ≤ leValue ((sec.data.drop (o - sec.virt_addr).toNat).take 8)) ∧
    ∀ k sec n, Place env elf dbgsym k → SectionOf elf k sec → k.toNat + n ≤ (secEnd env sec).toNat →
      ∀ x ∈ disasm env k ((sec.data.drop (k - sec.virt_addr).toNat).take n), ∀ op ∈ x.insn.ops, ∀ offset size target,
        RefersTo (tlsEnd env (tlsSegment elf)) (env.kind x.insn.id) x.insn op offset size target →
        target = 0 ∨ low ≤ target

end Bean.Spec

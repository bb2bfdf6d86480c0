import Verif.Spec.Targets
import Verif.Spec.Reconstruct
/-
Vocabulary for files that are analysed without failing assertions and undefined behaviour.
-/
namespace Bean.Spec

/-- An entry of a symbol table belongs to the section `sec` and makes a symbol at the address `k`. -/
def LocatedAt (elf d : Elf) (sym : ElfSym) (sec : ElfSec) (k : Addr) : Prop :=
  InSection d.sections sym sec ∧
    ((sym.type = .tls ∧ ∃ seg, tlsSegment elf = some seg ∧ k = TLS.trans_addr (seg.virt_addr + sym.value) true) ∨
     (sym.type ≠ .tls ∧ sym.value ≠ 0 ∧ sec.allocate = true ∧ k = TLS.trans_addr sym.value sec.tls))

/-- Code is not writeable and its addresses do not look like those of thread-local data. -/
def PlainAt (sec : ElfSec) (k : Addr) : Prop := sec.executable = true → sec.writeable = false ∧ TLS.is_tls k = false

instance (sec : ElfSec) (k : Addr) : Decidable (PlainAt sec k) := by unfold PlainAt; infer_instance

/-- The tables of the files can be read: no two sections start at the same address, sections named by symbols exist,
thread-local symbols belong to thread-local sections, typed symbols do not start in front of their section, symbols with a
size at the same address have the same access rights, and relative relocations point into sections. -/
structure Legible (elf : Elf) (dbgsym : Option Elf) : Prop where
  distinct : ∀ sec sec', Loaded elf sec → Loaded elf sec' → (secStart sec).toNat = (secStart sec').toNat → sec = sec'
  tls : (elf.segments.filter (fun seg => decide (seg.type = .tls))).length ≤ 1
  segments : ∀ seg ∈ elf.segments, seg.type = .load → seg.size < seg.virt_size → seg.executable = true →
    seg.writeable = false ∧ TLS.is_tls (seg.virt_addr + seg.size) = false
  index : ∀ d, Part elf dbgsym d → ∀ sym, TableEntry d sym → ∀ n, sym.shndx = .index n → n < d.sections.length
  thread : ∀ d, Part elf dbgsym d → ∀ sym, TableEntry d sym → ∀ sec, InSection d.sections sym sec → sym.type = .tls →
    sec.tls = true ∧ sec.executable = false ∧ tlsSegment elf ≠ none
  other : ∀ d, Part elf dbgsym d → ∀ sym, TableEntry d sym → ∀ sec, InSection d.sections sym sec → sym.type ≠ .tls →
    TLS.is_tls sym.value = false ∧ (sym.type ≠ .notype → sec.virt_addr ≤ sym.value) ∧
    PlainAt sec (TLS.trans_addr sym.value sec.tls)
  agree : ∀ d, Part elf dbgsym d → ∀ sym, TableEntry d sym → ∀ d', Part elf dbgsym d' → ∀ sym', TableEntry d' sym' →
    sym.size ≠ 0 → sym'.size ≠ 0 → ∀ sec sec' k, LocatedAt elf d sym sec k → LocatedAt elf d' sym' sec' k →
    sec.writeable = sec'.writeable ∧ sec.executable = sec'.executable
  relative : ∀ rel ∈ allRelocations elf dbgsym, RelativeType rel.type → ∃ sec, SectionOf elf rel.addend sec ∧
    sec.tls = false ∧ (rel.type = R_X86_64_IRELATIVE → sec.executable = true) ∧ PlainAt sec rel.addend
  packed : ∀ o ∈ allRelative elf dbgsym, ∃ sec, SectionOf elf o sec ∧ (o - sec.virt_addr).toNat + 8 ≤ sec.data.length ∧
    ∀ sec', SectionOf elf (leValue ((sec.data.drop (o - sec.virt_addr).toNat).take 8)) sec' →
      PlainAt sec' (leValue ((sec.data.drop (o - sec.virt_addr).toNat).take 8))

/-! ### Symbols -/

/-- End of a section in memory, including the padding for its alignment. -/
def secEnd (env : Env) (sec : ElfSec) : Addr :=
  TLS.trans_addr (env.align_up (sec.virt_addr + sec.size) sec.alignment) sec.tls

/-- Sizes a symbol may get: its own one, or the distance to the end of its section or to another symbol behind. -/
def SizeFor (env : Env) (t : SymTree) (sec : ElfSec) (s : Symbol) (n : Addr) : Prop :=
  n = s.size ∨ n = secEnd env sec - s.address ∨
    ∃ z ∈ t, s.address < z.address ∧ z.address < secEnd env sec ∧ n = z.address - s.address

/-- Is the symbol code? Symbols without section are treated like the section they are in. -/
def IsCode (sec : ElfSec) (s : Symbol) : Prop :=
  if s.sec.name = none then sec.executable = true else s.sec.executable = true

instance (sec : ElfSec) (s : Symbol) : Decidable (IsCode sec s) := by unfold IsCode; infer_instance

/-- The segment the size of data is checked against, the closest one in front according to its *offset* in the file. -/
def SegmentFor (elf : Elf) (sec : ElfSec) (a : Addr) (seg : ElfSeg) : Prop :=
  (sec.tls = true ∧ tlsSegment elf = some seg) ∨
  (sec.tls = false ∧ seg ∈ loadSegments elf ∧ seg.offset.toNat ≤ a.toNat ∧
    ∀ seg' ∈ loadSegments elf, seg'.offset.toNat ≤ a.toNat → seg' = seg ∨ seg'.offset.toNat < seg.offset.toNat)

/-- Data without content in the file. -/
def NoContent (sec : ElfSec) (seg : ElfSeg) (a : Addr) : Prop := sec.type = .nobits ∨ seg.virt_addr + seg.size ≤ a

/-- `n` bytes at the address of the symbol, and the pointers that start in there, are part of the file. -/
structure Stored (elf : Elf) (dbgsym : Option Elf) (sec : ElfSec) (s : Symbol) (n : Addr) : Prop where
  bytes : (TLS.virt_addr s.address - sec.virt_addr).toNat + n.toNat ≤ sec.data.length
  pointers : ∀ o ∈ allRelative elf dbgsym, s.address ≤ o → o.toNat < (TLS.virt_addr s.address).toNat + n.toNat →
    (o - sec.virt_addr).toNat + 8 ≤ sec.data.length

/-- Code of `n` bytes: there is another symbol behind. -/
structure CodeWithin (elf : Elf) (dbgsym : Option Elf) (t : SymTree) (sec : ElfSec) (s : Symbol) (n : Addr) : Prop where
  stored : Stored elf dbgsym sec s n
  below : s.address.toNat + n.toNat < 2 ^ 64
  next : ∃ z ∈ t, s.address + n ≤ z.address

/-- Data of `n` bytes: part of its segment, without relocations that cross its end. -/
structure DataWithin (env : Env) (elf : Elf) (dbgsym : Option Elf) (sec : ElfSec) (seg : ElfSeg) (s : Symbol) (n : Addr) :
    Prop where
  segment : (TLS.virt_addr s.address).toNat + n.toNat ≤ (env.align_up (seg.virt_addr + seg.virt_size) seg.alignment).toNat
  stored : ¬ NoContent sec seg (TLS.virt_addr s.address) → Stored elf dbgsym sec s n
  whole : ¬ NoContent sec seg (TLS.virt_addr s.address) → ∀ e ∈ allRelocations elf dbgsym,
    (TLS.virt_addr s.address).toNat ≤ e.offset.toNat → e.offset.toNat < (TLS.virt_addr s.address).toNat + n.toNat →
    e.offset.toNat + (env.reloc_size e.type).toNat ≤ (TLS.virt_addr s.address).toNat + n.toNat
  wholePacked : ¬ NoContent sec seg (TLS.virt_addr s.address) → ∀ o ∈ allRelative elf dbgsym,
    s.address ≤ o → o.toNat < (TLS.virt_addr s.address).toNat + n.toNat →
    o.toNat + (env.reloc_size R_X86_64_RELATIVE).toNat ≤ (TLS.virt_addr s.address).toNat + n.toNat

/-- A symbol lies in a section of the file, no matter which of its possible sizes it gets. -/
structure Within (env : Env) (elf : Elf) (dbgsym : Option Elf) (t : SymTree) (s : Symbol) (sec : ElfSec) : Prop where
  section_ : SectionOf elf s.address sec
  end_ : s.address ≤ secEnd env sec
  code : IsCode sec s → sec.tls = false ∧ TLS.is_tls s.address = false ∧
    ∀ n, SizeFor env t sec s n → CodeWithin elf dbgsym t sec s n
  data : ¬ IsCode sec s → ∃ seg, SegmentFor elf sec (TLS.virt_addr s.address) seg ∧
    ∀ n, SizeFor env t sec s n → DataWithin env elf dbgsym sec seg s n

/-- Addresses relocations and instructions refer to. -/
inductive Pointed (env : Env) (fl : AnalyzeFlags) (elf : Elf) (dbgsym : Option Elf) (t : SymTree) : Addr → Prop
  | relocation (e : ElfRel) (a : Addr) : e ∈ allRelocations elf dbgsym →
      Pointed env fl elf dbgsym t (relOfElf env a fl.resolve_internal (gotAddress elf) e).target
  | packed (o : Addr) (sec : ElfSec) : o ∈ allRelative elf dbgsym → sec ∈ elf.sections →
      Pointed env fl elf dbgsym t (leValue ((sec.data.drop (o - sec.virt_addr).toNat).take 8))
  | code (s : Symbol) (sec : ElfSec) (n : Addr) (x : Step) (op : Operand) (offset size : BitVec 8) (target : Addr) :
      s ∈ t → SectionOf elf s.address sec → SizeFor env t sec s n →
      x ∈ disasm env s.address ((sec.data.drop (s.address - sec.virt_addr).toNat).take n.toNat) → op ∈ x.insn.ops →
      RefersTo (tlsEnd env (tlsSegment elf)) (env.kind x.insn.id) x.insn op offset size target →
      Pointed env fl elf dbgsym t target

/-- The symbols lie in sections of the file. For the reconstruction of relocations there is a symbol with a name in front of
everything that is referred to. -/
structure Contained (env : Env) (fl : AnalyzeFlags) (elf : Elf) (dbgsym : Option Elf) (t : SymTree) : Prop where
  within : ∀ s ∈ t, ∃ sec, Within env elf dbgsym t s sec
  low : fl.reconstruct = true → ∃ z ∈ t, z.name ≠ none ∧
    ∀ a, Pointed env fl elf dbgsym t a → a = 0 ∨ z.address ≤ a

end Bean.Spec

import Verif.Spec.Total
import Verif.Spec.HashExternal
/-
Vocabulary for files that are linked to another address (C100).
-/
namespace Bean.Spec

/-- How a file is moved: the distance, is there thread-local storage, and the contents of the sections afterwards. -/
structure Rebase where
  dist : Addr
  tls : Bool
  data : ElfSec → List (BitVec 8)

/-! ### The moved file -/

/-- The section of an entry of a symbol table. -/
def tableSection (secs : List ElfSec) (sym : ElfSym) : Option ElfSec :=
  match sym.shndx with
  | .index n => secs[n]?
  | _ => none

/-- Entries of a symbol table for allocated sections are moved. The value of thread-local ones is an offset. -/
def rebaseTableSym (secs : List ElfSec) (k : Addr) (sym : ElfSym) : ElfSym :=
  { sym with value :=
      if sym.type ≠ .tls ∧ (tableSection secs sym).any (fun sec => sec.allocate) = true then sym.value + k else sym.value }

/-- The symbol of a relocation. -/
def rebaseRelSym (k : Addr) (sym : ElfSym) : ElfSym :=
  { sym with value :=
      match sym.shndx with
      | .index _ => if sym.type = .tls then sym.value else sym.value + k
      | _ => sym.value }

/-- A relocation: its location, its symbol, and the addend if it is an address. -/
def rebaseElfRel (k : Addr) (r : ElfRel) : ElfRel :=
  { r with
    offset := r.offset + k
    addend := if RelativeType r.type then r.addend + k else r.addend
    symbol := r.symbol.map (rebaseRelSym k) }

/-- A section. -/
def rebaseSec (m : Rebase) (secs : List ElfSec) (sec : ElfSec) : ElfSec :=
  { sec with
    virt_addr := if sec.allocate then sec.virt_addr + m.dist else sec.virt_addr
    symbols := sec.symbols.map (rebaseTableSym secs m.dist)
    relocations := sec.relocations.map (rebaseElfRel m.dist)
    relative := sec.relative.map (· + m.dist)
    data := m.data sec }

/-- Entries of the dynamic table with an address. -/
def AddressTag (t : DynTag) : Prop :=
  t = .pltgot ∨ t = .rel ∨ t = .relr ∨ t = .strtab ∨ t = .initArray ∨ t = .preinitArray ∨ t = .finiArray

instance (t : DynTag) : Decidable (AddressTag t) := by unfold AddressTag; infer_instance

def rebaseDyn (k : Addr) (e : DynTag × Addr) : DynTag × Addr := (e.1, if AddressTag e.1 then e.2 + k else e.2)

/-- A segment; its place in the file stays as it is. -/
def rebaseSeg (k : Addr) (seg : ElfSeg) : ElfSeg :=
  { seg with virt_addr := seg.virt_addr + k, dynamic := seg.dynamic.map (rebaseDyn k) }

/-- The file linked to an address that is higher by `m.dist`. -/
def rebaseElf (m : Rebase) (elf : Elf) : Elf :=
  { entry := elf.entry + m.dist
    segments := elf.segments.map (rebaseSeg m.dist)
    sections := elf.sections.map (rebaseSec m elf.sections) }

/-! ### The moved result -/

/-- Zero stands for no address. -/
def rebaseZero (k a : Addr) : Addr := if a = 0 then 0 else a + k

/-- An address that is referred to. Without thread-local storage, the offsets to its (not existing) end are not moved. -/
def rebaseRef (tls : Bool) (k a : Addr) : Addr := if TLS.is_tls a = true ∧ tls = false then a else a + k

/-- The target of a relocation. Zero stands for no address. -/
def rebaseTarget (tls : Bool) (k a : Addr) : Addr := if a = 0 then 0 else rebaseRef tls k a

/-- A relocation of a symbol. -/
def rebaseRel (tls : Bool) (k : Addr) (r : Rel) : Rel :=
  { r with
    offset := r.offset + k
    addend := if RelativeType r.type then r.addend + k else r.addend
    target := rebaseTarget tls k r.target }

/-- A symbol. -/
def rebaseSymbol (tls : Bool) (k : Addr) (s : Symbol) : Symbol :=
  { s with
    address := s.address + k
    sec := { s.sec with address := rebaseZero k s.sec.address }
    deps := s.deps.map (· + k)
    refs := s.refs.map (rebaseRef tls k)
    rels := s.rels.map (rebaseRel tls k) }

/-- The members that are not set have the contents they have for the other file. -/
def rebaseEnv (k : Addr) (env : Env) : Env := { env with junk := fun a o => env.junk (a - k) (o - k) }

/-- The state of the analysis. -/
def rebaseState (m : Rebase) (secs : List ElfSec) (st : AState) : AState :=
  { symbols := st.symbols.map (rebaseSymbol m.tls m.dist)
    sections := st.sections.map (rebaseSec m secs)
    relocations := st.relocations.map (rebaseElfRel m.dist)
    relative_relocations := st.relative_relocations.map (· + m.dist)
    segments := st.segments.map (rebaseSeg m.dist)
    global_offset_table := rebaseZero m.dist st.global_offset_table
    section_flags := st.section_flags.map (fun f => { f with start := f.start + m.dist })
    tls_segment := st.tls_segment.map (rebaseSeg m.dist) }

/-! ### Conditions -/

/-- An address that stays below 2^51 (far away from the bits that mark thread-local addresses) if moved. -/
def Low (k a : Addr) : Prop := a.toNat + k.toNat < 2 ^ 51

/-- It is not zero, either. -/
def Addressed (k a : Addr) : Prop := a ≠ 0 ∧ Low k a

/-- The same for addresses of symbols: the bits of thread-local addresses are set only if there is thread-local storage. -/
def AddressedT (tls : Bool) (k a : Addr) : Prop :=
  ∃ v t, Addressed k v ∧ (t = true → tls = true) ∧ a = TLS.trans_addr v t

instance (k a : Addr) : Decidable (Low k a) := by unfold Low; infer_instance
instance (k a : Addr) : Decidable (Addressed k a) := by unfold Addressed; infer_instance

/-- Addresses of symbols and references, which may be zero. -/
def LowT (tls : Bool) (k a : Addr) : Prop := ∃ v t, Low k v ∧ (t = true → tls = true) ∧ a = TLS.trans_addr v t

/-- `n` bytes at the address. -/
def LowRange (k a n : Addr) : Prop := a.toNat + n.toNat + k.toNat < 2 ^ 51

instance (k a n : Addr) : Decidable (LowRange k a n) := by unfold LowRange; infer_instance

/-- Sizes of tables come with their addresses. -/
structure Paired (i : DynInfo) : Prop where
  rel : i.relsz ≠ 0 → i.rel ≠ 0
  relr : i.relrsz ≠ 0 → i.relr ≠ 0
  strtab : i.strsz ≠ 0 → i.strtab ≠ 0
  preinit : i.preinitArraySz ≠ 0 → i.preinitArray ≠ 0
  init : i.initArraySz ≠ 0 → i.initArray ≠ 0
  fini : i.finiArraySz ≠ 0 → i.finiArray ≠ 0

/-- Rounding up moves along. -/
def AlignMoves (env : Env) (k a n : Addr) : Prop := env.align_up (a + k) n = env.align_up a n + k ∧ Low k (env.align_up a n)

structure SegmentLow (env : Env) (k : Addr) (seg : ElfSeg) : Prop where
  file : LowRange k seg.virt_addr seg.size
  memory : LowRange k seg.virt_addr seg.virt_size
  start : seg.type = .load ∧ seg.size < seg.virt_size ∨ seg.type = .gnuRelro → seg.virt_addr ≠ 0
  align : AlignMoves env k (seg.virt_addr + seg.virt_size) seg.alignment
  tags : seg.type = .dynamic → ∀ e ∈ seg.dynamic, if AddressTag e.1 then Addressed k e.2 else e.2.toNat < 2 ^ 51
  paired : seg.type = .dynamic → Paired (seg.dynamic.foldl DynInfo.step {})

structure SectionLow (env : Env) (m : Rebase) (sec : ElfSec) : Prop where
  start : Addressed m.dist sec.virt_addr
  range : LowRange m.dist sec.virt_addr sec.size
  align : AlignMoves env m.dist (sec.virt_addr + sec.size) sec.alignment
  tls : sec.tls = true → m.tls = true

/-- An entry of a symbol table in a section. -/
structure SymbolLow (m : Rebase) (elf : Elf) (sym : ElfSym) (sec : ElfSec) : Prop where
  tls : sym.type = .tls → sec.allocate = true ∧ sym.size.toNat < 2 ^ 51 ∧
    ∀ seg, tlsSegment elf = some seg → Addressed m.dist (seg.virt_addr + sym.value)
  other : sym.type ≠ .tls → sec.allocate = true → Addressed m.dist sym.value ∧ LowRange m.dist sym.value sym.size

/-- A relocation of the file. Resolvers of indirect functions (`R_X86_64_IRELATIVE`) are not recognised as addresses unless
relocations are resolved. -/
structure RelocationLow (env : Env) (fl : AnalyzeFlags) (k got : Addr) (r : ElfRel) : Prop where
  offset : Low k r.offset
  size : (env.reloc_size r.type).toNat < 2 ^ 51
  relative : RelativeType r.type → Addressed k r.addend ∧ ¬ Imports r
  indirect : RelativeType r.type → env.arch.relative r.type = false → fl.resolve_internal = true
  value : fl.resolve_internal = true → ¬ Imports r → env.arch.relative r.type = false →
    Addressed k (env.reloc_value r got) ∧
      env.reloc_value (rebaseElfRel k r) (rebaseZero k got) = env.reloc_value r got + k

/-- Targets of branches and calls that are looked at in the search for functions. -/
def TargetsLow (env : Env) (k : Addr) (x : Step) : Prop :=
  InsGroup.jump ∈ x.insn.groups ∨ InsGroup.call ∈ x.insn.groups → ∀ t, directTarget x.insn = .ok (some t) →
    Addressed k t ∧ ∀ v a, x.insn.ops.getLast? = some (.imm v a) → Branching (env.kind x.insn.id)

/-- The file can be moved. -/
structure Rebasable (env : Env) (fl : AnalyzeFlags) (m : Rebase) (elf : Elf) (dbgsym : Option Elf) : Prop where
  decode : MovesWith env m.dist
  place : ∀ a bytes i, env.decode a bytes = some i → i.address = a
  tls : m.tls = (tlsSegment elf).isSome
  segments : ∀ seg ∈ elf.segments, seg.type ≠ .other → SegmentLow env m.dist seg
  sections : ∀ sec ∈ elf.sections, sec.allocate = true → SectionLow env m sec
  debug : ∀ d, dbgsym = some d → ∀ sec ∈ d.sections, sec.allocate = true →
    Addressed m.dist sec.virt_addr ∧ (sec.tls = true → m.tls = true)
  symbols : ∀ d, Part elf dbgsym d → ∀ sym, TableEntry d sym → ∀ sec, InSection d.sections sym sec → SymbolLow m elf sym sec
  relocations : ∀ r ∈ allRelocations elf dbgsym, RelocationLow env fl m.dist (gotAddress elf) r
  packed : ∀ o ∈ allRelative elf dbgsym, Low m.dist o
  length : ∀ sec, Loaded elf sec → (m.data sec).length = sec.data.length
  pointers : ∀ o ∈ allRelative elf dbgsym, ∀ sec, Loaded elf sec → (secStart sec).toNat ≤ o.toNat →
    o.toNat < (secEnd env sec).toNat → (o - sec.virt_addr).toNat + 8 ≤ sec.data.length →
    Addressed m.dist (leValue ((sec.data.drop (o - sec.virt_addr).toNat).take 8)) ∧
    leValue (((m.data sec).drop (o - sec.virt_addr).toNat).take 8) =
      leValue ((sec.data.drop (o - sec.virt_addr).toNat).take 8) + m.dist
  inside : ∀ o ∈ allRelative elf dbgsym, ∀ sec, Loaded elf sec → (secStart sec).toNat ≤ o.toNat →
    (∀ sec', Loaded elf sec' → (secStart sec').toNat ≤ o.toNat → (secStart sec').toNat ≤ (secStart sec).toNat) →
    o.toNat < (secEnd env sec).toNat
  code : ∀ sec, Loaded elf sec → sec.executable = true →
    (m.data sec).take (secEnd env sec - secStart sec).toNat = sec.data.take (secEnd env sec - secStart sec).toNat ∧
    sec.size.toNat ≤ (secEnd env sec - secStart sec).toNat ∧
    ∀ x ∈ disasm env sec.virt_addr (sec.data.take sec.size.toNat), TargetsLow env m.dist x

/-! ### Conditions on the symbols found -/

/-- Addresses in an operand. Offsets to the end of the thread-local storage are moved if there is one. -/
def OperandLow (env : Env) (m : Rebase) (tls_end : Addr) (i : Insn) : Operand → Prop
  | .imm v _ => Branching (env.kind i.id) → Low m.dist v
  | .mem segment base _ _ disp _ => (segment = X86_REG_FS → m.tls = true → Low m.dist (tls_end + disp)) ∧
      (base = X86_REG_RIP → Low m.dist (nextAddress i + disp))
  | _ => True

instance (env : Env) (m : Rebase) (tls_end : Addr) (i : Insn) (op : Operand) : Decidable (OperandLow env m tls_end i op) := by
  unfold OperandLow; split <;> infer_instance

/-- Places (address and length) the dynamic linker fills in. Packed relocations are not found for thread-local symbols. -/
def filledPlaces (env : Env) (st : AState) (thread : Bool) : List (Addr × Addr) :=
  st.relocations.map (fun r => (r.offset, env.reloc_size r.type)) ++
  (if thread then [] else st.relative_relocations.map (fun o => (o, env.reloc_size R_X86_64_RELATIVE))) ++
  (if st.global_offset_table = 0 then [] else [(st.global_offset_table, 16)])

/-- The address is in one of these places. -/
def Filled (env : Env) (st : AState) (thread : Bool) (a : Nat) : Prop :=
  ∃ p ∈ filledPlaces env st thread, p.1.toNat ≤ a ∧ a < p.1.toNat + p.2.toNat

instance (env : Env) (st : AState) (thread : Bool) (a : Nat) : Decidable (Filled env st thread a) := by
  unfold Filled; infer_instance

/-- Code of `n` bytes. -/
structure CodeSteady (env : Env) (m : Rebase) (st : AState) (s : Symbol) (sec : ElfSec) (n : Addr) : Prop where
  operands : ∀ x ∈ disasm env s.address ((sec.data.drop (s.address - sec.virt_addr).toNat).take n.toNat), ∀ op ∈ x.insn.ops,
    OperandLow env m (tlsEnd env st.tls_segment) x.insn op

/-- Data of `n` bytes. Segments are looked up by their place in the file, which is not moved. -/
structure DataSteady (env : Env) (m : Rebase) (st : AState) (s : Symbol) (sec : ElfSec) (n : Addr) : Prop where
  segment : sec.tls = false → ∀ seg, Tree.floor st.segments s.address = some seg → ∃ seg',
    Tree.floor st.segments (s.address + m.dist) = some seg' ∧
    (sec.type = .nobits ∨ (seg'.virt_addr + seg'.size ≤ s.address ↔ seg.virt_addr + seg.size ≤ s.address)) ∧
    (s.address + n ≤ env.align_up (seg.virt_addr + seg.virt_size) seg.alignment →
      s.address + n ≤ env.align_up (seg'.virt_addr + seg'.virt_size) seg'.alignment)
  bytes : ∀ i < n.toNat, Filled env st (TLS.is_tls s.address) ((TLS.virt_addr s.address).toNat + i) ∨
    (m.data sec)[(TLS.virt_addr s.address - sec.virt_addr).toNat + i]? =
      sec.data[(TLS.virt_addr s.address - sec.virt_addr).toNat + i]?
  start : ∀ p ∈ filledPlaces env st (TLS.is_tls s.address), p.1.toNat < (TLS.virt_addr s.address).toNat →
    p.1.toNat + p.2.toNat ≤ (TLS.virt_addr s.address).toNat
  table : (TLS.virt_addr s.address).toNat < st.global_offset_table.toNat →
    (TLS.virt_addr s.address).toNat + n.toNat ≤ st.global_offset_table.toNat

/-- A symbol and the section it is in. -/
structure SymbolSteady (env : Env) (m : Rebase) (st : AState) (s : Symbol) (sec : ElfSec) : Prop where
  inside : s.address.toNat + s.size.toNat ≤ (secEnd env sec).toNat
  code : IsCode sec s → sec.executable = true ∧ sec.tls = false ∧
    ∀ n, SizeFor env st.symbols sec s n → CodeSteady env m st s sec n
  data : ¬ IsCode sec s → ∀ n, SizeFor env st.symbols sec s n → DataSteady env m st s sec n

/-- The symbols differ only at places that are filled in by the dynamic linker. -/
structure Steady (env : Env) (m : Rebase) (st : AState) : Prop where
  page : m.dist.toNat % 0x1000 = 0
  width : (env.reloc_size R_X86_64_RELATIVE).toNat < 2 ^ 51
  apart : ∀ p ∈ filledPlaces env st false, ∀ q ∈ filledPlaces env st false,
    (p.1.toNat < q.1.toNat → p.1.toNat + p.2.toNat ≤ q.1.toNat) ∧ (p.1 = q.1 → p.2 = q.2)
  symbols : ∀ s ∈ st.symbols, ∀ sec, Tree.floor st.sections s.address = some sec → SymbolSteady env m st s sec

/-- Everything that is referred to lies behind a symbol of its address space (or is thread-local although there is no
thread-local storage). -/
def Anchored (m : Rebase) (t : SymTree) : Prop :=
  ∀ s ∈ t, ∀ a ∈ s.refs, (TLS.is_tls a = true ∧ m.tls = false) ∨
    ∃ y, Tree.floor t a = some y ∧ TLS.is_tls y.address = TLS.is_tls a

end Bean.Spec

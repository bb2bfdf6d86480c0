import Verif.Model.Insert
/-
Reading of the ELF tables (src/analyze.hpp:184-444 and src/analyze_x86.hpp:24-201).
-/
namespace Bean

/-- analyze.hpp:66-72 `SectionFlag`. -/
structure SectionFlag where
  flag : BitVec 16
  start : Addr
  size : Addr
deriving DecidableEq, Repr

/-- analyze.hpp:36-76: the members of `Analyze` that change during the analysis. -/
structure AState where
  symbols : SymTree := []
  sections : List ElfSec := []
  relocations : List ElfRel := []
  relative_relocations : List Addr := []
  segments : List ElfSeg := []
  global_offset_table : Addr := 0
  section_flags : List SectionFlag := []
  tls_segment : Option ElfSeg := none
deriving DecidableEq, Repr

/-- `section_flags.emplace_back(flag, start, size)` -/
def AState.addFlag (st : AState) (flag : BitVec 16) (start size : Addr) : AState :=
  { st with section_flags := st.section_flags ++ [{ flag := flag, start := start, size := size }] }

/-- `if (size != 0) section_flags.emplace_back(flag, start, size)` -/
def AState.addFlagSized (st : AState) (flag : BitVec 16) (start size : Addr) : AState :=
  if size ≠ 0 then st.addFlag flag start size else st

/-- `insert_symbol` on the member `symbols`. -/
def AState.insertSymbol (b : Build) (st : AState) (a : InsertArgs) : M AState := do
  let symbols ← Bean.insertSymbol b st.symbols a
  return { st with symbols := symbols }

/-- analyze.hpp:214-225: local variables for the dynamic table. -/
structure DynInfo where
  rel : Addr := 0
  relsz : Addr := 0
  relr : Addr := 0
  relrsz : Addr := 0
  strtab : Addr := 0
  strsz : Addr := 0
  preinitArray : Addr := 0
  preinitArraySz : Addr := 0
  initArray : Addr := 0
  initArraySz : Addr := 0
  finiArray : Addr := 0
  finiArraySz : Addr := 0

/-- analyze.hpp:226-281: one entry of the dynamic table (`DT_PLTGOT` is handled in `readDynamic`). -/
def DynInfo.step (i : DynInfo) (e : DynTag × Addr) : DynInfo :=
  match e.1 with
  | .rel => { i with rel := e.2 }
  | .relsz => { i with relsz := e.2 }
  | .relr => { i with relr := e.2 }
  | .relrsz => { i with relrsz := e.2 }
  | .strtab => { i with strtab := e.2 }
  | .strsz => { i with strsz := e.2 }
  | .initArray => { i with initArray := e.2 }
  | .initArraySz => { i with initArraySz := e.2 }
  | .preinitArray => { i with preinitArray := e.2 }
  | .preinitArraySz => { i with preinitArraySz := e.2 }
  | .finiArray => { i with finiArray := e.2 }
  | .finiArraySz => { i with finiArraySz := e.2 }
  | .pltgot => i
  | .other => i

/-- analyze.hpp:211-295 segment `PT_DYNAMIC`. -/
def readDynamic (st : AState) (seg : ElfSeg) : AState :=
  let st := st.addFlag SECTION_DYNAMIC seg.virt_addr seg.virt_size
  let st := seg.dynamic.foldl
    (fun st e => if e.1 = .pltgot then { st with global_offset_table := e.2 } else st) st
  let i := seg.dynamic.foldl DynInfo.step {}
  let st := st.addFlagSized SECTION_RELOC i.rel i.relsz
  let st := st.addFlagSized SECTION_RELOC i.relr i.relrsz
  let st := st.addFlagSized SECTION_STRTAB i.strtab i.strsz
  let st := st.addFlagSized SECTION_INIT i.preinitArray i.preinitArraySz
  let st := st.addFlagSized SECTION_INIT i.initArray i.initArraySz
  st.addFlagSized SECTION_FINI i.finiArray i.finiArraySz

/-- analyze.hpp:190-311: one segment. -/
def readSegment (b : Build) (st : AState) (seg : ElfSeg) : M AState :=
  match seg.type with
  | .tls => do
    massert b st.tls_segment.isNone
    return { st with tls_segment := some seg }
  | .load =>
    let st := { st with segments := (Tree.insert st.segments seg).1 }
    if seg.size < seg.virt_size then do
      let st ← st.insertSymbol b
        { address := seg.virt_addr + seg.size, section_address := seg.virt_addr, writeable := seg.writeable,
          executable := seg.executable }
      return st.addFlag SECTION_NOBITS (seg.virt_addr + seg.size) (seg.virt_size - seg.size)
    else .ok st
  | .dynamic => .ok (readDynamic st seg)
  | .note => .ok (st.addFlag SECTION_NOTE seg.virt_addr seg.virt_size)
  | .gnuRelro =>
    (st.addFlag SECTION_RELRO seg.virt_addr seg.virt_size).insertSymbol b
      { address := seg.virt_addr + seg.size, writeable := true }
  | .gnuEhFrame => .ok (st.addFlag SECTION_EH_FRAME seg.virt_addr seg.virt_size)
  | .other => .ok st

/-- analyze.hpp:188-313 `read(segments)`. -/
def readSegments (b : Build) (st : AState) (segs : List ElfSeg) : M AState := segs.foldlM (readSegment b) st

/-- Arguments for a symbol of a table in a section (analyze.hpp:401, 411). -/
def symbolArgs (sec : ElfSec) (sym : ElfSym) (address : Addr) : InsertArgs :=
  { address := address, size := sym.size, name := sym.name, section_address := sec.virt_addr,
    section_name := some sec.name, writeable := sec.writeable, executable := sec.executable, type := sym.type,
    bind := sym.bind }

/-- analyze.hpp:388-419: one entry of a symbol table. The section index is not checked by the code, an index beyond
the section table is undefined behaviour. -/
def readSymbol (b : Build) (elf_sections : List ElfSec) (st : AState) (sym : ElfSym) : M AState :=
  match sym.shndx with
  | .undef => .ok st
  | .abs => .ok st
  | .common => .ok st
  | .xindex => .ok st
  | .index n =>
    match elf_sections[n]? with
    | none => .error .ub
    | some sec =>
      if sym.type = .tls then do
        massert b sec.tls
        let tls ← mderef b st.tls_segment
        st.insertSymbol b (symbolArgs sec sym (TLS.trans_addr (tls.virt_addr + sym.value) true))
      else do
        massert b (!TLS.is_tls sym.value)
        if sym.type ≠ .notype then massert b (decide (sym.value ≥ sec.virt_addr)) else .ok ()
        if sym.value ≠ 0 ∧ sec.allocate = true then do
          let st ← st.insertSymbol b (symbolArgs sec sym (TLS.trans_addr sym.value sec.tls))
          if sym.size > 0 then
            st.insertSymbol b { address := TLS.trans_addr (sym.value + sym.size) sec.tls }
          else return st
        else return st

/-- The flag announced by a section type (analyze.hpp:330-386). -/
def secFlag : SecType → Option (BitVec 16)
  | .rel => some SECTION_RELOC
  | .rela => some SECTION_RELOC
  | .relr => some SECTION_RELOC
  | .hash => some SECTION_HASH
  | .gnuHash => some SECTION_HASH
  | .verdef => some SECTION_VERSION
  | .verneed => some SECTION_VERSION
  | .versym => some SECTION_VERSION
  | .initArray => some SECTION_INIT
  | .preinitArray => some SECTION_INIT
  | .finiArray => some SECTION_FINI
  | .strtab => some SECTION_STRTAB
  | .dynamic => some SECTION_DYNAMIC
  | .nobits => some SECTION_NOBITS
  | .symtab => some SECTION_SYMTAB
  | .dynsym => some SECTION_SYMTAB
  | .other => none

/-- analyze.hpp:322-329: registration of an allocated section. -/
def addSection (st : AState) (sec : ElfSec) : AState :=
  let st := { st with sections := (Tree.insert st.sections sec).1 }
  if sec.name = ".init" then st.addFlag SECTION_INIT sec.virt_addr sec.size
  else if sec.name = ".fini" then st.addFlag SECTION_FINI sec.virt_addr sec.size
  else st

/-- analyze.hpp:319-425: one section. -/
def readSection (b : Build) (elf_sections : List ElfSec) (add_sections : Bool) (st : AState) (sec : ElfSec) : M AState :=
  if sec.size = 0 then .ok st
  else
    let st := if sec.allocate && add_sections then addSection st sec else st
    let st := if sec.allocate && add_sections then
        match secFlag sec.type with
        | some flag => st.addFlag flag sec.virt_addr sec.size
        | none => st
      else st
    match sec.type with
    | .rel => .ok { st with relocations := sec.relocations.foldl (fun t r => (Tree.insert t r).1) st.relocations }
    | .rela => .ok { st with relocations := sec.relocations.foldl (fun t r => (Tree.insert t r).1) st.relocations }
    | .relr => .ok { st with
        relative_relocations := sec.relative.foldl (fun t r => (Tree.insert t r).1) st.relative_relocations }
    | .symtab => sec.symbols.foldlM (readSymbol b elf_sections) st
    | .dynsym => sec.symbols.foldlM (readSymbol b elf_sections) st
    | _ => .ok st

/-- analyze.hpp:318-427 `read(sections, add_sections)`. -/
def readSections (b : Build) (add_sections : Bool) (st : AState) (secs : List ElfSec) : M AState :=
  secs.foldlM (readSection b secs add_sections) st

/-- Arguments for a symbol without size and name in a section. -/
def plainArgs (sec : ElfSec) (address : Addr) (type : ElfSymType := .hiproc) : InsertArgs :=
  { address := address, section_address := sec.virt_addr, section_name := some sec.name,
    writeable := sec.writeable, executable := sec.executable, type := type }

/-- analyze_x86.hpp:26-35: symbols at the targets of relative relocations. -/
def readRelocation (b : Build) (st : AState) (rel : ElfRel) : M AState :=
  if rel.type = R_X86_64_RELATIVE ∨ rel.type = R_X86_64_RELATIVE64 ∨ rel.type = R_X86_64_IRELATIVE then do
    let sec ← mderef b (Tree.floor st.sections rel.addend)
    massert b (rel.type != R_X86_64_IRELATIVE || sec.executable)
    massert b (!sec.tls)
    st.insertSymbol b (plainArgs sec rel.addend)
  else .ok st

/-- analyze_x86.hpp:51-58: symbols at the targets of packed relative relocations. -/
def readRelative (b : Build) (st : AState) (offset : Addr) : M AState := do
  let rel_sec ← mderef b (Tree.floor st.sections offset)
  let bytes ← readBytes rel_sec.data (offset - rel_sec.virt_addr) 8
  let addend := leValue bytes
  match Tree.floor st.sections addend with
  | some sec => st.insertSymbol b (plainArgs sec addend)
  | none => return st

/-- analyze_x86.hpp:25-59 `read()`. -/
def readTargets (b : Build) (st : AState) : M AState := do
  let st ← st.relocations.foldlM (readRelocation b) st
  st.relative_relocations.foldlM (readRelative b) st

/-- `String::compare(a, prefix, n) == 0` for a prefix of length `n`: equality of the first `n` characters. A null
pointer is not equal to a prefix. -/
def hasPrefix (pre : String) (s : Option String) : Bool :=
  match s with
  | some s => pre.toList.isPrefixOf s.toList
  | none => false

/-- analyze.hpp:440-442: a symbol gets the flag of a region. -/
def regionFlag (sym : Symbol) (f : SectionFlag) : Symbol :=
  if sym.address ≥ f.start ∧ sym.address + sym.size < f.start + f.size then
    { sym with sec := { sym.sec with flags := sym.sec.flags ||| f.flag } }
  else sym

/-- analyze.hpp:434-443: flags for one symbol. -/
def flagSymbol (section_flags : List SectionFlag) (sym : Symbol) : Symbol :=
  let sym :=
    if sym.sec.name = some ".got" then { sym with flags := sym.flags ||| SYMBOL_TRAMPOLINE }
    else if sym.sec.executable && hasPrefix ".plt" sym.sec.name then
      { sym with flags := sym.flags ||| SYMBOL_TRAMPOLINE }
    else sym
  section_flags.foldl regionFlag sym

/-- analyze.hpp:430-444 `add_flags` on a symbol tree. -/
def addFlags (entry : Addr) (section_flags : List SectionFlag) (symbols : SymTree) : SymTree :=
  (Tree.modify symbols entry (fun s => { s with flags := s.flags ||| SYMBOL_ENTRY })).map (flagSymbol section_flags)

end Bean

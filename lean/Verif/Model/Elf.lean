import Verif.Model.Symbol
/-
Input of the analysis: contents of an ELF file as delivered by the library Elfo, decoded instructions as delivered
by capstone, and the remaining external functions. The sources of these libraries are not part of /repo: the data
types here list the accessors used in src/analyze.hpp and src/analyze_x86.hpp, their values are arbitrary.
-/
namespace Bean

/-- Symbol types the switch in analyze.hpp:124-133 distinguishes; `hiproc` is the default argument in line 118,
`other` any further value. -/
inductive ElfSymType where
  | notype | object | func | section | file | common | tls | gnuIfunc | hiproc | other
deriving DecidableEq, Repr

/-- Symbol bindings the switch in analyze.hpp:137-141 distinguishes. -/
inductive ElfSymBind where
  | local | global | weak | other
deriving DecidableEq, Repr

/-- Special section indices (analyze.hpp:389-392). -/
inductive SecIndex where
  | undef | abs | common | xindex | index (n : Nat)
deriving DecidableEq, Repr

/-- Entry of a symbol table. -/
structure ElfSym where
  value : Addr
  size : Addr := 0
  name : Option String := none
  type : ElfSymType := .notype
  bind : ElfSymBind := .local
  shndx : SecIndex := .undef
deriving DecidableEq, Repr

/-- Relocation of a file; `symbol` is absent iff `symbol_index()` is zero. -/
structure ElfRel where
  offset : Addr
  type : Addr
  addend : BitVec 64 := 0
  symbol : Option ElfSym := none
deriving DecidableEq, Repr

/-- bean.hpp:307-316: relocations of the file are ordered by offset. -/
instance : Keyed ElfRel := ⟨ElfRel.offset⟩

/-- Section types distinguished in analyze.hpp:330-423. -/
inductive SecType where
  | rel | rela | relr | hash | gnuHash | verdef | verneed | versym | initArray | preinitArray | finiArray
  | strtab | dynamic | nobits | symtab | dynsym | other
deriving DecidableEq, Repr

/-- A section. `data` are the bytes of the file from the section contents up to the end of the mapping
(`section.data()` is a plain pointer into the mapped file). -/
structure ElfSec where
  type : SecType := .other
  name : String := ""
  virt_addr : Addr
  size : Addr
  alignment : Addr := 1
  allocate : Bool := true
  writeable : Bool := false
  executable : Bool := false
  tls : Bool := false
  symbols : List ElfSym := []
  relocations : List ElfRel := []
  relative : List Addr := []
  data : List (BitVec 8) := []
deriving DecidableEq, Repr

/-- bean.hpp:285-295: sections are ordered by their translated address. -/
instance : Keyed ElfSec := ⟨fun s => TLS.trans_addr s.virt_addr s.tls⟩

/-- Segment types distinguished in analyze.hpp:191-311. -/
inductive SegType where
  | tls | load | dynamic | note | gnuRelro | gnuEhFrame | other
deriving DecidableEq, Repr

/-- Tags of dynamic entries distinguished in analyze.hpp:227-281 (`DT_REL` and `DT_RELA` etc. are not told apart). -/
inductive DynTag where
  | pltgot | rel | relsz | relr | relrsz | strtab | strsz | initArray | initArraySz | preinitArray | preinitArraySz
  | finiArray | finiArraySz | other
deriving DecidableEq, Repr

/-- A segment; `size` is the size in the file, `virt_size` the size in memory. -/
structure ElfSeg where
  type : SegType
  offset : Addr := 0
  virt_addr : Addr
  size : Addr
  virt_size : Addr
  alignment : Addr := 1
  writeable : Bool := false
  executable : Bool := false
  dynamic : List (DynTag × Addr) := []
deriving DecidableEq, Repr

/-- bean.hpp:297-306: segments are ordered by their offset in the file. -/
instance : Keyed ElfSeg := ⟨ElfSeg.offset⟩

/-- The file to analyze. -/
structure Elf where
  entry : Addr := 0
  segments : List ElfSeg := []
  sections : List ElfSec := []
deriving DecidableEq, Repr

/-! Relocation types for x86-64 used by the analysis. -/
def R_X86_64_NONE : Addr := 0
def R_X86_64_PC32 : Addr := 2
def R_X86_64_PLT32 : Addr := 4
def R_X86_64_RELATIVE : Addr := 8
def R_X86_64_GOTPCREL : Addr := 9
def R_X86_64_PC16 : Addr := 13
def R_X86_64_PC8 : Addr := 15
def R_X86_64_TPOFF64 : Addr := 18
def R_X86_64_TPOFF32 : Addr := 23
def R_X86_64_PC64 : Addr := 24
def R_X86_64_IRELATIVE : Addr := 37
def R_X86_64_RELATIVE64 : Addr := 38

/-- The constructor of relocations distinguishes these files (bean.cpp:40-77): 64-bit files for x86-64, 32-bit files for 386 and 486, and other
combinations of class and machine. -/
inductive Arch where
  | x86_64 | i386 | mixed
deriving DecidableEq, Repr

/-- bean.cpp:52, 72: the target of relocations of this type is the addend. `R_386_RELATIVE` is 8 as well. -/
def Arch.relative : Arch → Addr → Bool
  | .x86_64, t => t == R_X86_64_RELATIVE || t == R_X86_64_RELATIVE64
  | .i386, t => t == R_X86_64_RELATIVE
  | .mixed, _ => false

/-- Classes of instructions distinguished by the switches over `insn->id` (analyze_x86.hpp:98-130, 224-259, 485-520).
`ret` stands for RET, RETF, RETFQ, IRET, IRETD, IRETQ; `halt` for HLT, SYSEXIT, SYSRET; `endbr` for ENDBR32, ENDBR64;
`condBranch` for all instructions in the list of `is_branch_instruction` except JMP and CALL. -/
inductive InsKind where
  | nop | jmp | ljmp | ret | halt | endbr | call | condBranch | other
deriving DecidableEq, Repr

/-- Instruction groups used in analyze_x86.hpp:132-196. -/
inductive InsGroup where
  | jump | call | ret | iret | other
deriving DecidableEq, Repr

/-- `x86_reg`, an enumeration of the size of `int`. -/
abbrev Reg := BitVec 32

/-- The two registers the analysis refers to (only that their numbers differ is used). -/
def X86_REG_FS : Reg := 32
def X86_REG_RIP : Reg := 41

/-- Operands (`cs_x86_op`); `access` holds the bits CS_AC_READ (1) and CS_AC_WRITE (2). -/
inductive Operand where
  | reg (r : Reg)
  | imm (value : BitVec 64) (access : BitVec 8)
  | mem (segment base index : Reg) (scale : BitVec 32) (disp : BitVec 64) (access : BitVec 8)
  | other
deriving DecidableEq, Repr

/-- A decoded instruction (`cs_insn` with details). -/
structure Insn where
  address : Addr
  size : Nat
  id : BitVec 32
  «prefix» : List (BitVec 8) := []
  opcode : List (BitVec 8) := []
  groups : List InsGroup := []
  ops : List Operand := []
  imm_offset : BitVec 8 := 0
  imm_size : BitVec 8 := 0
  disp_offset : BitVec 8 := 0
  disp_size : BitVec 8 := 0
deriving DecidableEq, Repr

/-- External functions used by the analysis; all of them are arbitrary. -/
structure Env where
  /-- are assertions compiled in? -/
  build : Build := .debug
  /-- class and machine of the file -/
  arch : Arch := .x86_64
  /-- capstone: decode one instruction at an address -/
  decode : Addr → List (BitVec 8) → Option Insn
  /-- class of an instruction number (the numbers are defined by capstone) -/
  kind : BitVec 32 → InsKind
  /-- dlh: `Math::align_up` -/
  align_up : Addr → Addr → Addr
  /-- dlh: `XXHash64` with seed `id_hash_seed` of the bytes added -/
  xxhash : List (BitVec 8) → BitVec 64
  /-- dlh: the bytes added to a hash for a `const char *` -/
  str_bytes : Option String → List (BitVec 8)
  /-- dlh: the bytes added to a `ByteBuffer` for a `const char *` (nonempty string) -/
  push_str : String → List (BitVec 8)
  /-- Elfo: `Relocator::size` of a relocation type -/
  reloc_size : Addr → Addr
  /-- Elfo: `Relocator::value` of a relocation with the address of the GOT -/
  reloc_value : ElfRel → Addr → Addr
  /-- contents of the members `instruction_offset` and `instruction_access` that the constructors in bean.cpp:40-77
  leave uninitialised, for the relocation of a symbol (address) at an offset -/
  junk : Addr → Addr → BitVec 4 × BitVec 8

/-- bean.hpp:353-360 `Bean::Flags` (without the debug flag). -/
structure AnalyzeFlags where
  resolve_internal : Bool := false
  reconstruct : Bool := false
  keep_unused : Bool := false
  hash_attributes : Bool := false
deriving DecidableEq, Repr

/-- bean.hpp:353-360: decoding of the flag word. -/
def AnalyzeFlags.ofWord (w : BitVec 32) : AnalyzeFlags where
  resolve_internal := w.getLsbD 1
  reconstruct := w.getLsbD 2
  keep_unused := w.getLsbD 3
  hash_attributes := w.getLsbD 4

/-- One successful call of `cs_disasm_iter`: the instruction and the updated loop variables `address`, `data`. -/
structure Step where
  insn : Insn
  address : Addr
  rest : List (BitVec 8)
deriving DecidableEq, Repr

/-- `while (cs_disasm_iter(cshandle, &data, &size, &address, insn))`: the sequence of decoded instructions of a byte
string. Decoding stops at the first undecodable instruction. An instruction that is empty or exceeds the available
bytes is not produced by capstone and ends the sequence here. `fuel` is the number of bytes. -/
def disasmN (env : Env) : (fuel : Nat) → Addr → List (BitVec 8) → List Step
  | 0, _, _ => []
  | fuel + 1, address, bytes =>
    match env.decode address bytes with
    | none => []
    | some insn =>
      if 0 < insn.size ∧ insn.size ≤ bytes.length then
        let next := address + BitVec.ofNat 64 insn.size
        { insn := insn, address := next, rest := bytes.drop insn.size } ::
          disasmN env fuel next (bytes.drop insn.size)
      else []

/-- All instructions of a byte string (see `disasmN`). -/
def disasm (env : Env) (address : Addr) (bytes : List (BitVec 8)) : List Step :=
  disasmN env bytes.length address bytes

/-- Access to `size` bytes at `data + offset` in the mapped file; reading beyond its end is undefined behaviour. -/
def readBytes (data : List (BitVec 8)) (offset size : Addr) : M (List (BitVec 8)) :=
  if offset.toNat + size.toNat ≤ data.length then .ok ((data.drop offset.toNat).take size.toNat) else .error .ub

/-- Little endian value of a byte string (`*reinterpret_cast<const uintptr_t *>(…)` on x86). -/
def leValue : List (BitVec 8) → BitVec 64
  | [] => 0
  | b :: bs => b.setWidth 64 ||| (leValue bs <<< 8)

/-- Little endian bytes of a value (in memory representation of integers on x86). -/
def leBytes : (n : Nat) → BitVec (8 * n) → List (BitVec 8)
  | 0, _ => []
  | n + 1, v => v.setWidth 8 :: leBytes n ((v >>> 8).setWidth (8 * n))

def le16 (v : BitVec 16) : List (BitVec 8) := leBytes 2 v
def le32 (v : BitVec 32) : List (BitVec 8) := leBytes 4 v
def le64 (v : BitVec 64) : List (BitVec 8) := leBytes 8 v

end Bean

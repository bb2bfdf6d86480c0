import Verif.Model.HashInternal
/-
Reconstruction of relocations from machine code (src/analyze_x86.hpp:776-939).

The symbols are processed in descending order while the table of symbols is used to find names. Processing a symbol
does not change its address and its name. It may get the name of its section, which is the one the lookup of the
section (line 804-807) delivers as well. Therefore the lookups use the symbols before the reconstruction.
-/
namespace Bean

/-- analyze_x86.hpp:779-787: access flags; `flags` is the argument, `access` are the bits of capstone (READ 1, WRITE 2). -/
def accessFlags (sym : Symbol) (target : Addr) (flags access : BitVec 8) : BitVec 8 :=
  let flags := if (access &&& 1) != 0 then flags ||| ACCESSFLAG_READ else flags
  let flags := if (access &&& 2) != 0 then flags ||| ACCESSFLAG_WRITE else flags
  if target ≥ sym.address ∧ target < sym.address + sym.size then flags ||| ACCESSFLAG_LOCAL else flags

/-- analyze_x86.hpp:801-807: name of the section at an address. -/
def targetSection (st : AState) (target : Addr) : Option String :=
  match (Tree.find st.symbols target).bind (·.sec.name) with
  | some n => some n
  | none => (Tree.floor st.sections target).map (·.name)

/-- analyze_x86.hpp:820-827: an imported symbol of the entry of the global offset table replaces the name. -/
def gotName (st : AState) (target : Addr) (name : Option String) : Option String :=
  match Tree.find st.relocations target with
  | none => name
  | some rel =>
    match rel.symbol with
    | none => name
    | some s => if s.shndx = .undef then s.name else name

/-- Local variables `type`, `symbol_name` and `addend` of analyze_x86.hpp:797-861. -/
structure RelParts where
  type : Addr
  name : Option String
  addend : BitVec 64
deriving DecidableEq, Repr

/-- analyze_x86.hpp:815-829: procedure linkage table and global offset table. -/
def sectionParts (st : AState) (target : Addr) (size : BitVec 8) (addend : BitVec 64) : RelParts :=
  let name := (Tree.find st.symbols target).bind (·.name)
  if size = 4 ∧ hasPrefix ".plt" (targetSection st target) = true then
    { type := R_X86_64_PLT32, name := name, addend := addend }
  else if size = 4 ∧ hasPrefix ".got" (targetSection st target) = true then
    { type := R_X86_64_GOTPCREL, name := gotName st target name, addend := addend }
  else { type := R_X86_64_NONE, name := name, addend := addend }

/-- analyze_x86.hpp:830-842: the closest symbol in front if there is no name. -/
def closestParts (st : AState) (target : Addr) (size : BitVec 8) (p : RelParts) : RelParts :=
  if p.name.isNone then
    match Tree.floor st.symbols target with
    | some s => { p with name := s.name, addend := p.addend + (target - s.address) }
    | none =>
      if p.type = R_X86_64_NONE then
        { p with type := if size = 4 then R_X86_64_RELATIVE else if size = 8 then R_X86_64_RELATIVE64 else p.type }
      else p
  else p

/-- analyze_x86.hpp:843-858: type by size. -/
def pcType (type : Addr) (size : BitVec 8) : Addr :=
  if type = R_X86_64_NONE then
    if size = 1 then R_X86_64_PC8
    else if size = 2 then R_X86_64_PC16
    else if size = 4 then R_X86_64_PC32
    else if size = 8 then R_X86_64_PC64
    else type
  else type

/-- analyze_x86.hpp:797-861 -/
def relParts (st : AState) (target : Addr) (size : BitVec 8) (addend : BitVec 64) : RelParts :=
  if TLS.is_tls target then
    { type := if size = 4 then R_X86_64_TPOFF32 else if size = 8 then R_X86_64_TPOFF64 else R_X86_64_NONE
      name := (Tree.find st.symbols target).bind (·.name)
      addend := addend }
  else
    let p := closestParts st target size (sectionParts st target size addend)
    { p with type := pcType p.type size }

/-- Arguments of `create_relocation` (analyze_x86.hpp:777) except for the symbol. -/
structure RelArgs where
  address : Addr
  offset : BitVec 8
  target : Addr
  size : BitVec 8
  addend : BitVec 64
  flags : BitVec 8
  access : BitVec 8
deriving DecidableEq, Repr

/-- analyze_x86.hpp:862: the new relocation (with the bit field `instruction_offset`). -/
def newRel (st : AState) (sym : Symbol) (a : RelArgs) : Rel :=
  let p := relParts st a.target a.size a.addend
  { offset := a.address + a.offset.setWidth 64, type := p.type, name := p.name, addend := p.addend, target := a.target,
    undefined := false, reconstructed := true, instruction_offset := a.offset.setWidth 4,
    instruction_access := accessFlags sym a.target a.flags a.access }

/-- analyze_x86.hpp:777-863 `create_relocation` -/
def createRelocation (st : AState) (sym : Symbol) (a : RelArgs) : Symbol :=
  match Tree.find sym.rels a.target with
  | some _ =>
    { sym with rels := Tree.modify sym.rels a.target (fun r => { r with
        instruction_access := r.instruction_access ||| accessFlags sym a.target a.flags a.access
        instruction_offset := a.offset.setWidth 4 }) }
  | none => { sym with rels := (Tree.insert sym.rels (newRel st sym a)).1 }

/-- `-1 * (insn->size - offset)` (analyze_x86.hpp:915, 930): small numbers of type `int`, converted to `intptr_t`. -/
def negDistance (size : Nat) (offset : BitVec 8) : BitVec 64 := -(BitVec.ofNat 64 size - offset.setWidth 64)

/-- analyze_x86.hpp:914 -/
def branchFlags (kind : InsKind) : BitVec 8 :=
  ACCESSFLAG_BRANCH ||| (if kind = .jmp ∨ kind = .call then 0 else ACCESSFLAG_CONDITIONAL)

/-- analyze_x86.hpp:911-932: the calls of `create_relocation` for an operand. -/
def operandRels (tls_end : Addr) (kind : InsKind) (i : Insn) : Operand → List RelArgs
  | .imm v access =>
    if isBranch kind then
      [{ address := i.address, offset := i.imm_offset, target := v, size := i.imm_size,
         addend := negDistance i.size i.imm_offset, flags := branchFlags kind, access := access }]
    else []
  | .mem segment base _ _ disp access =>
    (if segment = X86_REG_FS then
      [{ address := i.address, offset := i.disp_offset, target := TLS.trans_addr (tls_end + disp) true,
         size := i.disp_size, addend := disp, flags := 0, access := access }]
    else []) ++
    (if base = X86_REG_RIP then
      [{ address := i.address, offset := i.disp_offset, target := i.address + BitVec.ofNat 64 i.size + disp,
         size := i.disp_size, addend := negDistance i.size i.disp_offset, flags := 0, access := access }]
    else [])
  | _ => []

/-- analyze_x86.hpp:902-934: the calls of `create_relocation` for all instructions. -/
def codeRels (env : Env) (tls_end : Addr) (steps : List Step) : List RelArgs :=
  steps.flatMap (fun s => s.insn.ops.flatMap (operandRels tls_end (env.kind s.insn.id) s.insn))

/-- analyze_x86.hpp:896-935: a symbol whose section and size are set. -/
def reconstructCode (env : Env) (st : AState) (sec : ElfSec) (sym : Symbol) : M Symbol :=
  if sym.sec.executable then do
    massert env.build (!sec.tls)
    let address := TLS.virt_addr sym.address
    let bytes ← readBytes sec.data (address - sec.virt_addr) sym.size
    return (codeRels env (tlsEnd env st.tls_segment) (disasm env address bytes)).foldl (createRelocation st) sym
  else .ok sym

/-- Variables of the loop over all symbols: the processed symbols (ascending) and `last_addr`. -/
structure ReconLoop where
  done : SymTree := []
  last_addr : Addr := BitVec.allOnes 64

/-- analyze_x86.hpp:871-937: one symbol. The symbols of the procedure linkage table are skipped before `last_addr` is
set. -/
def reconstructStep (env : Env) (st : AState) (l : ReconLoop) (sym : Symbol) : M ReconLoop := do
  let sec ← mderef env.build (Tree.floor st.sections sym.address)
  let sym := adoptSection sec sym
  if hasPrefix ".plt" sym.sec.name then return { l with done := sym :: l.done }
  else do
    let sym ← sizeSymbol env sec l.last_addr sym
    let sym ← reconstructCode env st sec sym
    return { done := sym :: l.done, last_addr := sym.address }

/-- analyze_x86.hpp:866-939 `reconstruct_relocations` -/
def reconstruct (env : Env) (st : AState) : M AState := do
  let l ← st.symbols.reverse.foldlM (reconstructStep env st) {}
  return { st with symbols := l.done }

end Bean

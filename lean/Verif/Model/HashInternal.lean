import Verif.Model.Read
/-
Sizes and internal identifiers (src/analyze_x86.hpp:203-259, 443-774).

`XXHash64` is fed with several calls of `add`; its result only depends on the concatenation of the bytes added, which is
what is modelled (`Env.xxhash`). `ByteBuffer<128>` is large enough for all instructions (an x86 instruction has at most
two memory operands). The code for debug output (`BEAN_VERBOSE`) is left out.
-/
namespace Bean

/-! ### Relocations of a symbol -/

/-- bean.cpp:40-77: constructors of a relocation from a relocation of the file. -/
def relOfElf (env : Env) (sym_address : Addr) (resolve : Bool) (got : Addr) (r : ElfRel) : Rel :=
  let undefined := match r.symbol with
    | some s => s.shndx == .undef
    | none => false
  { offset := r.offset, type := r.type, name := r.symbol.bind (·.name), addend := r.addend
    target :=
      if undefined then 0
      else if env.arch.relative r.type then r.addend
      else if resolve then env.reloc_value r got
      else 0
    undefined := undefined, reconstructed := false
    instruction_offset := (env.junk sym_address r.offset).1, instruction_access := (env.junk sym_address r.offset).2 }

/-- `emplace` of a relocation, and if it is new, defined and relocations are resolved, insertion of its target into
the references (analyze_x86.hpp:207-210, 217-220). -/
def addRel (resolve : Bool) (sym : Symbol) (rel : Rel) : Symbol :=
  let r := Tree.insert sym.rels rel
  { sym with
    rels := r.1
    refs := if r.2 && resolve && !rel.undefined then HSet.add sym.refs rel.target else sym.refs }

/-- `for (it = tree.ceil(from); it != end && key(it) < to; ++it)`: the elements visited. -/
def treeRange {α : Type} [Keyed α] (t : List α) (from_ to : Addr) : List α :=
  (t.filter (fun x => decide (from_ ≤ key x))).takeWhile (fun x => decide (key x < to))

/-- analyze_x86.hpp:214-221: one packed relative relocation. -/
def addRelative (resolve : Bool) (sec : ElfSec) (sym : Symbol) (offset : Addr) : M Symbol := do
  let bytes ← readBytes sec.data (offset - sec.virt_addr) 8
  let addend := leValue bytes
  return addRel resolve sym { offset := offset, type := R_X86_64_RELATIVE, addend := addend, target := addend }

/-- analyze_x86.hpp:204-222 `add_relocations`. Relocations of the file are compared with the virtual address of the
symbol, packed relative relocations with its (translated) address (bean.hpp:282-283, 311-312). -/
def addRelocations (env : Env) (fl : AnalyzeFlags) (st : AState) (sec : ElfSec) (address : Addr) (sym : Symbol) :
    M Symbol :=
  let sym := (treeRange st.relocations (TLS.virt_addr sym.address) (address + sym.size)).foldl
    (fun s r => addRel fl.resolve_internal s
      (relOfElf env sym.address fl.resolve_internal st.global_offset_table r)) sym
  (treeRange st.relative_relocations sym.address (address + sym.size)).foldlM
    (addRelative fl.resolve_internal sec) sym

/-! ### Functions -/

/-- analyze_x86.hpp:224-259 `is_branch_instruction`. -/
def isBranch : InsKind → Bool
  | .jmp => true
  | .call => true
  | .condBranch => true
  | _ => false

/-- analyze_x86.hpp:605: end of the thread-local storage. -/
def tlsEnd (env : Env) (tls_segment : Option ElfSeg) : Addr :=
  match tls_segment with
  | some seg => env.align_up (seg.virt_addr + seg.virt_size) seg.alignment
  | none => 0

/-- What is constant while the instructions of a symbol are processed. -/
structure SymCtx where
  address : Addr
  size : Addr
  tls_end : Addr

/-- analyze_x86.hpp:581, 622: inside of the symbol? -/
def SymCtx.inside (cx : SymCtx) (target : Addr) : Bool :=
  decide (target ≥ cx.address) && decide (target < cx.address + cx.size)

/-- analyze_x86.hpp:481 -/
def TRAMPOLINE_INVALID : Nat := 23

/-- Variables changed by an operand: hash buffer, references, `trampoline_jumps`, `max_branch`. -/
structure OpState where
  buf : List (BitVec 8)
  refs : List Addr
  jumps : Nat
  max_branch : Addr
deriving DecidableEq, Repr

/-- analyze_x86.hpp:573-599: immediate operand. -/
def hashImm (cx : SymCtx) (branch : Bool) (o : OpState) (target : Addr) : OpState :=
  if branch then
    if cx.inside target then
      { o with buf := o.buf ++ le64 (target - cx.address), jumps := TRAMPOLINE_INVALID, max_branch := target }
    else { o with buf := o.buf ++ le32 0xF00, refs := HSet.add o.refs target }
  else { o with buf := o.buf ++ le64 target, jumps := TRAMPOLINE_INVALID }

/-- analyze_x86.hpp:603-614: access to thread-local storage. -/
def hashFs (cx : SymCtx) (o : OpState) (segment : Reg) (disp : BitVec 64) : OpState :=
  if segment = X86_REG_FS then
    { o with
      buf := o.buf ++ le32 0xF01
      refs := HSet.add o.refs (TLS.trans_addr (cx.tls_end + disp) true)
      jumps := TRAMPOLINE_INVALID }
  else o

/-- analyze_x86.hpp:616-633: access relative to the instruction pointer. -/
def hashRip (cx : SymCtx) (o : OpState) (target : Addr) : OpState :=
  if cx.inside target then { o with buf := o.buf ++ le64 (target - cx.address), max_branch := target }
  else { o with buf := o.buf ++ le32 0xF02, refs := HSet.add o.refs target }

/-- analyze_x86.hpp:565-646: one operand; `next` is the address after the instruction. -/
def hashOperand (cx : SymCtx) (branch : Bool) (next : Addr) (o : OpState) : Operand → OpState
  | .reg r => { o with buf := o.buf ++ le32 r }
  | .imm v _ => hashImm cx branch o v
  | .mem segment base index scale disp _ =>
    let o := hashFs cx o segment disp
    if base = X86_REG_RIP then hashRip cx o (next + disp)
    else { o with
      buf := o.buf ++ (le32 segment ++ le32 base ++ le32 index ++ le32 scale ++ le64 disp)
      jumps := TRAMPOLINE_INVALID }
  | .other => o

/-- analyze_x86.hpp:536-558: instruction number, prefix bytes and opcode bytes up to the first zero. -/
def insnHead (i : Insn) : List (BitVec 8) :=
  le32 i.id ++ (i.prefix.take 4).takeWhile (· != 0) ++ (i.opcode.take 4).takeWhile (· != 0)

/-- Variables of the loop in analyze_x86.hpp:478-493 with `sym.refs` and `sym.flags`; `hashed` are the bytes given to
`id_internal`. -/
structure ExecState where
  refs : List Addr
  flags : BitVec 16
  jumps : Nat := 0
  content : Bool := false
  leave : Bool := true
  last_instruction : Addr
  max_branch : Addr
  hashed : List (BitVec 8) := []
deriving DecidableEq, Repr

/-- analyze_x86.hpp:495-531: does the instruction leave the function? -/
def leaves : InsKind → Bool
  | .jmp => true
  | .ljmp => true
  | .ret => true
  | .halt => true
  | _ => false

/-- analyze_x86.hpp:495-531: `trampoline_jumps` after the switch. -/
def nextJumps (kind : InsKind) (jumps : Nat) : Nat :=
  match kind with
  | .jmp => jumps + 1
  | .ljmp => jumps + 1
  | .endbr => jumps
  | _ => TRAMPOLINE_INVALID

/-- analyze_x86.hpp:495-660: one instruction that is not a NOP; `after` is the address following it. -/
def execInsn (env : Env) (cx : SymCtx) (st : ExecState) (insn : Insn) (after : Addr) : ExecState :=
  let kind := env.kind insn.id
  let o := insn.ops.foldl (hashOperand cx (isBranch kind) (insn.address + BitVec.ofNat 64 insn.size))
    { buf := insnHead insn, refs := st.refs, jumps := nextJumps kind st.jumps, max_branch := st.max_branch }
  { refs := o.refs
    flags := if kind = .endbr then st.flags ||| SYMBOL_USING_CET else st.flags
    jumps := o.jumps
    content := true
    leave := leaves kind
    last_instruction := after
    max_branch := o.max_branch
    hashed := st.hashed ++ o.buf }

/-- analyze_x86.hpp:494-673: loop over the instructions. After a leaving instruction the loop ends if only zeros
follow. -/
def execLoop (env : Env) (cx : SymCtx) : List Step → ExecState → ExecState
  | [], st => st
  | s :: rest, st =>
    if env.kind s.insn.id = .nop then execLoop env cx rest st
    else
      let st := execInsn env cx st s.insn s.address
      if st.leave && s.rest.all (· == 0) then st
      else execLoop env cx rest st

/-- What both kinds of symbols deliver: the symbol, the bytes hashed and if there is content. -/
structure Hashed where
  sym : Symbol
  input : List (BitVec 8)
  content : Bool
deriving DecidableEq, Repr

/-- analyze_x86.hpp:679-684: fall through to the next symbol. The iterator is checked by an assertion only. -/
def fallThrough (b : Build) (symbols : SymTree) (e : ExecState) (sym : Symbol) : M Symbol :=
  if e.leave && !decide (e.max_branch > e.last_instruction) then .ok sym
  else do
    let next ← mderef b (Tree.ceil symbols (sym.address + sym.size))
    return { sym with refs := HSet.add sym.refs next.address }

/-- What is constant while the instructions of a symbol are processed (analyze_x86.hpp:581, 605). -/
def symCtx (env : Env) (st : AState) (sym : Symbol) : SymCtx :=
  { address := sym.address, size := sym.size, tls_end := tlsEnd env st.tls_segment }

/-- analyze_x86.hpp:480-493: state before the first instruction. -/
def execStart (sym : Symbol) : ExecState :=
  { refs := sym.refs, flags := sym.flags, last_instruction := TLS.virt_addr sym.address,
    max_branch := TLS.virt_addr sym.address }

/-- analyze_x86.hpp:675-677: result of the loop, mark of trampolines. -/
def applyExec (sym : Symbol) (e : ExecState) : Symbol :=
  { sym with
    refs := e.refs
    flags := if e.jumps = 1 then e.flags ||| SYMBOL_TRAMPOLINE else e.flags }

/-- analyze_x86.hpp:483-684: symbol in an executable section. All bytes of the symbol are considered to be read, a
symbol that exceeds the mapped file is undefined behaviour. -/
def hashExec (env : Env) (fl : AnalyzeFlags) (st : AState) (sec : ElfSec) (sym : Symbol) : M Hashed := do
  let address := TLS.virt_addr sym.address
  massert env.build (!sec.tls)
  let sym ← addRelocations env fl st sec address sym
  let bytes ← readBytes sec.data (address - sec.virt_addr) sym.size
  let e := execLoop env (symCtx env st sym) (disasm env address bytes) (execStart sym)
  let sym ← fallThrough env.build st.symbols e (applyExec sym e)
  return { sym := sym, input := e.hashed, content := e.content }

/-! ### Data -/

/-- analyze.hpp:60 -/
def PAGE_SIZE : Addr := 0x1000

/-- `n` zero bytes (`XXHash64::addZeros`). -/
def zeros (n : Nat) : List (BitVec 8) := List.replicate n 0

/-- Bytes given to `add(data + from, count)`. -/
def slice (bytes : List (BitVec 8)) (from_ count : Addr) : List (BitVec 8) :=
  (bytes.drop from_.toNat).take count.toNat

/-- analyze_x86.hpp:717-732: one relocation; the state are the bytes hashed and the variable `start`. -/
def dataStep (env : Env) (address end_ : Addr) (bytes : List (BitVec 8)) (acc : List (BitVec 8) × Addr) (rel : Rel) :
    M (List (BitVec 8) × Addr) :=
  let len := env.reloc_size rel.type
  if len = 0 then .ok acc
  else do
    let out := if acc.2 < rel.offset then acc.1 ++ slice bytes (acc.2 - address) (rel.offset - acc.2) else acc.1
    massert env.build (decide (rel.offset + len ≤ end_))
    return (out ++ zeros len.toNat, rel.offset + len)

/-- analyze_x86.hpp:711-735: content of a symbol without the parts that are subject to relocations. -/
def dataContent (env : Env) (got address size : Addr) (rels : List Rel) (bytes : List (BitVec 8)) :
    M (List (BitVec 8)) := do
  let start := if address = got then address + 16 else address
  let r ← rels.foldlM (dataStep env address (address + size) bytes) ([], start)
  return if r.2 < address + size then r.1 ++ slice bytes (r.2 - address) (address + size - r.2) else r.1

/-- analyze_x86.hpp:690: the segment of a symbol. Segments are ordered by their offset in the file (bean.hpp:302-305).
The iterator is not checked. -/
def dataSegment (st : AState) (sec : ElfSec) (address : Addr) : M ElfSeg :=
  match if sec.tls then st.tls_segment else Tree.floor st.segments address with
  | some seg => .ok seg
  | none => .error .ub

/-- analyze_x86.hpp:689-693 -/
def isBss (sec : ElfSec) (seg : ElfSeg) (address : Addr) : Bool :=
  sec.type == .nobits || decide (address ≥ seg.virt_addr + seg.size)

/-- analyze_x86.hpp:701-704: the page offset of writeable data. -/
def pageOffset (sym : Symbol) (address : Addr) : List (BitVec 8) :=
  if sym.sec.writeable && !sym.sec.has SECTION_RELRO then le32 ((address % PAGE_SIZE).setWidth 32) else []

/-- analyze_x86.hpp:686-736: symbol in a section that is not executable. -/
def hashData (env : Env) (fl : AnalyzeFlags) (st : AState) (sec : ElfSec) (sym : Symbol) : M Hashed := do
  let address := TLS.virt_addr sym.address
  let seg ← dataSegment st sec address
  massert env.build (decide (address + sym.size ≤ env.align_up (seg.virt_addr + seg.virt_size) seg.alignment))
  if isBss sec seg address then
    return { sym := sym, input := pageOffset sym address ++ zeros sym.size.toNat, content := true }
  else do
    let sym ← addRelocations env fl st sec address sym
    let bytes ← readBytes sec.data (address - sec.virt_addr) sym.size
    let c ← dataContent env st.global_offset_table address sym.size sym.rels bytes
    return { sym := sym, input := pageOffset sym address ++ c, content := true }

/-! ### All symbols -/

/-- analyze_x86.hpp:459-463: attributes of the section for symbols without section name. -/
def adoptSection (sec : ElfSec) (sym : Symbol) : Symbol :=
  if sym.sec.name.isNone then
    { sym with sec := { sym.sec with
        name := some sec.name, executable := sec.executable, writeable := sec.writeable } }
  else sym

/-- analyze_x86.hpp:470-475: the size is extended up to the next symbol or the end of the section. -/
def sizeSymbol (env : Env) (sec : ElfSec) (last_addr : Addr) (sym : Symbol) : M Symbol := do
  let end_ := TLS.trans_addr (env.align_up (sec.virt_addr + sec.size) sec.alignment) sec.tls
  let max_addr := if last_addr < end_ then last_addr else end_
  massert env.build (decide (max_addr ≥ sym.address))
  return if max_addr - sym.address > sym.size then { sym with size := max_addr - sym.address } else sym

/-- `id.add(bool)` -/
def boolByte (b : Bool) : BitVec 8 := if b then 1 else 0

/-- analyze_x86.hpp:756-764 -/
def attributeBytes (env : Env) (fl : AnalyzeFlags) (sym : Symbol) : List (BitVec 8) :=
  if fl.hash_attributes then
    env.str_bytes sym.name ++ [sym.type.code] ++ [sym.bind.byte] ++ env.str_bytes sym.sec.name ++
      [boolByte sym.sec.writeable] ++ [boolByte sym.sec.executable] ++ le16 sym.sec.flags
  else []

/-- analyze_x86.hpp:746 -/
def unusedSymbol (fl : AnalyzeFlags) (h : Hashed) : Bool :=
  !h.content && !fl.keep_unused && h.sym.name.isNone && h.sym.deps.isEmpty && h.sym.refs.isEmpty && h.sym.rels.isEmpty

/-- analyze_x86.hpp:453-743: one symbol up to the decision about its use. -/
def hashSymbol (env : Env) (fl : AnalyzeFlags) (st : AState) (last_addr : Addr) (sym : Symbol) : M Hashed := do
  let sec ← mderef env.build (Tree.floor st.sections sym.address)
  let sym ← sizeSymbol env sec last_addr (adoptSection sec sym)
  if sym.sec.executable then hashExec env fl st sec sym else hashData env fl st sec sym

/-- analyze_x86.hpp:755-768 -/
def finishSymbol (env : Env) (fl : AnalyzeFlags) (h : Hashed) : Symbol :=
  if unusedSymbol fl h then h.sym
  else { h.sym with id := { h.sym.id with internal := env.xxhash (h.input ++ attributeBytes env fl h.sym) } }

/-- Variables of the loop over all symbols: the processed symbols (ascending), `last_addr` and `unused`. -/
structure HashLoop where
  done : SymTree := []
  last_addr : Addr := BitVec.allOnes 64
  unused : List Addr := []

/-- analyze_x86.hpp:453-769: one symbol. -/
def hashStep (env : Env) (fl : AnalyzeFlags) (st : AState) (l : HashLoop) (sym : Symbol) : M HashLoop := do
  let h ← hashSymbol env fl st l.last_addr sym
  return { done := finishSymbol env fl h :: l.done
           last_addr := sym.address
           unused := if unusedSymbol fl h then l.unused ++ [sym.address] else l.unused }

/-- analyze_x86.hpp:447-774 `hash_internal`. The symbols are processed in descending order; the lookup of the following
symbol only needs addresses, which do not change. -/
def hashInternal (env : Env) (fl : AnalyzeFlags) (st : AState) : M AState := do
  let l ← st.symbols.reverse.foldlM (hashStep env fl st) {}
  return { st with symbols := l.unused.foldl Tree.erase l.done }

end Bean

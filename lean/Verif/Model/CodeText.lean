import Verif.Model.DataDump
/-
Debug text of functions (src/analyze_x86.hpp:261-346, 560-655; only with `BEAN_VERBOSE` and `FLAG_DEBUG`), without the attributes of the
terminal. Mnemonic and operands are written by capstone, here they are arbitrary texts for the bytes of an instruction.

Further assumptions: `String::split_inplace` of dlh separates a text at each delimiter (none for the empty text), so that the parts joined
by commas are the text itself; all relocations of the file are valid.
-/
namespace Bean

/-- `insn->mnemonic` and `insn->op_str`. -/
structure Wording where
  mnemonic : Str
  op_str : Str
deriving DecidableEq, Repr

/-- analyze_x86.hpp:560-646: the member `value` of the debug information for an operand (0 if not set). -/
def opValue (cx : SymCtx) (branch : Bool) (next : Addr) : Operand → Addr
  | .reg _ => 0
  | .imm v _ => if branch then v else 0
  | .mem segment base _ _ disp _ =>
    if base = X86_REG_RIP then next + disp
    else if segment = X86_REG_FS then TLS.trans_addr (cx.tls_end + disp) true
    else 0
  | .other => 0

/-- analyze_x86.hpp:277-294: a position of the twelve for bytes. -/
def codeCell (bytes : List (BitVec 8)) (i : Nat) : Str :=
  match bytes[i]? with
  | some v => ' ' :: hexByte v
  | none => [' ', ' ', ' ']

/-- analyze_x86.hpp:277-294: the bytes of an instruction. -/
def codeCells (bytes : List (BitVec 8)) : Str := (List.range 12).flatMap (codeCell bytes)

/-- analyze_x86.hpp:297: number of parts of the operands. -/
def opPieces (s : Str) : Nat := if s = [] then 0 else s.count ',' + 1

/-- analyze_x86.hpp:330-341: symbol of a relocation. -/
def slotSymbol (y : ElfSym) : Str :=
  if y.shndx = .undef then (match y.name with | some n => n.toList | none => []) else '0' :: 'x' :: Nat.toDigits 16 y.value.toNat

/-- analyze_x86.hpp:326-341: a relocation of the file in brackets. -/
def slotText (env : Env) (symbols : SymTree) (r : ElfRel) : Str :=
  match r.symbol with
  | none => addressText symbols (env.reloc_value r 0)
  | some y => slotSymbol y ++ (if r.addend ≠ 0 then ' ' :: '+' :: ' ' :: decimalText r.addend.toInt else [])

/-- analyze_x86.hpp:322-343: relocation at an address. -/
def slotAt (env : Env) (symbols : SymTree) (relocations : List ElfRel) (v : Addr) : Str :=
  match Tree.find relocations v with
  | some r => ' ' :: '[' :: (slotText env symbols r ++ [']'])
  | none => []

/-- analyze_x86.hpp:316-343: reference of an operand. -/
def targetNote (env : Env) (symbols : SymTree) (relocations : List ElfRel) (v : Addr) : Str :=
  addressText symbols v ++ slotAt env symbols relocations v

/-- analyze_x86.hpp:309-345: references of the operands, `hashtag` tells if there was one before. -/
def refNotes (env : Env) (symbols : SymTree) (relocations : List ElfRel) : Bool → List Addr → Str
  | _, [] => []
  | hashtag, v :: l =>
    if v ≠ 0 then
      (if hashtag then [' ', ' '] else [' ', ' ', '#', ' ']) ++ (targetNote env symbols relocations v ++ refNotes env symbols relocations true l)
    else refNotes env symbols relocations hashtag l

/-- analyze_x86.hpp:272-346 `hash_internal_debug_executable`; `bytes` are those of the instruction. More parts than operands: reading behind
the end of the debug information if the assertion is not compiled in. -/
def insnLine (env : Env) (words : Addr → List (BitVec 8) → Wording) (symbols : SymTree) (relocations : List ElfRel) (cx : SymCtx) (insn : Insn)
    (bytes : List (BitVec 8)) : M Str := do
  let w := words insn.address bytes
  massert env.build (decide (opPieces w.op_str ≤ insn.ops.length))
  if opPieces w.op_str ≤ insn.ops.length then
    return dumpHeader insn.address ++ (codeCells bytes ++ (w.mnemonic ++ ' ' :: (w.op_str ++
      refNotes env symbols relocations false
        (insn.ops.map (opValue cx (isBranch (env.kind insn.id)) (insn.address + BitVec.ofNat 64 insn.size))))))
  else .error .ub

/-- analyze_x86.hpp:494-673: the loop over the instructions, for its text only; `bytes` is what is left of the symbol. -/
def codeLoop (env : Env) (words : Addr → List (BitVec 8) → Wording) (symbols : SymTree) (relocations : List ElfRel) (cx : SymCtx) :
    List Step → List (BitVec 8) → M Str
  | [], _ => .ok []
  | s :: rest, bytes =>
    if env.kind s.insn.id = .nop then codeLoop env words symbols relocations cx rest s.rest
    else do
      let x ← insnLine env words symbols relocations cx s.insn (bytes.take s.insn.size)
      if leaves (env.kind s.insn.id) && s.rest.all (· == 0) then return x ++ ['\n']
      else do
        let y ← codeLoop env words symbols relocations cx rest s.rest
        return x ++ '\n' :: y

/-- analyze_x86.hpp:483-673: text of a function with the given bytes. -/
def codeText (env : Env) (words : Addr → List (BitVec 8) → Wording) (st : AState) (s : Symbol) (bytes : List (BitVec 8)) : M Str :=
  codeLoop env words st.symbols st.relocations (symCtx env st s) (disasm env (TLS.virt_addr s.address) bytes) bytes

/-- analyze_x86.hpp:428-441 `hash_internal_debug_strdup`: the debug text of a function. -/
def codeDebug (env : Env) (words : Addr → List (BitVec 8) → Wording) (st : AState) (s : Symbol) (bytes : List (BitVec 8)) : M (Option Str) := do
  let d ← codeText env words st s bytes
  let t := gotLine s st.global_offset_table ++ d
  return if t = [] then none else some t

end Bean

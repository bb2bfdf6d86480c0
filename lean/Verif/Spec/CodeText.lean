import Verif.Model.CodeText
import Verif.Spec.DataDump
import Verif.Spec.Hash
/-
What the disassembly is meant to tell (C114), and how to read it.
-/
namespace Bean
namespace Spec

/-- A line: address and bytes of an instruction, its text, and notes about what it refers to. -/
structure CodeLine where
  address : Addr
  cells : List (Option (BitVec 8))
  text : List Char
  notes : List (List Char)
deriving DecidableEq, Repr

/-- Parts of a text separated by two blanks. -/
def splitGaps : List Char → List (List Char)
  | [] => [[]]
  | ' ' :: ' ' :: s => [] :: splitGaps s
  | c :: s =>
    match splitGaps s with
    | [] => [[c]]
    | x :: l => (c :: x) :: l

/-- A line `0xaddress  00 00 …mnemonic operands  # note  note …`. -/
def readCodeLine (l : List Char) : CodeLine :=
  let d := (l.dropWhile (· = ' ')).drop 2
  let r := (d.dropWhile (· ≠ ' ')).drop 1
  let x := r.drop 36
  ⟨BitVec.ofNat 64 (numeral 16 (d.takeWhile (· ≠ ' '))), readCells 12 r,
    if '#' ∈ x then (x.takeWhile (· ≠ '#')).dropLast.dropLast else x,
    if '#' ∈ x then splitGaps ((x.dropWhile (· ≠ '#')).drop 2) else []⟩

/-- All lines. -/
def readCode (s : List Char) : List CodeLine := (readLines s).map readCodeLine

/-- The part of a note in brackets. -/
def readSlot : List Char → Option (List Char)
  | [] => none
  | ' ' :: '[' :: s => some s.dropLast
  | _ :: s => readSlot s

/-! ### Facts -/

/-- The operand of an instruction refers to an address. -/
def Points (cx : SymCtx) (k : InsKind) (next : Addr) (op : Operand) (t : Addr) : Prop :=
  FarTarget cx k next op t ∨ TlsTarget cx op t ∨ nearTarget cx k next op = some t

/-- A relocation of the file: its symbol, with the addend if not zero, or the place it refers to. -/
def SlotOf (env : Env) (r : ElfRel) (t : List Char) : Prop :=
  match r.symbol with
  | none => readPlace (t.takeWhile (· ≠ ' ')) = some (TLS.is_tls (env.reloc_value r 0), TLS.virt_addr (env.reloc_value r 0))
  | some y =>
    (match y.shndx with
      | .undef => ∀ n, y.name = some n → t.takeWhile (· ≠ ' ') = n.toList
      | _ => readPlace (t.takeWhile (· ≠ ' ')) = some (false, y.value)) ∧
    (match t.dropWhile (· ≠ ' ') with
      | [] => (0 : Int)
      | a => readSigned (a.drop 3)) = r.addend.toInt

/-- A note tells about an address: the place, and the relocation of the file at this place. -/
def NoteOf (env : Env) (relocations : List ElfRel) (t : Addr) (note : List Char) : Prop :=
  readPlace (note.takeWhile (· ≠ ' ')) = some (TLS.is_tls t, TLS.virt_addr t) ∧
  ((∀ r ∈ relocations, r.offset ≠ t) → readSlot note = none) ∧
  ∀ r ∈ relocations, r.offset = t → ∃ x, readSlot note = some x ∧ SlotOf env r x

/-- A memory operand that uses both the segment of the thread-local storage and the instruction pointer. -/
def FsRip : Operand → Prop
  | .mem segment base _ _ _ _ => segment = X86_REG_FS ∧ base = X86_REG_RIP
  | _ => False

instance (op : Operand) : Decidable (FsRip op) := by unfold FsRip; split <;> infer_instance

/-- The bytes of an instruction in a symbol. -/
def codeOf (s : Symbol) (bytes : List (BitVec 8)) (i : Insn) : List (BitVec 8) :=
  (List.range i.size).filterMap (fun j => contentAt s bytes (i.address.toNat + j))

/-- The line belongs to the instruction: address, first twelve bytes, text, and notes about operands in their order. A note is missing only
for the address zero and for operands that refer to two addresses (the thread-local one). -/
def LineOf (env : Env) (words : Addr → List (BitVec 8) → Wording) (relocations : List ElfRel) (cx : SymCtx) (s : Symbol) (bytes : List (BitVec 8)) (i : Insn)
    (l : CodeLine) : Prop :=
  l.address = i.address ∧
  l.cells = (List.range 12).map (fun j => if j < i.size then contentAt s bytes (i.address.toNat + j) else none) ∧
  l.text = (words i.address (codeOf s bytes i)).mnemonic ++ ' ' :: (words i.address (codeOf s bytes i)).op_str ∧
  ∃ shown : List Operand, shown.Sublist i.ops ∧
    AllMatch (fun op note => ∃ t, Points cx (env.kind i.id) (nextAddress i) op t ∧ t ≠ 0 ∧ NoteOf env relocations t note) shown l.notes ∧
    ∀ op ∈ i.ops, ¬ FsRip op → ∀ t, Points cx (env.kind i.id) (nextAddress i) op t → t ≠ 0 → op ∈ shown

/-! ### Conditions -/

/-- Names and sections are words. -/
def WordNames (symbols : List Symbol) : Prop := ∀ y ∈ symbols, (∀ n, y.name = some n → Word n) ∧ ∀ n, y.sec.name = some n → Word n

/-- Names of symbols of relocations are words. -/
def WordSlots (relocations : List ElfRel) : Prop := ∀ r ∈ relocations, ∀ y, r.symbol = some y → ∀ n, y.name = some n → Word n

/-- Texts of instructions: not more operands than the instruction has, on one line, without the mark of the notes. -/
structure Worded (env : Env) (words : Addr → List (BitVec 8) → Wording) : Prop where
  fit : ∀ a bytes i, env.decode a bytes = some i → (words a (bytes.take i.size)).op_str = [] ∨ (words a (bytes.take i.size)).op_str.count ',' < i.ops.length
  plain : ∀ a bytes, ∀ c ∈ (words a bytes).mnemonic ++ (words a bytes).op_str, c ≠ '\n' ∧ c ≠ '#'

/-- Instructions are at the address they are decoded for. -/
def AtAddress (env : Env) : Prop := ∀ a bytes i, env.decode a bytes = some i → i.address = a

end Spec
end Bean

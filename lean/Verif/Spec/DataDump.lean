import Verif.Spec.Detail
import Verif.Model.Elf
/-
What the dump of data is meant to tell (C113), and how to read it.
-/
namespace Bean
namespace Spec

/-- A line: address of its first position, bytes at sixteen positions, and a remark. -/
structure DumpLine where
  address : Addr
  cells : List (Option (BitVec 8))
  remark : List Char
deriving DecidableEq, Repr

/-- Two digits behind a blank, or nothing. -/
def readCell (s : List Char) : Option (BitVec 8) := if s = [' ', ' ', ' '] then none else some (BitVec.ofNat 8 (numeral 16 (s.drop 1)))

/-- Bytes of a line. -/
def readCells : Nat → List Char → List (Option (BitVec 8))
  | 0, _ => []
  | n + 1, s => readCell (s.take 3) :: readCells n (s.drop 3)

/-- A line `0xaddress  00 00 …  # remark`. -/
def readDumpLine (l : List Char) : DumpLine :=
  let d := (l.dropWhile (· = ' ')).drop 2
  let r := (d.dropWhile (· ≠ ' ')).drop 1
  ⟨BitVec.ofNat 64 (numeral 16 (d.takeWhile (· ≠ ' '))), readCells 16 r, r.drop 48⟩

/-- All lines. -/
def readDump (s : List Char) : List DumpLine := (readLines s).map readDumpLine

/-! ### Facts -/

/-- The byte of a symbol at an address. -/
def contentAt (s : Symbol) (bytes : List (BitVec 8)) (x : Nat) : Option (BitVec 8) :=
  if (TLS.virt_addr s.address).toNat ≤ x ∧ x < (TLS.virt_addr s.address).toNat + s.size.toNat then bytes[x - (TLS.virt_addr s.address).toNat]? else none

/-- Address of the line with the given number. -/
def lineStart (s : Symbol) (i : Nat) : Nat := ((TLS.virt_addr s.address).toNat / 16 + i) * 16

/-- Number of lines. -/
def lineCount (s : Symbol) : Nat := ((TLS.virt_addr s.address).toNat + s.size.toNat + 15) / 16 - (TLS.virt_addr s.address).toNat / 16

/-- The byte is a printable character. -/
def printable (v : BitVec 8) : Bool := decide (' '.toNat ≤ v.toNat ∧ v.toNat ≤ '~'.toNat)

/-- Characters of the bytes, the backslash twice; a blank for everything else. -/
def charOf : Option (BitVec 8) → List Char
  | some v => if printable v then (if v.toNat = '\\'.toNat then ['\\', '\\'] else [Char.ofNat v.toNat]) else [' ']
  | none => [' ']

/-- The remark with characters: present if most of the bytes are printable. -/
def charRemark (cells : List (Option (BitVec 8))) : List Char :=
  if cells.countP (fun c => c.any (fun v => !printable v)) < cells.countP (fun c => c.any printable) then "  # ".toList ++ cells.flatMap charOf else []

/-- A decimal number with sign. -/
def readSigned : List Char → Int
  | '-' :: s => -(numeral 10 s : Int)
  | s => numeral 10 s

/-- A relocation in a remark: its name with the addend, if not zero, or the place it refers to. -/
def RelocationText (resolve : Bool) (r : Rel) (t : List Char) : Prop :=
  match r.name with
  | some n => if r.addend = 0 then t = n.toList else ∃ d, t = n.toList ++ " + ".toList ++ d ∧ readSigned d = r.addend.toInt
  | none => readPlace (t.takeWhile (· ≠ ' ')) =
      some (TLS.is_tls (if resolve then r.target else r.addend), TLS.virt_addr (if resolve then r.target else r.addend))

/-- The remark with relocations. -/
def RelocationRemark (resolve : Bool) (rels : List Rel) (t : List Char) : Prop :=
  ∃ ts : List (List Char), t = "  #".toList ++ ts.flatMap (' ' :: ·) ∧ AllMatch (RelocationText resolve) rels ts

/-- The relocation starts on the line. -/
def OnLine (s : Symbol) (i : Nat) (r : Rel) : Prop := lineStart s i ≤ r.offset.toNat ∧ r.offset.toNat < lineStart s i + 16

instance (s : Symbol) (i : Nat) (r : Rel) : Decidable (OnLine s i r) := inferInstanceAs (Decidable (_ ∧ _))

/-! ### Conditions -/

/-- All content of the symbol is known, and the symbol does not reach the end of the address space. -/
def Content (s : Symbol) (bytes : List (BitVec 8)) : Prop :=
  bytes.length = s.size.toNat ∧ (TLS.virt_addr s.address).toNat + s.size.toNat + 16 ≤ 2 ^ 64

/-- Addresses are rounded up to the next multiple of 16. -/
def RoundsUp (env : Env) (s : Symbol) : Prop :=
  (env.align_up (TLS.virt_addr s.address + s.size) 16).toNat = ((TLS.virt_addr s.address).toNat + s.size.toNat + 15) / 16 * 16

/-- No line breaks in the names of symbols, sections and relocations. -/
def NoBreaks (symbols : List Symbol) (s : Symbol) : Prop :=
  (∀ y ∈ symbols, OneLine y) ∧ ∀ r ∈ s.rels, ∀ n, r.name = some n → '\n' ∉ n.toList

/-- The relocations are inside of the symbol, in order, and each one ends before the next one. -/
def Orderly (env : Env) (s : Symbol) : Prop :=
  (∀ r ∈ s.rels, (TLS.virt_addr s.address).toNat ≤ r.offset.toNat ∧ 0 < (env.reloc_size r.type).toNat ∧
    r.offset.toNat + (env.reloc_size r.type).toNat ≤ (TLS.virt_addr s.address).toNat + s.size.toNat) ∧
  s.rels.Pairwise (fun x y => x.offset.toNat + (env.reloc_size x.type).toNat ≤ y.offset.toNat)

end Spec
end Bean

import Verif.Model.Symbol
/-
What a line of the listing is meant to tell about a symbol (README.md, Bean.hpp: `dump`).
-/
namespace Bean
namespace Spec

/-- The facts about a symbol that a line with addresses and names shows, apart from the names. -/
structure Row where
  id : Identifier
  references : Nat
  relocations : Nat
  dependants : Nat
  place : Addr
  threadLocal : Bool
  size : Addr
  type : SymType
  bind : SymBind
  writeable : Bool
  readOnlyLater : Bool
  executable : Bool
deriving DecidableEq, Repr

/-- The facts of a symbol. -/
def rowOf (s : Symbol) : Row :=
  ⟨s.id, s.refs.length, s.rels.length, s.deps.length, TLS.virt_addr s.address, TLS.is_tls s.address, s.size, s.type, s.bind,
    s.sec.writeable, s.sec.writeable && s.sec.has SECTION_RELRO, s.sec.executable⟩

/-- Name and section; a missing name and an empty name are the same. -/
def namesOf (s : Symbol) : Option String × Option String := (s.name.filter (· ≠ ""), s.sec.name)

/-- Neither the name nor the section contain a line break. -/
def OneLine (s : Symbol) : Prop := (∀ n, s.name = some n → '\n' ∉ n.toList) ∧ (∀ n, s.sec.name = some n → '\n' ∉ n.toList)

/-- The name is a word that does not start with a parenthesis, like the names of linkers for functions and variables. -/
def PlainName (s : Symbol) : Prop := ∀ n, s.name = some n → ' ' ∉ n.toList ∧ n.toList.head? ≠ some '('

/-! ### Reading of the lines -/

/-- The number of a text of digits. -/
def numeral (b : Nat) (s : List Char) : Nat := s.foldl (fun a c => b * a + "0123456789abcdef".toList.idxOf c) 0

/-- A decimal number behind blanks, and the remaining text. -/
def readDec (s : List Char) : Nat × List Char :=
  let t := s.dropWhile (· = ' ')
  (numeral 10 (t.takeWhile Char.isDigit), t.dropWhile Char.isDigit)

/-- A hexadecimal number of 16 digits, and the remaining text. -/
def readHex (s : List Char) : BitVec 64 × List Char := (BitVec.ofNat 64 (numeral 16 (s.take 16)), s.drop 16)

/-- The type of a symbol, in a column with blanks at the end. -/
def readType (s : List Char) : Option SymType :=
  [("none", SymType.none), ("object", .object), ("function", .func), ("section", .section), ("filename", .file), ("common", .common),
    ("TLS", .tls), ("indirect", .indirectFunc), ("unknown", .unknown)].lookup (String.ofList (s.takeWhile (· ≠ ' ')))

/-- The binding of a symbol. -/
def readBind (s : List Char) : Option SymBind :=
  [("weak", SymBind.weak), ("local", .local), ("global", .global)].lookup (String.ofList (s.takeWhile (· ≠ ' ')))

/-- Two identifiers in braces, and the remaining text. -/
def readId (s : List Char) : Identifier × List Char :=
  let i := readHex (s.drop 1)
  let e := readHex (i.2.drop 1)
  (⟨i.1, e.1⟩, e.2.drop 1)

/-- The facts on a line `{internal external} [refs / rels / deps] - 0xaddress size type bind flags …`, and the remaining text. -/
def readRow (s : List Char) : Option (Row × List Char) := do
  let id := readId s
  let refs := readDec (id.2.drop 2)
  let rels := readDec (refs.2.drop 3)
  let deps := readDec (rels.2.drop 3)
  let place := readHex (deps.2.drop 6)
  let size := readDec place.2
  let type ← readType ((size.2.drop 1).take 9)
  let bind ← readBind ((size.2.drop 10).take 6)
  let flags := size.2.drop 17
  let w := flags.take 1
  return (⟨id.1, refs.1, rels.1, deps.1, place.1, flags[2]? == some 'T', BitVec.ofNat 64 size.1, type, bind, w == ['R'] || w == ['W'],
    w == ['R'], flags[1]? == some 'X'⟩, flags.drop 3)

/-- A section in parentheses behind a blank. -/
def readSec : List Char → Option String
  | ' ' :: '(' :: s => some (String.ofList s.dropLast)
  | _ => none

/-- Name and section at the end of the line. -/
def readNames : List Char → Option String × Option String
  | ' ' :: '(' :: s => (none, some (String.ofList s.dropLast))
  | ' ' :: s => (some (String.ofList (s.takeWhile (· ≠ ' '))), readSec (s.dropWhile (· ≠ ' ')))
  | _ => (none, none)

/-- Lines of a text, each of them ending with a line break. -/
def readLines : List Char → List (List Char)
  | [] => []
  | '\n' :: s => [] :: readLines s
  | c :: s =>
    match readLines s with
    | [] => [[c]]
    | l :: ls => (c :: l) :: ls

/-! ### Reading of references and relocations -/

/-- An address, with mark for thread-local storage. -/
def readPlace : List Char → Option (Bool × BitVec 64)
  | 'T' :: 'L' :: 'S' :: ':' :: '0' :: 'x' :: s => some (true, BitVec.ofNat 64 (numeral 16 s))
  | '0' :: 'x' :: s => some (false, BitVec.ofNat 64 (numeral 16 s))
  | _ => none

/-- The words of a reference `address <symbol + offset>`: address, symbol and offset. -/
def readReference (s : List Char) : Option (Bool × BitVec 64) × List Char × Nat :=
  let r := (s.dropWhile (· ≠ ' ')).drop 2
  let q := r.dropWhile (· ≠ ' ')
  (readPlace (s.takeWhile (· ≠ ' ')),
    if q = [] then (r.dropLast, 0) else (r.takeWhile (· ≠ ' '), numeral 10 ((q.drop 3).dropLast)))

/-- Numbers of relocations for x86-64 (System V ABI, AMD64 supplement, table of relocation types). -/
def abiRelocations : List (String × Nat) :=
  [("NONE", 0), ("64", 1), ("PC32", 2), ("GOT32", 3), ("PLT32", 4), ("COPY", 5), ("GLOB_DAT", 6), ("JUMP_SLOT", 7), ("RELATIVE", 8),
   ("GOTPCREL", 9), ("32", 10), ("32S", 11), ("16", 12), ("PC16", 13), ("8", 14), ("PC8", 15), ("DTPMOD64", 16), ("DTPOFF64", 17),
   ("TPOFF64", 18), ("TLSGD", 19), ("TLSLD", 20), ("DTPOFF32", 21), ("GOTTPOFF", 22), ("TPOFF32", 23), ("PC64", 24), ("GOTOFF64", 25),
   ("GOTPC32", 26), ("GOT64", 27), ("GOTPCREL64", 28), ("GOTPC64", 29), ("GOTPLT64", 30), ("PLTOFF64", 31), ("SIZE32", 32),
   ("SIZE64", 33), ("GOTPC32_TLSDESC", 34), ("TLSDESC_CALL", 35), ("TLSDESC", 36), ("IRELATIVE", 37), ("RELATIVE64", 38),
   ("GOTPCRELX", 41), ("REX_GOTPCRELX", 42), ("GNU_VTINHERIT", 250), ("GNU_VTENTRY", 251)]

/-- The number of a type `R_X86_64_…`. -/
def readRelType (s : List Char) : Option Nat :=
  if s.take 9 = "R_X86_64_".toList then abiRelocations.lookup (String.ofList (s.drop 9)) else none

/-- An addend with sign; none is zero. -/
def readAddend : List Char → Option Int
  | [] => some 0
  | ' ' :: '+' :: s => some (numeral 10 s)
  | ' ' :: '-' :: s => some (-(numeral 10 s : Int))
  | _ => none

/-- What the line of a relocation tells. -/
structure RelText where
  offset : Addr
  type : Nat
  label : List Char
  id : Identifier
  addend : Int
deriving DecidableEq, Repr

/-- The line `*0xoffset = type label {identifiers} addend`. -/
def readRel (s : List Char) : Option RelText := do
  let o := s.drop 8
  let t := (o.dropWhile (· ≠ ' ')).drop 3
  let l := (t.dropWhile (· ≠ ' ')).drop 1
  let i := readId ((l.dropWhile (· ≠ ' ')).drop 1)
  let type ← readRelType (t.takeWhile (· ≠ ' '))
  let addend ← readAddend i.2
  return ⟨BitVec.ofNat 64 (numeral 16 (o.takeWhile (· ≠ ' '))), type, l.takeWhile (· ≠ ' '), i.1, addend⟩

/-- The label of a relocation is its name, otherwise the name of the symbol, otherwise the address of the symbol. -/
def Labelled (r : Rel) (y : Symbol) (l : List Char) : Prop :=
  match r.name.filter (· ≠ ""), y.name.filter (· ≠ "") with
  | some n, _ => l = n.toList
  | none, some n => l = n.toList
  | none, none => ∃ p, l = '<' :: p ++ ['>'] ∧ readPlace p = some (TLS.is_tls y.address, TLS.virt_addr y.address)

end Spec
end Bean

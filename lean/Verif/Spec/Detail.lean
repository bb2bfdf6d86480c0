import Verif.Spec.Listing
import Verif.Spec.Reconstruct
/-
What the detailed listing is meant to tell about a symbol (C112), and how to read it.
-/
namespace Bean
namespace Spec

/-- The facts in front of the entries. -/
structure Head where
  name : Option String
  size : Addr
  address : Addr
  entry : Bool
  trampoline : Bool
  markers : Bool
  bind : SymBind
  sec : String
  writeable : Bool
  readOnlyLater : Bool
  executable : Bool
deriving DecidableEq, Repr

/-- A reference: thread-local, address, identifiers of the symbol it leads to. -/
structure Link where
  threadLocal : Bool
  place : Addr
  id : Option Identifier
deriving DecidableEq, Repr

/-- Access of an instruction to the place of a relocation: reads, writes, branches, stays in the function; distance to the start of the instruction. -/
structure Access where
  reads : Bool
  writes : Bool
  branches : Bool
  inside : Bool
  distance : Nat
deriving DecidableEq, Repr

/-- All facts about a symbol; the entries only with the highest level. `follows` tells that there is a debug text or an entry, `text` are the lines of the debug text. -/
structure Detail where
  head : Head
  follows : Bool
  text : List (List Char)
  nRefs : Nat
  refs : List (Option Link)
  nRels : Nat
  rels : List (Option RelText × Option Access)
  positions : List (Addr × Addr × BitVec 64)
  nDeps : Nat
  deps : List (Option Link)
  id : Option Identifier
deriving DecidableEq, Repr

/-! ### Reading -/

/-- The binding and the section in `, global, .text [r-x]`. -/
def readKind (s : List Char) : Option (SymBind × String × List Char) :=
  let w := (s.drop 2).takeWhile (· ≠ ' ')
  let r := (s.drop 2).dropWhile (· ≠ ' ')
  if (r.drop 1).head? = some '[' then some (.local, String.ofList w, r)
  else do
    let b ← readBind w.dropLast
    return (b, String.ofList ((r.drop 1).takeWhile (· ≠ ' ')), (r.drop 1).dropWhile (· ≠ ' '))

/-- Letters in brackets (` [ETC]`), if present. -/
def readMarks (s : List Char) : List Char × List Char :=
  if s.take 2 = [' ', '['] then ((s.drop 2).takeWhile (· ≠ ']'), ((s.drop 2).dropWhile (· ≠ ']')).drop 1) else ([], s)

/-- The facts on `name (size bytes @ 0xaddress [flags], binding, section [permissions])` and the remaining text. -/
def readHead (s : List Char) : Option (Head × List Char) := do
  let w := s.takeWhile (· ≠ ' ')
  let r := s.dropWhile (· ≠ ' ')
  let named := decide (r.take 2 = [' ', '('])
  let size := readDec (r.drop (if named then 2 else 1))
  let a := size.2.drop 11
  let address := BitVec.ofNat 64 (numeral 16 (a.takeWhile (fun c => c ≠ ' ' ∧ c ≠ ',')))
  let m := readMarks (a.dropWhile (fun c => c ≠ ' ' ∧ c ≠ ','))
  let k ← readKind m.2
  let p := k.2.2.drop 3
  let name := if TLS.is_tls address then w.drop 4 else w
  return (⟨if named then some (String.ofList name) else none, BitVec.ofNat 64 size.1, address, m.1.contains 'E', m.1.contains 'T', m.1.contains 'C', k.1, k.2.1,
    p.head? != some '-', p.head? == some '*', p[1]? == some 'x'⟩, p.drop (if named then 4 else 3))

/-- The number on a line `  n label`. -/
def readCount (labels : List (List Char)) (l : List Char) : Option Nat :=
  match l with
  | ' ' :: ' ' :: r => if r.dropWhile Char.isDigit ∈ labels then some (numeral 10 (r.takeWhile Char.isDigit)) else none
  | _ => none

def refLabels : List (List Char) := [" Reference".toList, " References".toList]
def relLabels : List (List Char) := [" Relocation".toList, " Relocations".toList]
def posLabels : List (List Char) := [" Offset ID".toList, " Offset IDs".toList]
def depLabels : List (List Char) := [" depending on this".toList]

/-- The line starts with the identifier or a number of entries, or it is empty: such lines end the debug text. -/
def isMark (l : List Char) : Bool :=
  l.isEmpty || l.take 6 == "  ID: ".toList || (readCount (refLabels ++ relLabels ++ posLabels ++ depLabels) l).isSome

/-- Entries with their number, and the remaining lines. -/
def readEntries (level : Nat) (labels : List (List Char)) (lines : List (List Char)) : Nat × List (List Char) × List (List Char) :=
  match lines with
  | [] => (0, [], [])
  | l :: rest =>
    match readCount labels l with
    | some n => if 3 ≤ level then (n, rest.take n, rest.drop n) else (n, [], rest)
    | none => (0, [], l :: rest)

/-- A reference `0xaddress <symbol> {identifiers}`. -/
def readLink (l : List Char) : Option Link := do
  let p ← readPlace ((l.drop 5).takeWhile (· ≠ ' '))
  return ⟨p.1, p.2, if l.getLast? = some '}' then some (readId (l.drop (l.length - 35))).1 else none⟩

/-- The letters and the distance in `rwbl@-n) `. -/
def readAccess (l : List Char) : Access :=
  let w := l.takeWhile (· ≠ '@')
  ⟨w.contains 'r', w.contains 'w', w.contains 'b', w.contains 'l', numeral 10 (((l.dropWhile (· ≠ '@')).drop 2).takeWhile Char.isDigit)⟩

/-- A relocation with the access in parentheses at the end, if present. -/
def readRelEntry (l : List Char) : Option RelText × Option Access :=
  if l.getLast? = some ' ' then
    let r := l.reverse.dropWhile (· ≠ '(')
    (readRel (r.drop 2).reverse, some (readAccess (l.reverse.takeWhile (· ≠ '(')).reverse))
  else (readRel l, none)

/-- The line `0xaddress (+ offset) = identifier`. -/
def readPosition (l : List Char) : Addr × Addr × BitVec 64 :=
  let a := l.drop 7
  let o := (a.dropWhile (· ≠ ' ')).drop 4
  (BitVec.ofNat 64 (numeral 16 (a.takeWhile (· ≠ ' '))), BitVec.ofNat 64 (numeral 10 (o.takeWhile (· ≠ ')'))), (readHex ((o.dropWhile (· ≠ ')')).drop 4)).1)

/-- A symbol at the start of the lines, and the remaining lines. -/
def readDetail (diet : Bool) (level : Nat) (lines : List (List Char)) : Option (Detail × List (List Char)) := do
  match lines with
  | [] => none
  | l :: rest =>
    let h ← readHead l
    let body := if diet then h.2 :: rest else rest.dropWhile (fun x => !isMark x)
    let refs := readEntries level refLabels body
    let rels := readEntries level relLabels refs.2.2
    let pos := readEntries level posLabels rels.2.2
    let deps := readEntries level depLabels pos.2.2
    let i ← deps.2.2.head?
    let valid := decide (i.take 6 = "  ID: ".toList)
    return (⟨h.1, !diet && h.2 == [':'], if diet then [] else rest.takeWhile (fun x => !isMark x), refs.1, refs.2.1.map readLink, rels.1, rels.2.1.map readRelEntry, pos.2.1.map readPosition, deps.1, deps.2.1.map readLink,
      if valid then some (readId (i.drop 6)).1 else none⟩, deps.2.2.drop (if valid then 2 else 1))

/-- All symbols; at most as many as `fuel`. -/
def readDetails (diet : Bool) (level : Nat) : Nat → List (List Char) → Option (List Detail)
  | _, [] => some []
  | 0, _ :: _ => none
  | fuel + 1, l :: rest => do
    let d ← readDetail diet level (l :: rest)
    let ds ← readDetails diet level fuel d.2
    return d.1 :: ds

/-! ### Facts -/

/-- The facts of a symbol in front of the entries. -/
def headOf (s : Symbol) (sec : String) : Head :=
  ⟨s.name.filter (· ≠ ""), s.size, s.address, s.has SYMBOL_ENTRY, s.has SYMBOL_TRAMPOLINE, s.has SYMBOL_USING_CET, s.bind, sec, s.sec.writeable,
    s.sec.writeable && s.sec.has SECTION_RELRO, s.sec.executable⟩

/-- A reference leads to the closest symbol at or in front of the address; its identifiers are shown unless they are missing. -/
def LinkFor (t : List Symbol) (v : Addr) (k : Option Link) : Prop :=
  ∃ i, k = some ⟨TLS.is_tls v, TLS.virt_addr v, i⟩ ∧ (∀ y, ClosestTo t v y → i = if y.id.internal = 0 then none else some y.id) ∧
    ((∀ y ∈ t, v.toNat < y.address.toNat) → i = none)

/-- Access to the place of a relocation. -/
def accessOf (r : Rel) : Option Access :=
  if r.instruction_access = 0 then none
  else some ⟨r.instruction_access.getLsbD 0, r.instruction_access.getLsbD 1, r.instruction_access.getLsbD 2, r.instruction_access.getLsbD 4, r.instruction_offset.toNat⟩

/-- A relocation: offset, type, name, identifiers of the symbol it refers to, addend, and access. -/
def RelocationOf (t : List Symbol) (r : Rel) (k : Option RelText × Option Access) : Prop :=
  k.2 = accessOf r ∧ ∃ y l, ClosestTo t r.target y ∧ Labelled r y l ∧ k.1 = some ⟨r.offset, r.type.toNat, l, y.id, r.addend.toInt⟩

/-- Two lists of the same length whose entries are related one by one. -/
def AllMatch {α β : Type} (R : α → β → Prop) (l : List α) (m : List β) : Prop :=
  l.length = m.length ∧ ∀ (i : Nat) (a : α) (b : β), l[i]? = some a → m[i]? = some b → R a b

/-- Everything about a symbol with its debug text. -/
def DetailOf (diet : Bool) (level : Nat) (t : List Symbol) (debug : Option (List Char)) (s : Symbol) (d : Detail) : Prop :=
  (∃ sec, s.sec.name = some sec ∧ d.head = headOf s sec) ∧
    (diet = false → (d.follows = true ↔ debug ≠ none ∨ s.refs ≠ [] ∨ s.rels ≠ [] ∨ s.deps ≠ []) ∧
      (∀ x, debug = some x → d.text = readLines x) ∧ (debug = none → d.text = [])) ∧
    d.nRefs = s.refs.length ∧ d.nRels = s.rels.length ∧ d.nDeps = s.deps.length ∧
    d.id = (if s.id.internal = 0 then none else some s.id) ∧
    (3 ≤ level → AllMatch (LinkFor t) s.refs d.refs ∧ AllMatch (RelocationOf t) s.rels d.rels ∧
      d.positions = s.offset_ids.map (fun o => (o.1 + s.address, o.1, o.2)) ∧ AllMatch (LinkFor t) s.deps d.deps)

/-! ### Conditions -/

/-- A word on a line. -/
def Word (s : String) : Prop := ' ' ∉ s.toList ∧ '\n' ∉ s.toList

/-- Name and section are words; there is a section, and it does not start with a bracket. -/
def PlainSymbol (s : Symbol) : Prop :=
  (∀ n, s.name = some n → Word n) ∧ ∃ n, s.sec.name = some n ∧ Word n ∧ n.toList.head? ≠ some '['

/-- The relocation refers to a symbol, its type has a name, and its name is a word. -/
def PlainRel (t : List Symbol) (r : Rel) : Prop :=
  (∃ y, ClosestTo t r.target y) ∧ (∃ x ∈ abiRelocations, x.2 = r.type.toNat) ∧ ∀ n, r.name = some n → Word n

/-- A debug text of lines that cannot be confused with the entries. -/
def PlainDebug (d : List Char) : Prop :=
  ∃ ls : List (List Char), d = ls.flatMap (· ++ ['\n']) ∧ ∀ l ∈ ls, '\n' ∉ l ∧ isMark l = false

end Spec
end Bean

import Verif.Spec.Update
import Verif.Spec.Lookup
import Verif.Spec.Listing
/-
What the report of bean-update-code is meant to tell, and how it is read.
-/
namespace Bean
namespace Spec

/-- How a symbol is called: by its name, or by its identifiers if it has none. -/
inductive Label where
  | name (n : List Char)
  | id (i : Identifier)
deriving DecidableEq, Repr

/-- An address, and where it is: symbol and offset. -/
structure Spot where
  address : Addr
  inside : Option (Label × Nat)
deriving DecidableEq, Repr

/-- What would be done to the old file. -/
inductive Action where
  | redirect (source : Spot) (size : Nat) (to : Spot)
  | relocate (source to : Spot)
  | skip (source : Spot) (to : Option Spot) (reason : List Char)
deriving DecidableEq, Repr

/-- How to call a symbol. -/
def labelFor (y : Symbol) : Label :=
  match y.name.filter (· ≠ "") with
  | some n => .name n.toList
  | none => .id y.id

/-- An address and the last symbol that does not start behind it. -/
def spotFor (t : List Symbol) (a : Addr) : Spot :=
  ⟨a, ((t.filter (fun y => y.address.toNat ≤ a.toNat)).getLast?).map (fun y => (labelFor y, a.toNat - y.address.toNat))⟩

/-- Reasons for skipping. -/
def reasonWords : Reason → String
  | .differentOffsetId => "different offset ID"
  | .differentInternalId => "different internal ID"
  | .noTarget => "no target found"

/-- What a call of a callback means. Address zero stands for "no target". -/
def actionFor (old new : List Symbol) : Event → Action
  | .redirect _ f t n _ => .redirect (spotFor old f) n.toNat (spotFor new t)
  | .relocate _ r t _ _ => .relocate (spotFor old r.offset) (spotFor new t)
  | .skipmsg _ f t r => .skip (spotFor old f) (if t = 0 then none else some (spotFor new t)) (reasonWords r).toList

/-- A name that can be read: one word on one line that does not look like identifiers. -/
def PlainLabel (y : Symbol) : Prop := ∀ n, y.name = some n → ' ' ∉ n.toList ∧ '\n' ∉ n.toList ∧ n.toList.head? ≠ some '{'

/-- All places that are changed for a symbol are part of it: behind the mark for branches, and at relocations. -/
def PartsInside (s : Symbol) : Prop :=
  (IsFunction s → ¬ IsTrampoline s → endbrSize s < s.size.toNat) ∧
  ∀ r ∈ s.rels, r.offset.toNat < s.address.toNat + s.size.toNat ∧ s.address.toNat + r.instruction_offset.toNat ≤ r.offset.toNat

/-! ### Reading -/

def isHex (c : Char) : Bool := "0123456789abcdef".toList.contains c

/-- A name or identifiers, and the remaining text. -/
def readLabel (s : List Char) : Label × List Char :=
  if s.head? = some '{' then (.id (readId s).1, (readId s).2) else (.name (s.takeWhile (· ≠ ' ')), s.dropWhile (· ≠ ' '))

/-- A place `path:0xaddress (symbol + offset)` for a known path, and the remaining text. -/
def readSpot (path s : List Char) : Spot × List Char :=
  let d := s.drop (path.length + 3)
  let a := BitVec.ofNat 64 (numeral 16 (d.takeWhile isHex))
  let r := d.dropWhile isHex
  if r.take 2 = " (".toList then
    let l := readLabel (r.drop 2)
    let o := readDec (l.2.drop 3)
    (⟨a, some (l.1, o.1)⟩, o.2.drop 1)
  else (⟨a, none⟩, r)

/-- The reason at the end of a line. -/
def readReason (s : List Char) : List Char := (s.drop 3).takeWhile (· ≠ Char.ofNat 27)

/-- A line with an action. -/
def readAction (p q l : List Char) : Option Action :=
  let w := l.drop 8
  let verb := w.takeWhile (· ≠ ' ')
  let x := readSpot p ((w.dropWhile (· ≠ ' ')).drop 1)
  if verb = "redirecting".toList then
    if x.2.take 2 = " [".toList then
      let n := readDec (x.2.drop 2)
      some (.redirect x.1 n.1 (readSpot q (n.2.drop 11)).1)
    else some (.redirect x.1 0 (readSpot q (x.2.drop 4)).1)
  else if verb = "relocating".toList then some (.relocate x.1 (readSpot q (x.2.drop 4)).1)
  else if verb = "skipping".toList then
    if x.2.take 4 = " to ".toList then
      let y := readSpot q (x.2.drop 4)
      some (.skip x.1 (some y.1) (readReason y.2))
    else some (.skip x.1 none (readReason x.2))
  else none

/-- The lines of the report: behind an empty line there is the line of a symbol, all others are actions for it. -/
def readReport (p q : List Char) : Option (List Char) → List (List Char) → List (Option (List Char) × Option Action)
  | cur, l :: rest =>
    if l = [] then
      match rest with
      | h :: rest => readReport p q (some h) rest
      | [] => []
    else (cur, readAction p q l) :: readReport p q cur rest
  | _, [] => []

end Spec
end Bean

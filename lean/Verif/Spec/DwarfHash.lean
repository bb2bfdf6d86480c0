import Verif.Spec.DwarfTypes
/-
What the hash of a type stands for (C87).
-/
namespace Bean.Spec
open Bean

/-- A member (the hash of its type and its offset) or a value of an enumeration. -/
inductive TypeItem where
  | member (hash : Str) (location : Option Str)
  | enumerator (name value : Str)
deriving DecidableEq, Repr

/-- Kind of a type, its members, the hash of the type it refers to, bounds of the ranges of an array and encoding. -/
structure TypeParts where
  tag : Str
  items : List TypeItem
  ref : Option Str
  ranges : List (Int × Int)
  encoding : Option Str
deriving DecidableEq, Repr

/-- The members in turn. -/
def itemsOf (dies : Dies) (get : Nat → Except TypeError TypeInfo) : List Nat → Except TypeError (List TypeItem)
  | [] => .ok []
  | c :: cs =>
    match dies c with
    | none => .error .keyError
    | some child =>
      if child.tag = "member".toList then
        match get c with
        | .error e => .error e
        | .ok t => (itemsOf dies get cs).map (TypeItem.member t.hash child.location :: ·)
      else if child.tag = "enumerator".toList then
        match child.name, child.const_value with
        | some n, some v => (itemsOf dies get cs).map (TypeItem.enumerator n v :: ·)
        | _, _ => .error .keyError
      else itemsOf dies get cs

/-- The bounds in turn; they are zero by default. -/
def boundsOf (dies : Dies) : List Nat → List (Int × Int)
  | [] => []
  | c :: cs =>
    match dies c with
    | some child =>
      if child.tag = "subrange_type".toList then (child.lower_bound.getD 0, child.upper_bound.getD 0) :: boundsOf dies cs
      else boundsOf dies cs
    | none => boundsOf dies cs

/-- The parts of the type of an entry. A type that is referred to counts unless it has neither size nor identifier. -/
def HasParts (o : TypeOpts) (dies : Dies) (id : Nat) (resolve : Bool) (p : TypeParts) : Prop :=
  ∃ d, dies id = some d ∧ p.tag = d.tag ∧ p.encoding = d.encoding ∧
    p.ranges = (if d.tag = "array_type".toList then boundsOf dies d.children else []) ∧
    (if d.tag ∈ ["structure_type".toList, "class_type".toList, "union_type".toList, "enumeration_type".toList] ∧ resolve = true then
      ∃ n, itemsOf dies (fun c => typeOf o dies n c true) d.children = .ok p.items
     else p.items = []) ∧
    match d.type with
    | none => p.ref = none
    | some t =>
      (dies t = none ∧ p.ref = none) ∨
        ∃ ti, HasType o dies t (resolve && d.tag != "pointer_type".toList) ti ∧
          p.ref = (if ti.size = 0 ∧ ti.ident = [] then none else some ti.hash)

/-- Types that stand for the type they refer to. -/
def IsAlias (d : Die) : Prop := (d.tag = "const_type".toList ∨ d.tag = "typedef".toList) ∧ d.type ≠ none

/-- Text of the parts. -/
def itemText : TypeItem → Str
  | .member h none => '>' :: h
  | .member h (some l) => '>' :: h ++ '@' :: l
  | .enumerator n v => '>' :: n ++ '=' :: v

def rangeText (r : Int × Int) : Str := '[' :: intText r.1 ++ ':' :: intText r.2 ++ [']']

def refText : Option Str → Str
  | some h => '#' :: h
  | none => []

def partsText (p : TypeParts) : Str :=
  '%' :: p.tag ++ p.items.flatMap itemText ++ refText p.ref ++ p.ranges.flatMap rangeText ++ (match p.encoding with
    | some e => e
    | none => []) ++ ':' :: intText ((p.ranges.map (fun r => r.2 - r.1 + 1)).foldr (· * ·) 1)

/-- Hexadecimal digests of 64 bits. -/
def HexDigest (H : Str → Str) : Prop := ∀ x, (H x).length = 16 ∧ ∀ c ∈ H x, c ∈ "0123456789abcdef".toList

/-- Characters of names. -/
def isWord (c : Char) : Bool := c.isAlphanum || c == '_'

/-- Entries as compilers create them: kinds from a list, names of enumerators and encodings are words, offsets and values are numbers;
aliases have neither size nor encoding. -/
def PlainDies (kinds : List Str) (dies : Dies) : Prop := ∀ id d, dies id = some d →
  d.tag ∈ kinds ∧
  (∀ l, d.location = some l → ∀ c ∈ l, c.isDigit = true) ∧
  (d.tag = "enumerator".toList → ∀ n, d.name = some n → ∀ c ∈ n, isWord c = true) ∧
  (∀ v, d.const_value = some v → ∀ c ∈ v, c.isDigit = true ∨ c = '-') ∧
  (∀ e, d.encoding = some e → e ≠ [] ∧ ∀ c ∈ e, c.isAlpha = true ∨ c = '_') ∧
  (IsAlias d → d.byte_size = none ∧ d.encoding = none)

/-- No kind is the start of another one. -/
def PrefixFree (kinds : List Str) : Prop := ∀ a ∈ kinds, ∀ b ∈ kinds, a <+: b → a = b

end Bean.Spec

import Verif.Model.DwarfParse
/-
References between entries of the debug information, names of origins and address ranges
(tools/dwarfparse.py:29-37, 50-56, 66-72, 74-75, 146-165, 286-314, 353-365, tools/dwarfvars.py:68-74).

References by signature or to supplementary files are not modelled. Access to the file by elftools is assumed as documented there: an attribute
with a reference leads to the entry at its value, counted from the start of the unit or of the section, and raises an exception if there is no
such entry.
-/
namespace Bean

/-- A reference: does it count from the start of the section (`DW_FORM_ref_addr`), as opposed to the start of the unit, and the value as stored
in the file. -/
structure DieRef where
  absolute : Bool
  value : Nat
deriving DecidableEq, Repr

/-- An entry of the file with its references. The text of `type` is the one elftools makes of the type, if it is able to. -/
structure FileDie (α : Type) where
  unit : Nat
  linkage : Option Str := none
  name : Option Str := none
  spec : Option DieRef := none
  origin : Option DieRef := none
  type : Option (DieRef × Option Str) := none
  decl_file : Option Str := none
  decl_line : Option Str := none
  decl_column : Option Str := none
  attrs : Str → Option α

/-- The entries of a file with their offsets. -/
abbrev FileDies (α : Type) := List (Nat × FileDie α)

/-- elftools `get_DIE_from_attribute` (used in dwarfparse.py:294, 304, 314); `none` is an exception. -/
def followRef {α : Type} (l : FileDies α) (d : FileDie α) (r : DieRef) : Option (FileDie α) :=
  l.lookup (if r.absolute then r.value else d.unit + r.value)

/-- dwarfparse.py:50-56 `_DIE_linkage_name` (`none` is an exception) and 66-72 `_safe_DIE_linkage_name` (`none` is the default). -/
def linkageName {α : Type} (d : FileDie α) : Option Str :=
  match d.linkage with
  | some n => some n
  | none => d.name

/-- An exception while an attribute is described (caught in dwarfparse.py:363-365). -/
inductive DescError where
  | noEntry | noName
deriving DecidableEq, Repr

/-- dwarfparse.py:303-304: the name of the specification, if there is one. -/
def specName {α : Type} (l : FileDies α) (f : FileDie α) : Except DescError (Option Str) :=
  match f.spec with
  | none => .ok (some [])
  | some r =>
    match followRef l f r with
    | none => .error .noEntry
    | some s =>
      match linkageName s with
      | none => .error .noName
      | some n => .ok (some n)

/-- dwarfparse.py:292-308 `_get_origin_name`; the first argument is the depth of recursion that is left. The calls in dwarfparse.py:294 and 299
need more stack than the recursive call, hence exhausted recursion shows up there, where it is caught. -/
def originName {α : Type} (l : FileDies α) : Nat → FileDie α → Except DescError (Option Str)
  | 0, _ => .ok none
  | n + 1, d =>
    match d.origin.bind (followRef l d) with
    | none => .ok none
    | some f =>
      match linkageName f with
      | some (c :: cs) => .ok (some (c :: cs))
      | _ =>
        match specName l f with
        | .error e => .error e
        | .ok name => if f.origin.isSome then originName l n f else .ok name

/-- dwarfparse.py:310-311 `_desc_origin`. -/
def describeOrigin {α : Type} (l : FileDies α) (n : Nat) (d : FileDie α) (r : DieRef) : Except DescError (Nat × Option Str) :=
  match originName l n d with
  | .error e => .error e
  | .ok name => .ok (r.value, name)

/-- dwarfparse.py:74-75 `_desc_ref`. -/
def describeRef {α : Type} (d : FileDie α) (r : DieRef) : Nat := d.unit + r.value

/-- dwarfparse.py:313-314 `_desc_spec`. -/
def describeSpec {α : Type} (l : FileDies α) (d : FileDie α) (r : DieRef) : Except DescError (Nat × Str) :=
  match followRef l d r with
  | none => .error .noEntry
  | some s =>
    match linkageName s with
    | none => .error .noName
    | some n => .ok (describeRef d r, n)

/-- The member `type`: a pair or a number (dwarfparse.py:286-290; parentheses around a single value do not make a tuple). -/
inductive TypeMember where
  | pair (off : Nat) (text : Str)
  | number (off : Nat)
deriving DecidableEq, Repr

/-- dwarfparse.py:286-290 `_desc_datatype`. -/
def describeType {α : Type} (d : FileDie α) (r : DieRef) (text : Option Str) : TypeMember :=
  match text with
  | some s => .pair (describeRef d r) s
  | none => .number (describeRef d r)

/-- Outcome of `get_die`: an entry, a note that the type is not found, or an exception (a number has no elements). -/
inductive TypeFound (β : Type) where
  | entry (off : Nat) (e : β)
  | missing
  | typeError
deriving DecidableEq, Repr

/-- dwarfvars.py:68-74 `get_die`. -/
def typeEntry {β : Type} (t : Nat → Option β) : TypeMember → TypeFound β
  | .number _ => .typeError
  | .pair off _ =>
    match t off with
    | none => .missing
    | some e => .entry off e

/-- dwarfparse.py:353-365: the attribute for the origin is left out if its description fails. -/
def keepOrigin {α : Type} (l : FileDies α) (n : Nat) (d : FileDie α) : Option (Bool × Nat) :=
  match d.origin with
  | none => none
  | some r =>
    match describeOrigin l n d r with
    | .error _ => none
    | .ok (v, _) => some (r.absolute, v)

/-- dwarfparse.py:338-367 `_read_die`: what takes part in the combination of entries. -/
def describeDie {α : Type} (l : FileDies α) (n : Nat) (d : FileDie α) : RawDie α where
  unit := d.unit
  origin := keepOrigin l n d
  decl_file := d.decl_file
  decl_line := d.decl_line
  decl_column := d.decl_column
  attrs := d.attrs

/-- dwarfparse.py:381-410 `parse_dwarf`. -/
def parseFile {α : Type} (n : Nat) (l : FileDies α) : Except ParseError (DieTable α) :=
  parseDwarf n (l.map (fun x => (x.1, describeDie l n x.2)))

/-- Items of a list of ranges. -/
inductive RangeItem where
  | range (absolute : Bool) (begin_ end_ : Nat)
  | base (address : Nat)
deriving DecidableEq, Repr

/-- dwarfparse.py:29-37 `_get_cu_base`: `DW_AT_low_pc` or `DW_AT_entry_pc` of the unit; `none` is an exception. -/
def unitBase (low entry : Option Nat) : Option Nat :=
  match low with
  | some a => some a
  | none => entry

/-- dwarfparse.py:157-164: the loop over the items. -/
def rangeLines : Nat → List RangeItem → List (Nat × Nat)
  | _, [] => []
  | ip, .range abs b e :: rest =>
    let from_ := if abs then 0 else ip
    (from_ + b, from_ + e) :: rangeLines ip rest
  | _, .base a :: rest => rangeLines a rest

/-- The member `ranges`: a list of ranges or the offset of the list. -/
inductive RangesMember where
  | lines (l : List (Nat × Nat))
  | offset (v : Nat)
deriving DecidableEq, Repr

/-- dwarfparse.py:146-165 `_desc_ranges`. -/
def describeRanges (low entry : Option Nat) (value : Nat) (items : List RangeItem) : RangesMember :=
  match unitBase low entry with
  | none => .offset value
  | some ip => .lines (rangeLines ip items)

end Bean

import Verif.Model.DwarfTypes
/-
Table of the entries of the debug information (tools/dwarfparse.py:338-410).

Attributes are described one by one; those that do not take part in the combination of entries have an arbitrary value. The
members `tag`, `parent`, `unit` and `children` (dwarfparse.py:342-351) are attributes each entry has. An attribute whose description fails
is absent (dwarfparse.py:363-365).
-/
namespace Bean

/-- An entry of the file. The attribute for the abstract origin has a form (does it count from the start of the section, as opposed to the
start of the unit?) and a value as stored in the file. -/
structure RawDie (α : Type) where
  unit : Nat
  origin : Option (Bool × Nat) := none
  decl_file : Option Str := none
  decl_line : Option Str := none
  decl_column : Option Str := none
  attrs : Str → Option α

/-- An entry of the table. `resolved` is the member `resolved_origin`. -/
structure DieEntry (α : Type) where
  origin : Option Nat := none
  resolved : Bool := false
  decl_file : Option Str := none
  decl_line : Option Str := none
  decl_column : Option Str := none
  decl : Option Str := none
  attrs : Str → Option α

/-- dwarfparse.py:338-367 `_read_die`, with dwarfparse.py:310-311 for the origin: its value is taken as it is stored. -/
def readDie {α : Type} (r : RawDie α) : DieEntry α where
  origin := r.origin.map Prod.snd
  decl_file := r.decl_file
  decl_line := r.decl_line
  decl_column := r.decl_column
  attrs := r.attrs

/-- The table: offsets and entries. -/
abbrev DieTable (α : Type) := Nat → Option (DieEntry α)

/-- dwarfparse.py:386-390: the loop over all entries. Offsets of entries are distinct. -/
def readTable {α : Type} (l : List (Nat × RawDie α)) : DieTable α := fun off => (l.lookup off).map readDie

def DieTable.set {α : Type} (t : DieTable α) (off : Nat) (e : DieEntry α) : DieTable α := fun i => if i = off then some e else t i

/-- dwarfparse.py:374-376: a copy of the other entry with the members of the own one. -/
def inheritFrom {α : Type} (o e : DieEntry α) : DieEntry α where
  origin := e.origin.or o.origin
  resolved := true
  decl_file := e.decl_file.or o.decl_file
  decl_line := e.decl_line.or o.decl_line
  decl_column := e.decl_column.or o.decl_column
  decl := e.decl.or o.decl
  attrs := fun k => (e.attrs k).or (o.attrs k)

/-- Exceptions. -/
inductive ParseError where
  | recursion | keyError
deriving DecidableEq, Repr

/-- dwarfparse.py:369-379 `_resolve_abstract_origin`; the first argument is the depth of recursion that is left. -/
def resolveOrigin {α : Type} : Nat → DieTable α → Nat → Except ParseError (DieTable α)
  | 0, _, _ => .error .recursion
  | n + 1, t, off =>
    match t off with
    | none => .error .keyError
    | some e =>
      match e.origin with
      | none => .ok t
      | some other =>
        if e.resolved then .ok t
        else if (t other).isSome ∧ other ≠ off then
          match resolveOrigin n t other with
          | .error x => .error x
          | .ok t =>
            match t other, t off with
            | some o, some e => .ok (t.set off (inheritFrom o e))
            | _, _ => .error .keyError
        else .ok t

/-- dwarfparse.py:401-402: the text in front of the line (the typing error is part of the code). -/
def declStart : Option Str → Str
  | some (c :: cs) => c :: cs
  | _ => "[unknwon]".toList

/-- dwarfparse.py:396-408: the member `decl`. -/
def declText (decl file line column : Option Str) : Option Str :=
  let d := match file with
    | some f => some f
    | none => decl
  let d := match line with
    | some l => some (declStart d ++ ':' :: l)
    | none => d
  match column with
  | some c => d.map (· ++ '#' :: c)
  | none => d

/-- dwarfparse.py:396-408: combination of the members for the declaration. -/
def combineDecl {α : Type} (e : DieEntry α) : DieEntry α where
  origin := e.origin
  resolved := e.resolved
  decl := declText e.decl e.decl_file e.decl_line e.decl_column
  attrs := e.attrs

/-- dwarfparse.py:392-408: the body of the loop. -/
def parseStep {α : Type} (n : Nat) (t : DieTable α) (off : Nat) : Except ParseError (DieTable α) :=
  match resolveOrigin n t off with
  | .error x => .error x
  | .ok t =>
    match t off with
    | none => .error .keyError
    | some e => .ok (t.set off (combineDecl e))

/-- dwarfparse.py:392-408: the loop over all offsets. -/
def parseLoop {α : Type} (n : Nat) : DieTable α → List Nat → Except ParseError (DieTable α)
  | t, [] => .ok t
  | t, off :: rest =>
    match parseStep n t off with
    | .error x => .error x
    | .ok t => parseLoop n t rest

/-- dwarfparse.py:381-410 `parse_dwarf` for a file with debug information; `n` is the depth of recursion available. -/
def parseDwarf {α : Type} (n : Nat) (l : List (Nat × RawDie α)) : Except ParseError (DieTable α) :=
  parseLoop n (readTable l) (l.map Prod.fst)

end Bean

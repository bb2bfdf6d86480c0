import Verif.Model.DwarfParse
/-
Attributes of entries that refer to another one as their abstract origin (C95).
-/
namespace Bean.Spec
open Bean

variable {α : Type}

/-- The entry an entry refers to as its origin: references count from the start of the unit or of the section. -/
def originOf (r : RawDie α) : Option Nat := r.origin.map (fun (abs, v) => if abs then v else r.unit + v)

/-- The value of an attribute of an entry: its own one, otherwise the one of its origin. -/
inductive Inherits (l : List (Nat × RawDie α)) (k : Str) (v : α) : Nat → Prop where
  | own {off : Nat} {r : RawDie α} (h : (off, r) ∈ l) (a : r.attrs k = some v) : Inherits l k v off
  | origin {off o : Nat} {r : RawDie α} (h : (off, r) ∈ l) (a : r.attrs k = none) (ho : originOf r = some o) (i : Inherits l k v o) :
      Inherits l k v off

/-- Origins are found by the value stored in the file: it counts from the start of the section, or the unit is the first one. -/
def PlainOrigins (l : List (Nat × RawDie α)) : Prop := ∀ x ∈ l, ∀ abs v, x.2.origin = some (abs, v) → abs = true ∨ x.2.unit = 0

/-- The value stored in the file leads to another entry of the table. -/
def StoredOrigin (l : List (Nat × RawDie α)) (off o : Nat) : Prop :=
  ∃ r r' abs, (off, r) ∈ l ∧ r.origin = some (abs, o) ∧ (o, r') ∈ l ∧ o ≠ off

/-- The place of a declaration: `file:line#column`, as far as file and line are known. The word for an unknown file is misspelled. -/
def placeText (file line column : Option Str) : Option Str :=
  let col := match column with
    | some c => '#' :: c
    | none => []
  match file, line with
  | none, none => none
  | some f, none => some (f ++ col)
  | some (c :: f), some n => some (c :: f ++ ':' :: n ++ col)
  | _, some n => some ("[unknwon]".toList ++ ':' :: n ++ col)

end Bean.Spec

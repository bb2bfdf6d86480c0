import Verif.Model.DwarfRefs
import Verif.Spec.DwarfParse
/-
References between entries, their names and their address ranges according to the standard (C126).
-/
namespace Bean.Spec
open Bean

variable {α : Type}

/-- The offset a reference means. -/
def MeansOffset (d : FileDie α) (r : DieRef) (off : Nat) : Prop := (r.absolute = true ∧ off = r.value) ∨ (r.absolute = false ∧ off = d.unit + r.value)

/-- The entry a reference means. -/
def Means (l : FileDies α) (d : FileDie α) (r : DieRef) (f : FileDie α) : Prop := ∃ off, MeansOffset d r off ∧ (off, f) ∈ l

/-- A name of an entry: the one for the linker, otherwise the plain one; it is not empty. -/
def Called (d : FileDie α) (n : Str) : Prop := n ≠ [] ∧ (d.linkage = some n ∨ (d.linkage = none ∧ d.name = some n))

/-- The name of an entry: its own one, otherwise the one of the entry it completes or is a copy of. -/
inductive Named (l : FileDies α) (n : Str) : FileDie α → Prop where
  | own {d : FileDie α} (h : Called d n) : Named l n d
  | spec {d f : FileDie α} {r : DieRef} (h : ∀ m, ¬ Called d m) (hr : d.spec = some r) (hf : Means l d r f) (i : Named l n f) : Named l n d
  | origin {d f : FileDie α} {r : DieRef} (h : ∀ m, ¬ Called d m) (hr : d.origin = some r) (hf : Means l d r f) (i : Named l n f) : Named l n d

/-- The debug information refers to existing entries. -/
def WholeRefs (l : FileDies α) : Prop :=
  ∀ x ∈ l, (∀ r, x.2.spec = some r → ∃ f, Means l x.2 r f) ∧ ∀ r, x.2.origin = some r → ∃ f, Means l x.2 r f

/-- Entries that complete a declaration: the declaration has a name itself. -/
def NamedSpecs (l : FileDies α) : Prop := ∀ x ∈ l, ∀ r f, x.2.spec = some r → Means l x.2 r f → ∃ n, Called f n

/-- Chains of origins end. -/
def OriginsEnd (l : FileDies α) (rank : FileDie α → Nat) : Prop := ∀ x ∈ l, ∀ r f, x.2.origin = some r → Means l x.2 r f → rank f < rank x.2

/-- Entries without a name of their own complete a declaration or are a copy, but not both. -/
def OneSource (l : FileDies α) : Prop := ∀ x ∈ l, (∃ n, Called x.2 n) ∨ x.2.spec = none ∨ x.2.origin = none

/-- The entry as it is stored in the file. -/
def storedDie (d : FileDie α) : RawDie α where
  unit := d.unit
  origin := d.origin.map (fun r => (r.absolute, r.value))
  decl_file := d.decl_file
  decl_line := d.decl_line
  decl_column := d.decl_column
  attrs := d.attrs

/-- The entries as they are stored in the file. -/
def storedDies (l : FileDies α) : List (Nat × RawDie α) := l.map (fun x => (x.1, storedDie x.2))

/-- The address ranges in a list start at this address: the one given last, otherwise the one of the unit. -/
def baseAt (start : Option Nat) (before : List RangeItem) : Option Nat :=
  match (before.filterMap (fun | .base a => some a | _ => none)).getLast? with
  | some a => some a
  | none => start

def isRange : RangeItem → Bool
  | .range .. => true
  | .base _ => false

end Bean.Spec

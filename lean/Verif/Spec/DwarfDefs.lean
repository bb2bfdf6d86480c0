import Verif.Spec.DwarfTypes
/-
Sizes of entries of the debug information (C101), as defined by the standard.
-/
namespace Bean.Spec
open Bean

/-- The number of elements of a range: given as such or by its bounds; the lower one is zero by default (languages of the C family). -/
def RangeLength (r : Die) (n : Int) : Prop :=
  r.count = some n ∨ r.count = none ∧ ∃ u, r.upper_bound = some u ∧ n = u - (match r.lower_bound with
    | some l => l
    | none => 0) + 1

/-- The number of elements of an array with these children: the product over all ranges. -/
inductive Elements (dies : Dies) : List Nat → Int → Prop where
  | nil : Elements dies [] 1
  | range {c cs r n k} : dies c = some r → r.tag = "subrange_type".toList → RangeLength r n → Elements dies cs k →
      Elements dies (c :: cs) (n * k)
  | other {c cs r k} : dies c = some r → r.tag ≠ "subrange_type".toList → Elements dies cs k → Elements dies (c :: cs) k

/-- Entries of the size of the type they refer to: qualified types, other names of types, variables, members, parameters. -/
def sameSizeTags : List Str :=
  ["const_type".toList, "volatile_type".toList, "restrict_type".toList, "atomic_type".toList, "typedef".toList, "variable".toList,
   "member".toList, "formal_parameter".toList]

/-- The size of an entry in bytes. Entries without one (functions, incomplete types, arrays of unknown length) are not related to a
number. -/
inductive SizeIs (dies : Dies) : Nat → Int → Prop where
  | bytes {id d s} : dies id = some d → d.byte_size = some s → SizeIs dies id s
  | array {id d t s k} : dies id = some d → d.byte_size = none → d.tag = "array_type".toList → d.type = some t → SizeIs dies t s →
      Elements dies d.children k → SizeIs dies id (k * s)
  | same {id d t s} : dies id = some d → d.byte_size = none → d.tag ∈ sameSizeTags → d.type = some t → SizeIs dies t s → SizeIs dies id s

/-- The name of an entry. -/
def NameIs (d : Die) (n : Str) : Prop := d.name = some n ∨ d.name = none ∧ d.linkage_name = some n

/-- A variable or a type with members. -/
def GlobalTag (d : Die) : Prop :=
  d.tag ∈ ["variable".toList, "structure_type".toList, "class_type".toList, "union_type".toList, "enumeration_type".toList]

/-- Arrays have bounds and neither a size of their own nor a number of elements. -/
def BoundedArrays (dies : Dies) : Prop := ∀ id d, dies id = some d → d.tag = "array_type".toList →
  d.byte_size = none ∧ ∀ c ∈ d.children, ∀ r, dies c = some r → r.tag = "subrange_type".toList → r.count = none ∧ r.upper_bound ≠ none

/-- Arrays have no name, and are only the type of entries with a name that are no other names of types (variables, members) or of
pointers. -/
def DirectArrays (dies : Dies) : Prop := ∀ id d, dies id = some d →
  (d.tag = "array_type".toList → d.name = none ∧ d.linkage_name = none) ∧
  ∀ t dt, d.type = some t → dies t = some dt → dt.tag = "array_type".toList →
    d.tag = "pointer_type".toList ∨ ((∃ n, NameIs d n ∧ n ≠ []) ∧ d.tag ≠ "typedef".toList ∧ d.tag ∈ sameSizeTags)

/-- The children of types with members and of arrays are part of the table, enumerators have a name and a value. -/
def CompleteChildren (dies : Dies) : Prop := ∀ id d, dies id = some d → ∀ c ∈ d.children, ∃ child, dies c = some child ∧
  (child.tag = "enumerator".toList → child.name ≠ none ∧ child.const_value ≠ none)

end Bean.Spec

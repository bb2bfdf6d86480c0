import Verif.Model.DwarfDefs
/-
Structures of bit-fields in the debug information (tools/dwarfparse.py:338-367, tools/dwarfvars.py:136-145, 236-243).
-/
namespace Bean

/-- A bit-field as current compilers describe it: name and type, the number of bits (`DW_AT_bit_size`) and their offset in the structure (`DW_AT_data_bit_offset`). There is no
`DW_AT_data_member_location`. -/
structure BitMember where
  name : Str
  type : Nat
  bits : Nat
  offset : Nat
deriving DecidableEq, Repr

/-- The entry as it is used by dwarfvars.py:136-145, 236-243: both of the numbers are stored (dwarfparse.py:353-362), but only `data_member_location` is looked at. -/
def bitDie (f : BitMember) : Die := { tag := "member".toList, name := some f.name, type := some f.type }

/-- A structure of bit-fields of the size given, as entry 1, with the members as entries from 2 on, in addition to other entries (types of the members). -/
def bitStruct (others : Dies) (size : Int) (fs : List BitMember) : Dies := fun i =>
  if i = 1 then some { tag := "structure_type".toList, name := some "flags".toList, byte_size := some size, children := (List.range fs.length).map (· + 2) }
  else if 2 ≤ i ∧ i < fs.length + 2 then (fs[i - 2]?).map bitDie
  else others i

end Bean

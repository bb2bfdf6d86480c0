import Verif.Model.DwarfTypes
/-
Attributes of the debug information whose values have names (tools/dwarfparse.py:109-113, 320-324). The tables of names are part of elftools, not of /repo; entries whose value is not a number are left out, as they never equal the value of an attribute.
-/
namespace Bean

/-- A table of elftools: names and values, in order. -/
abbrev EnumTable := List (Str × Int)

/-- dwarfparse.py:109-113 `_desc_enum`: the first name with the value, or the value itself as text. -/
def descEnum (table : EnumTable) (v : Int) : Str :=
  match table.find? (fun e => e.2 = v) with
  | some e => e.1
  | none => intText v

/-- dwarfparse.py:321: the encoding, without the prefix `DW_ATE_`. -/
def encodingText (table : EnumTable) (v : Int) : Str := (descEnum table v).drop 7

/-- dwarfparse.py:320: the language; likewise accessibility, inlining and calling convention (dwarfparse.py:322-324). -/
def languageText (table : EnumTable) (v : Int) : Str := descEnum table v

end Bean

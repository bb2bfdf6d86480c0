import Verif.Spec.Json
import Verif.Model.StatText
/-
What a reader of the summary is told.
-/
namespace Bean
namespace Spec

/-- Number and total size of symbols. -/
def countTree (c : Nat × BitVec 64) : Json := .obj [("count".toList, .num c.1), ("size".toList, .num c.2.toNat)]

/-- Added and removed symbols. -/
def changeTree (added removed : Nat × BitVec 64) : Json := .obj [("added".toList, countTree added), ("removed".toList, countTree removed)]

/-- A category. -/
def statTree (s : Stat) : Json :=
  .obj [("total".toList, countTree s.total), ("changed-internal".toList, changeTree s.internalAdded s.internalRemoved),
    ("changed-extended".toList, changeTree s.extendedAdded s.extendedRemoved)]

/-- The mode of the comparison. -/
def modeTree : Nat → Json
  | 0 => .str "COMPARE_EXTENDED".toList
  | 1 => .str "COMPARE_WRITEABLE_INTERNAL".toList
  | 2 => .str "COMPARE_EXECUTABLE_EXTENDED".toList
  | 3 => .str "COMPARE_ONLY_INTERNAL".toList
  | _ => .null

/-- Truth values as words. -/
def boolWord (b : Bool) : List Char := if b then "true".toList else "false".toList

/-- Truth values as numbers. -/
def boolDigit (b : Bool) : List Char := if b then ['1'] else ['0']

/-- How a stream writes truth values, and what is read then. -/
inductive BoolText : (Bool → List Char) → (Bool → Json) → Prop
  | words : BoolText boolWord .bool
  | digits : BoolText boolDigit (fun b => .num b.toNat)

/-- The members of the summary. -/
def summaryMembers (word : Bool → List Char) (value : Bool → Json) (s : Summary) : List (List Char × Json) :=
  ("patchable".toList, value s.patchable) ::
  ("settings".toList, .obj [("resolve_internal_relocations".toList, .str (word s.resolve)),
    ("include_dependencies".toList, .str (word s.dependencies)), ("comparison_mode".toList, modeTree s.mode)]) ::
  ("build-id".toList, .obj [("added".toList, .str s.newId), ("removed".toList, .str s.oldId)]) ::
  [("init", Category.init), ("fini", .fini), ("text", .text), ("rodata", .rodata), ("relro", .relro), ("data", .data), ("bss", .bss),
    ("tdata", .tdata), ("tbss", .tbss)].map (fun x => (x.1.toList, statTree (s.stat x.2)))

/-- A text that may stand in quotes as it is. -/
def PlainText (s : List Char) : Prop := ∀ c ∈ s, c ≠ '"' ∧ c ≠ '\\' ∧ 32 ≤ c.toNat

end Spec
end Bean

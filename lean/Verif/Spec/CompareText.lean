import Verif.Model.CompareText
/-
Vocabulary for the texts of the comparison of versions (C118, C119).
-/
namespace Bean
namespace Spec
open CompareText

/-- Result of the program for differences: nothing after a failure, otherwise with a verdict. -/
def ProperResult (result : List Entry) : Prop := result = [] ∨ ∃ b, Entry.patchable b ∈ result

/-- The sizes of added and removed symbols of a category show a change. -/
def SizeChange (d : Details) : Prop := d.extAdded.size ≠ 0 ∨ d.extRemoved.size ≠ 0

/-- Hashes of both versions are known and differ. -/
def HashConflict (base obj : HashInfo) : Prop := base.hashes ≠ [] ∧ obj.hashes ≠ [] ∧ dictEq base.hashes obj.hashes = false

end Spec
end Bean

import Verif.Model.PyFiles
import Verif.Spec.BuildId
import Verif.Spec.DebugSym
/-
Vocabulary for files and debug symbols of the Python tools (C116, C117).
-/
namespace Bean
namespace Spec

/-- A note as written by linkers by default: number 3 is used for build identifiers only, which have the size of SHA-1 (up to alignment). -/
def UsualNote (n : Note) : Prop := n.type = 3 → n.name = some "GNU" ∧ 17 ≤ n.desc.length ∧ n.desc.length ≤ 20

/-- Notes are in sections with other names than those that are read as text. -/
def UsualSection (s : DbgSec) : Prop :=
  s.notes.isNote = true → s.name ≠ ".gnu_debuglink".toList ∧ s.name ≠ ".comment".toList ∧ ∀ n ∈ s.notes.notes, UsualNote n

/-- At most one section has a certain property. -/
def AtMostOne {α : Type} (P : α → Prop) (l : List α) : Prop := ∀ pre s mid t post, l = pre ++ s :: (mid ++ t :: post) → ¬ (P s ∧ P t)

/-- The section has a build identifier. -/
def HasId (s : DbgSec) : Prop := ∃ d, SectionId s.notes d

/-- Text of a section consists of ASCII characters. -/
def AsciiSection (s : DbgSec) : Prop := ∀ c ∈ cString s.data, c.toNat < 128

/-- The name starts at the root of the file system. -/
def AbsoluteName (s : Str) : Prop := ∃ rest, s = '/' :: rest

end Spec
end Bean

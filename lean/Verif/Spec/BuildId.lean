import Verif.Model.BuildId
/-
Vocabulary for the properties of build identifiers.
-/
namespace Bean.Spec

/-- The text in a buffer (up to the terminating null character). -/
def cText (buf : List Char) : List Char := buf.takeWhile (· != '\x00')

/-- Value of a lowercase hexadecimal digit. -/
def hexValue (c : Char) : Option Nat :=
  if 48 ≤ c.toNat ∧ c.toNat ≤ 57 then some (c.toNat - 48)
  else if 97 ≤ c.toNat ∧ c.toNat ≤ 102 then some (c.toNat - 87)
  else none

/-- The bytes a text of hexadecimal digits stands for. -/
def parseHex : List Char → Option (List (BitVec 8))
  | [] => some []
  | [_] => none
  | x :: y :: rest =>
    match hexValue x, hexValue y, parseHex rest with
    | some h, some l, some bytes => some (BitVec.ofNat 8 (16 * h + l) :: bytes)
    | _, _, _ => none

/-- A note with a build identifier. -/
def IsBuildId (n : Note) : Prop := n.name = some "GNU" ∧ n.type = 3

/-- The section has `desc` as its first build identifier. -/
def SectionId (sec : NoteSec) (desc : List (BitVec 8)) : Prop :=
  sec.isNote = true ∧ ∃ pre n post, sec.notes = pre ++ n :: post ∧ IsBuildId n ∧ n.desc = desc ∧ ∀ m ∈ pre, ¬ IsBuildId m

/-- The section has no build identifier. -/
def NoSectionId (sec : NoteSec) : Prop := sec.isNote = true → ∀ n ∈ sec.notes, ¬ IsBuildId n

/-- `desc` is the build identifier of the last section that has one. -/
def FileId (secs : List NoteSec) (desc : List (BitVec 8)) : Prop :=
  ∃ pre sec post, secs = pre ++ sec :: post ∧ SectionId sec desc ∧ ∀ s ∈ post, NoSectionId s

end Bean.Spec

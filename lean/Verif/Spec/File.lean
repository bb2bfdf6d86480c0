import Verif.Model.File
/-
Vocabulary for opening of files (C102).
-/
namespace Bean.Spec
open Bean

/-- `q` is the path of a file below a directory. -/
def BelowRoot (root path q : Str) : Prop :=
  ∃ r, (root = r ++ ['/'] ∨ (root = r ∧ r.getLast? ≠ some '/')) ∧ q = r ++ '/' :: path

/-- The file that is meant by a path: itself, or the one below the root if there is no such file. -/
def Meant (disk : Disk) (path : Str) (root : Option Str) (q : Str) : Prop :=
  (disk.exists_ path = true ∧ q = path) ∨
  disk.exists_ path = false ∧ ∃ r, root = some r ∧ BelowRoot r path q ∧ disk.exists_ q = true

/-- A file that the program accepts: it can be read, is large enough for the header, and passes the checks, with its actual size or
without limit. -/
def Accepted (disk : Disk) (q : Str) (limit : Bool) (img : Image) : Prop :=
  disk.read q = some img ∧ 16 ≤ img.size ∧ img.identValid = true ∧ img.dataSupported = true ∧ img.classSupported = true ∧
    img.valid (if limit then img.size else 2 ^ 64 - 1) = true

end Bean.Spec

import Verif.Model.FileTree
/-
Specification vocabulary for the tree of files.
-/
namespace Bean.Spec

mutual
/-- The paths of the files of an entry that are neither hidden nor behind a link. -/
def filesOf : FsNode → List (List Str)
  | .file name => if hiddenName name then [] else [[name]]
  | .other name => if hiddenName name then [] else [[name]]
  | .dir name link entries => if hiddenName name || link then [] else (filesIn entries).map (name :: ·)

/-- The same for a directory. -/
def filesIn : List FsNode → List (List Str)
  | [] => []
  | n :: rest => filesOf n ++ filesIn rest
end

mutual
/-- The paths of entries of a tree with such a look (that are not directories). -/
def pathsOf (look : Look) : TreeNode → List (List Str)
  | .node label l below => (if l = look then [[label]] else []) ++ (pathsIn look below).map (label :: ·)

/-- The same for several. -/
def pathsIn (look : Look) : List TreeNode → List (List Str)
  | [] => []
  | n :: rest => pathsOf look n ++ pathsIn look rest
end

/-- The entry is a file. -/
def isFileNode : FsNode → Bool
  | .file _ => true
  | .dir .. => false
  | .other _ => false

/-- The name of the entry. -/
def entryName : FsNode → Str
  | .file name => name
  | .dir name _ _ => name
  | .other name => name

/-- A name of a file with differences or of a description of a source package. -/
def DiffFile (name : Str) : Prop := (∃ b, name = b ++ ".diff".toList) ∨ ∃ b, name = b ++ ".dsc".toList

/-- Order of entries: those that are not files first, otherwise by the name in small letters. -/
def KeyLt (a b : Bool × Str) : Prop := (a.1 = false ∧ b.1 = true) ∨ (a.1 = b.1 ∧ a.2 < b.2)

/-- There is a file with this path, whether or not it is hidden (but not behind a link). -/
inductive HasFile : List FsNode → List Str → Prop
  | top {l name} : .file name ∈ l → HasFile l [name]
  | inside {l name entries p} : .dir name false entries ∈ l → HasFile entries p → HasFile l (name :: p)

end Bean.Spec

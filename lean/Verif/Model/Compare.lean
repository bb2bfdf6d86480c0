import Verif.Model.ElfVars
/-
Comparison of the versions of a package (tools/compare.py). Output is left out, except for the verdicts and their number.
-/
namespace Bean

/-- A file below the directory of a version: path relative to it, name and whether it is a regular file that starts with the magic
number of ELF files (compare.py:70-72). -/
structure ObjFile where
  path : Str
  name : Str
  isFile : Bool
  isElf : Bool
deriving DecidableEq, Repr

/-- An entry of the base directory. `files` is what the pattern for the files delivers (compare.py:65-68). -/
structure VersionDir where
  name : Str
  isDir : Bool
  files : List ObjFile
deriving DecidableEq, Repr

/-- Options: patterns for the names of versions and files (compare.py:33, 38), given by the texts they match. Without patterns, all
of them match. -/
structure CompareArgs where
  verdir : List (Str → Bool) := []
  lib : List (Str → Bool) := []

/-- compare.py:59-63, 73-77: a name passes if there are no patterns or one of them matches. -/
def passes (patterns : List (Str → Bool)) (name : Str) : Bool := patterns.isEmpty || patterns.any (fun p => p name)

/-- compare.py:58-63: is the entry the directory of a version? -/
def isVersion (args : CompareArgs) (d : VersionDir) : Bool := d.isDir && d.name.head? != some '.' && passes args.verdir d.name

/-- compare.py:64-78: the objects of a version. -/
def objectsOf (args : CompareArgs) (d : VersionDir) : List Str :=
  (d.files.filter (fun f => f.isFile && f.isElf && passes args.lib f.name)).map (·.path)

/-- compare.py:79-83: an iteration of the loop; `acc` are the versions and objects so far. -/
def gatherStep (args : CompareArgs) (acc : List VersionDir × List Str) (d : VersionDir) : List VersionDir × List Str :=
  if isVersion args d then
    (acc.1 ++ [d], if acc.1.length = 0 then objectsOf args d else acc.2.filter (fun o => (objectsOf args d).contains o))
  else acc

/-- compare.py:54-83: versions and common objects. -/
def gatherObjects (args : CompareArgs) (base : List VersionDir) : List VersionDir × List Str := base.foldl (gatherStep args) ([], [])

/-- Hashes delivered for a version (compare.py:246-256), a dictionary; empty if the tool fails. -/
abbrev Hashes := List (Str × Str)

/-- Comparison of dictionaries. -/
def dictEq (a b : Hashes) : Bool := a.length == b.length && a.all (fun p => b.lookup p.1 == some p.2)

/-- Member of the result of the tool for differences that matters for the verdict. -/
inductive DiffMember where
  | patchable (value : Bool)
  | other
deriving DecidableEq, Repr

/-- compare.py:150-160: the verdict of a cell: absent without such a member, otherwise whether an update is possible. -/
def cellVerdict (result : List DiffMember) (base obj : Hashes) : Option Bool :=
  let hashsuccess := base.isEmpty || obj.isEmpty || dictEq base obj
  result.foldl (fun patchable m => match m with
    | .patchable data => some (data && hashsuccess)
    | .other => patchable) none

/-- What the external tools deliver: differences between two versions and hashes of a version. -/
structure CompareTools where
  diff : Str → Str → List DiffMember
  hash : Str → Hashes

/-- compare.py:150 for the versions with these names. -/
def verdict (t : CompareTools) (base obj : Str) : Option Bool := cellVerdict (t.diff base obj) (t.hash base) (t.hash obj)

/-- compare.py:269-277: number of possible updates in a table with one row; `last` is the version before. -/
def linearCount (t : CompareTools) (last : Option Str) : List Str → Nat
  | [] => 0
  | obj :: rest => (if (match last with
      | some l => verdict t l obj == some true
      | none => false) then 1 else 0) + linearCount t (some obj) rest

/-- compare.py:261-266: number of possible updates in the row of `col`. -/
def rowCount (t : CompareTools) (col : Str) (last : Option Str) : List Str → Nat
  | [] => 0
  | obj :: rest => (if last == some col && verdict t col obj == some true then 1 else 0) + rowCount t col (some obj) rest

/-- compare.py:258-268: number of possible updates in a table with all pairs. -/
def matrixCount (t : CompareTools) (names : List Str) : Nat := (names.map (fun col => rowCount t col none names)).sum

/-- Exceptions. -/
inductive CompareError where
  | noVersion | zeroDivision
deriving DecidableEq, Repr

/-- compare.py:104, 214, 281: the numbers of the summary of each object: possible updates and versions minus one. The first version is used
without check; for each object, the number of versions minus one is a divisor. `names` are the sorted names of the versions. -/
def compareSummary (matrix : Bool) (t : Str → CompareTools) (names : List Str) (objs : List Str) :
    Except CompareError (List (Nat × Nat)) :=
  match names with
  | [] => .error .noVersion
  | _ :: rest =>
    objs.mapM (fun o =>
      if rest.length = 0 then .error .zeroDivision
      else .ok (if matrix then matrixCount (t o) names else linearCount (t o) none names, rest.length))

end Bean

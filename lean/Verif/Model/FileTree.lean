import Verif.Model.Compare
/-
The tree of files printed by the comparison of versions (tools/compare.py:89-107).

Paths are lists of names. The conversion of names for the output (`escape`) is left out, so are colours.
-/
namespace Bean

/-- What a directory contains: files (or links to files), directories (or links to directories) and others, e.g. links to nowhere. -/
inductive FsNode where
  | file (name : Str)
  | dir (name : Str) (link : Bool) (entries : List FsNode)
  | other (name : Str)

/-- Style of an entry of the tree: compare.py:97 directories, compare.py:99 compared objects, compare.py:101 others. -/
inductive Look where
  | dim | bold | plain
deriving DecidableEq, Repr

/-- An entry of the tree. -/
inductive TreeNode where
  | node (label : Str) (look : Look) (below : List TreeNode)

/-- compare.py:92 -/
def hiddenName (name : Str) : Bool := name.head? == some '.'

/-- compare.py:100 -/
def leftOut (name : Str) : Bool := ".diff".toList.isSuffixOf name || ".dsc".toList.isSuffixOf name

/-- compare.py:91: the key. `lower` converts a name to small letters. -/
def nodeKey (lower : Str → Str) : FsNode → Bool × Str
  | .file name => (true, lower name)
  | .dir name _ _ => (false, lower name)
  | .other name => (false, lower name)

/-- Comparison of keys by Python. -/
def compareKeys (a b : Bool × Str) : Int := if a.1 = b.1 then strcmp a.2 b.2 else if a.1 then 1 else -1

/-- compare.py:98-101: a file (or something else) with this path and name. -/
def shownFile (objs : List (List Str)) (path : List Str) (name : Str) : List TreeNode :=
  if objs.contains path then [.node name .bold []]
  else if leftOut name then [] else [.node name .plain []]

mutual
/-- compare.py:92-101: what an entry of the directory with the path `pre` adds to the tree. -/
def shownNode (lower : Str → Str) (objs : List (List Str)) (pre : List Str) : FsNode → List TreeNode
  | .file name => if hiddenName name then [] else shownFile objs (pre ++ [name]) name
  | .other name => if hiddenName name then [] else shownFile objs (pre ++ [name]) name
  | .dir name link entries =>
    if hiddenName name then []
    else if link then []
    else [.node name .dim ((pySorted (fun a b => compareKeys a.1 b.1) (keyedNodes lower objs (pre ++ [name]) entries)).flatMap (·.2))]

/-- The entries with their keys. -/
def keyedNodes (lower : Str → Str) (objs : List (List Str)) (pre : List Str) : List FsNode → List ((Bool × Str) × List TreeNode)
  | [] => []
  | n :: rest => (nodeKey lower n, shownNode lower objs pre n) :: keyedNodes lower objs pre rest
end

/-- compare.py:90-101 `walk_directory`. -/
def walkDirectory (lower : Str → Str) (objs : List (List Str)) (pre : List Str) (entries : List FsNode) : List TreeNode :=
  (pySorted (fun a b => compareKeys a.1 b.1) (keyedNodes lower objs pre entries)).flatMap (·.2)

end Bean

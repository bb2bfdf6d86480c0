import Verif.Model.Tools
import Verif.Model.Diff
import Verif.Model.Compare
import Verif.Spec.Json
/-
Text written by the program for summaries of differences (examples/diffstat.cpp). How the streams of the library dlh write truth values is
a parameter, as its source is not part of /repo; numbers are written in decimal.
-/
namespace Bean

/-- diffstat.cpp:37-41 `print_startline` -/
def startLine (depth : Nat) : Str := '\n' :: List.replicate depth '\t'

/-- `'"' << name << "\": {"` -/
def openObject (depth : Nat) (name : String) : Str := startLine depth ++ '"' :: (name.toList ++ "\": {".toList)

/-- diffstat.cpp:43-52 `print_count` -/
def countText (name : String) (depth : Nat) (c : Nat × BitVec 64) : Str :=
  openObject depth name ++ (startLine (depth + 1) ++ ("\"count\": ".toList ++ (Nat.toDigits 10 c.1 ++ (',' :: (startLine (depth + 1) ++
  ("\"size\": ".toList ++ (Nat.toDigits 10 c.2.toNat ++ (startLine depth ++ ['}']))))))))

/-- diffstat.cpp:57-74: an object with the counts of added and removed symbols. -/
def changeText (name : String) (depth : Nat) (added removed : Nat × BitVec 64) : Str :=
  openObject depth name ++ (countText "added" (depth + 1) added ++ (',' :: (countText "removed" (depth + 1) removed ++
  (startLine depth ++ ['}']))))

/-- diffstat.cpp:54-77 `print_filter` -/
def statBlock (name : String) (depth : Nat) (s : Stat) : Str :=
  openObject depth name ++ (countText "total" (depth + 1) s.total ++ (',' ::
  (changeText "changed-internal" (depth + 1) s.internalAdded s.internalRemoved ++ (',' ::
  (changeText "changed-extended" (depth + 1) s.extendedAdded s.extendedRemoved ++ (startLine depth ++ ['}']))))))

/-- A member whose value is written in quotes. -/
def quotedText (depth : Nat) (name : String) (value : Str) : Str :=
  startLine depth ++ '"' :: (name.toList ++ ("\": \"".toList ++ (value ++ ['"'])))

/-- diffstat.cpp:100-106 -/
def modeText : Nat → Str
  | 0 => "\"COMPARE_EXTENDED\"".toList
  | 1 => "\"COMPARE_WRITEABLE_INTERNAL\"".toList
  | 2 => "\"COMPARE_EXECUTABLE_EXTENDED\"".toList
  | 3 => "\"COMPARE_ONLY_INTERNAL\"".toList
  | _ => "null".toList

/-- The names of the categories (diffstat.cpp:119-155). -/
def statNames : List (String × Category) :=
  [("init", .init), ("fini", .fini), ("text", .text), ("rodata", .rodata), ("relro", .relro), ("data", .data), ("bss", .bss),
    ("tdata", .tdata), ("tbss", .tbss)]

/-- What the program prints. -/
structure Summary where
  patchable : Bool
  resolve : Bool
  dependencies : Bool
  mode : Nat
  oldId : Str
  newId : Str
  stat : Category → Stat

/-- diffstat.cpp:90-117: everything before the categories. -/
def summaryHead (word : Bool → Str) (s : Summary) : Str :=
  '{' :: (startLine 1 ++ ("\"patchable\": ".toList ++ (word s.patchable ++ (',' :: (openObject 1 "settings" ++
  (quotedText 2 "resolve_internal_relocations" (word s.resolve) ++ (',' :: (quotedText 2 "include_dependencies" (word s.dependencies) ++
  (',' :: (startLine 2 ++ ("\"comparison_mode\": ".toList ++ (modeText s.mode ++ (startLine 1 ++ ('}' :: ',' ::
  (openObject 1 "build-id" ++ (quotedText 2 "added" s.newId ++ (',' :: (quotedText 2 "removed" s.oldId ++ (startLine 1 ++
  ['}', ','])))))))))))))))))))

/-- diffstat.cpp:118-155: blocks with commas in between. -/
def joinBlocks : List Str → Str
  | [] => []
  | [b] => b
  | b :: bs => b ++ ',' :: joinBlocks bs

/-- diffstat.cpp:89-157 `print` -/
def summaryText (word : Bool → Str) (s : Summary) : Str :=
  summaryHead word s ++ (joinBlocks (statNames.map (fun x => statBlock x.1 1 (s.stat x.2))) ++ ['\n', '}', '\n'])

/-- diffstat.cpp:77-94: the summary of two files, `a` is the old and `b` the new one. -/
def summaryOf (bld : Build) (h : BitVec 64 → BitVec 32) (a b : SymTree) (aId bId : Str) (resolve deps : Bool) (mode : Nat) : M Summary := do
  let p ← patchableWith bld h b a deps mode
  return { patchable := p, resolve := resolve, dependencies := deps, mode := mode, oldId := aId, newId := bId, stat := statOf h a b deps }

/-! tools/compare.py: use of the summary. Values are those `json.loads` delivers for the text (Spec/Json). The members of an object are
given in order; as the names written by the program differ, this is the dictionary. -/

/-- `if data` for a value. -/
def truthy : Spec.Json → Bool
  | .null => false
  | .bool b => b
  | .num n => n != 0
  | .str s => !s.isEmpty
  | .obj ms => !ms.isEmpty

/-- `data[name]`, absent for an exception. -/
def member (v : Spec.Json) (name : String) : Option Spec.Json :=
  match v with
  | .obj ms => ms.lookup name.toList
  | _ => none

/-- compare.py:115-125 `exec_json`: the members of the result; none if the program fails (`out` is absent) or the text cannot be read.
(A text that is no object makes the script fail later on.) -/
def execJson (out : Option Str) : List (Str × Spec.Json) :=
  match out with
  | none => []
  | some s =>
    match Spec.readJson s with
    | some (.obj ms) => ms
    | _ => []

/-- compare.py:151-152: what the loop of a cell makes of the members. -/
def diffMembers (ms : List (Str × Spec.Json)) : List DiffMember :=
  ms.map (fun m => if m.1 = "patchable".toList then .patchable (truthy m.2) else .other)

/-- `v != 0` -/
def notZero : Spec.Json → Bool
  | .num n => n != 0
  | .bool b => b
  | _ => true

/-- compare.py:127: is the category shown as changed? Absent for an exception. -/
def shownChanged (data : Spec.Json) : Option Bool := do
  let e ← member data "changed-extended"
  let added ← (← member e "added") |> fun x => member x "size"
  if notZero added then return true
  let removed ← (← member e "removed") |> fun x => member x "size"
  return notZero removed

/-- compare.py:126-128, 166-177: the categories shown in a cell (those with a total), and whether as changed. -/
def shownSections (ms : List (Str × Spec.Json)) : List (Str × Option Bool) :=
  (ms.filter (fun m => m.1 != "patchable".toList && m.1 != "build-id".toList && (member m.2 "total").isSome)).map
    (fun m => (m.1, shownChanged m.2))

end Bean

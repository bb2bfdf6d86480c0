import Verif.Model.Update
import Verif.Model.Listing
/-
Report of bean-update-code (examples/update-code.cpp) for the levels `NONE` and `VERBOSE`.

Assumptions on the streams as in Model/Listing: `hex` and `dec` last until they are changed. Printing a null pointer is undefined, as in the
standard library.
-/
namespace Bean

/-- update-code.cpp:15-17 `Data`; the path can be null (lines 171-174). -/
structure ReportFile where
  symbols : SymTree
  path : Option Str

/-- update-code.cpp:21-28: the symbol in front of the address. -/
def reportSpot (symbols : SymTree) (a : Addr) : Str :=
  match Tree.floor symbols a with
  | some y =>
    " (".toList ++ ((match shownName y.name with
      | some n => n
      | none => symIdText y.id) ++ (" + ".toList ++ (Nat.toDigits 10 (a - y.address).toNat ++ [')'])))
  | none => []

/-- update-code.cpp:19-29 `Data::dump` -/
def reportPlace (f : ReportFile) (a : Addr) : M Str :=
  match f.path with
  | some p => .ok (p ++ (":0x".toList ++ (Nat.toDigits 16 a.toNat ++ reportSpot f.symbols a)))
  | none => .error .ub

/-- update-code.cpp:31-38 `Data::header`, with the variable `prev`. -/
def reportHeader (level : Nat) (f : ReportFile) (prev a : Addr) : Str × Addr :=
  match Tree.floor f.symbols a with
  | some y => if y.address ≠ prev then ('\n' :: (listLine level y ++ ['\n']), y.address) else ([], prev)
  | none => ([], prev)

/-- Escape sequence for a color. -/
def color (n : Str) : Str := Char.ofNat 27 :: '[' :: n ++ ['m']

/-- update-code.cpp:45-46: the number has the base that was set by `Data::dump`. -/
def reportSize (symbols : SymTree) (a size : Addr) : Str :=
  if size ≠ 0 then " [".toList ++ (Nat.toDigits (if (Tree.floor symbols a).isSome then 10 else 16) size.toNat ++ " bytes]".toList) else []

/-- update.hpp:105, 110, 113: texts of the reasons. -/
def reasonText : Reason → Str
  | .differentOffsetId => "different offset ID".toList
  | .differentInternalId => "different internal ID".toList
  | .noTarget => "no target found".toList

/-- Address in the old file a callback is called for. -/
def reportFrom : Event → Addr
  | .redirect _ from_ _ _ _ => from_
  | .relocate _ rel _ _ _ => rel.offset
  | .skipmsg _ from_ _ _ => from_

/-- update-code.cpp:69-72: the target, unless it is zero. -/
def reportTo (new : ReportFile) (to : Addr) : M Str :=
  if to ≠ 0 then (reportPlace new to).map (" to ".toList ++ ·) else .ok []

/-- update-code.cpp:43-49, 55-60, 66-74: the line of a callback. -/
def reportLine (old new : ReportFile) : Event → M Str
  | .redirect _ from_ to size _ => do
    let x ← reportPlace old from_
    let y ← reportPlace new to
    return color ['3', '3'] ++ (" - redirecting ".toList ++ (x ++ (reportSize old.symbols from_ size ++ (" to ".toList ++ (y ++ color ['0'])))))
  | .relocate _ rel to _ _ => do
    let x ← reportPlace old rel.offset
    let y ← reportPlace new to
    return color ['3', '2'] ++ (" - relocating ".toList ++ (x ++ (" to ".toList ++ (y ++ color ['0']))))
  | .skipmsg _ from_ to reason => do
    let x ← reportPlace old from_
    let y ← reportTo new to
    return color ['3', '1'] ++ (" - skipping ".toList ++ (x ++ (y ++ (" - ".toList ++ (reasonText reason ++ color ['0'])))))

/-- update-code.cpp:41-77: the text for a sequence of callbacks. -/
def reportText (level : Nat) (old new : ReportFile) : Addr → List Event → M Str
  | _, [] => .ok []
  | prev, e :: l => do
    let h := reportHeader level old prev (reportFrom e)
    let x ← reportLine old new e
    let r ← reportText level old new h.2 l
    return h.1 ++ (x ++ '\n' :: r)

/-- update-code.cpp:41-63: the callbacks accept everything. -/
def reportCallbacks : Callbacks where
  redirect := some fun _ _ _ _ => true
  relocate := some fun _ _ _ _ => true
  skipmsg := true

/-- update-code.cpp:171-177: the text printed for two files, for the levels `NONE` (0) and `VERBOSE` (1). -/
def updateReport (b : Build) (h : BitVec 64 → BitVec 32) (flags : BitVec 32) (level : Nat) (old new : ReportFile) : M Str :=
  match process b h flags reportCallbacks old.symbols new.symbols 0 0 with
  | (_, some e) => .error e
  | (ev, none) => reportText level old new (-1) ev

/-- update-code.cpp:88-99: flags of the update. -/
def updateWord (c : Cli) : BitVec 32 :=
  (if c.names then 1 else 0) ||| (if c.onlyExec then 2 else 0) ||| (if c.branches then 4 else 0) ||| (if c.trampolines then 8 else 0)

/-- update-code.cpp:171-178 for the arguments, with the symbols of both files. -/
def updateCodeMain (b : Build) (h : BitVec 64 → BitVec 32) (c : Cli) (old new : SymTree) : M Str :=
  updateReport b h (updateWord c) c.verbose.toNat ⟨old, c.oldPath⟩ ⟨new, c.newPath⟩

end Bean

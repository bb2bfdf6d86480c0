import Verif.Model.Map
import Verif.Model.Report
/-
Output of bean-diff (examples/diff.cpp) and bean-map (examples/map.cpp) for the levels `NONE` and `VERBOSE`.

Assumptions on the streams as in Model/Listing and Model/Report.
-/
namespace Bean

/-- dump.cpp:540-544: the listing of a set of symbols, for the levels `NONE` and `VERBOSE`. -/
def setText (level : Nat) (symbols : SymTree) : Str := listHeader level ++ symbols.flatMap (fun s => listLine level s ++ ['\n'])

/-- diff.cpp:113, 118, 120, 124: what is printed in front of the line of a symbol. -/
def markText : Mark → Str
  | .removed => color ['0', ';', '3', '1'] ++ ['-']
  | .added => color ['0', ';', '3', '2'] ++ ['+']
  | .kept => color ['0'] ++ [' ']

/-- diff.cpp:108-127: the text for the lines of the listing (level `VERBOSE`). -/
def changesText (lines : List (Mark × Symbol)) : Str :=
  ' ' :: listHeader 1 ++ (lines.flatMap (fun x => markText x.1 ++ (listLine 1 x.2 ++ ['\n'])) ++ color ['0'])

/-- diff.cpp:103-128 for the arguments with the level `NONE` or `VERBOSE`, with the symbols of both files. -/
def diffMain (b : Build) (h : BitVec 64 → BitVec 32) (c : Cli) (old new : SymTree) : M Str :=
  if c.verbose = 0 then do
    let added ← diff b h new old c.deps c.mode
    return setText 0 added
  else do
    let lines ← diffTool b h old new c.deps c.mode
    return changesText lines

/-- map.cpp:107-115: the lines for a symbol of the old file. -/
def mapEntry (b : Build) (level : Nat) (m : List (Addr × Addr)) (new : SymTree) (s : Symbol) : M Str :=
  match Tree.find m s.address with
  | some e => do
    let y := Tree.floor new e.2
    massert b y.isSome
    match y with
    | some y =>
      return color ['3', '2'] ++ ("sym ".toList ++ (listLine level s ++ '\n' :: (color ['0'] ++ (" -> ".toList ++ (listLine level y ++ '\n' ::
        (color ['0'] ++ ['\n']))))))
    | none => .error .ub
  | none => return color ['3', '1'] ++ ("sym ".toList ++ (listLine level s ++ '\n' :: (color ['0'] ++ ['\n'])))

/-- map.cpp:106-116: the lines for all symbols of the old file. -/
def mapEntries (b : Build) (level : Nat) (m : List (Addr × Addr)) (new : SymTree) : SymTree → M Str
  | [] => .ok []
  | s :: l => do
    let x ← mapEntry b level m new s
    let r ← mapEntries b level m new l
    return x ++ r

/-- map.cpp:105: the paths; printing a null pointer is undefined. -/
def mapHeader (old new : Option Str) : M Str :=
  match old, new with
  | some p, some q => .ok (color ['1'] ++ ("file ".toList ++ (p ++ ("\n  -> ".toList ++ (q ++ (color ['0'] ++ "\n\n".toList))))))
  | _, _ => .error .ub

/-- map.cpp:104-116 for the arguments with the level `NONE` or `VERBOSE`, with the symbols of both files. -/
def mapMain (b : Build) (h : BitVec 64 → BitVec 32) (c : Cli) (old new : SymTree) : M Str := do
  let m ← map b h old new c.names
  let x ← mapHeader c.oldPath c.newPath
  let r ← mapEntries b c.verbose.toNat m new old
  return x ++ r

end Bean

import Verif.Model.Diff
import Verif.Model.DebugSym
/-
The example programs (examples/diff.cpp, diffstat.cpp, graph.cpp, map.cpp, update.cpp, update-code.cpp) and the
printing of symbols (src/dump.cpp).

Output is modelled as far as the properties need it: which symbols are printed in which order and with which mark, not the
columns of a line. Opening and mapping of files (include/bean/file.hpp) is not modelled.
-/
namespace Bean

/-! Command lines -/

/-- The programs that compare two files. -/
inductive Tool where
  | diff | diffstat | map | update | updateCode
deriving DecidableEq, Repr

/-- Variables set by the loop over the arguments (e.g. examples/update.cpp:12-21, update-code.cpp:78-85). -/
structure Cli where
  deps : Bool := false
  dbgsym : Bool := false
  /-- `use_symbol_names` (map.cpp) or `FLAG_USE_SYMBOL_NAMES` (update-code.cpp) -/
  names : Bool := false
  trampolines : Bool := false
  branches : Bool := false
  onlyExec : Bool := false
  keep : Bool := false
  resolve : Bool := false
  reconstruct : Bool := false
  attributes : Bool := false
  mode : Nat := 0
  verbose : BitVec 8 := 0
  oldBase : Option Str := none
  newBase : Option Str := none
  oldPath : Option Str := none
  newPath : Option Str := none
deriving DecidableEq, Repr

/-- End of the loop over the arguments: `return EXIT_FAILURE`, or go on with these settings. -/
inductive CliEnd where
  | failure
  | go (c : Cli)
deriving DecidableEq, Repr

/-- `static_cast<Bean::ComparisonMode>(1 + mode)`: the enumeration (bean.hpp:400-409) has no fixed underlying type and
enumerators from 0 to 3, so that the conversion of any other value is undefined. -/
def nextMode (mode : Nat) : M Nat := if mode + 1 ≤ 3 then .ok (mode + 1) else .error .ub

/-- update.cpp:46-53: the letters of `-i…` after the dash; no result for an unsupported letter. -/
def letterI : Str → Cli → M CliEnd
  | [], c => .ok (.go c)
  | l :: ls, c =>
    if l = 'i' then do
      let mode ← nextMode c.mode
      letterI ls { c with mode := mode }
    else .ok .failure

/-- update.cpp:54-62: the letters of `-v…`. The enumeration `Verbosity` is based on `uint8_t`, so that the value wraps. -/
def letterV : Str → Cli → CliEnd
  | [], c => .go c
  | l :: ls, c => if l = 'v' then letterV ls { c with verbose := 1 + c.verbose } else .failure

/-- The options without value that a program knows (diff.cpp:24-36, diffstat.cpp:168-179, map.cpp:25-36, update.cpp:25-36,
update-code.cpp:88-107). The option `-n` of map.cpp assigns `false` to a variable that is already false (map.cpp:27). -/
def simpleOption (t : Tool) (arg : Str) : Option (Cli → Cli) :=
  let common := t = .diff ∨ t = .diffstat ∨ t = .update
  if arg = ['-', 'd'] ∧ common then some (fun c => { c with deps := true })
  else if arg = ['-', 's'] then some (fun c => { c with dbgsym := true })
  else if arg = ['-', 'n'] ∧ t = .map then some (fun c => { c with names := false })
  else if arg = ['-', 'n'] ∧ t = .updateCode then some (fun c => { c with names := true })
  else if arg = ['-', 't'] ∧ t = .updateCode then some (fun c => { c with trampolines := true })
  else if arg = ['-', 'B'] ∧ t = .updateCode then some (fun c => { c with branches := true })
  else if arg = ['-', 'X'] ∧ t = .updateCode then some (fun c => { c with onlyExec := true })
  else if arg = ['-', 'k'] then some (fun c => { c with keep := true })
  else if arg = ['-', 'r'] then some (fun c => { c with resolve := true })
  else if arg = ['-', 'R'] then some (fun c => { c with reconstruct := true })
  else if arg = ['-', 'a'] then some (fun c => { c with attributes := true })
  else none

/-- update.cpp:37-45: the directory after `-b` (absent at the end of the arguments: a null pointer). -/
def baseOption (c : Cli) (value : Option Str) : CliEnd :=
  match c.oldBase, c.newBase with
  | none, _ => .go { c with oldBase := value }
  | some _, none => .go { c with newBase := value }
  | some _, some _ => .failure

/-- update.cpp:46-74: any other argument. -/
def otherArg (t : Tool) (c : Cli) (arg : Str) : M CliEnd :=
  if arg.take 2 = ['-', 'i'] then letterI arg.tail c
  else if arg.take 2 = ['-', 'v'] ∧ t ≠ .diffstat then .ok (letterV arg.tail c)
  else if arg.head? = some '-' then .ok .failure
  else match c.oldPath, c.newPath with
    | none, _ => .ok (.go { c with oldPath := some arg })
    | some _, none => .ok (.go { c with newPath := some arg })
    | some _, some _ => .ok (.go c)

/-- update.cpp:24-75: the loop over the arguments. -/
def parseArgs (t : Tool) (c : Cli) : List Str → M CliEnd
  | [] => .ok (.go c)
  | [arg] =>
    match simpleOption t arg with
    | some f => .ok (.go (f c))
    | none => if arg = ['-', 'b'] then .ok (baseOption c none) else otherArg t c arg
  | arg :: value :: rest =>
    match simpleOption t arg with
    | some f => parseArgs t (f c) (value :: rest)
    | none =>
      if arg = ['-', 'b'] then
        match baseOption c (some value) with
        | .go c => parseArgs t c rest
        | .failure => .ok .failure
      else
        match otherArg t c arg with
        | .ok (.go c) => parseArgs t c (value :: rest)
        | .ok .failure => .ok .failure
        | .error e => .error e

/-- update.cpp:80: the programs go on if there is a second file or a second directory. -/
def startsWith (e : CliEnd) : Bool :=
  match e with
  | .failure => false
  | .go c => c.newPath.isSome || c.newBase.isSome

/-! examples/diff.cpp -/

/-- The marks of a line of the listing (diff.cpp:113-121). -/
inductive Mark where
  | removed | added | kept
deriving DecidableEq, Repr

/-- diff.cpp:108-126: the symbols of the new file, with the removed ones in between. -/
def listing (diff : SymTree) : SymTree → SymTree → List (Mark × Symbol)
  | [], removed => removed.map (fun r => (.removed, r))
  | n :: new, removed =>
    (removed.takeWhile (fun r => decide (r.address ≤ n.address))).map (fun r => (.removed, r)) ++
      (if (Tree.find diff n.address).isSome then Mark.added else Mark.kept, n) ::
      listing diff new (removed.dropWhile (fun r => decide (r.address ≤ n.address)))

/-- diff.cpp:99-127: the verbose output. -/
def diffTool (b : Build) (h : BitVec 64 → BitVec 32) (old new : SymTree) (deps : Bool) (mode : Nat) :
    M (List (Mark × Symbol)) := do
  let added ← diff b h new old deps mode
  let removed ← diff b h old new deps mode
  return listing added new removed

/-! examples/diffstat.cpp -/

/-- diffstat.cpp:25-35 `count`: number and bytes (`size_t`). -/
def countStat (filter : Symbol → Bool) (syms : List Symbol) : Nat × BitVec 64 :=
  syms.foldl (fun r s => if filter s then (r.1 + 1, r.2 + s.size) else r) (0, 0)

/-- The categories (diffstat.cpp:119-155). -/
inductive Category where
  | init | fini | text | rodata | relro | data | bss | tdata | tbss
deriving DecidableEq, Repr

/-- diffstat.cpp:119-155: the filters. -/
def Category.filter : Category → Symbol → Bool
  | .init, s => s.sec.has SECTION_INIT
  | .fini, s => s.sec.has SECTION_FINI
  | .text, s => s.sec.executable && s.sec.flags == 0
  | .rodata, s => !s.sec.writeable && !s.sec.executable && s.sec.flags == 0
  | .relro, s => s.sec.has SECTION_RELRO
  | .data, s => s.sec.writeable && s.sec.flags == 0 && !TLS.is_tls s.address
  | .bss, s => s.sec.writeable && s.sec.has SECTION_NOBITS && !TLS.is_tls s.address
  | .tdata, s => s.sec.writeable && s.sec.flags == 0 && TLS.is_tls s.address
  | .tbss, s => s.sec.writeable && s.sec.has SECTION_NOBITS && TLS.is_tls s.address

/-- The numbers printed for one category (diffstat.cpp:55-75). -/
structure Stat where
  total : Nat × BitVec 64
  internalAdded : Nat × BitVec 64
  internalRemoved : Nat × BitVec 64
  extendedAdded : Nat × BitVec 64
  extendedRemoved : Nat × BitVec 64
deriving DecidableEq, Repr

/-- diffstat.cpp:55-84: `a` is the old and `b` the new file. -/
def statOf (h : BitVec 64 → BitVec 32) (a b : SymTree) (deps : Bool) (c : Category) : Stat where
  total := countStat c.filter b
  internalAdded := countStat c.filter (diff_internal h b a deps)
  internalRemoved := countStat c.filter (diff_internal h a b deps)
  extendedAdded := countStat c.filter (diff_extended h b a deps)
  extendedRemoved := countStat c.filter (diff_extended h a b deps)

/-! examples/graph.cpp -/

/-- graph.cpp:19 -/
def isWord (c : Char) : Bool :=
  (decide ('A' ≤ c) && decide (c ≤ 'Z')) || (decide ('a' ≤ c) && decide (c ≤ 'z')) || (decide ('0' ≤ c) && decide (c ≤ '9'))

/-- graph.cpp:16-27: the loop of `normalize`; `r` tells whether an underscore was just written. -/
def normalizeFrom (r : Bool) : Str → Str
  | [] => []
  | c :: cs => if isWord c then c :: normalizeFrom false cs else if r then normalizeFrom r cs else '_' :: normalizeFrom true cs

/-- graph.cpp:16-27; a null pointer gives the empty text. -/
def normalize : Option Str → Str
  | none => []
  | some s => normalizeFrom false s

/-- Lines of the graph: start of a cluster, its end, a node, an edge. -/
inductive DotLine where
  | open_ (name : Option String)
  | close
  | node (address : Addr)
  | edge (source target : Addr)
deriving DecidableEq, Repr

/-- graph.cpp:105-157 with clusters (option `-v`); `section` is the variable of the program. -/
def clusterLines : Option String → List Symbol → List DotLine
  | section_, [] => if section_.isSome then [.close] else []
  | section_, s :: rest =>
    if section_ = none ∨ section_ ≠ s.sec.name then
      (if section_.isSome then [.close] else []) ++ .open_ s.sec.name :: .node s.address :: clusterLines s.sec.name rest
    else .node s.address :: clusterLines section_ rest

/-- graph.cpp:105-157: the nodes. -/
def nodeLines (verbose : Bool) (symbols : SymTree) : List DotLine :=
  if verbose then clusterLines none symbols else symbols.map (fun s => .node s.address)

/-- graph.cpp:168-176: the edge for one reference. -/
def refEdge (symbols : SymTree) (s : Symbol) (ref : Addr) : Option DotLine :=
  match Tree.floor symbols ref with
  | some t => if TLS.is_tls t.address = TLS.is_tls ref then some (.edge s.address t.address) else none
  | none => none

/-- graph.cpp:163-177: the edges between symbols (without those of the nodes `extern` and `entry`). -/
def edgeLines (symbols : SymTree) : List DotLine :=
  symbols.flatMap (fun s => s.refs.filterMap (refEdge symbols s))

/-- graph.cpp:96-179: the lines for nodes and edges. -/
def graphLines (verbose : Bool) (symbols : SymTree) : List DotLine := nodeLines verbose symbols ++ edgeLines symbols

/-! src/dump.cpp -/

/-- dump.cpp:404-414: one round of the loop over the debug text. `rest` is the text from position `s`; the result is the
output, the text from the new position `s`, and the condition of the loop. The terminating null character is written as
well if the last line has no newline. -/
def debugRound (pre rest : Str) : Str × Str × Bool :=
  let line := rest.takeWhile (· != '\n')
  let after := rest.drop line.length
  let stop := if after = [] then '\x00' else '\n'
  (if line = [] then [] else pre ++ line ++ [stop], if line = [] then rest else after.tail, !after.isEmpty)

/-- dump.cpp:404-414: the loop; no result if it does not end within the given number of rounds. -/
def debugLoop (pre : Str) : Nat → Str → Option Str
  | 0, _ => none
  | n + 1, rest =>
    let (out, rest, more) := debugRound pre rest
    if more then (debugLoop pre n rest).map (out ++ ·) else some out

/-- dump.cpp:440-457: lines for the relocations of a symbol are printed from verbosity `TRACE` (3) on and need the tree of
symbols; the result tells which symbol is named. -/
def dumpRels (level : Nat) (symbols : Option SymTree) (s : Symbol) : M (List (Option Symbol)) :=
  if 3 ≤ level then s.rels.mapM (fun rel => match symbols with
    | some t => .ok (Tree.floor t rel.target)
    | none => .error .ub)
  else .ok []

/-- dump.cpp:535-544: printing of a file; the highest symbol is copied beforehand. -/
def dumpFile (level : Nat) (symbols : SymTree) : M (List Symbol) :=
  match symbols.getLast? with
  | none => .error .ub
  | some _ => do
    let _ ← symbols.mapM (dumpRels level (some symbols))
    return symbols

end Bean

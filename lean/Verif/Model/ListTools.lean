import Verif.Model.Tools
import Verif.Model.File
/-
Command lines of the programs for lists of files (examples/hash.cpp, examples/graph.cpp). Files are processed while the arguments are read.
-/
namespace Bean

/-- The programs for lists of files. -/
inductive ListTool where
  | hash | graph
deriving DecidableEq, Repr

/-- Variables of the programs (hash.cpp:30-34, graph.cpp:53-60). `debug` and the four fields in front of `extern_` are bits of `flags`;
hash.cpp has no `extern_`, `entry`, `concentrate` and `font`. -/
structure Settings where
  dbgsym : Bool := false
  keep : Bool := false
  resolve : Bool := false
  reconstruct : Bool := false
  attributes : Bool := false
  extern_ : Bool := false
  entry : Bool := false
  concentrate : Bool := false
  debug : Bool := false
  base : Option Str := none
  font : Option Str := some "Fira Mono".toList
  verbose : BitVec 8 := 0
deriving DecidableEq, Repr

/-- A file and the settings for it (hash.cpp:62-68, graph.cpp:96-178). -/
structure Job where
  settings : Settings
  path : Str
deriving DecidableEq, Repr

/-- hash.cpp:37-46, graph.cpp:63-66, 69-78, 81-82: options without value. -/
def listSwitch (t : ListTool) (a : Str) : Option (Settings → Settings) :=
  if a = ['-', 'e'] ∧ t = .graph then some (fun s => { s with extern_ := true })
  else if a = ['-', 'E'] ∧ t = .graph then some (fun s => { s with entry := true })
  else if a = ['-', 's'] then some (fun s => { s with dbgsym := true })
  else if a = ['-', 'k'] then some (fun s => { s with keep := true })
  else if a = ['-', 'r'] then some (fun s => { s with resolve := true })
  else if a = ['-', 'R'] then some (fun s => { s with reconstruct := true })
  else if a = ['-', 'a'] then some (fun s => { s with attributes := true })
  else if a = ['-', 'c'] ∧ t = .graph then some (fun s => { s with concentrate := true })
  else none

/-- hash.cpp:47-48, graph.cpp:67-68, 79-80: options with value, which is a null pointer at the end of the arguments. -/
def listValue (t : ListTool) (a : Str) : Option (Option Str → Settings → Settings) :=
  if a = ['-', 'f'] ∧ t = .graph then some (fun v s => { s with font := v })
  else if a = ['-', 'b'] then some (fun v s => { s with base := v })
  else none

/-- hash.cpp:50-57, graph.cpp:84-91: the letters behind the dash; no result for other letters. -/
def countV : Str → BitVec 8 → Option (BitVec 8)
  | [], n => some n
  | c :: cs, n => if c = 'v' then countV cs (1 + n) else none

/-- Effect of an argument. -/
inductive ListStep where
  | fail
  | go (s : Settings)
  | file (s : Settings)
deriving DecidableEq, Repr

/-- hash.cpp:49-63, graph.cpp:83-97: other arguments. The flag for the debug stream stays set. -/
def listOther (s : Settings) (a : Str) : ListStep :=
  if a.take 2 = ['-', 'v'] then
    match countV a.tail s.verbose with
    | some n => .go { s with verbose := n }
    | none => .fail
  else if a.head? = some '-' then .fail
  else .file { s with debug := s.debug || decide (2 ≤ s.verbose.toNat) }

/-- hash.cpp:36-72, graph.cpp:62-182: the files that are opened and whether the program ends successfully. `ok` tells whether opening and
printing of a file do not end the program. -/
def runArgs (t : ListTool) (ok : Job → Bool) (s : Settings) : List Str → List Job × Bool
  | [] => ([], true)
  | [a] =>
    match listSwitch t a, listValue t a with
    | some _, _ => ([], true)
    | none, some _ => ([], true)
    | none, none =>
      match listOther s a with
      | .fail => ([], false)
      | .go _ => ([], true)
      | .file s => ([{ settings := s, path := a }], ok { settings := s, path := a })
  | a :: v :: rest =>
    match listSwitch t a, listValue t a with
    | some f, _ => runArgs t ok (f s) (v :: rest)
    | none, some f => runArgs t ok (f (some v) s) rest
    | none, none =>
      match listOther s a with
      | .fail => ([], false)
      | .go s => runArgs t ok s (v :: rest)
      | .file s =>
        if ok { settings := s, path := a } then
          let r := runArgs t ok s (v :: rest)
          ({ settings := s, path := a } :: r.1, r.2)
        else ([{ settings := s, path := a }], false)

/-- hash.cpp:10-73, graph.cpp:30-183: without arguments the usage is printed. -/
def listMain (t : ListTool) (ok : Job → Bool) (args : List Str) : List Job × Bool :=
  if args = [] then ([], false) else runArgs t ok {} args

end Bean

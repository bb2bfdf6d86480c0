import Verif.Model.Tools
import Verif.Model.ListTools
import Verif.Model.Run
/-
Marks of the program bean-graph for visible symbols and the entry point (examples/graph.cpp:159-167).
-/
namespace Bean

/-- The lines with the additional nodes `extern` and `entry` and the edges that leave them. -/
inductive GraphLine where
  | plain (l : DotLine)
  | externNode
  | entryNode
  | externEdge (target : Addr)
  | entryEdge (target : Addr)
deriving DecidableEq, Repr

/-- graph.cpp:164-176: the edges for one symbol. -/
def symbolLines (external entry : Bool) (entry_addr : Addr) (symbols : SymTree) (s : Symbol) : List GraphLine :=
  (if external && decide (s.bind = .global) then [.externEdge s.address] else []) ++
  ((if entry && s.has SYMBOL_ENTRY then [.entryEdge entry_addr] else []) ++
  (s.refs.filterMap (refEdge symbols s)).map .plain)

/-- graph.cpp:107-177: all nodes and edges; `entry_addr` is `header.entry()`. -/
def markedGraph (verbose external entry : Bool) (entry_addr : Addr) (symbols : SymTree) : List GraphLine :=
  (nodeLines verbose symbols).map .plain ++ ((if external then [.externNode] else []) ++ ((if entry then [.entryNode] else []) ++
    symbols.flatMap (symbolLines external entry entry_addr symbols)))

/-- graph.cpp:99-177: the graph of a file. `Bean::NONE` is the level without clusters. -/
def graphFile (env : Env) (fl : AnalyzeFlags) (s : Settings) (elf : Elf) (dbgsym : Option Elf) : M (List GraphLine) := do
  let r ← analyze env fl elf dbgsym
  return markedGraph (decide (s.verbose ≠ 0)) s.extern_ s.entry elf.entry r.symbols

end Bean

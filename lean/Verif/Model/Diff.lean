import Verif.Model.Symbol
/-
Comparison of two binaries (include/bean/bean.hpp:323-427, 448-456 and src/bean.cpp:91-125).
-/
namespace Bean

/-- A comparison class for `HashSet<Symbol, T>`: `T::hash` and `T::equal`. -/
structure Cmp where
  hash : Symbol → BitVec 32
  equal : Symbol → Symbol → Bool

/-- bean.hpp:323-330 `SymbolIdentifierComparison`; `h` is the (unspecified) hash for integers of dlh. -/
def extCmp (h : BitVec 64 → BitVec 32) : Cmp where
  hash s := h (s.id.internal ^^^ s.id.external)
  equal a b := a.same b

/-- bean.hpp:332-339 `SymbolInternalIdentifierComparison`. -/
def intCmp (h : BitVec 64 → BitVec 32) : Cmp where
  hash s := h s.id.internal
  equal a b := a.id.internal == b.id.internal && a.sec.same b.sec

/-! `HashSet<Symbol, T>`: elements in insertion order; look-up compares the hash and then uses `T::equal`. -/
namespace SymHash

def find (c : Cmp) (l : List Symbol) (s : Symbol) : Option Symbol :=
  l.find? (fun y => c.hash y == c.hash s && c.equal y s)

def contains (c : Cmp) (l : List Symbol) (s : Symbol) : Bool := (find c l s).isSome

/-- `insert` / `emplace`: `second` is false if an equal element is present (and kept). -/
def insert (c : Cmp) (l : List Symbol) (s : Symbol) : List Symbol × Bool :=
  if contains c l s then (l, false) else (l ++ [s], true)

/-- Conversion constructor, e.g. `symhash_t(other.symbols)`. -/
def ofTree (c : Cmp) (t : SymTree) : List Symbol := t.foldl (fun l s => (insert c l s).1) []

end SymHash

/-- bean.hpp:448-456 `Bean::dependencies`. The C++ function recurses without bound; here `fuel` limits the
depth. That a fuel of `symbols.length` never cuts off is part of property C08. -/
def dependencies (c : Cmp) (symbols : SymTree) : (fuel : Nat) → (address : Addr) → List Symbol → List Symbol
  | 0, _, result => result
  | fuel + 1, address, result =>
    match Tree.ceil symbols address with
    | none => result
    | some sym =>
      if sym.size > 0 && sym.sec.executable then
        let ins := SymHash.insert c result sym
        if ins.2 then sym.deps.foldl (fun r d => dependencies c symbols fuel d r) ins.1
        else ins.1
      else result

mutual
/-- bean.hpp:448-456: big-step semantics of the C++ recursion `dependencies`, without fuel.
`DepCall c symbols k a r r'` says that the call for address `a` with the set `r` returns with the set `r'`
using at most `k` nested activations. -/
inductive DepCall (c : Cmp) (symbols : SymTree) : Nat → Addr → List Symbol → List Symbol → Prop
  | miss {k a r} : Tree.ceil symbols a = none → DepCall c symbols (k + 1) a r r
  | ineligible {k a r sym} : Tree.ceil symbols a = some sym → ¬ (sym.size > 0 ∧ sym.sec.executable = true) →
      DepCall c symbols (k + 1) a r r
  | present {k a r sym} : Tree.ceil symbols a = some sym → (sym.size > 0 ∧ sym.sec.executable = true) →
      SymHash.contains c r sym = true → DepCall c symbols (k + 1) a r r
  | visit {k a r sym r'} : Tree.ceil symbols a = some sym → (sym.size > 0 ∧ sym.sec.executable = true) →
      SymHash.contains c r sym = false → DepCalls c symbols k sym.deps (r ++ [sym]) r' →
      DepCall c symbols (k + 1) a r r'
/-- the `for` loop over the dependencies of a symbol -/
inductive DepCalls (c : Cmp) (symbols : SymTree) : Nat → List Addr → List Symbol → List Symbol → Prop
  | nil {k r} : DepCalls c symbols k [] r r
  | cons {k d ds r r₁ r₂} : DepCall c symbols k d r r₁ → DepCalls c symbols k ds r₁ r₂ →
      DepCalls c symbols k (d :: ds) r r₂
end

/-- bean.hpp:379-388: body of the loop in the `diff` template. -/
def diffStep (c : Cmp) (symbols : SymTree) (other_symbols : List Symbol) (include_dependencies : Bool)
    (skip : Option (Symbol → Bool)) (result : List Symbol) (sym : Symbol) : List Symbol :=
  if (match skip with | some f => f sym | none => false) then result
  else if !SymHash.contains c other_symbols sym && decide (sym.size > 0) then
    let ins := SymHash.insert c result sym
    if ins.2 && include_dependencies then
      sym.deps.foldl (fun r d => dependencies c symbols symbols.length d r) ins.1
    else ins.1
  else result

/-- bean.hpp:376-390: `diff` template. -/
def diffT (c : Cmp) (symbols : SymTree) (other_symbols : List Symbol) (include_dependencies : Bool)
    (skip : Option (Symbol → Bool)) : List Symbol :=
  symbols.foldl (diffStep c symbols other_symbols include_dependencies skip) []

/-- bean.hpp:392-394 `diff_extended`. -/
def diff_extended (h : BitVec 64 → BitVec 32) (this other : SymTree) (include_dependencies : Bool)
    (skip : Option (Symbol → Bool) := none) : List Symbol :=
  diffT (extCmp h) this (SymHash.ofTree (extCmp h) other) include_dependencies skip

/-- bean.hpp:396-398 `diff_internal`. -/
def diff_internal (h : BitVec 64 → BitVec 32) (this other : SymTree) (include_dependencies : Bool)
    (skip : Option (Symbol → Bool) := none) : List Symbol :=
  diffT (intCmp h) this (SymHash.ofTree (intCmp h) other) include_dependencies skip

/-- src/bean.cpp:91-125 `Bean::diff` with a comparison mode. The mode is a plain number, since the example
programs compute it by incrementing (examples/diff.cpp:46-53). bean.hpp:400-409 gives the values. -/
def diff (b : Build) (h : BitVec 64 → BitVec 32) (this other : SymTree) (include_dependencies : Bool)
    (mode : Nat) : M SymTree :=
  match mode with
  | 0 => .ok (Tree.ofList (diff_extended h this other include_dependencies))
  | 1 =>
    let i := SymHash.ofTree (intCmp h) other
    .ok ((diff_extended h this other include_dependencies).foldl
      (fun r s => if !s.sec.writeable || !SymHash.contains (intCmp h) i s then (Tree.insert r s).1 else r) [])
  | 2 =>
    let i := SymHash.ofTree (intCmp h) other
    .ok ((diff_extended h this other include_dependencies).foldl
      (fun r s => if s.sec.executable || !SymHash.contains (intCmp h) i s then (Tree.insert r s).1 else r) [])
  | 3 => .ok (Tree.ofList (diff_internal h this other include_dependencies))
  | _ => do
    massert b false
    return []

/-- bean.hpp:415: flags for which a writeable symbol is tolerated. -/
def patchIgnore : BitVec 16 := SECTION_RELRO ||| SECTION_EH_FRAME ||| SECTION_DYNAMIC

/-- bean.hpp:413-423 `Bean::patchable` on a list of differences. -/
def patchable : List Symbol → Bool
  | [] => true
  | d :: rest =>
    if d.sec.writeable && (d.sec.flags &&& patchIgnore) == 0 then false
    else if d.sec.has SECTION_INIT then false
    else patchable rest

/-- bean.hpp:425-427 `Bean::patchable` for two binaries. -/
def patchableWith (b : Build) (h : BitVec 64 → BitVec 32) (this other : SymTree) (include_dependencies : Bool)
    (mode : Nat) : M Bool := do
  let d ← diff b h this other include_dependencies mode
  return patchable d

end Bean

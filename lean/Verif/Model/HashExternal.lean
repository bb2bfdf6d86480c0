import Verif.Model.HashInternal
/-
External identifiers and dependencies (src/analyze.hpp:463-535).

As for internal identifiers, the hash only depends on the concatenation of the bytes added. The elements of a `HashSet`
are visited in the order of their insertion.
-/
namespace Bean

/-- The characters of a string without the terminating zero. -/
def rawBytes (s : String) : List (BitVec 8) := s.toUTF8.toList.map (·.toBitVec)

/-- analyze.hpp:473-485: bytes of a relocation of the symbol at `address`. -/
def extRelBytes (address : Addr) (rel : Rel) : List (BitVec 8) :=
  le64 (rel.offset - TLS.virt_addr address) ++ le64 rel.type ++
    (if rel.target = 0 then
      (match rel.name with
        | some n => rawBytes n
        | none => []) ++ le64 rel.addend
    else [])

/-- analyze.hpp:472-486: one relocation (assertion, bytes and references). -/
def extRelStep (b : Build) (address : Addr) (acc : List (BitVec 8) × List Addr) (rel : Rel) :
    M (List (BitVec 8) × List Addr) := do
  massert b (decide (rel.offset ≥ TLS.virt_addr address))
  return (acc.1 ++ extRelBytes address rel, if rel.target = 0 then acc.2 else HSet.add acc.2 rel.target)

/-- analyze.hpp:500 -/
def gotSpecial : Option String := some "#GOT-Special"

/-- analyze.hpp:490-527: one reference of the symbol at `address`: the bytes added, and the symbols (the dependencies
of the referenced symbol may be extended). -/
def extRefStep (env : Env) (got address : Addr) (acc : SymTree × List (BitVec 8)) (ref : Addr) :
    SymTree × List (BitVec 8) :=
  match Tree.floor acc.1 ref with
  | some y =>
    if TLS.is_tls y.address = TLS.is_tls ref then
      if y.address = got ∧ ref - y.address < 24 then
        (acc.1, acc.2 ++ (env.str_bytes gotSpecial ++ le64 (ref - y.address)))
      else
        match if y.address = got then (Tree.find y.rels ref).filter (·.undefined) else none with
        | some rel => (acc.1, acc.2 ++ (le64 rel.type ++ env.str_bytes rel.name ++ le64 rel.addend))
        | none =>
          if y.bind = .global then (acc.1, acc.2 ++ (env.str_bytes y.name ++ [y.type.code]))
          else
            (Tree.modify acc.1 y.address (fun z => { z with deps := HSet.add z.deps address }),
              acc.2 ++ (le64 y.id.internal ++ [y.type.code] ++ le64 (ref - y.address)))
    else (acc.1, acc.2 ++ le64 ref)
  | none => (acc.1, acc.2 ++ le64 ref)

/-- analyze.hpp:468-533: one symbol, given by its address (an iterator into the tree, whose addresses do not change). -/
def extStep (env : Env) (got : Addr) (t : SymTree) (address : Addr) : M SymTree :=
  match Tree.find t address with
  | none => .error .ub
  | some sym =>
    if sym.rels.isEmpty && sym.refs.isEmpty then .ok t
    else do
      let a ← sym.rels.foldlM (extRelStep env.build sym.address) ([], sym.refs)
      let t := Tree.modify t address (fun z => { z with refs := a.2 })
      let c := a.2.foldl (extRefStep env got sym.address) (t, a.1)
      return Tree.modify c.1 address (fun z => { z with id := { z.id with external := env.xxhash c.2 } })

/-- analyze.hpp:467-535 `hash_external` -/
def hashExternal (env : Env) (st : AState) : M AState := do
  let t ← (st.symbols.map (·.address)).foldlM (extStep env st.global_offset_table) st.symbols
  return { st with symbols := t }

end Bean

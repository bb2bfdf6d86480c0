import Verif.Spec.Hash
import Verif.Model.HashExternal
/-
Specification vocabulary for external identifiers and dependencies.
-/
namespace Bean.Spec

/-- The closest lower symbol of an address, in the same address space. -/
def ClosestSym (t : List Symbol) (ref : Addr) (y : Symbol) : Prop :=
  y ∈ t ∧ y.address.toNat ≤ ref.toNat ∧ (∀ z ∈ t, z.address.toNat ≤ ref.toNat → z.address.toNat ≤ y.address.toNat) ∧
    TLS.is_tls y.address = TLS.is_tls ref

/-- What a reference leads to. -/
inductive Referent where
  /-- one of the first three entries of the global offset table -/
  | gotEntry (offset : Addr)
  /-- an entry of the global offset table for an undefined symbol -/
  | imported (type : Addr) (name : Option String) (addend : BitVec 64)
  /-- a global symbol -/
  | api (name : Option String) (type : SymType)
  /-- contents of another symbol -/
  | content (id : BitVec 64) (type : SymType) (offset : Addr)
  /-- an address without symbol -/
  | nowhere (address : Addr)
deriving DecidableEq

/-- The entry of the global offset table at `ref` refers to an undefined symbol. -/
def ImportedBy (got : Addr) (y : Symbol) (ref : Addr) (rel : Rel) : Prop :=
  y.address = got ∧ rel ∈ y.rels ∧ rel.offset = ref ∧ rel.undefined = true

/-- The reference is one of the special cases of the global offset table. -/
def GotCase (got : Addr) (y : Symbol) (ref : Addr) : Prop :=
  (y.address = got ∧ ref.toNat - y.address.toNat < 24) ∨ ∃ rel, ImportedBy got y ref rel

/-- What a reference leads to, given all symbols and the address of the global offset table. -/
inductive Refers (got : Addr) (t : List Symbol) (ref : Addr) : Referent → Prop
  | gotEntry (y : Symbol) : ClosestSym t ref y → y.address = got → ref.toNat - y.address.toNat < 24 →
      Refers got t ref (.gotEntry (ref - y.address))
  | imported (y : Symbol) (rel : Rel) : ClosestSym t ref y → 24 ≤ ref.toNat - y.address.toNat →
      ImportedBy got y ref rel → Refers got t ref (.imported rel.type rel.name rel.addend)
  | api (y : Symbol) : ClosestSym t ref y → ¬ GotCase got y ref → y.bind = .global →
      Refers got t ref (.api y.name y.type)
  | content (y : Symbol) : ClosestSym t ref y → ¬ GotCase got y ref → y.bind ≠ .global →
      Refers got t ref (.content y.id.internal y.type (ref - y.address))
  | nowhere : (∀ y, ¬ ClosestSym t ref y) → Refers got t ref (.nowhere ref)

/-- The symbol `x` depends on `y`: one of its references leads to the contents of `y`. -/
def DependsOn (got : Addr) (t : List Symbol) (x y : Symbol) : Prop :=
  ∃ ref ∈ x.refs, ClosestSym t ref y ∧ ¬ GotCase got y ref ∧ y.bind ≠ .global

/-- Relocations of two symbols that are the same relative to the symbols. -/
structure SameRel (s s' : Symbol) (r r' : Rel) : Prop where
  offset : r.offset - TLS.virt_addr s.address = r'.offset - TLS.virt_addr s'.address
  type : r.type = r'.type
  resolved : r.target = 0 ↔ r'.target = 0
  unresolved : r.target = 0 → r.name = r'.name ∧ r.addend = r'.addend

/-- Bytes that identify what a reference leads to. -/
def referentBytes (env : Env) : Referent → List (BitVec 8)
  | .gotEntry o => env.str_bytes (some "#GOT-Special") ++ le64 o
  | .imported type name addend => le64 type ++ env.str_bytes name ++ le64 addend
  | .api name type => env.str_bytes name ++ [type.code]
  | .content id type offset => le64 id ++ [type.code] ++ le64 offset
  | .nowhere a => le64 a

/-- `bytes` identify the relocations and references of the symbol. -/
def ExternalInput (env : Env) (got : Addr) (t : List Symbol) (s : Symbol) (bytes : List (BitVec 8)) : Prop :=
  ∃ referents, Zip (Refers got t) s.refs referents ∧
    bytes = s.rels.flatMap (extRelBytes s.address) ++ referents.flatMap (referentBytes env)

end Bean.Spec

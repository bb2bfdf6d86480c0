import Verif.Spec.Diff
import Verif.Spec.Lookup
/-
Specification vocabulary for address mappings: compatibility and justification of pairs of addresses.
-/
namespace Bean.Spec

/-- `s` is the closest symbol starting at or below `a`. -/
def Closest (t : List Symbol) (a : Addr) (s : Symbol) : Prop :=
  s ∈ t ∧ s.address.toNat ≤ a.toNat ∧ ∀ x ∈ t, x.address.toNat ≤ a.toNat → x.address.toNat ≤ s.address.toNat

/-- Types are equal or one of them is unknown. -/
def TypesCompatible (a b : Symbol) : Prop := a.type = b.type ∨ a.type = .unknown ∨ b.type = .unknown

/-- Both addresses belong to (or at least follow) symbols with equal section attributes and compatible types. -/
def Compatible (this other : List Symbol) (f t : Addr) : Prop :=
  ∃ x y, Closest this f x ∧ Closest other t y ∧ SameSection x.sec y.sec ∧ TypesCompatible x y

/-- Bit 0 of the symbol flags marks the entry point. -/
def IsEntry (s : Symbol) : Prop := s.flags.getLsbD 0 = true

/-- Offset of a symbol in its section. -/
def secOffset (s : Symbol) : Addr := TLS.virt_addr s.address - s.sec.address

/-- Two variables with the same place in equally named sections, same page offset and size. -/
def SamePlace (x y : Symbol) : Prop :=
  x.sec.writeable = true ∧ y.sec.writeable = true ∧ x.sec.name = y.sec.name ∧ secOffset x = secOffset y
    ∧ x.address.toNat % 4096 = y.address.toNat % 4096 ∧ x.size = y.size

/-- Relocations `p` of `x` and `q` of `y` are at the same offset, of the same kind and both targets are defined. -/
def SameReloc (x y : Symbol) (p q : Rel) : Prop :=
  p ∈ x.rels ∧ q ∈ y.rels ∧ p.undefined = false ∧ q.undefined = false
    ∧ p.offset - x.address = q.offset - y.address ∧ p.type = q.type ∧ p.addend = q.addend

/-- Why a pair of addresses may be in the mapping. `names` tells if symbol names may be used. -/
inductive Justified (names : Bool) (this other : List Symbol) : Addr → Addr → Prop
  | entry {x y} : x ∈ this → y ∈ other → IsEntry x → IsEntry y → Justified names this other x.address y.address
  | var {x y} : x ∈ this → y ∈ other → SamePlace x y → Justified names this other x.address y.address
  | name {x y n} : names = true → x ∈ this → y ∈ other → x.name = some n → y.name = some n → n ≠ "" →
      x.type = y.type → x.bind = y.bind → SameSection x.sec y.sec → Justified names this other x.address y.address
  | identity {x y} : x ∈ this → y ∈ other → SameIdentity y x → Justified names this other x.address y.address
  | reloc {x y p q} : x ∈ this → y ∈ other → SameInternal y x → x.rels.length = y.rels.length → SameReloc x y p q →
      Justified names this other p.target q.target
  | branch {x y p off v} : x ∈ this → y ∈ other → Justified names this other x.address y.address → p ∈ x.rels →
      p.instruction_access.getLsbD 2 = true → p.instruction_access.getLsbD 4 = true → off = p.target - x.address →
      x.offset_ids.lookup off = some v → y.offset_ids.lookup off = some v →
      Justified names this other p.target (y.address + off)

/-- `t` is one of several different targets proposed for the same source address. -/
def AmbiguousTarget (names : Bool) (this other : List Symbol) (t : Addr) : Prop :=
  ∃ f t', t' ≠ t ∧ Justified names this other f t ∧ Justified names this other f t'

/-- At most one symbol is the entry point. -/
def OneEntry (t : List Symbol) : Prop := ∀ x ∈ t, ∀ y ∈ t, IsEntry x → IsEntry y → x = y

/-- No two variables have the same place (section name and offset in the section). -/
def DistinctPlaces (t : List Symbol) : Prop :=
  ∀ x ∈ t, ∀ y ∈ t, x.sec.writeable = true → y.sec.writeable = true → x.sec.name = y.sec.name →
    secOffset x = secOffset y → x = y

/-- Variables do not start before their section. -/
def AfterSection (t : List Symbol) : Prop :=
  ∀ x ∈ t, x.sec.writeable = true → x.sec.address.toNat ≤ (TLS.virt_addr x.address).toNat

/-- No two symbols have the same (non-empty) name. -/
def DistinctNames (t : List Symbol) : Prop := ∀ x ∈ t, ∀ y ∈ t, ∀ n, n ≠ "" → x.name = some n → y.name = some n → x = y

instance (s : Symbol) : Decidable (IsEntry s) := by unfold IsEntry; infer_instance
instance (x y : Symbol) : Decidable (SamePlace x y) := by unfold SamePlace; infer_instance
instance (t : List Symbol) : Decidable (OneEntry t) := by unfold OneEntry; infer_instance
instance (t : List Symbol) : Decidable (DistinctPlaces t) := by unfold DistinctPlaces; infer_instance
instance (t : List Symbol) : Decidable (AfterSection t) := by unfold AfterSection; infer_instance

end Bean.Spec

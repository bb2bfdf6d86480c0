import Verif.Model.Symbol
/-
Specification vocabulary for address look-up, in terms of unbounded natural numbers.
-/
namespace Bean.Spec

/-- The address lies in the half-open range of the symbol. -/
def Covers (s : Symbol) (a : Addr) : Prop :=
  s.address.toNat ≤ a.toNat ∧ a.toNat < s.address.toNat + s.size.toNat

/-- No symbol (not even a marker of size zero) starts inside of another one. -/
def Disjoint (t : List Symbol) : Prop :=
  ∀ x ∈ t, ∀ y ∈ t, x.address.toNat < y.address.toNat → x.address.toNat + x.size.toNat ≤ y.address.toNat

/-- The end of the symbol is representable. -/
def NoWrap (s : Symbol) : Prop := s.address.toNat + s.size.toNat < 2 ^ 64

/-- Symbol list as delivered by a `TreeSet`: strictly ascending addresses. -/
def Ordered (t : List Symbol) : Prop := t.Pairwise (fun a b => a.address.toNat < b.address.toNat)

instance (t : List Symbol) : Decidable (Ordered t) := by unfold Ordered; infer_instance

end Bean.Spec

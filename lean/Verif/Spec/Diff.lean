import Verif.Model.Symbol
/-
Specification vocabulary for the comparison of two binaries. Nothing here refers to hash sets, traversal order
or the functions of `Verif.Model.Diff`.
-/
namespace Bean.Spec

/-- Same section attributes (the section address does not matter). -/
def SameSection (a b : Section) : Prop :=
  a.writeable = b.writeable ∧ a.executable = b.executable ∧ a.flags = b.flags ∧ a.name = b.name

/-- Equal identity: both IDs, section attributes and number of references and relocations. -/
def SameIdentity (a b : Symbol) : Prop :=
  a.id.internal = b.id.internal ∧ a.id.external = b.id.external ∧ SameSection a.sec b.sec
    ∧ a.refs.length = b.refs.length ∧ a.rels.length = b.rels.length

/-- Equal internal ID and section attributes. -/
def SameInternal (a b : Symbol) : Prop := a.id.internal = b.id.internal ∧ SameSection a.sec b.sec

/-- `s` is a sized symbol of `this` without counterpart in `other`. -/
def Changed (same : Symbol → Symbol → Prop) (this other : List Symbol) (s : Symbol) : Prop :=
  s ∈ this ∧ s.size ≠ 0 ∧ ∀ o ∈ other, ¬ same o s

/-- `q` is an executable, sized symbol noted as user of `p`. -/
def UsedBy (this : List Symbol) (p q : Symbol) : Prop :=
  q ∈ this ∧ q.address ∈ p.deps ∧ q.sec.executable = true ∧ q.size ≠ 0

/-- Changed, or (transitively, through executable sized symbols) using something changed. -/
inductive Affected (same : Symbol → Symbol → Prop) (this other : List Symbol) : Symbol → Prop
  | changed {s} : Changed same this other s → Affected same this other s
  | uses {p q} : Affected same this other p → UsedBy this p q → Affected same this other q

/-- Every dependency entry is the address of a symbol. -/
def DepsLive (this : List Symbol) : Prop := ∀ p ∈ this, ∀ d ∈ p.deps, ∃ q ∈ this, q.address = d

/-- No two different symbols have the same identity. -/
def Distinct (same : Symbol → Symbol → Prop) (this : List Symbol) : Prop :=
  ∀ x ∈ this, ∀ y ∈ this, same x y → x = y

/-- Criterion for a single changed symbol that prevents an update: writeable data that is not RELRO (bit 0),
exception frame (bit 10) or dynamic section (bit 2), or anything in an init section (bit 4). -/
def Blocks (s : Symbol) : Prop :=
  (s.sec.writeable = true ∧ s.sec.flags.getLsbD 0 = false ∧ s.sec.flags.getLsbD 2 = false
      ∧ s.sec.flags.getLsbD 10 = false)
    ∨ s.sec.flags.getLsbD 4 = true

instance (a b : Section) : Decidable (SameSection a b) := by unfold SameSection; infer_instance
instance (a b : Symbol) : Decidable (SameIdentity a b) := by unfold SameIdentity; infer_instance
instance (a b : Symbol) : Decidable (SameInternal a b) := by unfold SameInternal; infer_instance
instance (same) [DecidableRel same] (t o : List Symbol) (s : Symbol) : Decidable (Changed same t o s) := by
  unfold Changed; infer_instance
instance (t : List Symbol) (p q : Symbol) : Decidable (UsedBy t p q) := by unfold UsedBy; infer_instance
instance (t : List Symbol) : Decidable (DepsLive t) :=
  decidable_of_iff (t.all fun p => p.deps.all fun d => t.any fun q => q.address == d) (by simp [DepsLive])
instance (same) [DecidableRel same] (t : List Symbol) : Decidable (Distinct same t) := by
  unfold Distinct; infer_instance
instance (s : Symbol) : Decidable (Blocks s) := by unfold Blocks; infer_instance

end Bean.Spec

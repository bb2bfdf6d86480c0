import Verif.Model.DwarfVars
import Verif.Spec.DwarfTypes
/-
Places of variables in the debug information (C96).
-/
namespace Bean.Spec
open Bean

/-- An operation that pushes a constant. -/
def IsConst (op : DwOp) : Prop := "const".toList <+: op.name

/-- Operations as defined by the standard, as far as they matter: `addr` and constants have one number as argument, the one for thread-local
addresses has none. Constants with a type are not considered. -/
def ValidOp (op : DwOp) : Prop :=
  (op.name = "addr".toList → op.code = 3 ∧ ∃ a, op.args = [.num a]) ∧
  (op.name = "form_tls_address".toList → op.code = 0x9b ∧ op.args = []) ∧
  (IsConst op → (op.code < 0x50 ∨ 0x8f < op.code) ∧ ∃ a, op.args = [.num a])

/-- The place of a variable is a fixed address. -/
def FixedAt (ops : List DwOp) (a : Int) : Prop := ops ≠ [] ∧ ∀ op ∈ ops, op.name = "addr".toList ∧ op.args = [.num a]

/-- The only operations are constants and the one for thread-local addresses, and the only constant is `a`. -/
def ConstantAt (ops : List DwOp) (a : Int) : Prop :=
  (∃ op ∈ ops, IsConst op) ∧ ∀ op ∈ ops, (IsConst op ∧ op.args = [.num a]) ∨ op.name = "form_tls_address".toList

/-- Constants of one kind only. -/
def OneKind (ops : List DwOp) : Prop := ∀ op ∈ ops, ∀ op' ∈ ops, IsConst op → IsConst op' → op'.name = op.name

/-- An entry that is listed as variable at an address, with a type: its location has this address, the type is known, and zero is no address
unless the variable is thread-local. -/
def ListedAt (dies : Dies) (tls : Bool) (d : VarDie) (a : Int) (t : Nat) : Prop :=
  d.tag = "variable".toList ∧ (∃ l, d.location = some (some l) ∧ getLoc tls l = .ok (some a)) ∧ d.type = some t ∧
    (∃ td, dies t = some td) ∧ (tls = false → a ≠ 0)

/-- What is delivered for an entry. -/
def DescribedBy (o : TypeOpts) (dies : Dies) (tls : Bool) (d : VarDie) (v : DwVar) : Prop :=
  ∃ t, ListedAt dies tls d v.value t ∧ (∃ ti, HasType o dies t true ti ∧ v.type = ti.ident ∧ v.size = ti.size ∧ v.hash = ti.hash) ∧
    (∀ n, d.name = some n → v.name = n) ∧ (d.name = none → v.name = "[anonymous]".toList) ∧ v.unit = d.unit ∧ v.external = d.external ∧
    (∀ s, d.decl = some s → v.source = s) ∧ (d.decl = none → v.source = [])

end Bean.Spec

import Verif.Spec.Rebase
import Verif.Spec.Reconstruct
/-
Vocabulary for relocations that are reconstructed from the code of files linked to another address (C100).
-/
namespace Bean.Spec

/-- An address in the file that is referred to by an instruction: it is not zero, and there is a symbol at it or in front. -/
def InFront (m : Rebase) (t : SymTree) (a : Addr) : Prop := Addressed m.dist a ∧ (Tree.floor t a).isSome = true

instance (m : Rebase) (t : SymTree) (a : Addr) : Decidable (InFront m t a) := by unfold InFront; infer_instance

/-- Addresses in an operand that become targets of relocations. -/
def OperandAnchored (env : Env) (m : Rebase) (t : SymTree) (tls_end : Addr) (i : Insn) : Operand → Prop
  | .imm v _ => Branching (env.kind i.id) → InFront m t v
  | .mem segment base _ _ disp _ => (segment = X86_REG_FS → m.tls = true → Addressed m.dist (tls_end + disp)) ∧
      (base = X86_REG_RIP → InFront m t (nextAddress i + disp))
  | _ => True

instance (env : Env) (m : Rebase) (t : SymTree) (tls_end : Addr) (i : Insn) (op : Operand) :
    Decidable (OperandAnchored env m t tls_end i op) := by
  unfold OperandAnchored; split <;> infer_instance

/-- All addresses the code refers to can become targets of relocations. -/
def CodeAnchored (env : Env) (m : Rebase) (st : AState) : Prop :=
  ∀ s ∈ st.symbols, ∀ sec, Tree.floor st.sections s.address = some sec → IsCode sec s →
    ∀ n, SizeFor env st.symbols sec s n →
      ∀ x ∈ disasm env s.address ((sec.data.drop (s.address - sec.virt_addr).toNat).take n.toNat), ∀ op ∈ x.insn.ops,
        OperandAnchored env m st.symbols (tlsEnd env st.tls_segment) x.insn op

end Bean.Spec

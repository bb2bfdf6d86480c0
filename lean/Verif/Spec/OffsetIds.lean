import Verif.Spec.Hash
import Verif.Spec.Lookup
import Verif.Model.OffsetIds
/-
Specification vocabulary for the identifiers of positions inside of functions.
-/
namespace Bean.Spec

/-- An address that relocations make interesting: their targets, and instructions that refer to the same function. -/
def Interesting (symbols : SymTree) (t : Addr) : Prop :=
  ∃ s ∈ symbols, ∃ r ∈ s.rels, t = r.target ∨
    (r.instruction_access &&& ACCESSFLAG_LOCAL ≠ 0 ∧ t = r.offset - r.instruction_offset.setWidth 64)

/-- What an operand contributes to the identifier of a position: nothing that depends on the location of the code. -/
def plainOperand (k : InsKind) : Operand → List (BitVec 8)
  | .reg r => le32 r
  | .imm v _ => if Branching k then [] else le64 v
  | .mem segment base index scale disp _ =>
    if base = X86_REG_RIP then [] else le32 segment ++ le32 base ++ le32 index ++ le32 scale ++ le64 disp
  | .other => []

/-- What a relocation contributes: name and addend if there is no target, a mark and the distance for a target in the
function itself, identifier of and distance to the closest symbol in front otherwise. -/
def relBytes (env : Env) (symbols : SymTree) (s : Symbol) (r : Rel) : List (BitVec 8) :=
  if r.target = 0 then
    (match r.name with
      | some n => if n = "" then [] else env.push_str n
      | none => []) ++ le64 r.addend
  else if s.address.toNat ≤ r.target.toNat ∧ r.target.toNat < s.address.toNat + s.size.toNat then
    le32 0x10ca1 ++ le64 (r.target - s.address)
  else
    match Tree.floor symbols r.target with
    | some y => le64 y.id.internal ++ le64 (r.target - y.address)
    | none => le64 r.target

/-- What an instruction contributes, with the relocations behind `prev`. -/
def positionBytes (env : Env) (symbols : SymTree) (s : Symbol) (prev : Addr) (x : Step) : List (BitVec 8) :=
  le32 x.insn.id ++ leading x.insn.prefix ++ leading x.insn.opcode ++
    x.insn.ops.flatMap (plainOperand (env.kind x.insn.id)) ++
    (s.rels.filter (fun r => decide (prev ≤ r.offset ∧ r.offset < x.address))).flatMap (relBytes env symbols s)

/-- The bytes that identify a position: everything in front of the instruction that holds or follows it, without NOPs. -/
def codeUpTo (env : Env) (symbols : SymTree) (s : Symbol) (t : Addr) : Addr → List Step → List (BitVec 8)
  | _, [] => []
  | prev, x :: l =>
    if env.kind x.insn.id = .nop then codeUpTo env symbols s t prev l
    else if t < x.address then []
    else positionBytes env symbols s prev x ++ codeUpTo env symbols s t x.address l

/-- There is an instruction other than NOP at or behind the position. -/
def Before (env : Env) (steps : List Step) (t : Addr) : Prop :=
  ∃ x ∈ steps, env.kind x.insn.id ≠ .nop ∧ t < x.address

instance (env : Env) (steps : List Step) (t : Addr) : Decidable (Before env steps t) := by unfold Before; infer_instance

/-- The same position in two functions. -/
def SameDist (s u : Symbol) (a b : Addr) : Prop :=
  s.address.toNat ≤ a.toNat ∧ u.address.toNat ≤ b.toNat ∧ a.toNat - s.address.toNat = b.toNat - u.address.toNat

instance (s u : Symbol) (a b : Addr) : Decidable (SameDist s u a b) := by unfold SameDist; infer_instance

/-- Two references to the same thing: an import of the same name, the same position in the functions themselves, or the
same distance from symbols with equal identifiers. -/
inductive SameRef (symbols : SymTree) (s : Symbol) (symbols' : SymTree) (u : Symbol) (r q : Rel) : Prop
  | import : r.target = 0 → q.target = 0 → r.name = q.name → r.addend = q.addend → SameRef symbols s symbols' u r q
  | own : r.target ≠ 0 → q.target ≠ 0 → Covers s r.target → Covers u q.target → SameDist s u r.target q.target →
      SameRef symbols s symbols' u r q
  | other (y z : Symbol) : r.target ≠ 0 → q.target ≠ 0 → ¬ Covers s r.target → ¬ Covers u q.target →
      Tree.floor symbols r.target = some y → Tree.floor symbols' q.target = some z →
      y.id.internal = z.id.internal → r.target - y.address = q.target - z.address → SameRef symbols s symbols' u r q

/-- Relocations at the same positions with the same references. -/
inductive SameRels (symbols : SymTree) (s : Symbol) (symbols' : SymTree) (u : Symbol) : List Rel → List Rel → Prop
  | nil : SameRels symbols s symbols' u [] []
  | cons {r q : Rel} {l l' : List Rel} : SameDist s u r.offset q.offset → SameRef symbols s symbols' u r q →
      SameRels symbols s symbols' u l l' → SameRels symbols s symbols' u (r :: l) (q :: l')

/-- The same instructions up to their location and their distances to other things. -/
inductive SameSteps (env : Env) (s u : Symbol) : List Step → List Step → Prop
  | nil : SameSteps env s u [] []
  | cons {x y : Step} {l l' : List Step} : x.insn.id = y.insn.id → x.insn.prefix = y.insn.prefix →
      x.insn.opcode = y.insn.opcode →
      x.insn.ops.map (plainOperand (env.kind x.insn.id)) = y.insn.ops.map (plainOperand (env.kind y.insn.id)) →
      SameDist s u x.address y.address → SameSteps env s u l l' → SameSteps env s u (x :: l) (y :: l')

instance decSameSteps (env : Env) (s u : Symbol) : (l l' : List Step) → Decidable (SameSteps env s u l l')
  | [], [] => isTrue .nil
  | [], _ :: _ => isFalse (fun h => by cases h)
  | _ :: _, [] => isFalse (fun h => by cases h)
  | x :: l, y :: l' =>
    have := decSameSteps env s u l l'
    decidable_of_iff (x.insn.id = y.insn.id ∧ x.insn.prefix = y.insn.prefix ∧ x.insn.opcode = y.insn.opcode ∧
      x.insn.ops.map (plainOperand (env.kind x.insn.id)) = y.insn.ops.map (plainOperand (env.kind y.insn.id)) ∧
      SameDist s u x.address y.address ∧ SameSteps env s u l l')
      ⟨fun ⟨h1, h2, h3, h4, h5, h6⟩ => .cons h1 h2 h3 h4 h5 h6, fun h => by cases h; exact ⟨‹_›, ‹_›, ‹_›, ‹_›, ‹_›, ‹_›⟩⟩

end Bean.Spec

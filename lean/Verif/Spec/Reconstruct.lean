import Verif.Spec.HashExternal
import Verif.Model.Reconstruct
/-
Specification vocabulary for reconstructed relocations.
-/
namespace Bean.Spec

/-- The operand holds the distance to an address, encoded with `size` bytes at `offset` in the instruction. -/
inductive PcRelative (k : InsKind) (i : Insn) : Operand → (offset size : BitVec 8) → (target : Addr) → Prop
  | branch (v : Addr) (a : BitVec 8) : Branching k → PcRelative k i (.imm v a) i.imm_offset i.imm_size v
  | rip (segment index : Reg) (scale : BitVec 32) (disp : BitVec 64) (a : BitVec 8) :
      PcRelative k i (.mem segment X86_REG_RIP index scale disp a) i.disp_offset i.disp_size (nextAddress i + disp)

/-- The operand holds the distance of a thread-local variable to the end of the thread-local storage. -/
inductive FsRelative (tls_end : Addr) (i : Insn) : Operand → (offset size : BitVec 8) → (target : Addr) → Prop
  | fs (base index : Reg) (scale : BitVec 32) (disp : BitVec 64) (a : BitVec 8) :
      FsRelative tls_end i (.mem X86_REG_FS base index scale disp a) i.disp_offset i.disp_size
        (TLS.trans_addr (tls_end + disp) true)

/-- The operand refers to an address. -/
def RefersTo (tls_end : Addr) (k : InsKind) (i : Insn) (op : Operand) (offset size : BitVec 8) (target : Addr) : Prop :=
  PcRelative k i op offset size target ∨ FsRelative tls_end i op offset size target

/-- What is expected from the decoder: instructions of x86 have at most 15 bytes, distances are encoded inside of the
instruction. -/
structure SaneDecoder (env : Env) : Prop where
  address : ∀ {a : Addr} {bytes : List (BitVec 8)} {i : Insn}, env.decode a bytes = some i → i.address = a
  short : ∀ {a : Addr} {bytes : List (BitVec 8)} {i : Insn}, env.decode a bytes = some i → i.size ≤ 15
  inside : ∀ {a : Addr} {bytes : List (BitVec 8)} {i : Insn}, env.decode a bytes = some i →
    ∀ op ∈ i.ops, ∀ tls_end offset size target, RefersTo tls_end (env.kind i.id) i op offset size target →
      offset.toNat < i.size

/-- The closest symbol in front of an address. -/
def ClosestTo (t : List Symbol) (a : Addr) (y : Symbol) : Prop :=
  y ∈ t ∧ y.address.toNat ≤ a.toNat ∧ ∀ z ∈ t, z.address.toNat ≤ a.toNat → z.address.toNat ≤ y.address.toNat

instance (t : List Symbol) (a : Addr) (y : Symbol) : Decidable (ClosestTo t a y) := by unfold ClosestTo; infer_instance

/-- Name of the section at an address: the one of a symbol at this address or the closest one in front. -/
inductive SectionAt (st : AState) (a : Addr) : String → Prop
  | symbol (y : Symbol) (n : String) : y ∈ st.symbols → y.address = a → y.sec.name = some n → SectionAt st a n
  | floor (sec : ElfSec) : (∀ y ∈ st.symbols, y.address = a → y.sec.name = none) →
      sec ∈ st.sections → (key sec).toNat ≤ a.toNat →
      (∀ z ∈ st.sections, (key z).toNat ≤ a.toNat → (key z).toNat ≤ (key sec).toNat) → SectionAt st a sec.name

/-- The address is in a section whose name starts like that. -/
def InSectionNamed (st : AState) (a : Addr) (pre : String) : Prop :=
  ∃ n, SectionAt st a n ∧ pre.toList.isPrefixOf n.toList = true

/-- The entry of the global offset table at an address is filled by the dynamic linker with the address of an imported
symbol. -/
def ImportSlot (st : AState) (a : Addr) (name : Option String) : Prop :=
  ∃ rel ∈ st.relocations, rel.offset = a ∧ ∃ s, rel.symbol = some s ∧ s.shndx = .undef ∧ s.name = name

/-- Relocation types for distances of a size. -/
def PlainPcType (size : BitVec 8) : Addr → Prop := fun type =>
  size = 1 ∧ type = R_X86_64_PC8 ∨ size = 2 ∧ type = R_X86_64_PC16 ∨ size = 4 ∧ type = R_X86_64_PC32 ∨
  size = 8 ∧ type = R_X86_64_PC64

/-- The value written by the dynamic or static linker for a relocation of a file with these symbols (System V ABI for
x86-64): `S + A - P` with the address `S` of the symbol (or of its entry in the procedure linkage table), for
`R_X86_64_GOTPCREL` the address of the entry of the global offset table instead of `S`. A relocation with a name stands
for a symbol with this name, one without for the closest symbol in front of its target. -/
inductive Applied (st : AState) (size : BitVec 8) (r : Rel) : BitVec 64 → Prop
  | plain (y : Symbol) : PlainPcType size r.type → y.name = r.name → ClosestTo st.symbols r.target y →
      Applied st size r (y.address + r.addend - r.offset)
  | plt (y : Symbol) : size = 4 → r.type = R_X86_64_PLT32 → InSectionNamed st r.target ".plt" → y.name = r.name →
      ClosestTo st.symbols r.target y → Applied st size r (y.address + r.addend - r.offset)
  | got (slot : Addr) : size = 4 → r.type = R_X86_64_GOTPCREL → ImportSlot st slot r.name →
      Applied st size r (slot + r.addend - r.offset)

end Bean.Spec

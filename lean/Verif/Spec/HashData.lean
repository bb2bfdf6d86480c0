import Verif.Spec.Hash
/-
Specification vocabulary for the identifiers of data.
-/
namespace Bean.Spec

/-- The byte at an address is subject to a relocation. -/
def Masked (env : Env) (rels : List Rel) (a : Nat) : Prop :=
  ∃ r ∈ rels, r.offset.toNat ≤ a ∧ a < r.offset.toNat + (env.reloc_size r.type).toNat

instance (env : Env) (rels : List Rel) (a : Nat) : Decidable (Masked env rels a) := by unfold Masked; infer_instance

/-- Bytes at the address `a` with zeros in place of what is subject to relocations. -/
def maskBytes (env : Env) (rels : List Rel) (a : Nat) : List (BitVec 8) → List (BitVec 8)
  | [] => []
  | b :: bs => (if Masked env rels a then 0 else b) :: maskBytes env rels (a + 1) bs

/-- Relocations in ascending order that do not overlap and lie in the range from `start` to `stop`. -/
structure RelLayout (env : Env) (rels : List Rel) (start stop : Nat) : Prop where
  disjoint : rels.Pairwise (fun r q => r.offset.toNat + (env.reloc_size r.type).toNat ≤ q.offset.toNat)
  within : ∀ r ∈ rels, env.reloc_size r.type ≠ 0 →
    start ≤ r.offset.toNat ∧ r.offset.toNat + (env.reloc_size r.type).toNat ≤ stop

/-- Offset of the first byte that identifies data at an address: the first two entries of the global offset table are
left out. -/
def gotSkip (got address : Addr) : Nat := if address = got then 16 else 0

/-- The page offset identifies data in writeable sections, but not if they are read-only after relocation. -/
def PageMatters (s : Symbol) : Prop := s.sec.writeable = true ∧ s.sec.has SECTION_RELRO = false

instance (s : Symbol) : Decidable (PageMatters s) := by unfold PageMatters; infer_instance

/-- The page offset if it matters. -/
def pageBytes (s : Symbol) : List (BitVec 8) :=
  if PageMatters s then le32 (BitVec.ofNat 32 ((TLS.virt_addr s.address).toNat % 4096)) else []

/-- The bytes that identify initialised data with the content `bytes` (without attributes). -/
def dataInput (env : Env) (got : Addr) (s : Symbol) (bytes : List (BitVec 8)) : List (BitVec 8) :=
  pageBytes s ++ maskBytes env s.rels ((TLS.virt_addr s.address).toNat + gotSkip got (TLS.virt_addr s.address))
    (bytes.drop (gotSkip got (TLS.virt_addr s.address)))

/-- `bytes` is the content of the symbol in the file, in the section it belongs to. -/
def DataOf (st : AState) (s : Symbol) (bytes : List (BitVec 8)) : Prop :=
  ∃ sec, Tree.floor st.sections s.address = some sec ∧
    readBytes sec.data (TLS.virt_addr s.address - sec.virt_addr) s.size = .ok bytes

/-- The relocations of a symbol lie in the part of it that identifies it, and it does not exceed the address space. -/
structure DataFits (env : Env) (got : Addr) (s : Symbol) : Prop where
  fits : (TLS.virt_addr s.address).toNat + s.size.toNat + 16 < 2 ^ 64
  layout : RelLayout env s.rels ((TLS.virt_addr s.address).toNat + gotSkip got (TLS.virt_addr s.address))
    ((TLS.virt_addr s.address).toNat + s.size.toNat)

/-- The symbol is taken for initialised data: its section has content, and it starts in front of the end of the content
of the segment that is found for it. -/
def Initialised (st : AState) (s : Symbol) : Prop :=
  ∃ sec seg, Tree.floor st.sections s.address = some sec ∧ sec.type ≠ .nobits ∧
    (if sec.tls then st.tls_segment else Tree.floor st.segments (TLS.virt_addr s.address)) = some seg ∧
    TLS.virt_addr s.address < seg.virt_addr + seg.size

/-- Relocations of data moved by `d`. -/
def MovedRels (d : Addr) (rels rels' : List Rel) : Prop :=
  Zip (fun r q => q.offset = r.offset + d ∧ q.type = r.type) rels rels'

/-- The symbol of a relocation is not defined in the file. -/
def Imports (e : ElfRel) : Prop := ∃ s, e.symbol = some s ∧ s.shndx = .undef

/-- The relocation adds the load address to its addend: types 8 and 38 for x86-64, type 8 for 386 and 486. -/
def LinkedBy (arch : Arch) (t : BitVec 64) : Prop := (t = 8 ∧ (arch = .x86_64 ∨ arch = .i386)) ∨ (t = 38 ∧ arch = .x86_64)

/-- The relocation `q` of a symbol describes the relocation `e` of the file: imported symbols have no target, relative
relocations lead to their addend, others to the value of the relocation if this was requested. -/
structure FileRel (env : Env) (resolve : Bool) (got : Addr) (e : ElfRel) (q : Rel) : Prop where
  offset : q.offset = e.offset
  type : q.type = e.type
  addend : q.addend = e.addend
  name : q.name = e.symbol.bind (·.name)
  undefined : q.undefined = true ↔ Imports e
  imported : Imports e → q.target = 0
  relative : ¬ Imports e → LinkedBy env.arch e.type → q.target = e.addend
  resolved : ¬ Imports e → ¬ LinkedBy env.arch e.type →
    q.target = if resolve then env.reloc_value e got else 0
  original : q.reconstructed = false

end Bean.Spec

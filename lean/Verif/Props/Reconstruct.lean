import Verif.Lemmas.Reconstruct
import Verif.Props.HashData
/-
C43 to C45, C66, C67: reconstructed relocations.
-/
namespace Bean
open Tree Spec

/-! ### C43: the encoded distance -/

theorem trans_true_is_tls (a : Addr) : TLS.is_tls (TLS.trans_addr a true) = true := by
  unfold TLS.is_tls TLS.trans_addr
  simp only [if_true, bne_iff_ne, ne_eq]
  intro h
  have h1 := congrArg (fun x : BitVec 64 => x.getLsbD 52) h
  simp only [BitVec.getLsbD_and, BitVec.getLsbD_or] at h1
  have h2 : TLS.ADDRESS_FLAG.getLsbD 52 = true := by decide
  have h3 : (0#64).getLsbD 52 = false := by decide
  rw [h2, h3] at h1
  simp at h1

/-- The range of decoded instructions. -/
theorem codeOf_layout {env : Env} (hd : SaneDecoder env) {st : AState} {s : Symbol} {steps : List Step}
    (hc : CodeOf env st s steps) (hw : (TLS.virt_addr s.address).toNat + s.size.toNat < 2 ^ 64) :
    (∀ x ∈ steps, Placed env (TLS.virt_addr s.address) s.size.toNat x) ∧
    steps.Pairwise (fun s s' => s.address.toNat ≤ s'.insn.address.toNat) := by
  obtain ⟨sec, bytes, _, h1, rfl⟩ := hc
  have hl := readBytes_length h1
  rw [← hl]
  exact disasmN_layout hd _ _ _ (by rw [hl]; exact hw)

/-- A reference gets the relocation made from it, if this is the case for all references at its location. -/
theorem rel_of_operand {env : Env} {st st' : AState} (hd : SaneDecoder env) (hok : SymsOK st.symbols)
    (hnew : ∀ s ∈ st.symbols, s.rels = [])
    (h : reconstruct env st = .ok st') {s : Symbol} (hs : s ∈ st'.symbols) (hx : s.sec.executable = true)
    (hp : ¬ PltSym s) (hw : (TLS.virt_addr s.address).toNat + s.size.toNat < 2 ^ 64)
    {steps : List Step} (hc : CodeOf env st s steps) {step : Step} (hstep : step ∈ steps)
    {op : Operand} (hop : op ∈ step.insn.ops) {a : RelArgs}
    (ha : a ∈ operandRels (tlsEnd env st.tls_segment) (env.kind step.insn.id) step.insn op)
    (hone : ∀ op' ∈ step.insn.ops, ∀ b ∈ operandRels (tlsEnd env st.tls_segment) (env.kind step.insn.id) step.insn op',
      b.offset = a.offset → SameUpToInsn (newRel st s b) (newRel st s a))
    (hloc : ∀ q ∈ s.rels, q.offset ≠ a.target) :
    ∃ q ∈ s.rels, SameUpToInsn q (newRel st s a) := by
  obtain ⟨hpl, hpw⟩ := codeOf_layout hd hc hw
  obtain ⟨s0, f⟩ := recon_facts hok h hs hx hp hc
  obtain ⟨s1, e1, e2, e3, cr⟩ := f.created
  have hac : a ∈ codeRels env (tlsEnd env st.tls_segment) steps := mem_codeRels.mpr ⟨step, hstep, op, hop, ha⟩
  obtain ⟨q, hq, hqo, _⟩ := cr.create a hac hloc
  refine ⟨q, hq, ?_⟩
  rcases cr.origin q hq with ⟨r, hr, _⟩ | ⟨b, hb, hqb, _⟩
  · rw [e3, hnew s0 f.mem] at hr
    cases hr
  · rw [newRel_congr st e1 e2] at hqb
    refine hqb.trans ?_
    have he : b.loc = a.loc := (hqb.offset.symm.trans hqo)
    obtain ⟨x', hx', op', hop', hb'⟩ := mem_codeRels.mp hb
    obtain ⟨l1, l2⟩ := loc_toNat (hpl step hstep) hop ha
    obtain ⟨l1', l2'⟩ := loc_toNat (hpl x' hx') hop' hb'
    rw [he, l1] at l1'
    have k1 := (hpl step hstep).end_
    have k2 := (hpl x' hx').end_
    have : x' = step := steps_eq hpw hx' hstep (x := step.insn.address.toNat + a.offset.toNat)
      (by omega) (by omega) (by omega) (by omega)
    subst this
    exact hone op' hop' b hb' (BitVec.eq_of_toNat_eq (by omega))

/-- References to regular addresses are relative to the instruction pointer. -/
theorem operandRels_addend {tls_end : Addr} {k : InsKind} {i : Insn} {op : Operand} {a : RelArgs} (h : a ∈ operandRels tls_end k i op)
    (ht : TLS.is_tls a.target = false) : a.addend = negDistance i.size a.offset := by
  cases op with
  | reg r => simp [operandRels] at h
  | other => simp [operandRels] at h
  | imm v acc =>
    simp only [operandRels] at h
    split at h
    · rw [List.mem_singleton.mp h]
    · cases h
  | mem segment base index scale disp acc =>
    simp only [operandRels] at h
    rcases List.mem_append.mp h with h | h
    · split at h
      · rw [List.mem_singleton.mp h] at ht
        rw [trans_true_is_tls] at ht
        cases ht
      · cases h
    · split at h
      · rw [List.mem_singleton.mp h]
      · cases h

theorem newRel_same {st : AState} {s : Symbol} {a b : RelArgs} (h1 : a.address = b.address) (h2 : a.offset = b.offset) (h3 : a.target = b.target)
    (h4 : a.size = b.size) (h5 : a.addend = b.addend) : SameUpToInsn (newRel st s a) (newRel st s b) := by
  unfold SameUpToInsn newRel
  rw [h1, h2, h3, h4, h5]

/-- C43 (partial): for each operand relative to the instruction pointer there is a relocation at the location of the
encoded distance, and applying it according to the ABI gives this distance. Missing: entries of the global offset table
without imported symbol, targets without symbol in front, targets at the location of another relocation and
operands with two references at the same location. -/
theorem C43_displacement_partial (env : Env) (st st' : AState) (hd : SaneDecoder env) (hok : SymsOK st.symbols)
    (hsec : Sorted st.sections) (hrel : Sorted st.relocations) (hnew : ∀ s ∈ st.symbols, s.rels = [])
    (h : reconstruct env st = .ok st') (s : Symbol) (hs : s ∈ st'.symbols) (hx : s.sec.executable = true)
    (hp : ¬ PltSym s) (hw : (TLS.virt_addr s.address).toNat + s.size.toNat < 2 ^ 64)
    (steps : List Step) (hc : CodeOf env st s steps) (step : Step) (hstep : step ∈ steps)
    (op : Operand) (hop : op ∈ step.insn.ops) (offset size : BitVec 8) (target : Addr)
    (hpc : PcRelative (env.kind step.insn.id) step.insn op offset size target)
    -- all references at the location agree
    (hone : ∀ op' ∈ step.insn.ops, ∀ z t,
      RefersTo (tlsEnd env st.tls_segment) (env.kind step.insn.id) step.insn op' offset z t → z = size ∧ t = target)
    -- no relocation at the target
    (hloc : ∀ q ∈ s.rels, q.offset ≠ target)
    (htls : TLS.is_tls target = false) (hz : size = 1 ∨ size = 2 ∨ size = 4 ∨ size = 8)
    (y : Symbol) (hy : ClosestTo st.symbols target y)
    (hgot : size = 4 → InSectionNamed st target ".got" → ¬ InSectionNamed st target ".plt" →
      ∃ n, ImportSlot st target (some n)) :
    ∃ q ∈ s.rels, q.offset = step.insn.address + offset.setWidth 64 ∧ q.target = target ∧ q.reconstructed = true ∧
      Applied st size q (target - nextAddress step.insn) := by
  obtain ⟨a, ha, pa⟩ := operandRels_pc (tls_end := tlsEnd env st.tls_segment) hpc
  have hone' : ∀ op' ∈ step.insn.ops, ∀ b ∈ operandRels (tlsEnd env st.tls_segment) (env.kind step.insn.id) step.insn op',
      b.offset = a.offset → SameUpToInsn (newRel st s b) (newRel st s a) := by
    intro op' hop' b hb' he
    obtain ⟨h1, hr'⟩ := operandRels_origin hb'
    have ho : b.offset = offset := he.trans pa.offset
    rw [ho] at hr'
    obtain ⟨hz', ht'⟩ := hone op' hop' _ _ hr'
    refine newRel_same (h1.trans pa.address.symm) he (ht'.trans pa.target.symm) (hz'.trans pa.size.symm) ?_
    rw [operandRels_addend hb' (by rw [ht']; exact htls), pa.addend, he]
  obtain ⟨q, hq, hq'⟩ := rel_of_operand hd hok hnew h hs hx hp hw hc hstep hop ha hone' (by rw [pa.target]; exact hloc)
  have et : q.target = target := (congrArg Rel.target hq').trans pa.target
  have eo : q.offset = a.loc := congrArg Rel.offset hq'
  refine ⟨q, hq, ?_, et, congrArg Rel.reconstructed hq', ?_⟩
  · rw [eo]
    unfold RelArgs.loc
    rw [pa.address, pa.offset]
  · have hap := relParts_applied hok.sorted hsec hrel (r := q) (size := size) (base := negDistance step.insn.size offset)
      (by rw [et]; exact htls) hz (by rw [et]; exact hy)
      (by rw [et]; refine (congrArg Rel.type hq').trans ?_
          show (relParts st a.target a.size a.addend).type = _
          rw [pa.target, pa.size, pa.addend, pa.offset])
      (by rw [et]; refine (congrArg Rel.name hq').trans ?_
          show (relParts st a.target a.size a.addend).name = _
          rw [pa.target, pa.size, pa.addend, pa.offset])
      (by rw [et]; refine (congrArg Rel.addend hq').trans ?_
          show (relParts st a.target a.size a.addend).addend = _
          rw [pa.target, pa.size, pa.addend, pa.offset])
      (by rw [et]; exact hgot)
    rw [et, eo] at hap
    unfold RelArgs.loc at hap
    rw [pa.address, pa.offset, negDistance_eq] at hap
    exact hap

/-! A small instruction set with distances of four bytes. -/

/-- Call or jump with a distance of four bytes. -/
def rexBranch (a : Addr) (id : BitVec 32) (opcode : List (BitVec 8)) (n : Nat) (off : BitVec 8) (d : BitVec 32) : Insn where
  address := a
  size := n
  id := id
  opcode := opcode
  ops := [.imm (a + (BitVec.ofNat 64 n + d.signExtend 64)) 0]
  imm_offset := off
  imm_size := 4

/-- Load from memory with a distance of four bytes. -/
def rexLoad (a : Addr) (segment base : Reg) (d : BitVec 32) : Insn where
  address := a
  size := 5
  id := 7
  opcode := [0x8b]
  ops := [.reg 5, .mem segment base 0 1 (d.signExtend 64) 1]
  disp_offset := 1
  disp_size := 4

/-- Decoder of a few instructions. -/
def rexDecode (a : Addr) : List (BitVec 8) → Option Insn
  | 0x90#8 :: _ => some { address := a, size := 1, id := 1, opcode := [0x90] }
  | 0xc3#8 :: _ => some { address := a, size := 1, id := 2, opcode := [0xc3] }
  | 0x75#8 :: d :: _ => some (exBranch a 6 0x75 d .jump)
  | 0xe8#8 :: d0 :: d1 :: d2 :: d3 :: _ => some (rexBranch a 4 [0xe8] 5 1 (d3 ++ d2 ++ d1 ++ d0))
  | 0x0f#8 :: 0x85#8 :: d0 :: d1 :: d2 :: d3 :: _ => some (rexBranch a 6 [0x0f, 0x85] 6 2 (d3 ++ d2 ++ d1 ++ d0))
  | 0x8b#8 :: d0 :: d1 :: d2 :: d3 :: _ => some (rexLoad a 0 X86_REG_RIP (d3 ++ d2 ++ d1 ++ d0))
  | 0x64#8 :: d0 :: d1 :: d2 :: d3 :: _ => some (rexLoad a X86_REG_FS 0 (d3 ++ d2 ++ d1 ++ d0))
  | _ => none

/-- Environment with this decoder. -/
def rexEnv : Env := { exEnv with decode := rexDecode }

theorem rexEnv_sane : SaneDecoder rexEnv := by
  have hcases : ∀ {a : Addr} {bytes : List (BitVec 8)} {i : Insn}, rexDecode a bytes = some i →
      i.address = a ∧ i.size ≤ 15 ∧ (i.ops = [] ∨ i.imm_offset.toNat < i.size) ∧ (i.ops = [] ∨ i.disp_offset.toNat < i.size) := by
    intro a bytes i h
    unfold rexDecode at h
    split at h
    all_goals first
      | cases h
        exact ⟨rfl, Nat.le_of_ble_eq_true rfl, Or.inl rfl, Or.inl rfl⟩
      | cases h
        exact ⟨rfl, Nat.le_of_ble_eq_true rfl, Or.inr (Nat.le_of_ble_eq_true rfl), Or.inr (Nat.le_of_ble_eq_true rfl)⟩
      | cases h
  refine ⟨fun h => (hcases h).1, fun h => (hcases h).2.1, fun h op hop _ _ _ _ hr => ?_⟩
  obtain ⟨_, _, h1, h2⟩ := hcases h
  rcases hr with hr | hr
  · cases hr with
    | branch => exact h1.resolve_left (fun e => by rw [e] at hop; cases hop)
    | rip => exact h2.resolve_left (fun e => by rw [e] at hop; cases hop)
  · cases hr with
    | fs => exact h2.resolve_left (fun e => by rw [e] at hop; cases hop)

/-- Calls a function, reads a variable, and jumps back to its start. -/
def rexCode : List (BitVec 8) :=
  [0xe8, 0x0b, 0, 0, 0, 0x8b, 0xf6, 0x0f, 0, 0, 0x75, 0xf4, 0xc3, 0x90, 0x90, 0x90, 0xc3]

/-- A section with code at 0x1000. -/
def rexText (code : List (BitVec 8)) : ElfSec where
  name := ".text"
  virt_addr := 0x1000
  size := BitVec.ofNat 64 code.length
  executable := true
  data := code

/-- Eight bytes at 0x2000. -/
def rexData (name : String) : ElfSec where
  name := name
  virt_addr := 0x2000
  size := 8
  writeable := true
  data := [1, 2, 3, 4, 5, 6, 7, 8]

/-- Symbol with a name. -/
def rexSym (a : Addr) (name : String) : Symbol := { address := a, name := some name }

/-- Symbol after the reconstruction. -/
def rexDone (s : Symbol) (size : Addr) (sec : ElfSec) (rels : List Rel) : Symbol :=
  { s with
    size := size
    sec := { name := some sec.name, writeable := sec.writeable, executable := sec.executable }
    rels := rels }

/-- Reconstructed relocation of an operand at offset 1. -/
def rexRel (offset type : Addr) (name : String) (addend : BitVec 64) (target : Addr) (access : BitVec 8) : Rel where
  offset := offset
  type := type
  name := some name
  addend := addend
  target := target
  reconstructed := true
  instruction_offset := 1
  instruction_access := access

/-- A file with the symbols main, f and v. -/
def rexFile : AState where
  sections := [rexText rexCode, rexData ".data"]
  symbols := [rexSym 0x1000 "main", rexSym 0x1010 "f", rexSym 0x2000 "v"]

/-- The symbol main with its relocations. -/
def rexMain : Symbol := rexDone (rexSym 0x1000 "main") 16 (rexText rexCode)
  [rexRel 0x1001 R_X86_64_PC32 "f" (-4) 0x1010 0x04, rexRel 0x1006 R_X86_64_PC32 "v" (-4) 0x2000 0x01,
   rexRel 0x100b R_X86_64_PC8 "main" (-1) 0x1000 0x1c]

/-- The file after the reconstruction. -/
def rexFile' : AState := { rexFile with symbols :=
  [rexMain, rexDone (rexSym 0x1010 "f") 1 (rexText rexCode) [], rexDone (rexSym 0x2000 "v") 8 (rexData ".data") []] }

theorem rexFile_ok : reconstruct rexEnv rexFile = .ok rexFile' := by
  exact ok_of_decide (by decide +kernel)

/-- The instructions of main. -/
def rexSteps : List Step := disasm rexEnv 0x1000 (rexCode.take 16)

theorem rexMain_code : CodeOf rexEnv rexFile rexMain rexSteps :=
  ⟨rexText rexCode, rexCode.take 16, by decide +kernel, by rfl, rfl⟩

theorem rexMain_plt : ¬ PltSym rexMain := by
  rw [PltSym, ← hasPrefix_iff]
  decide +kernel

/-- The load in main. -/
def rexStep : Step where
  insn := rexLoad 0x1005 0 X86_REG_RIP 0xff6
  address := 0x100a
  rest := [0x75, 0xf4, 0xc3, 0x90, 0x90, 0x90]

example : ∃ q ∈ rexMain.rels, q.offset = 0x1006 ∧ Applied rexFile 4 q 0xff6 := by
  obtain ⟨q, h1, h2, _, _, h3⟩ := C43_displacement_partial rexEnv rexFile rexFile' rexEnv_sane (by decide) (by decide)
    (by decide) (by decide) rexFile_ok rexMain (by decide) rfl rexMain_plt (by decide) rexSteps rexMain_code rexStep
    (by decide +kernel) (.mem 0 X86_REG_RIP 0 1 0xff6 1) (by decide) _ _ _ (.rip 0 0 1 0xff6 1)
    (by
      intro op' hop' z t hr
      rcases List.mem_cons.mp hop' with rfl | hop'
      · rcases hr with hr | hr <;> cases hr
      · cases List.mem_singleton.mp hop'
        rcases hr with hr | hr
        · cases hr
          exact ⟨rfl, rfl⟩
        · cases hr)
    (by decide) (by decide) (by decide) (rexSym 0x2000 "v") (by decide)
    (by
      intro _ hin
      have h := (inSection_iff (st := rexFile) (by decide) (by decide) _ _).mpr hin
      exact absurd h (by decide +kernel))
  exact ⟨q, h1, h2, h3⟩

/-! The full statement does not hold. -/

/-- Reads an entry of the global offset table. -/
def rexGot : AState where
  sections := [rexText [0x8b, 0xfb, 0x0f, 0, 0, 0xc3], rexData ".got"]
  symbols := [rexSym 0x1000 "f"]
  relocations := [{ offset := 0x2000, type := R_X86_64_RELATIVE, addend := 0x1000 }]

/-- C43: a reference to an entry of the global offset table that is not imported gets the type for entries of the table,
but the name of the closest symbol in front. There is no way to apply it. -/
theorem C43_got_counterexample : ∃ (env : Env) (st st' : AState) (s : Symbol) (q : Rel),
    SaneDecoder env ∧ reconstruct env st = .ok st' ∧ s ∈ st'.symbols ∧ s.rels = [q] ∧ q.target = 0x2000 ∧
    q.type = R_X86_64_GOTPCREL ∧ q.name = some "f" ∧ ∀ size v, ¬ Applied st size q v := by
  refine ⟨rexEnv, rexGot, { rexGot with symbols := [rexDone (rexSym 0x1000 "f") 6 (rexText [0x8b, 0xfb, 0x0f, 0, 0, 0xc3])
    [rexRel 0x1001 R_X86_64_GOTPCREL "f" 0xffc 0x2000 1]] }, _, _, rexEnv_sane, ok_of_decide (by decide +kernel),
    List.mem_singleton.mpr rfl, rfl, rfl, rfl, rfl, ?_⟩
  intro size v h
  cases h with
  | plain y h1 => rcases h1 with ⟨_, h1⟩ | ⟨_, h1⟩ | ⟨_, h1⟩ | ⟨_, h1⟩ <;> exact absurd h1 (by decide)
  | plt y h1 h2 => exact absurd h2 (by decide)
  | got slot h1 h2 h3 =>
    obtain ⟨rel, h4, _, s, h5, _⟩ := h3
    cases List.mem_singleton.mp h4
    cases h5

/-- Reads below all symbols. -/
def rexBare : AState where
  sections := [rexText [0x8b, 0xfb, 0xf7, 0xff, 0xff, 0xc3]]
  symbols := [rexSym 0x1000 "f"]

/-- C43: without symbol in front of the target the relocation becomes a relative one, whose addend is not the target. -/
theorem C43_bare_counterexample : ∃ (env : Env) (st st' : AState) (s : Symbol) (q : Rel),
    SaneDecoder env ∧ reconstruct env st = .ok st' ∧ s ∈ st'.symbols ∧ s.rels = [q] ∧ q.target = 0x800 ∧
    q.type = R_X86_64_RELATIVE ∧ q.addend = -4 ∧ ∀ size v, ¬ Applied st size q v := by
  refine ⟨rexEnv, rexBare, { rexBare with symbols := [rexDone (rexSym 0x1000 "f") 6 (rexText [0x8b, 0xfb, 0xf7, 0xff, 0xff, 0xc3])
    [{ rexRel 0x1001 R_X86_64_RELATIVE "" (-4) 0x800 1 with name := none }]] }, _, _, rexEnv_sane,
    ok_of_decide (by decide +kernel), List.mem_singleton.mpr rfl, rfl, rfl, rfl, rfl, ?_⟩
  intro size v h
  cases h with
  | plain y h1 => rcases h1 with ⟨_, h1⟩ | ⟨_, h1⟩ | ⟨_, h1⟩ | ⟨_, h1⟩ <;> exact absurd h1 (by decide)
  | plt y h1 h2 => exact absurd h2 (by decide)
  | got slot h1 h2 => exact absurd h2 (by decide)

/-! The target of a jump is the location of another relocation. -/

/-- Calls a function, and jumps into the distance of this call. -/
def rexMiddleCode : List (BitVec 8) :=
  [0xe8, 0x0b, 0, 0, 0, 0x0f, 0x85, 0xf6, 0xff, 0xff, 0xff, 0xc3, 0x90, 0x90, 0x90, 0x90, 0xc3]

def rexMiddle : AState where
  sections := [rexText rexMiddleCode]
  symbols := [rexSym 0x1000 "main", rexSym 0x1010 "f"]

/-- The symbol main with its only relocation. -/
def rexMiddleMain : Symbol := rexDone (rexSym 0x1000 "main") 16 (rexText rexMiddleCode)
  [{ rexRel 0x1001 R_X86_64_PC32 "f" (-4) 0x1010 0x1c with instruction_offset := 2 }]

theorem rexMiddle_ok : reconstruct rexEnv rexMiddle = .ok { rexMiddle with symbols :=
    [rexMiddleMain, rexDone (rexSym 0x1010 "f") 1 (rexText rexMiddleCode) []] } := by
  exact ok_of_decide (by decide +kernel)

/-- The instructions of main. -/
def rexMiddleSteps : List Step := disasm rexEnv 0x1000 (rexMiddleCode.take 16)

theorem rexMiddle_code : CodeOf rexEnv rexMiddle rexMiddleMain rexMiddleSteps :=
  ⟨rexText rexMiddleCode, rexMiddleCode.take 16, by decide +kernel, by rfl, rfl⟩

/-- C43: a branch to the location of another relocation of the function gets no relocation. -/
theorem C43_location_counterexample : ∃ (env : Env) (st st' : AState) (s : Symbol) (steps : List Step) (step : Step)
    (op : Operand) (offset size : BitVec 8) (target : Addr),
    SaneDecoder env ∧ reconstruct env st = .ok st' ∧ s ∈ st'.symbols ∧ CodeOf env st s steps ∧ step ∈ steps ∧
    op ∈ step.insn.ops ∧ PcRelative (env.kind step.insn.id) step.insn op offset size target ∧
    ∀ q ∈ s.rels, q.offset ≠ step.insn.address + offset.setWidth 64 :=
  ⟨rexEnv, rexMiddle, _, rexMiddleMain, rexMiddleSteps,
    { insn := rexBranch 0x1005 6 [0x0f, 0x85] 6 2 (-10), address := 0x100b, rest := [0xc3, 0x90, 0x90, 0x90, 0x90] },
    .imm 0x1001 0, _, _, _, rexEnv_sane, rexMiddle_ok, by decide, rexMiddle_code, by decide +kernel, by decide,
    .branch _ _ (by unfold Branching; decide), by decide⟩

/-! An operand with both kinds of references. -/

/-- Environment in which the load uses both the segment of the thread-local storage and the instruction pointer. -/
def rexBothEnv : Env := { exEnv with decode := fun a bytes => match bytes with
  | 0x8b#8 :: d0 :: d1 :: d2 :: d3 :: _ => some (rexLoad a X86_REG_FS X86_REG_RIP (d3 ++ d2 ++ d1 ++ d0))
  | 0xc3#8 :: _ => some { address := a, size := 1, id := 2, opcode := [0xc3] }
  | _ => none }

theorem rexBothEnv_sane : SaneDecoder rexBothEnv := by
  have hcases : ∀ {a : Addr} {bytes : List (BitVec 8)} {i : Insn}, rexBothEnv.decode a bytes = some i →
      i.address = a ∧ i.size ≤ 15 ∧ (i.ops = [] ∨ 1 = i.disp_offset.toNat ∧ 1 < i.size ∧ i.imm_offset = 0) := by
    intro a bytes i h
    unfold rexBothEnv at h
    dsimp only at h
    split at h
    · cases h
      exact ⟨rfl, Nat.le_of_ble_eq_true rfl, Or.inr ⟨rfl, Nat.le_of_ble_eq_true rfl, rfl⟩⟩
    · cases h
      exact ⟨rfl, Nat.le_of_ble_eq_true rfl, Or.inl rfl⟩
    · cases h
  refine ⟨fun h => (hcases h).1, fun h => (hcases h).2.1, ?_⟩
  intro a bytes i h op hop te o z t hr
  rcases (hcases h).2.2 with h1 | ⟨h2, h3, h4⟩
  · rw [h1] at hop
    cases hop
  · rcases hr with hr | hr
    · cases hr with
      | branch => rw [h4]; exact Nat.lt_of_lt_of_le (by decide) (Nat.le_of_lt h3)
      | rip => omega
    · cases hr
      omega

/-- Reads a variable with both. -/
def rexBoth : AState where
  sections := [rexText [0x8b, 0xfb, 0x0f, 0, 0, 0xc3], rexData ".data"]
  symbols := [rexSym 0x1000 "f", rexSym 0x2000 "v"]

/-- The function with its only relocation. -/
def rexBothMain : Symbol := rexDone (rexSym 0x1000 "f") 6 (rexText [0x8b, 0xfb, 0x0f, 0, 0, 0xc3])
  [{ rexRel 0x1001 R_X86_64_TPOFF32 "" 0xffb (TLS.trans_addr 0xffb true) 1 with name := none }]

/-- C43: an operand relative to both the segment of the thread-local storage and the instruction pointer gets a relocation for the former only. -/
theorem C43_segment_counterexample : ∃ (env : Env) (st st' : AState) (s : Symbol) (steps : List Step) (step : Step)
    (op : Operand) (offset size : BitVec 8) (target : Addr),
    SaneDecoder env ∧ reconstruct env st = .ok st' ∧ s ∈ st'.symbols ∧ CodeOf env st s steps ∧ step ∈ steps ∧
    op ∈ step.insn.ops ∧ PcRelative (env.kind step.insn.id) step.insn op offset size target ∧
    ∀ q ∈ s.rels, q.target ≠ target :=
  ⟨rexBothEnv, rexBoth, { rexBoth with symbols := [rexBothMain, rexDone (rexSym 0x2000 "v") 8 (rexData ".data") []] }, rexBothMain,
    disasm rexBothEnv 0x1000 [0x8b, 0xfb, 0x0f, 0, 0, 0xc3], { insn := rexLoad 0x1000 X86_REG_FS X86_REG_RIP 0xffb, address := 0x1005, rest := [0xc3] },
    .mem X86_REG_FS X86_REG_RIP 0 1 0xffb 1, _, _, _, rexBothEnv_sane, ok_of_decide (by decide +kernel), by decide,
    ⟨rexText [0x8b, 0xfb, 0x0f, 0, 0, 0xc3], _, by decide +kernel, by rfl, rfl⟩, by decide +kernel, by decide, .rip _ _ _ _ _, by decide⟩

/-! ### C44 and C67: the instruction -/

/-- Access bits of an operand (reads: 1, writes: 2). -/
def accessOf : Operand → BitVec 8
  | .imm _ a => a
  | .mem _ _ _ _ _ a => a
  | _ => 0

/-- The operand reads / writes. -/
def Reads (op : Operand) : Prop := (accessOf op).getLsbD 0 = true
def Writes (op : Operand) : Prop := (accessOf op).getLsbD 1 = true

/-- Information on the instruction that belongs to a relocation. -/
structure Describes (k : InsKind) (s : Symbol) (step : Step) (op : Operand) (q : Rel) : Prop where
  start : q.offset - q.instruction_offset.setWidth 64 = step.insn.address
  reads : (q.instruction_access &&& ACCESSFLAG_READ ≠ 0) ↔ Reads op
  writes : (q.instruction_access &&& ACCESSFLAG_WRITE ≠ 0) ↔ Writes op
  branch : (q.instruction_access &&& ACCESSFLAG_BRANCH ≠ 0) ↔ ∃ v a, op = .imm v a
  conditional : (q.instruction_access &&& ACCESSFLAG_CONDITIONAL ≠ 0) ↔ k = .condBranch ∧ ∃ v a, op = .imm v a
  «local» : (q.instruction_access &&& ACCESSFLAG_LOCAL ≠ 0) ↔
    s.address.toNat ≤ q.target.toNat ∧ q.target.toNat < s.address.toNat + s.size.toNat

theorem and_one_ne (a : BitVec 8) : ((a &&& 1) != 0) = a.getLsbD 0 := by
  have : ∀ a : BitVec 8, ((a &&& 1) != 0) = a.getLsbD 0 := by decide +kernel
  exact this a

theorem and_two_ne (a : BitVec 8) : ((a &&& 2) != 0) = a.getLsbD 1 := by
  have : ∀ a : BitVec 8, ((a &&& 2) != 0) = a.getLsbD 1 := by decide +kernel
  exact this a

/-- The bits of the access flags. -/
theorem accessFlags_bits (s : Symbol) (t : Addr) (flags access : BitVec 8) (hf : flags &&& 0x13 = 0) :
    ((accessFlags s t flags access &&& ACCESSFLAG_READ ≠ 0) ↔ access.getLsbD 0 = true) ∧
    ((accessFlags s t flags access &&& ACCESSFLAG_WRITE ≠ 0) ↔ access.getLsbD 1 = true) ∧
    (accessFlags s t flags access &&& ACCESSFLAG_BRANCH = flags &&& ACCESSFLAG_BRANCH) ∧
    (accessFlags s t flags access &&& ACCESSFLAG_CONDITIONAL = flags &&& ACCESSFLAG_CONDITIONAL) ∧
    ((accessFlags s t flags access &&& ACCESSFLAG_LOCAL ≠ 0) ↔ (t ≥ s.address ∧ t < s.address + s.size)) := by
  unfold accessFlags
  rw [and_one_ne, and_two_ne]
  have key : ∀ (r w l : Bool) (f : BitVec 8), f &&& 0x13 = 0 →
      let g := if r then f ||| ACCESSFLAG_READ else f
      let g := if w then g ||| ACCESSFLAG_WRITE else g
      let g := if l then g ||| ACCESSFLAG_LOCAL else g
      ((g &&& ACCESSFLAG_READ ≠ 0) ↔ r = true) ∧ ((g &&& ACCESSFLAG_WRITE ≠ 0) ↔ w = true) ∧
      (g &&& ACCESSFLAG_BRANCH = f &&& ACCESSFLAG_BRANCH) ∧
      (g &&& ACCESSFLAG_CONDITIONAL = f &&& ACCESSFLAG_CONDITIONAL) ∧ ((g &&& ACCESSFLAG_LOCAL ≠ 0) ↔ l = true) := by
    decide +kernel
  have := key (access.getLsbD 0) (access.getLsbD 1) (decide (t ≥ s.address ∧ t < s.address + s.size)) flags hf
  simp only [decide_eq_true_eq] at this
  exact this

theorem branchFlags_bits (k : InsKind) :
    branchFlags k &&& 0x13 = 0 ∧ branchFlags k &&& ACCESSFLAG_BRANCH ≠ 0 ∧
    ((branchFlags k &&& ACCESSFLAG_CONDITIONAL ≠ 0) ↔ k ≠ .jmp ∧ k ≠ .call) := by
  cases k <;> decide

theorem describes_new {env : Env} {st : AState} {tls_end : Addr} {s : Symbol} {a0 : Addr} {n : Nat} {step : Step} {op : Operand}
    (hw : s.address.toNat + s.size.toNat < 2 ^ 64)
    (hp : Placed env a0 n step) (hop : op ∈ step.insn.ops) {a : RelArgs}
    (ha : a ∈ operandRels tls_end (env.kind step.insn.id) step.insn op) :
    Describes (env.kind step.insn.id) s step op (newRel st s a) := by
  obtain ⟨h1, _⟩ := operandRels_origin ha
  obtain ⟨_, h3⟩ := loc_toNat hp hop ha
  have hshort := hp.short
  have hstart : (newRel st s a).offset - (newRel st s a).instruction_offset.setWidth 64 = step.insn.address := by
    show a.address + a.offset.setWidth 64 - (a.offset.setWidth 4).setWidth 64 = _
    have : (a.offset.setWidth 4).setWidth 64 = a.offset.setWidth 64 := by
      apply BitVec.eq_of_toNat_eq
      simp only [BitVec.toNat_setWidth]
      omega
    rw [this, h1]
    grind
  have hin : (a.target ≥ s.address ∧ a.target < s.address + s.size) ↔
      (s.address.toNat ≤ a.target.toNat ∧ a.target.toNat < s.address.toNat + s.size.toNat) := by
    have : (s.address + s.size).toNat = s.address.toNat + s.size.toNat := by
      rw [BitVec.toNat_add, Nat.mod_eq_of_lt hw]
    rw [ge_iff_le, BitVec.le_def, BitVec.lt_def, this]
  cases op with
  | reg r => simp [operandRels] at ha
  | other => simp [operandRels] at ha
  | imm v acc =>
    simp only [operandRels] at ha
    by_cases hb : isBranch (env.kind step.insn.id) = true
    · rw [if_pos hb, List.mem_singleton] at ha
      obtain ⟨b1, b2, b3⟩ := branchFlags_bits (env.kind step.insn.id)
      obtain ⟨k1, k2, k3, k4, k5⟩ := accessFlags_bits s a.target (branchFlags (env.kind step.insn.id)) acc b1
      have hacc : (newRel st s a).instruction_access =
          accessFlags s a.target (branchFlags (env.kind step.insn.id)) acc := by
        subst ha; rfl
      refine ⟨hstart, ?_, ?_, ?_, ?_, ?_⟩
      · rw [hacc]; exact k1
      · rw [hacc]; exact k2
      · rw [hacc, k3]; exact ⟨fun _ => ⟨v, acc, rfl⟩, fun _ => b2⟩
      · rw [hacc, k4, b3]
        have hbr := (isBranch_iff _).mp hb
        constructor
        · rintro ⟨c1, c2⟩
          rcases hbr with h | h | h
          · exact absurd h c1
          · exact absurd h c2
          · exact ⟨h, v, acc, rfl⟩
        · rintro ⟨c1, _⟩
          rw [c1]
          exact ⟨by decide, by decide⟩
      · rw [hacc, k5]; exact hin
    · rw [if_neg hb] at ha; cases ha
  | mem segment base index scale disp acc =>
    have hfl : a.flags = 0 ∧ a.access = acc := by
      simp only [operandRels] at ha
      rcases List.mem_append.mp ha with ha | ha
      · split at ha
        · rw [List.mem_singleton] at ha; subst ha; exact ⟨rfl, rfl⟩
        · cases ha
      · split at ha
        · rw [List.mem_singleton] at ha; subst ha; exact ⟨rfl, rfl⟩
        · cases ha
    obtain ⟨k1, k2, k3, k4, k5⟩ := accessFlags_bits s a.target 0 acc (by decide)
    have hacc : (newRel st s a).instruction_access = accessFlags s a.target 0 acc := by
      show accessFlags s a.target a.flags a.access = _
      rw [hfl.1, hfl.2]
    refine ⟨hstart, ?_, ?_, ?_, ?_, ?_⟩
    · rw [hacc]; exact k1
    · rw [hacc]; exact k2
    · rw [hacc, k3]
      exact ⟨fun h => absurd (by decide) h, fun ⟨_, _, h⟩ => by cases h⟩
    · rw [hacc, k4]
      exact ⟨fun h => absurd (by decide) h, fun ⟨_, _, _, h⟩ => by cases h⟩
    · rw [hacc, k5]; exact hin

theorem rel_origin {env : Env} {st st' : AState} (hd : SaneDecoder env) (hok : SymsOK st.symbols)
    (hnew : ∀ s ∈ st.symbols, s.rels = [])
    (h : reconstruct env st = .ok st') {s : Symbol} (hs : s ∈ st'.symbols) (hx : s.sec.executable = true)
    (hp : ¬ PltSym s) (hw : (TLS.virt_addr s.address).toNat + s.size.toNat < 2 ^ 64)
    (hw' : s.address.toNat + s.size.toNat < 2 ^ 64)
    {steps : List Step} (hc : CodeOf env st s steps) {q : Rel} (hq : q ∈ s.rels) :
    ∃ step ∈ steps, ∃ op ∈ step.insn.ops, ∃ offset size,
      RefersTo (tlsEnd env st.tls_segment) (env.kind step.insn.id) step.insn op offset size q.target ∧
      q.offset = step.insn.address + offset.setWidth 64 ∧ q.reconstructed = true ∧
      ((∀ x ∈ steps, ∀ op' ∈ x.insn.ops, ∀ o z t,
        RefersTo (tlsEnd env st.tls_segment) (env.kind x.insn.id) x.insn op' o z t → t ≠ q.offset) →
        Describes (env.kind step.insn.id) s step op q) := by
  obtain ⟨hpl, _⟩ := codeOf_layout hd hc hw
  obtain ⟨s0, f⟩ := recon_facts hok h hs hx hp hc
  obtain ⟨s1, e1, e2, e3, cr⟩ := f.created
  rcases cr.origin q hq with ⟨r, hr, _⟩ | ⟨a, ha, hsame, hexact⟩
  · rw [e3, hnew s0 f.mem] at hr
    cases hr
  · obtain ⟨step, hstep, op, hop, ha'⟩ := mem_codeRels.mp ha
    obtain ⟨o1, o2⟩ := operandRels_origin ha'
    have hq' := hsame
    unfold SameUpToInsn at hq'
    have et : q.target = a.target := congrArg Rel.target hq'
    have eo : q.offset = a.loc := hsame.offset
    refine ⟨step, hstep, op, hop, a.offset, a.size, ?_, ?_, by rw [hq']; rfl, ?_⟩
    · rw [et]; exact o2
    · rw [eo]; unfold RelArgs.loc; rw [o1]
    · intro hno
      have : q = newRel st s1 a := by
        refine hexact (fun b hb he => ?_)
        obtain ⟨x, hx', op', hop', hb'⟩ := mem_codeRels.mp hb
        exact hno x hx' op' hop' _ _ _ (operandRels_origin hb').2 (by rw [he, eo])
      rw [newRel_congr st e1 e2] at this
      rw [this]
      exact describes_new hw' (hpl step hstep) hop ha'

/-- C44 (partial): each reconstructed relocation belongs to an operand of an instruction of the function, and offset
minus instruction offset is the start of this instruction. Missing: relocations whose location is the target of a
reference in the same function, see `C44_counterexample`. -/
theorem C44_instruction_partial (env : Env) (st st' : AState) (hd : SaneDecoder env) (hok : SymsOK st.symbols)
    (hnew : ∀ s ∈ st.symbols, s.rels = [])
    (h : reconstruct env st = .ok st') (s : Symbol) (hs : s ∈ st'.symbols) (hx : s.sec.executable = true)
    (hp : ¬ PltSym s) (hw : (TLS.virt_addr s.address).toNat + s.size.toNat < 2 ^ 64)
    (hw' : s.address.toNat + s.size.toNat < 2 ^ 64)
    (steps : List Step) (hc : CodeOf env st s steps) (q : Rel) (hq : q ∈ s.rels)
    (hno : ∀ x ∈ steps, ∀ op' ∈ x.insn.ops, ∀ o z t,
      RefersTo (tlsEnd env st.tls_segment) (env.kind x.insn.id) x.insn op' o z t → t ≠ q.offset) :
    ∃ step ∈ steps, ∃ op ∈ step.insn.ops, ∃ offset size,
      RefersTo (tlsEnd env st.tls_segment) (env.kind step.insn.id) step.insn op offset size q.target ∧
      q.offset = step.insn.address + offset.setWidth 64 ∧
      q.offset - q.instruction_offset.setWidth 64 = step.insn.address := by
  obtain ⟨step, h1, op, h2, offset, size, h3, h4, _, h5⟩ := rel_origin hd hok hnew h hs hx hp hw hw' hc hq
  exact ⟨step, h1, op, h2, offset, size, h3, h4, (h5 hno).start⟩

/-- C67 (partial): the access flags of a reconstructed relocation tell if the operand is read, written, a (conditional)
branch, and if the target is inside of the function. Missing: as for C44. -/
theorem C67_access_partial (env : Env) (st st' : AState) (hd : SaneDecoder env) (hok : SymsOK st.symbols)
    (hnew : ∀ s ∈ st.symbols, s.rels = [])
    (h : reconstruct env st = .ok st') (s : Symbol) (hs : s ∈ st'.symbols) (hx : s.sec.executable = true)
    (hp : ¬ PltSym s) (hw : (TLS.virt_addr s.address).toNat + s.size.toNat < 2 ^ 64)
    (hw' : s.address.toNat + s.size.toNat < 2 ^ 64)
    (steps : List Step) (hc : CodeOf env st s steps) (q : Rel) (hq : q ∈ s.rels)
    (hno : ∀ x ∈ steps, ∀ op' ∈ x.insn.ops, ∀ o z t,
      RefersTo (tlsEnd env st.tls_segment) (env.kind x.insn.id) x.insn op' o z t → t ≠ q.offset) :
    q.reconstructed = true ∧ ∃ step ∈ steps, ∃ op ∈ step.insn.ops, ∃ offset size,
      RefersTo (tlsEnd env st.tls_segment) (env.kind step.insn.id) step.insn op offset size q.target ∧
      Describes (env.kind step.insn.id) s step op q := by
  obtain ⟨step, h1, op, h2, offset, size, h3, _, h4, h5⟩ := rel_origin hd hok hnew h hs hx hp hw hw' hc hq
  exact ⟨h4, step, h1, op, h2, offset, size, h3, h5 hno⟩

/-- No reference in main leads to the location of a relocation. -/
theorem rexMain_free : ∀ x ∈ rexSteps, ∀ op' ∈ x.insn.ops, ∀ o z t,
    RefersTo (tlsEnd rexEnv rexFile.tls_segment) (rexEnv.kind x.insn.id) x.insn op' o z t → t ≠ 0x1006 := by
  intro x hx op' hop' o z t hr
  have key : ∀ x ∈ rexSteps, ∀ op ∈ x.insn.ops,
      (match op with
        | .imm v _ => decide (v ≠ 0x1006)
        | .mem segment _ _ _ d _ => decide (x.insn.address + BitVec.ofNat 64 x.insn.size + d ≠ 0x1006 ∧ segment ≠ X86_REG_FS)
        | _ => true) = true := by
    decide +kernel
  have := key x hx op' hop'
  rcases hr with hr | hr
  · cases hr with
    | branch v a _ => exact of_decide_eq_true this
    | rip s i sc d a => exact (of_decide_eq_true this).1
  · cases hr with
    | fs b i sc d a => exact absurd rfl (of_decide_eq_true this).2

example : ∃ step ∈ rexSteps, ∃ op ∈ step.insn.ops, ∃ offset size,
    RefersTo 0 (rexEnv.kind step.insn.id) step.insn op offset size 0x2000 ∧
    (0x1006 : Addr) = step.insn.address + offset.setWidth 64 ∧ (0x1006 : Addr) - (1#4).setWidth 64 = step.insn.address :=
  C44_instruction_partial rexEnv rexFile rexFile' rexEnv_sane (by decide) (by decide) rexFile_ok rexMain (by decide) rfl
    rexMain_plt (by decide) (by decide) rexSteps rexMain_code (rexRel 0x1006 R_X86_64_PC32 "v" (-4) 0x2000 0x01)
    (by decide) rexMain_free

example : ∃ step ∈ rexSteps, ∃ op ∈ step.insn.ops,
    Describes (rexEnv.kind step.insn.id) rexMain step op (rexRel 0x1006 R_X86_64_PC32 "v" (-4) 0x2000 0x01) := by
  obtain ⟨_, step, h1, op, h2, _, _, _, h3⟩ := C67_access_partial rexEnv rexFile rexFile' rexEnv_sane (by decide)
    (by decide) rexFile_ok rexMain (by decide) rfl rexMain_plt (by decide) (by decide) rexSteps rexMain_code
    (rexRel 0x1006 R_X86_64_PC32 "v" (-4) 0x2000 0x01) (by decide) rexMain_free
  exact ⟨step, h1, op, h2, h3⟩

/-- C44, C45, C67: a branch to the location of a relocation changes the instruction offset and the access flags of this
relocation: there is no instruction at offset minus instruction offset, and an unconditional call is marked conditional. -/
theorem C44_counterexample : ∃ (env : Env) (st st' : AState) (s : Symbol) (steps : List Step) (q : Rel),
    SaneDecoder env ∧ reconstruct env st = .ok st' ∧ s ∈ st'.symbols ∧ CodeOf env st s steps ∧ s.rels = [q] ∧
    (∀ step ∈ steps, step.insn.address ≠ q.offset - q.instruction_offset.setWidth 64) ∧
    (∀ step ∈ steps, step.insn.address = 0x1000 →
      q.offset = step.insn.address + step.insn.imm_offset.setWidth 64 ∧ env.kind step.insn.id = .call) ∧
    q.instruction_access &&& ACCESSFLAG_CONDITIONAL ≠ 0 :=
  ⟨rexEnv, rexMiddle, _, rexMiddleMain, rexMiddleSteps, _, rexEnv_sane, rexMiddle_ok, by decide, rexMiddle_code, rfl,
    by decide +kernel, by decide +kernel, by decide⟩

/-! ### C45: relocations of the file -/

/-- C45 (partial): relocations of the file in code are attached if nothing was reconstructed at their location.
Missing: relocations of the file at a reconstructed location, see `C45_replaced`. -/
theorem C45_attached_partial (env : Env) (fl : AnalyzeFlags) (st st' r : AState) (hok : SymsOK st.symbols)
    (hr : Sorted st.relocations) (hrel : Sorted st.relative_relocations)
    (h : reconstruct env st = .ok st') (h' : hashInternal env fl st' = .ok r)
    (s : Symbol) (hs : s ∈ r.symbols) (hx : s.sec.executable = true)
    (ht : TLS.is_tls s.address = false) (hw : (TLS.virt_addr s.address).toNat + s.size.toNat < 2 ^ 64)
    (e : ElfRel) (he : e ∈ st.relocations) (hin : InRange s e.offset) :
    ∃ s' ∈ st'.symbols, s'.address = s.address ∧ (∀ q ∈ s'.rels, q ∈ s.rels) ∧
      ((∀ q ∈ s'.rels, q.offset ≠ e.offset) → ∃ q ∈ s.rels, FileRel env fl.resolve_internal st.global_offset_table e q) := by
  obtain ⟨hst, _⟩ := reconstruct_ok h
  have hok' := reconstruct_symsOK hok h
  have hr' : Sorted st'.relocations := by rw [hst]; exact hr
  have hrel' : Sorted st'.relative_relocations := by rw [hst]; exact hrel
  have hg : st'.global_offset_table = st.global_offset_table := by rw [hst]
  obtain ⟨s0, h0, sec, h1, _, h3⟩ := rels_exact hok' hr' hrel' h' hs (Or.inl hx)
  refine ⟨s0, h0, h1, fun q hq => (h3 q).mpr (Or.inl hq), fun hfree => ?_⟩
  have he' : e ∈ st'.relocations := by rw [hst]; exact he
  have hend : (TLS.virt_addr s.address + s.size).toNat = (TLS.virt_addr s.address).toNat + s.size.toNat := by
    rw [BitVec.toNat_add, Nat.mod_eq_of_lt hw]
  refine ⟨_, (h3 _).mpr (Or.inr (Or.inl ⟨e, he', ?_, ?_, rfl, hfree⟩)), ?_⟩
  · rw [BitVec.le_def]; exact hin.1
  · rw [BitVec.lt_def, hend]; exact hin.2
  · rw [← hg]; exact relOfElf_spec _ _ _ _ _

/-- C45: if a relocation was reconstructed at the location of a relocation of the file, then the latter is never
attached. -/
theorem C45_replaced (env : Env) (fl : AnalyzeFlags) (st st' r : AState) (hok : SymsOK st.symbols)
    (hr : Sorted st.relocations) (hrel : Sorted st.relative_relocations) (hnew : ∀ s ∈ st.symbols, s.rels = [])
    (h : reconstruct env st = .ok st') (h' : hashInternal env fl st' = .ok r)
    (s : Symbol) (hs : s ∈ r.symbols) (hx : s.sec.executable = true)
    (s' : Symbol) (hs' : s' ∈ st'.symbols) (ha : s'.address = s.address)
    (e : ElfRel) (q : Rel) (hq : q ∈ s'.rels) (hqe : q.offset = e.offset) :
    q ∈ s.rels ∧ (∀ z ∈ s.rels, z.offset = e.offset → z = q) ∧ ∀ z ∈ s.rels, ¬ FileRel env fl.resolve_internal st.global_offset_table e z := by
  obtain ⟨hst, _⟩ := reconstruct_ok h
  have hok' := reconstruct_symsOK hok h
  have hr' : Sorted st'.relocations := by rw [hst]; exact hr
  have hrel' : Sorted st'.relative_relocations := by rw [hst]; exact hrel
  obtain ⟨s0, h0, sec, h1, _, h3⟩ := rels_exact hok' hr' hrel' h' hs (Or.inl hx)
  have : s0 = s' := hok'.sorted.inj h0 hs' (by show s0.address = s'.address; rw [h1, ha])
  subst this
  have huniq : ∀ z ∈ s.rels, z.offset = e.offset → z = q := by
    intro z hz hze
    rcases (h3 z).mp hz with h4 | ⟨e', _, _, _, rfl, h6⟩ | ⟨o, _, _, _, h6, h7, _⟩
    · exact (hok'.rels s0 h0).inj h4 hq (by show z.offset = q.offset; rw [hze, hqe])
    · exact absurd (hqe.trans hze.symm) (h6 q hq)
    · obtain ⟨b, _, eb⟩ := h6
      have : z.offset = o := by rw [eb]
      rw [hze] at this
      exact absurd (hqe.trans this) (h7 q hq)
  refine ⟨(h3 q).mpr (Or.inl hq), huniq, fun z hz hf => ?_⟩
  have := huniq z hz hf.offset
  subst this
  have h4 := hf.original
  rw [reconstruct_reconstructed hok hnew h h0 hq] at h4
  cases h4

/-- Calls an imported function: the file holds a relocation for the distance. -/
def rexImport : AState where
  sections := [rexText [0xe8, 0, 0, 0, 0, 0xc3]]
  segments := [{ type := .load, offset := 0x1000, virt_addr := 0x1000, size := 6, virt_size := 6, executable := true }]
  symbols := [rexSym 0x1000 "main"]
  relocations := [{ offset := 0x1001, type := R_X86_64_PC32, addend := -4
                    symbol := some { value := 0, name := some "ext" } }]

/-- The caller after the reconstruction. -/
def rexImportSym : Symbol := rexDone (rexSym 0x1000 "main") 6 (rexText [0xe8, 0, 0, 0, 0, 0xc3])
  [rexRel 0x1001 R_X86_64_PC32 "main" 1 0x1005 0x14]

/-- The caller with its identifier. -/
def rexImportDone : Symbol := { rexImportSym with id := { internal := 0x91a2c30ef0531e45 } }

theorem rexImport_ok : reconstruct rexEnv rexImport = .ok { rexImport with symbols := [rexImportSym] } := by
  exact ok_of_decide (by decide +kernel)

theorem rexImport_hash : hashInternal rexEnv {} { rexImport with symbols := [rexImportSym] } =
    .ok { rexImport with symbols := [rexImportDone] } := by
  exact ok_of_decide (by decide +kernel)

example : ∀ z ∈ rexImportDone.rels, ¬ FileRel rexEnv false 0
    { offset := 0x1001, type := R_X86_64_PC32, addend := -4, symbol := some { value := 0, name := some "ext" } } z :=
  (C45_replaced rexEnv {} rexImport _ _ (by decide) (by decide) (by decide) (by decide) rexImport_ok rexImport_hash
    rexImportDone (by decide) rfl rexImportSym (by decide) rfl _ (rexRel 0x1001 R_X86_64_PC32 "main" 1 0x1005 0x14)
    (by decide) rfl).2.2

/-- The relocation of the file at 0x1001 is attached without reconstruction. -/
example : ∃ e ∈ rexImport.relocations, InRange rexImportDone e.offset := ⟨_, List.mem_singleton.mpr rfl, by
  unfold InRange; decide⟩

example : ∃ s' ∈ ([rexImportSym] : SymTree), s'.address = 0x1000 ∧ ∀ q ∈ s'.rels, q ∈ rexImportDone.rels := by
  obtain ⟨s', h1, h2, h3, _⟩ := C45_attached_partial rexEnv {} rexImport _ _ (by decide) (by decide) (by decide)
    rexImport_ok rexImport_hash rexImportDone (by decide) rfl (by decide) (by decide) _ (List.mem_singleton.mpr rfl)
    (by unfold InRange; decide)
  exact ⟨s', h1, h2, h3⟩

/-- C45: the reference to an imported function is lost by the reconstruction. -/
theorem C45_counterexample : ∃ (env : Env) (st st' r r0 : AState) (s s0 : Symbol) (e : ElfRel),
    reconstruct env st = .ok st' ∧ hashInternal env {} st' = .ok r ∧ hashInternal env {} st = .ok r0 ∧
    s ∈ r.symbols ∧ s0 ∈ r0.symbols ∧ e ∈ st.relocations ∧ InRange s e.offset ∧ s0.address = s.address ∧
    (∃ q ∈ s0.rels, FileRel env false st.global_offset_table e q ∧ q.name = some "ext") ∧
    (∀ q ∈ s.rels, ¬ FileRel env false st.global_offset_table e q) ∧ ∀ q ∈ s.rels, q.name ≠ some "ext" := by
  have h0 : hashInternal rexEnv {} rexImport = .ok { rexImport with symbols :=
      [{ rexImportDone with rels := [relOfElf rexEnv 0x1000 false 0
        { offset := 0x1001, type := R_X86_64_PC32, addend := -4, symbol := some { value := 0, name := some "ext" } }] }] } :=
    ok_of_decide (by decide +kernel)
  refine ⟨rexEnv, rexImport, _, _, _, rexImportDone, _, _, rexImport_ok, rexImport_hash, h0, by decide,
    List.mem_singleton.mpr rfl, List.mem_singleton.mpr rfl, by unfold InRange; decide, rfl,
    ⟨_, List.mem_singleton.mpr rfl, relOfElf_spec _ _ _ _ _, rfl⟩, ?_, by decide⟩
  intro q hq hf
  cases List.mem_singleton.mp hq
  cases hf.original

/-! ### C66: thread-local variables -/

/-- Value of a relocation for a thread-local variable according to the ABI: distance to the thread pointer. -/
inductive AppliedTls (st : AState) (tls_end : Addr) (q : Rel) : BitVec 64 → Prop
  | tpoff (y : Symbol) : q.type = R_X86_64_TPOFF32 ∨ q.type = R_X86_64_TPOFF64 → y ∈ st.symbols → y.name = q.name →
      y.address = q.target → AppliedTls st tls_end q (TLS.virt_addr y.address + q.addend - tls_end)

/-- C66 (partial): for each operand relative to the segment register there is a relocation at the location of the
encoded distance to the variable, with the type for its size and the name of the variable.
Missing: the addend is wrong, see `C66_doubled`. -/
theorem C66_tls_partial (env : Env) (st st' : AState) (hd : SaneDecoder env) (hok : SymsOK st.symbols)
    (hnew : ∀ s ∈ st.symbols, s.rels = [])
    (h : reconstruct env st = .ok st') (s : Symbol) (hs : s ∈ st'.symbols) (hx : s.sec.executable = true)
    (hp : ¬ PltSym s) (hw : (TLS.virt_addr s.address).toNat + s.size.toNat < 2 ^ 64)
    (steps : List Step) (hc : CodeOf env st s steps) (step : Step) (hstep : step ∈ steps)
    (base index : Reg) (scale : BitVec 32) (disp : BitVec 64) (acc : BitVec 8) (hb : base ≠ X86_REG_RIP)
    (hop : .mem X86_REG_FS base index scale disp acc ∈ step.insn.ops)
    (hone : ∀ op' ∈ step.insn.ops, ∀ z t,
      RefersTo (tlsEnd env st.tls_segment) (env.kind step.insn.id) step.insn op' step.insn.disp_offset z t →
      op' = .mem X86_REG_FS base index scale disp acc)
    (hloc : ∀ q ∈ s.rels, q.offset ≠ TLS.trans_addr (tlsEnd env st.tls_segment + disp) true) :
    ∃ q ∈ s.rels, q.offset = step.insn.address + step.insn.disp_offset.setWidth 64 ∧
      q.target = TLS.trans_addr (tlsEnd env st.tls_segment + disp) true ∧ q.reconstructed = true ∧ q.addend = disp ∧
      (step.insn.disp_size = 4 → q.type = R_X86_64_TPOFF32) ∧ (step.insn.disp_size = 8 → q.type = R_X86_64_TPOFF64) ∧
      ∀ y ∈ st.symbols, y.address = q.target → q.name = y.name := by
  have hrels : operandRels (tlsEnd env st.tls_segment) (env.kind step.insn.id) step.insn
      (.mem X86_REG_FS base index scale disp acc) =
      [{ address := step.insn.address, offset := step.insn.disp_offset
         target := TLS.trans_addr (tlsEnd env st.tls_segment + disp) true, size := step.insn.disp_size
         addend := disp, flags := 0, access := acc }] := by
    simp only [operandRels, if_true, if_neg hb, List.append_nil]
  obtain ⟨q, hq, hq'⟩ := rel_of_operand hd hok hnew h hs hx hp hw hc hstep hop
    (by rw [hrels]; exact List.mem_singleton.mpr rfl)
    (by
      intro op' hop' b hb' he
      have hr := (operandRels_origin hb').2
      rw [show b.offset = step.insn.disp_offset from he] at hr
      have := hone op' hop' _ _ hr
      subst this
      rw [hrels] at hb'
      rw [List.mem_singleton.mp hb']
      exact .refl _)
    hloc
  have hparts : ∀ z, relParts st (TLS.trans_addr (tlsEnd env st.tls_segment + disp) true) z disp =
      { type := if z = 4 then R_X86_64_TPOFF32 else if z = 8 then R_X86_64_TPOFF64 else R_X86_64_NONE
        name := (Tree.find st.symbols (TLS.trans_addr (tlsEnd env st.tls_segment + disp) true)).bind (·.name)
        addend := disp } := by
    intro z
    unfold relParts
    rw [if_pos (trans_true_is_tls _)]
  have et : q.target = TLS.trans_addr (tlsEnd env st.tls_segment + disp) true := congrArg Rel.target hq'
  have ety := congrArg Rel.type hq'
  have en := congrArg Rel.name hq'
  have ea := congrArg Rel.addend hq'
  simp only [newRel, hparts] at ety en ea
  refine ⟨q, hq, congrArg Rel.offset hq', et, congrArg Rel.reconstructed hq', ea, fun hz => ?_, fun hz => ?_, ?_⟩
  · rw [ety, if_pos hz]
  · rw [ety, if_neg (by rw [hz]; decide), if_pos hz]
  · intro y hy hyt
    rw [en]
    have : Tree.find st.symbols (TLS.trans_addr (tlsEnd env st.tls_segment + disp) true) = some y :=
      (find_eq_some_iff hok.sorted).mpr ⟨hy, by rw [← et]; exact hyt⟩
    rw [this]
    rfl

/-- C66: for a named variable the relocation gives twice the encoded distance. -/
theorem C66_doubled (env : Env) (st st' : AState) (hd : SaneDecoder env) (hok : SymsOK st.symbols)
    (hnew : ∀ s ∈ st.symbols, s.rels = [])
    (h : reconstruct env st = .ok st') (s : Symbol) (hs : s ∈ st'.symbols) (hx : s.sec.executable = true)
    (hp : ¬ PltSym s) (hw : (TLS.virt_addr s.address).toNat + s.size.toNat < 2 ^ 64)
    (steps : List Step) (hc : CodeOf env st s steps) (step : Step) (hstep : step ∈ steps)
    (base index : Reg) (scale : BitVec 32) (disp : BitVec 64) (acc : BitVec 8) (hb : base ≠ X86_REG_RIP)
    (hop : .mem X86_REG_FS base index scale disp acc ∈ step.insn.ops)
    (hone : ∀ op' ∈ step.insn.ops, ∀ z t,
      RefersTo (tlsEnd env st.tls_segment) (env.kind step.insn.id) step.insn op' step.insn.disp_offset z t →
      op' = .mem X86_REG_FS base index scale disp acc)
    (hloc : ∀ q ∈ s.rels, q.offset ≠ TLS.trans_addr (tlsEnd env st.tls_segment + disp) true)
    (hz : step.insn.disp_size = 4 ∨ step.insn.disp_size = 8)
    (hreg : TLS.is_tls (tlsEnd env st.tls_segment + disp) = false)
    (y : Symbol) (hy : y ∈ st.symbols) (hya : y.address = TLS.trans_addr (tlsEnd env st.tls_segment + disp) true) :
    ∃ q ∈ s.rels, q.offset = step.insn.address + step.insn.disp_offset.setWidth 64 ∧
      ∀ v, AppliedTls st (tlsEnd env st.tls_segment) q v ↔ v = disp + disp := by
  obtain ⟨q, hq, h1, h2, _, h3, h4, h5, h6⟩ := C66_tls_partial env st st' hd hok hnew h s hs hx hp hw steps hc step hstep
    base index scale disp acc hb hop hone hloc
  have hv : TLS.virt_addr y.address = tlsEnd env st.tls_segment + disp := by
    rw [hya]; exact TLS.virt_trans _ true hreg
  refine ⟨q, hq, h1, fun v => ⟨fun hv' => ?_, fun hv' => ?_⟩⟩
  · cases hv' with
    | tpoff y' _ _ _ e4 =>
      rw [e4, h2, ← hya, hv, h3]
      grind
  · have : v = TLS.virt_addr y.address + q.addend - tlsEnd env st.tls_segment := by
      rw [hv, h3, hv']
      grind
    rw [this]
    refine .tpoff y ?_ hy (h6 y hy (by rw [hya, h2])).symm (by rw [hya, h2])
    rcases hz with hz | hz
    · exact Or.inl (h4 hz)
    · exact Or.inr (h5 hz)

/-- Reads a thread-local variable. -/
def rexTls : AState where
  sections := [rexText [0x64, 0xfc, 0xff, 0xff, 0xff, 0xc3], { rexData ".tdata" with tls := true }]
  tls_segment := some { type := .tls, offset := 0x2000, virt_addr := 0x2000, size := 8, virt_size := 8 }
  symbols := [rexSym 0x1000 "main", rexSym (TLS.trans_addr 0x2004 true) "x"]

/-- The function after the reconstruction. -/
def rexTlsMain : Symbol := rexDone (rexSym 0x1000 "main") 6 (rexText [0x64, 0xfc, 0xff, 0xff, 0xff, 0xc3])
  [rexRel 0x1001 R_X86_64_TPOFF32 "x" (-4) (TLS.trans_addr 0x2004 true) 0x01]

theorem rexTls_ok : reconstruct rexEnv rexTls = .ok { rexTls with symbols :=
    [rexTlsMain, rexDone (rexSym (TLS.trans_addr 0x2004 true) "x") 4 (rexData ".tdata") []] } := by
  exact ok_of_decide (by decide +kernel)

theorem rexTls_code : CodeOf rexEnv rexTls rexTlsMain (disasm rexEnv 0x1000 [0x64, 0xfc, 0xff, 0xff, 0xff, 0xc3]) :=
  ⟨rexText [0x64, 0xfc, 0xff, 0xff, 0xff, 0xc3], _, by decide +kernel, by rfl, rfl⟩

/-- The load. -/
def rexTlsStep : Step where
  insn := rexLoad 0x1000 X86_REG_FS 0 (-4)
  address := 0x1005
  rest := [0xc3]

theorem rexTls_single : ∀ op' ∈ rexTlsStep.insn.ops, ∀ o z t,
    RefersTo (tlsEnd rexEnv rexTls.tls_segment) (rexEnv.kind rexTlsStep.insn.id) rexTlsStep.insn op' o z t →
    op' = .mem X86_REG_FS 0 0 1 (-4) 1 := by
  intro op' hop' o z t hr
  rcases List.mem_cons.mp hop' with rfl | hop'
  · rcases hr with hr | hr <;> cases hr
  · exact List.mem_singleton.mp hop'

theorem rexTlsMain_plt : ¬ PltSym rexTlsMain := by
  rw [PltSym, ← hasPrefix_iff]
  decide +kernel

/-- C66: the distance -4 becomes -8. -/
theorem C66_counterexample : ∃ q ∈ rexTlsMain.rels, q.offset = 0x1001 ∧ q.target = TLS.trans_addr 0x2004 true ∧
    ∀ v, AppliedTls rexTls 0x2008 q v ↔ v = -8 := by
  obtain ⟨q, h1, h2, h3⟩ := C66_doubled rexEnv rexTls _ rexEnv_sane (by decide) (by decide) rexTls_ok rexTlsMain
    (by decide) rfl rexTlsMain_plt (by decide) _ rexTls_code rexTlsStep (by decide +kernel) 0 0 1 (-4) 1 (by decide)
    (by decide) (fun op h => rexTls_single op h _) (by decide) (by decide) (by decide) (rexSym (TLS.trans_addr 0x2004 true) "x") (by decide)
    (by decide)
  refine ⟨q, h1, h2, ?_, h3⟩
  cases List.mem_singleton.mp h1
  rfl

example : ∃ q ∈ rexTlsMain.rels, q.type = R_X86_64_TPOFF32 := by
  obtain ⟨q, h1, _, _, _, _, h2, _⟩ := C66_tls_partial rexEnv rexTls _ rexEnv_sane (by decide) (by decide) rexTls_ok rexTlsMain
    (by decide) rfl rexTlsMain_plt (by decide) _ rexTls_code rexTlsStep (by decide +kernel) 0 0 1 (-4) 1 (by decide)
    (by decide) (fun op h => rexTls_single op h _) (by decide)
  exact ⟨q, h1, h2 rfl⟩

end Bean

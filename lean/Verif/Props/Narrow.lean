import Verif.Spec.Narrow
import Verif.Props.Files
import Verif.Props.Targets
import Verif.Props.FileRecon
import Verif.Props.Stubs
import Verif.Model.Diff
import Verif.Props.Header
import Verif.Props.FileData
/-
C125: what the analysis finds out about 32-bit files.
-/
namespace Bean.Props
open Bean Spec Tree

theorem disasmN_ops {env : Env} {P : Insn → Prop} (h : ∀ a bytes i, env.decode a bytes = some i → P i) (n : Nat) (a : Addr) (bytes : List (BitVec 8)) :
    ∀ x ∈ disasmN env n a bytes, P x.insn := by
  induction n generalizing a bytes with
  | zero => intro x hx; cases hx
  | succ n ih =>
    intro x hx
    unfold disasmN at hx
    split at hx
    · cases hx
    · next i hi =>
      split at hx
      · rcases List.mem_cons.mp hx with rfl | hx
        · exact h _ _ _ hi
        · exact ih _ _ x hx
      · cases hx

theorem foldlM_each {α σ : Type} {f : σ → α → M σ} {l : List α} {s r : σ} (h : l.foldlM f s = .ok r) {x : α} (hx : x ∈ l) :
    ∃ a b, f a x = .ok b := by
  induction l generalizing s with
  | nil => cases hx
  | cons y l ih =>
    rw [List.foldlM_cons] at h
    cases hy : f s y with
    | error e => rw [hy] at h; cases h
    | ok z =>
      rw [hy] at h
      rcases List.mem_cons.mp hx with rfl | hx
      · exact ⟨s, z, hy⟩
      · exact ih h hx

/-- **C125**, as far as it holds: a function of a 32-bit file refers to the targets of its branches outside of it, and the references are nothing but these,
thread-local variables with the segment register `fs`, the targets of its relocations, and the following symbol. Missing for the full property: data that
the instructions access (see `C125_unseen_counterexample`) and thread-local variables with `gs`, the register used on 32-bit systems. -/
theorem C125_references_partial (env : Env) (hn : Narrow env) (fl : AnalyzeFlags) (elf : Elf) (dbgsym : Option Elf) (r : AState)
    (h : analyze env fl elf dbgsym = .ok r) (s : Symbol) (hs : s ∈ r.symbols) (hx : s.sec.executable = true)
    (hf : s.address.toNat + s.size.toNat < 2 ^ 64) (htls : TLS.is_tls s.address = false)
    (bytes : List (BitVec 8)) (hb : ContentOf elf s bytes) (t : Addr) (ht : t ≠ 0) :
    ((∃ x a, Relevant env (disasm env s.address bytes) x ∧ Branching (env.kind x.insn.id) ∧ Operand.imm t a ∈ x.insn.ops ∧ ¬ InSym (fileCtx env elf s) t) →
      t ∈ s.refs) ∧
    (t ∈ s.refs →
      (∃ x a, Relevant env (disasm env s.address bytes) x ∧ Branching (env.kind x.insn.id) ∧ Operand.imm t a ∈ x.insn.ops ∧ ¬ InSym (fileCtx env elf s) t) ∨
      (∃ x, Relevant env (disasm env s.address bytes) x ∧ ∃ op ∈ x.insn.ops, TlsTarget (fileCtx env elf s) op t) ∨
      (∃ rel ∈ s.rels, rel.target = t) ∨
      (Continues env (fileCtx env elf s) (disasm env s.address bytes) ∧ s.address.toNat + s.size.toNat ≤ t.toNat ∧
        ∀ z ∈ r.symbols, s.address.toNat + s.size.toNat ≤ z.address.toNat → t.toNat ≤ z.address.toNat)) := by
  obtain ⟨h1, h2, _⟩ := C35_files_partial env fl elf dbgsym r h s hs hx hf htls bytes hb t ht
  have hrip : ∀ x, Relevant env (disasm env s.address bytes) x → ∀ segment index scale disp access,
      Operand.mem segment X86_REG_RIP index scale disp access ∉ x.insn.ops := by
    intro x hx
    obtain ⟨_, pre, post, e, _⟩ := hx
    exact disasmN_ops hn.mode _ _ _ x (by unfold disasm at e; rw [e]; simp)
  constructor
  · rintro ⟨x, a, hx, hk, hop, ho⟩
    exact h1 (Or.inl ⟨x, hx, _, hop, Or.inl (.branch t a hk ho)⟩)
  · intro hr
    rcases h2 hr with ⟨x, hx, op, hop, hto | hto⟩ | hq | hc
    · cases hto with
      | branch v a hk ho => exact Or.inl ⟨x, a, hx, hk, hop, ho⟩
      | rip segment index scale disp access _ => exact absurd hop (hrip x hx _ _ _ _ _)
    · exact Or.inr (Or.inl ⟨x, hx, op, hop, hto⟩)
    · exact Or.inr (Or.inr (Or.inl hq))
    · exact Or.inr (Or.inr (Or.inr hc))

/-- **C125**: in 32-bit files for 386 and 486 the target of the relocations within code and data is the addend for `R_386_RELATIVE` (number 8), otherwise it is the
value of the relocation, if these are determined at all. -/
theorem C125_pointers (env : Env) (hb : env.build = .debug) (cap : Capstone) (fl : AnalyzeFlags) (file : Binary) (dbg : Option Binary) (t : SymTree)
    (h : construct env cap fl file dbg = .ok t) (hc : file.header.ident_class = 1)
    (hm : file.header.machine = .i386 ∨ file.header.machine = .i486) (hrec : fl.reconstruct = false) (s : Symbol) (hs : s ∈ t)
    (hi : s.sec.executable = true ∨ (s.sec.executable = false ∧ Filled file.elf s)) (htls : TLS.is_tls s.address = false)
    (hw : s.address.toNat + s.size.toNat < 2 ^ 64) (sec : ElfSec) (hsec : SectionOf file.elf s.address sec) (e : ElfRel)
    (he : FirstAt (allRelocations file.elf (dbg.map (·.elf))) e) (hr : InRange s e.offset) (hd : ¬ Imports e) :
    ∃ q ∈ s.rels, q.offset = e.offset ∧ q.type = e.type ∧ q.target =
      if e.type = 8 then e.addend else if fl.resolve_internal then env.reloc_value e (gotAddress file.elf) else 0 := by
  obtain ⟨_, r, ha, rfl⟩ := (C122_assertions env hb cap fl file dbg (hm.imp id Or.inl) t).mp h
  have harch : (envFor env file.header).arch = .i386 := by
    show archOf file.header = .i386
    unfold archOf
    rcases hm with hm | hm <;> rw [hc, hm] <;> rfl
  obtain ⟨q, hq, fr⟩ := (C65_files_partial (envFor env file.header) fl file.elf (dbg.map (·.elf)) r hrec ha s hs hi htls hw sec hsec).1 e he hr
  refine ⟨q, hq, fr.offset, fr.type, ?_⟩
  by_cases h8 : e.type = 8
  · rw [if_pos h8]
    exact fr.relative hd (Or.inl ⟨h8, Or.inr harch⟩)
  · rw [if_neg h8]
    refine fr.resolved hd ?_
    rintro (⟨h, _⟩ | ⟨_, h⟩)
    · exact h8 h
    · rw [harch] at h; cases h

theorem findGroup_jump {st : AState} {x : Step} {f g : FindState} {gs : List InsGroup}
    (h : gs.foldlM (findGroup .debug st true x.insn x.address) f = .ok g) (hj : InsGroup.jump ∈ gs) :
    ∃ segment index scale disp access, x.insn.ops = [.mem segment X86_REG_RIP index scale disp access] := by
  obtain ⟨a, b, hab⟩ := foldlM_each h hj
  change nameImport .debug st x.insn x.address a = .ok b at hab
  unfold nameImport at hab
  obtain ⟨h1, h2⟩ := massert_bind_ok hab
  have h1 := h1 rfl
  split at h2
  · next segment base index scale disp access l e =>
    obtain ⟨h3, _⟩ := massert_bind_ok h2
    have h3 : base = X86_REG_RIP := eq_of_beq (h3 rfl)
    rw [e] at h1 ⊢
    have : l = [] := by
      cases l with
      | nil => rfl
      | cons _ _ => simp at h1
    exact ⟨segment, index, scale, disp, access, by rw [this, h3]⟩
  · obtain ⟨h3, _⟩ := massert_bind_ok h2
    cases h3 rfl

/-- In builds with assertions a file has a result only if each jump in the sections whose functions get the names of imported ones goes through a memory
location relative to the instruction pointer. -/
theorem jumps_relative (env : Env) (hb : env.build = .debug) (fl : AnalyzeFlags) (hfl : fl.hash_attributes = true) (elf : Elf) (dbgsym : Option Elf) (r : AState)
    (h : analyze env fl elf dbgsym = .ok r) (hd : DistinctSections elf) (sec : ElfSec) (hl : Loaded elf sec) (hx : sec.executable = true)
    (hn : hasPrefix ".plt." (some sec.name) = true) (x : Step) (hm : x ∈ disasm env sec.virt_addr (sec.data.take sec.size.toNat))
    (hk : env.kind x.insn.id ≠ .nop) (hj : InsGroup.jump ∈ x.insn.groups) :
    ∃ segment index scale disp access, x.insn.ops = [.mem segment X86_REG_RIP index scale disp access] := by
  unfold analyze at h
  cases hga : gather env fl elf dbgsym with
  | error e => rw [hga] at h; cases h
  | ok st =>
    obtain ⟨st0, t, hg⟩ := gather_ok hga
    have hsecs : st0.sections = Tree.ofList (loadedSections elf.sections) := by
      have := hg.sections
      rw [hg.result] at this
      exact this
    have hsec : sec ∈ st0.sections := by
      rw [hsecs]
      obtain ⟨y, y1, y2⟩ := ofList_key (mem_loadedSections.mpr hl)
      have : y = sec := hd y sec (mem_loadedSections.mp (mem_ofList y1)) hl (congrArg BitVec.toNat y2)
      rw [← this]
      exact y1
    have hf := hg.found
    unfold findFunctions at hf
    cases hs : st0.sections.foldlM (findSection env fl st0) st0.symbols with
    | error e => rw [hs] at hf; cases hf
    | ok t' =>
      obtain ⟨a, b, hab⟩ := foldlM_each hs hsec
      unfold findSection at hab
      cases h1 : insertSymbol env.build a (plainArgs sec (TLS.trans_addr sec.virt_addr sec.tls)) with
      | error e => rw [h1] at hab; cases hab
      | ok a1 =>
        simp only [h1, bind, Except.bind, if_pos hx] at hab
        cases h2 : readBytes sec.data 0 sec.size with
        | error e => rw [h2] at hab; cases hab
        | ok bytes =>
          simp only [h2] at hab
          have eb : bytes = sec.data.take sec.size.toNat := (readBytes_slice h2).2
          have ep : namesPlt fl sec = true := by unfold namesPlt; rw [hfl, hn]; rfl
          rw [eb, ep] at hab
          cases h3 : (disasm env sec.virt_addr (sec.data.take sec.size.toNat)).foldlM (findInsn env st0 sec true)
              { symbols := a1, start := sec.virt_addr, max_branch := sec.virt_addr } with
          | error e => rw [h3] at hab; cases hab
          | ok f =>
            obtain ⟨f1, f2, hi⟩ := foldlM_each h3 hm
            unfold findInsn at hi
            rw [if_neg hk] at hi
            cases h4 : findStart env sec x.insn f1 with
            | error e => rw [h4] at hi; cases hi
            | ok f3 =>
              rw [h4, hb] at hi
              exact findGroup_jump hi hj

/-- **C125** is false for files with a table of jumps to imported functions (e.g. `.plt.got`): with attributes as part of the identifiers and with assertions,
the analysis of no 32-bit file with a jump in such a section comes to an end. -/
theorem C125_plt_counterexample (env : Env) (hn : Narrow env) (hb : env.build = .debug) (fl : AnalyzeFlags) (hfl : fl.hash_attributes = true) (elf : Elf)
    (dbgsym : Option Elf) (hd : DistinctSections elf) (sec : ElfSec) (hl : Loaded elf sec) (hx : sec.executable = true)
    (hp : hasPrefix ".plt." (some sec.name) = true) (x : Step) (hm : x ∈ disasm env sec.virt_addr (sec.data.take sec.size.toNat))
    (hk : env.kind x.insn.id ≠ .nop) (hj : InsGroup.jump ∈ x.insn.groups) (r : AState) : analyze env fl elf dbgsym ≠ .ok r := by
  intro h
  obtain ⟨segment, index, scale, disp, access, e⟩ := jumps_relative env hb fl hfl elf dbgsym r h hd sec hl hx hp x hm hk hj
  exact disasmN_ops hn.mode _ _ _ x hm segment index scale disp access (by rw [e]; exact List.mem_cons_self)

theorem readRelocation_kept {b : Build} {x y : AState} {rel : ElfRel} (h : readRelocation b x rel = .ok y) : y.sections = x.sections := by
  rw [(readRelocation_grown h).1.1]

theorem relocation_place {x y : AState} {l : List ElfRel} (h : l.foldlM (readRelocation .debug) x = .ok y) (rel : ElfRel) (hr : rel ∈ l)
    (ht : rel.type = R_X86_64_IRELATIVE) : ∃ sec, Tree.floor x.sections rel.addend = some sec ∧ sec.executable = true := by
  induction l generalizing x with
  | nil => cases hr
  | cons z l ih =>
    rw [List.foldlM_cons] at h
    cases hz : readRelocation .debug x z with
    | error e => rw [hz] at h; cases h
    | ok w =>
      rw [hz] at h
      rcases List.mem_cons.mp hr with rfl | hr
      · unfold readRelocation at hz
        rw [if_pos (Or.inr (Or.inr ht))] at hz
        cases hf : mderef .debug (Tree.floor x.sections rel.addend) with
        | error e => rw [hf] at hz; cases hz
        | ok sec =>
          rw [hf] at hz
          obtain ⟨h1, _⟩ := massert_bind_ok hz
          have h1 := h1 rfl
          rw [ht] at h1
          exact ⟨sec, mderef_some hf, by simpa using h1⟩
      · obtain ⟨sec, h1, h2⟩ := ih h hr
        exact ⟨sec, readRelocation_kept hz ▸ h1, h2⟩

/-- **C125** is false for files with relocations `R_386_TLS_TPOFF32`: their number is taken for the one of the indirect relocations for x86-64. With assertions,
the analysis of no file with such a relocation comes to an end unless its addend (an offset in the thread-local memory) lies in or behind an executable section. -/
theorem C125_tls_counterexample (env : Env) (hb : env.build = .debug) (fl : AnalyzeFlags) (elf : Elf) (dbgsym : Option Elf) (hd : DistinctSections elf)
    (rel : ElfRel) (hr : FirstAt (allRelocations elf dbgsym) rel) (ht : rel.type = R_386_TLS_TPOFF32)
    (hs : ∀ sec, SectionOf elf rel.addend sec → sec.executable = false) (r : AState) : analyze env fl elf dbgsym ≠ .ok r := by
  intro h
  obtain ⟨st, s1, s2, s3, f⟩ := stages h
  obtain ⟨x, y, t, _, htg, e1, e2, _⟩ := gather_targets f.file
  have part := gather_part f.file
  have esec : x.sections = Tree.ofList (loadedSections elf.sections) := by
    rw [e2, ← f.sections]
    have : s1.sections = st.sections := by rw [f.run.same1]
    rw [← this, f.same1]
  unfold readTargets at htg
  cases h1 : x.relocations.foldlM (readRelocation env.build) x with
  | error e => rw [h1] at htg; cases htg
  | ok w =>
    rw [hb] at h1
    obtain ⟨sec, k1, k2⟩ := relocation_place h1 rel (by
      rw [show x.relocations = _ from congrArg FilePart.relocations (e1.trans part)]
      exact firstAt_iff.mp hr) ht
    rw [esec] at k1
    rw [hs sec (floor_section hd k1)] at k2
    cases k2

/-! ### Examples -/

/-- Decoder of a few instructions in the 32-bit mode. -/
def narDecode (a : Addr) : List (BitVec 8) → Option Insn
  | 0xc3#8 :: _ => some { address := a, size := 1, id := 2, opcode := [0xc3], groups := [.ret] }
  | 0xe8#8 :: d :: _ => some (exBranch a 4 0xe8 d .call)
  | 0xa1#8 :: d0 :: d1 :: d2 :: d3 :: _ =>
    some { address := a, size := 5, id := 7, opcode := [0xa1], ops := [.reg 19, .mem 0 0 0 1 (leValue [d0, d1, d2, d3]) 1] }
  | 0xff#8 :: 0xa3#8 :: d0 :: d1 :: d2 :: d3 :: _ =>
    some { address := a, size := 6, id := 5, opcode := [0xff], groups := [.jump], ops := [.mem 0 21 0 1 (leValue [d0, d1, d2, d3]) 1] }
  | _ => none

def narEnv : Env := { exEnv with arch := .i386, decode := narDecode, reloc_size := fun t => if t = 0 then 0 else 4 }

theorem nar_narrow : Narrow narEnv := by
  refine ⟨rfl, fun a bytes i h segment index scale disp access hm => ?_⟩
  change narDecode a bytes = some i at h
  unfold narDecode at h
  split at h
  all_goals first | (cases h; done) | (cases h; simp [exBranch, X86_REG_RIP] at hm)

/-- A call and a function that reads a constant. -/
def narText : ElfSec := rexText [0xe8, 0x01, 0xc3, 0xa1, 0x00, 0x20, 0x00, 0x00, 0xc3]

/-- Three words. -/
def narConst (v : BitVec 8) : ElfSec where
  name := ".rodata"
  virt_addr := 0x2000
  size := 12
  data := [v, 0x10, 0, 0, 0x00, 0x10, 0, 0, 0, 0, 0, 0]

def narLoadConst : ElfSeg where
  type := .load
  offset := 0x200
  virt_addr := 0x2000
  size := 12
  virt_size := 12

/-- A file for the value of the first word and further sections. -/
def narElf (v : BitVec 8) (more : List ElfSec) : Elf where
  entry := 0x1000
  segments := [rexLoadText 9, narLoadConst]
  sections := [runTable [], narText, narConst v] ++ more ++
    [runTable [imgFunc 0x1000 3 "main" .global, imgFunc 0x1003 6 "f" .local, imgVar 0x2000 12 "c" 2]]

theorem nar_loaded {v : BitVec 8} {rels : List ElfRel} {sec : ElfSec} (h : Loaded (narElf v [pltRela rels]) sec) : sec = narText ∨ sec = narConst v := by
  obtain ⟨h1, h2, _⟩ := h
  simp only [narElf, List.cons_append, List.nil_append, List.mem_cons, List.not_mem_nil, or_false] at h1
  rcases h1 with rfl | rfl | rfl | rfl | rfl
  · cases h2
  · exact Or.inl rfl
  · exact Or.inr rfl
  · cases h2
  · cases h2

theorem nar_section (v : BitVec 8) (rels : List ElfRel) : SectionOf (narElf v [pltRela rels]) 0x1000 narText := by
  refine ⟨⟨by simp [narElf], rfl, by decide⟩, by decide, fun sec h hle => ?_⟩
  rcases nar_loaded h with rfl | rfl
  · exact Or.inl rfl
  · exact absurd hle (show ¬ (secStart (narConst 0)).toNat ≤ (0x1000 : Addr).toNat by decide)

/-- The call of the first function. -/
example : ∃ r, analyze narEnv {} (narElf 0 [pltRela []]) none = .ok r ∧ ∃ s ∈ r.symbols, s.address = 0x1000 ∧ (0x1003 : Addr) ∈ s.refs := by
  obtain ⟨r, h, hp⟩ := ok_such (m := analyze narEnv {} (narElf 0 [pltRela []]) none)
    (P := fun r => r.symbols.any (fun s => decide (s.address = 0x1000 ∧ s.size = 3 ∧ s.sec.executable = true))) (by decide +kernel)
  rw [List.any_eq_true] at hp
  obtain ⟨s, hs, e⟩ := hp
  obtain ⟨e1, e2, e3⟩ := of_decide_eq_true e
  refine ⟨r, h, s, hs, e1, ?_⟩
  refine (C125_references_partial narEnv nar_narrow {} (narElf 0 [pltRela []]) none r h s hs e3 (by rw [e1, e2]; decide) (by rw [e1]; decide)
    [0xe8, 0x01, 0xc3] ?_ 0x1003 (by decide)).1 ?_
  · refine ⟨narText, by rw [e1]; exact nar_section 0 [], ?_, ?_⟩
    · rw [e1, e2]; decide
    · rw [e1, e2]; decide
  · rw [e1]
    refine ⟨_, 0, ⟨?_, [], _, rfl, by simp⟩, ?_, List.mem_cons_self, ?_⟩
    · decide
    · decide
    · unfold InSym
      show ¬ (s.address.toNat ≤ (0x1003 : Addr).toNat ∧ (0x1003 : Addr).toNat < s.address.toNat + s.size.toNat)
      rw [e1, e2]
      decide

/-- A pointer to the first function in the constant. -/
example : ∃ t, construct narEnv {} {} ⟨{ ident_class := 1, machine := .i486 }, narElf 0 [pltRela [⟨0x2004, 8, 0x1000, none⟩]]⟩ none = .ok t ∧
    ∃ s ∈ t, s.address = 0x2000 ∧ ∃ q ∈ s.rels, q.offset = 0x2004 ∧ q.target = 0x1000 := by
  obtain ⟨t, h, hp⟩ := ok_such (m := construct narEnv {} {} ⟨{ ident_class := 1, machine := .i486 }, narElf 0 [pltRela [⟨0x2004, 8, 0x1000, none⟩]]⟩ none)
    (P := fun t => t.any (fun s => decide (s.address = 0x2000 ∧ s.size = 12 ∧ s.sec.executable = false))) (by decide +kernel)
  rw [List.any_eq_true] at hp
  obtain ⟨s, hs, e⟩ := hp
  obtain ⟨e1, e2, e3⟩ := of_decide_eq_true e
  have hsec : SectionOf (narElf 0 [pltRela [⟨0x2004, 8, 0x1000, none⟩]]) s.address (narConst 0) := by
    rw [e1]
    refine ⟨⟨by simp [narElf], rfl, by decide⟩, by decide, fun sec h hle => ?_⟩
    rcases nar_loaded h with rfl | rfl
    · exact Or.inr (by decide)
    · exact Or.inl rfl
  obtain ⟨q, hq, h1, _, h2⟩ := C125_pointers narEnv rfl {} {} _ none t h rfl (Or.inr rfl) rfl s hs (Or.inr ⟨e3, narConst 0, hsec, by decide, fun h => (by cases h), fun _ =>
      ⟨⟨by decide, by decide, by decide⟩, narLoadConst, by decide, by rw [e1]; unfold Backed; decide⟩⟩) (by rw [e1]; decide)
    (by rw [e1, e2]; decide) (narConst 0) hsec ⟨0x2004, 8, 0x1000, none⟩ ⟨[], [], rfl, fun _ h => by cases h⟩
    (by unfold InRange; rw [e1, e2]; decide) (fun ⟨_, h, _⟩ => by cases h)
  exact ⟨t, h, s, hs, e1, q, hq, h1, h2⟩

/-- **C125** is false for data: in both files `f` reads the word at the start of the constant `c`, which differs. The function has the same identifiers and no
references, and the difference (with everything that depends on changes) consists of the constant only. -/
theorem C125_unseen_counterexample : ∃ r r', analyze narEnv {} (narElf 0 [pltRela []]) none = .ok r ∧ analyze narEnv {} (narElf 1 [pltRela []]) none = .ok r' ∧
    (∃ x ∈ disasm narEnv 0x1003 [0xa1, 0x00, 0x20, 0x00, 0x00, 0xc3], Operand.mem 0 0 0 1 0x2000 1 ∈ x.insn.ops) ∧
    (∃ s ∈ r.symbols, s ∈ r'.symbols ∧ s.name = some "f" ∧ s.refs = []) ∧
    ∃ d, diff .debug (fun x => x.setWidth 32) r'.symbols r.symbols true 0 = .ok d ∧ d.map (·.name) = [some "c"] := by
  obtain ⟨r, h, p⟩ := ok_such (m := analyze narEnv {} (narElf 0 [pltRela []]) none)
    (P := fun r => match analyze narEnv {} (narElf 1 [pltRela []]) none with
      | .ok r' => r.symbols.any (fun s => r'.symbols.contains s && decide (s.name = some "f" ∧ s.refs = [])) &&
        (match diff .debug (fun x => x.setWidth 32) r'.symbols r.symbols true 0 with
          | .ok d => decide (d.map (·.name) = [some "c"])
          | .error _ => false)
      | .error _ => false) (by decide +kernel)
  cases h' : analyze narEnv {} (narElf 1 [pltRela []]) none with
  | error e => rw [h'] at p; cases p
  | ok r' =>
    rw [h'] at p
    simp only [Bool.and_eq_true, List.any_eq_true, List.contains_iff_mem, decide_eq_true_eq] at p
    obtain ⟨⟨s, hs, hs', hn⟩, hd⟩ := p
    refine ⟨r, r', h, rfl, ⟨_, List.mem_cons_self, by decide⟩, ⟨s, hs, hs', hn⟩, ?_⟩
    split at hd
    · next d e => exact ⟨d, e, of_decide_eq_true hd⟩
    · cases hd

/-- The same program for x86-64, where the constant is read relative to the instruction pointer: `f` differs as well. -/
def wideElf (v : BitVec 8) : Elf where
  entry := 0x1000
  segments := [rexLoadText 9, { narLoadConst with virt_addr := 0x1010 }]
  sections := [runTable [], rexText [0xe8, 0x01, 0xc3, 0x8b, 0x0b, 0xc3], { narConst v with virt_addr := 0x1010 },
    runTable [imgFunc 0x1000 3 "main" .global, imgFunc 0x1003 3 "f" .local, imgVar 0x1010 12 "c" 2]]

example : (match analyze exEnv {} (wideElf 0) none, analyze exEnv {} (wideElf 1) none with
    | .ok r, .ok r' => (match diff .debug (fun x => x.setWidth 32) r'.symbols r.symbols true 0 with
      | .ok d => d.map (·.name)
      | .error _ => [])
    | _, _ => []) = [some "main", some "f", some "c"] := by decide +kernel

/-- A table with a jump through a slot of the table of addresses (`jmp *0xc(%ebx)`). -/
def narPlt : Elf where
  entry := 0x1000
  segments := [rexLoadText 6]
  sections := [runTable [], { rexText [0xff, 0xa3, 0x0c, 0x00, 0x00, 0x00] with name := ".plt.got" }]

theorem narPlt_loaded {sec : ElfSec} (h : Loaded narPlt sec) : sec = { rexText [0xff, 0xa3, 0x0c, 0x00, 0x00, 0x00] with name := ".plt.got" } := by
  obtain ⟨h1, h2, _⟩ := h
  simp only [narPlt, List.mem_cons, List.not_mem_nil, or_false] at h1
  rcases h1 with rfl | rfl
  · cases h2
  · rfl

example (r : AState) : analyze narEnv { hash_attributes := true } narPlt none ≠ .ok r := by
  refine C125_plt_counterexample narEnv nar_narrow rfl { hash_attributes := true } rfl narPlt none ?_
    { rexText [0xff, 0xa3, 0x0c, 0x00, 0x00, 0x00] with name := ".plt.got" } ⟨by simp [narPlt], rfl, by decide⟩ rfl (by decide +kernel) _
    List.mem_cons_self (by decide) (by decide) r
  intro a b ha hb _
  rw [narPlt_loaded ha, narPlt_loaded hb]

/-- A relocation with the offset of a thread-local variable. -/
def tpoffRel : ElfRel where
  offset := 0x2008
  type := R_386_TLS_TPOFF32
  addend := 4

example (r : AState) : analyze narEnv {} (narElf 0 [pltRela [tpoffRel]]) none ≠ .ok r := by
  refine C125_tls_counterexample narEnv rfl {} (narElf 0 [pltRela [tpoffRel]]) none ?_ tpoffRel ⟨[], [], rfl, fun _ h => by cases h⟩ rfl ?_ r
  · intro a b ha hb hk
    rcases nar_loaded ha with rfl | rfl <;> rcases nar_loaded hb with rfl | rfl
    · rfl
    · exact absurd hk (by decide)
    · exact absurd hk (by decide)
    · rfl
  · intro sec hs
    rcases nar_loaded hs.loaded with rfl | rfl
    · exact absurd hs.start (by decide)
    · rfl

/-- The packed relocations. -/
def narRelr (l : List Addr) : ElfSec := { tgtRelr with relative := l }

/-- **C125** is false for packed relocations: eight bytes are read for each pointer. A pointer in front of another one leads to an address beyond the memory of
32-bit systems, and with assertions there is no result. -/
theorem C125_packed_counterexample : (∀ r, analyze narEnv {} (narElf 0 [narRelr [0x2000, 0x2004]]) none ≠ .ok r) ∧
    (match gather narEnv {} (narElf 0 [narRelr [0x2000, 0x2004]]) none with
      | .ok st => decide (∃ s ∈ st.symbols, s.address = 0x100000001000)
      | .error _ => false) = true := by
  refine ⟨fun r h => ?_, by decide +kernel⟩
  have : (match analyze narEnv {} (narElf 0 [narRelr [0x2000, 0x2004]]) none with
    | .ok _ => true
    | .error _ => false) = false := by decide +kernel
  rw [h] at this
  cases this

/-- A pointer in front of zeros is read correctly. -/
example : ∃ r, analyze narEnv {} (narElf 0 [narRelr [0x2004]]) none = .ok r ∧
    decide (∃ s ∈ r.symbols, s.name = some "c" ∧ s.rels.map (·.target) = [0x1000]) = true := by
  exact ok_such (by decide +kernel)

/-- A relocation for a function that is chosen by the one at the addend. -/
def indirectRel (type : BitVec 64) : ElfRel where
  offset := 0x2008
  type := type
  addend := 0x1008

/-- **C125** is false for indirect relocations of 386: the function at the addend has no symbol (the same relocation with its number for x86-64 leads to one). -/
theorem C125_indirect_counterexample :
    (∃ r, analyze narEnv { keep_unused := true } (narElf 0 [pltRela [indirectRel R_386_IRELATIVE]]) none = .ok r ∧
      decide (∀ s ∈ r.symbols, s.address ≠ 0x1008) = true) ∧
    ∃ r, analyze narEnv { keep_unused := true } (narElf 0 [pltRela [indirectRel R_X86_64_IRELATIVE]]) none = .ok r ∧
      decide (∃ s ∈ r.symbols, s.address = 0x1008) = true := by
  exact ⟨ok_such (by decide +kernel), ok_such (by decide +kernel)⟩

end Bean.Props

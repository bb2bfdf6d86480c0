import Verif.Lemmas.ReconFinal
import Verif.Props.Targets
/-
C43 to C45, C66, C67 for results of the complete analysis, in terms of the files.
-/
namespace Bean
open Tree Spec Props

/-- A function of the result and its state after the reconstruction. -/
structure ReconOf (env : Env) (fl : AnalyzeFlags) (elf : Elf) (dbgsym : Option Elf) (r : AState) (s : Symbol)
    (st s1 : AState) (s' : Symbol) : Prop where
  stages : ∃ s2 s3, Stages env fl elf dbgsym st s1 s2 s3 r
  done : reconstruct env st = .ok s1
  okFirst : SymsOK st.symbols
  new : ∀ s ∈ st.symbols, s.rels = []
  sections : st.sections = Tree.ofList (loadedSections elf.sections)
  relocations : st.relocations = Tree.ofList (allRelocations elf dbgsym)
  tls : st.tls_segment = tlsSegment elf
  mem : s' ∈ s1.symbols
  address : s'.address = s.address
  size : s'.size = s.size
  sec : s'.sec = s.sec
  rels : ∀ q, q ∈ s'.rels ↔ q ∈ s.rels ∧ q.reconstructed = true
  code : ∀ bytes, ContentOf elf s bytes → CodeOf env st s' (disasm env (TLS.virt_addr s.address) bytes)

theorem Stages.reconstructs {env : Env} {fl : AnalyzeFlags} {elf : Elf} {dbgsym : Option Elf} {st s1 s2 s3 r : AState}
    (f : Stages env fl elf dbgsym st s1 s2 s3 r) (hrec : fl.reconstruct = true) : reconstruct env st = .ok s1 := by
  rcases f.run.first with ⟨_, h⟩ | ⟨h, _⟩
  · exact h
  · rw [hrec] at h; cases h

theorem Stages.st_part {env : Env} {fl : AnalyzeFlags} {elf : Elf} {dbgsym : Option Elf} {st s1 s2 s3 r : AState}
    (f : Stages env fl elf dbgsym st s1 s2 s3 r) : filePart st = filePart r ∧ st.sections = r.sections := by
  obtain ⟨g, e⟩ := f.run.ids
  rw [e]
  exact ⟨rfl, rfl⟩

theorem recon_of {env : Env} {fl : AnalyzeFlags} {elf : Elf} {dbgsym : Option Elf} {r : AState}
    (h : analyze env fl elf dbgsym = .ok r) (hrec : fl.reconstruct = true) {s : Symbol} (hs : s ∈ r.symbols)
    (hx : s.sec.executable = true) (hp : ¬ PltSym s) : ∃ st s1 s', ReconOf env fl elf dbgsym r s st s1 s' := by
  obtain ⟨st, s1, s2, s3, f⟩ := Bean.stages h
  have hr := f.reconstructs hrec
  obtain ⟨s', h1, h2, h3, h4, _, h6⟩ := recon_final f hr hs hp hx
  obtain ⟨p1, p2⟩ := f.st_part
  have hsec : st.sections = Tree.ofList (loadedSections elf.sections) := by rw [p2]; exact f.sections
  refine ⟨st, s1, s', ⟨s2, s3, f⟩, hr, f.okFirst, fun s hs => (f.fresh s hs).rels, hsec, ?_, ?_, h1, h2, h3, h4, h6, ?_⟩
  · exact (congrArg FilePart.relocations p1).trans (congrArg FilePart.relocations f.part)
  · exact (congrArg FilePart.tls p1).trans (congrArg FilePart.tls f.part)
  · rintro bytes ⟨sec, b1, b2, b3⟩
    refine ⟨sec, bytes, ?_, ?_, by rw [h2]⟩
    · rw [hsec, h2]; exact section_floor b1
    · rw [h2, h3]; exact readBytes_of b2 b3

theorem ReconOf.plt {env : Env} {fl : AnalyzeFlags} {elf : Elf} {dbgsym : Option Elf} {r st s1 : AState} {s s' : Symbol}
    (f : ReconOf env fl elf dbgsym r s st s1 s') (hp : ¬ PltSym s) : ¬ PltSym s' := by
  unfold PltSym at *
  rw [f.sec]
  exact hp

/-! ### C44, C67: the instruction -/

/-- No reference of the code leads to this address. -/
def NotReferred (env : Env) (elf : Elf) (steps : List Step) (a : Addr) : Prop :=
  ∀ x ∈ steps, ∀ op ∈ x.insn.ops, ∀ o z t,
    RefersTo (tlsEnd env (tlsSegment elf)) (env.kind x.insn.id) x.insn op o z t → t ≠ a

/-- C67 (partial): each reconstructed relocation of a function in the result of an analysis belongs to an operand of an
instruction of the function: its location is the one of the encoded distance, its target the address the operand refers to, the
start of the instruction and the access flags are right. Missing: relocations whose location is itself the target of a reference
of the function, see `C44_files_counterexample`. -/
theorem C67_files_partial (env : Env) (fl : AnalyzeFlags) (elf : Elf) (dbgsym : Option Elf) (r : AState)
    (hd : SaneDecoder env) (hrec : fl.reconstruct = true) (h : analyze env fl elf dbgsym = .ok r)
    (s : Symbol) (hs : s ∈ r.symbols) (hx : s.sec.executable = true) (hp : ¬ PltSym s) (ht : TLS.is_tls s.address = false)
    (hw : s.address.toNat + s.size.toNat < 2 ^ 64) (bytes : List (BitVec 8)) (hb : ContentOf elf s bytes)
    (q : Rel) (hq : q ∈ s.rels) (hqr : q.reconstructed = true)
    (hno : NotReferred env elf (disasm env s.address bytes) q.offset) :
    ∃ step ∈ disasm env s.address bytes, ∃ op ∈ step.insn.ops, ∃ offset size,
      RefersTo (tlsEnd env (tlsSegment elf)) (env.kind step.insn.id) step.insn op offset size q.target ∧
      q.offset = step.insn.address + offset.setWidth 64 ∧ Describes (env.kind step.insn.id) s step op q := by
  obtain ⟨st, s1, s', f⟩ := recon_of h hrec hs hx hp
  have hv := TLS.virt_of_regular ht
  have hc := f.code bytes hb
  rw [hv] at hc
  obtain ⟨step, h1, op, h2, offset, size, h3, h4, _, h5⟩ := rel_origin hd f.okFirst f.new f.done f.mem
    (by rw [f.sec]; exact hx) (f.plt hp) (by rw [f.address, f.size, hv]; exact hw) (by rw [f.address, f.size]; exact hw) hc
    ((f.rels q).mpr ⟨hq, hqr⟩)
  rw [f.tls] at h3 h5
  have d := h5 hno
  refine ⟨step, h1, op, h2, offset, size, h3, h4, d.start, d.reads, d.writes, d.branch, d.conditional, ?_⟩
  have := d.local
  rw [f.address, f.size] at this
  exact this

/-- C44 (partial): offset minus instruction offset of a reconstructed relocation is the start of an instruction of the function
that refers to the target of the relocation. Missing: as for C67. -/
theorem C44_files_partial (env : Env) (fl : AnalyzeFlags) (elf : Elf) (dbgsym : Option Elf) (r : AState)
    (hd : SaneDecoder env) (hrec : fl.reconstruct = true) (h : analyze env fl elf dbgsym = .ok r)
    (s : Symbol) (hs : s ∈ r.symbols) (hx : s.sec.executable = true) (hp : ¬ PltSym s) (ht : TLS.is_tls s.address = false)
    (hw : s.address.toNat + s.size.toNat < 2 ^ 64) (bytes : List (BitVec 8)) (hb : ContentOf elf s bytes)
    (q : Rel) (hq : q ∈ s.rels) (hqr : q.reconstructed = true)
    (hno : NotReferred env elf (disasm env s.address bytes) q.offset) :
    ∃ step ∈ disasm env s.address bytes, step.insn.address = q.offset - q.instruction_offset.setWidth 64 ∧
      ∃ op ∈ step.insn.ops, ∃ offset size,
        RefersTo (tlsEnd env (tlsSegment elf)) (env.kind step.insn.id) step.insn op offset size q.target := by
  obtain ⟨step, h1, op, h2, offset, size, h3, _, h4⟩ := C67_files_partial env fl elf dbgsym r hd hrec h s hs hx hp ht hw bytes hb q hq
    hqr hno
  exact ⟨step, h1, h4.start.symm, op, h2, offset, size, h3⟩

/-! ### C43: the encoded distance -/

/-- The name of the section at an address: the one of a symbol there, otherwise of the section of the file. -/
inductive SectionIn (elf : Elf) (symbols : List Symbol) (a : Addr) : String → Prop
  | symbol (y : Symbol) (n : String) : y ∈ symbols → y.address = a → y.sec.name = some n → SectionIn elf symbols a n
  | floor (sec : ElfSec) : (∀ y ∈ symbols, y.address ≠ a) → SectionOf elf a sec → SectionIn elf symbols a sec.name

/-- The address is in a section whose name starts like that. -/
def InNamed (elf : Elf) (symbols : List Symbol) (a : Addr) (pre : String) : Prop :=
  ∃ n, SectionIn elf symbols a n ∧ pre.toList.isPrefixOf n.toList = true

/-- The dynamic linker writes the address of an imported symbol to this location. -/
def ImportAt (elf : Elf) (dbgsym : Option Elf) (a : Addr) (name : Option String) : Prop :=
  ∃ rel, FirstAt (allRelocations elf dbgsym) rel ∧ rel.offset = a ∧ ∃ s, rel.symbol = some s ∧ s.shndx = .undef ∧ s.name = name

/-- The value a relocation stands for according to the ABI, as `Applied`, in terms of the files and the resulting symbols. -/
inductive AppliedIn (elf : Elf) (dbgsym : Option Elf) (symbols : List Symbol) (size : BitVec 8) (q : Rel) : BitVec 64 → Prop
  | plain (y : Symbol) : PlainPcType size q.type → y.name = q.name → ClosestTo symbols q.target y →
      AppliedIn elf dbgsym symbols size q (y.address + q.addend - q.offset)
  | plt (y : Symbol) : size = 4 → q.type = R_X86_64_PLT32 → InNamed elf symbols q.target ".plt" → y.name = q.name →
      ClosestTo symbols q.target y → AppliedIn elf dbgsym symbols size q (y.address + q.addend - q.offset)
  | got (slot : Addr) : size = 4 → q.type = R_X86_64_GOTPCREL → ImportAt elf dbgsym slot q.name →
      AppliedIn elf dbgsym symbols size q (slot + q.addend - q.offset)

/-- Loaded sections start at different addresses. -/
def DistinctSections (elf : Elf) : Prop :=
  ∀ sec sec', Loaded elf sec → Loaded elf sec' → (secStart sec).toNat = (secStart sec').toNat → sec = sec'

theorem floor_section {elf : Elf} (hd : DistinctSections elf) {a : Addr} {sec : ElfSec}
    (h : Tree.floor (Tree.ofList (loadedSections elf.sections)) a = some sec) : SectionOf elf a sec := by
  obtain ⟨h1, h2, h3⟩ := (floor_eq_some_iff (sorted_ofList _)).mp h
  have hl := mem_loadedSections.mp (mem_ofList h1)
  refine ⟨hl, BitVec.le_def.mp h2, fun sec' hl' hle => ?_⟩
  obtain ⟨y, hy, hyk⟩ := ofList_key (mem_loadedSections.mpr hl')
  have hyk' : secStart y = secStart sec' := hyk
  have hle2 : (secStart y).toNat ≤ (secStart sec).toNat := BitVec.le_def.mp (h3 y hy (BitVec.le_def.mpr (by
    show (secStart y).toNat ≤ _
    rw [hyk']; exact hle)))
  rw [hyk'] at hle2
  rcases Nat.lt_or_ge (secStart sec').toNat (secStart sec).toNat with hlt | hge
  · exact Or.inr hlt
  · exact Or.inl (hd _ _ hl' hl (Nat.le_antisymm hle2 hge))

/-- Symbols of the result have been there before the reconstruction. -/
theorem before_recon {env : Env} {fl : AnalyzeFlags} {elf : Elf} {dbgsym : Option Elf} {st s1 s2 s3 r : AState}
    (f : Stages env fl elf dbgsym st s1 s2 s3 r) (hr : reconstruct env st = .ok s1) {y : Symbol} (hy : y ∈ r.symbols) :
    ∃ y0 ∈ st.symbols, y0.address = y.address ∧ y0.name = y.name ∧
      ∃ sec, Tree.floor st.sections y.address = some sec ∧ y.sec = (adoptSection sec y0).sec := by
  obtain ⟨x, hx, k, _⟩ := f.kept y hy
  obtain ⟨_, hmem, _⟩ := hashInternal_ok f.run.ok1 f.run.internal
  obtain ⟨i, x1, z, a1, a2, a3, a4⟩ := (hmem x).mp hx
  have hx1 := List.mem_of_getElem? a1
  obtain ⟨hsame, _, sec, w, b1, b2, b3, _⟩ := hashSymbol_same (f.run.ok1.rels x1 hx1) a2
  rw [finish_used a3] at a4
  have exs : x.sec = z.sym.sec := by rw [a4]
  have exa : x.address = z.sym.address := by rw [a4]
  have exn : x.name = z.sym.name := by rw [a4]
  obtain ⟨he, hz⟩ := reconstruct_ok hr
  obtain ⟨s0, h0, hr0⟩ := zip_mem_right hz hx1
  have hsec : s1.sections = st.sections := by rw [he]
  have hf := hr0.facts
  have h0a : s0.address = y.address := by rw [← hf.1, ← hsame.address, ← exa, k.address]
  have h0n : s0.name = y.name := by rw [← hf.2.1, ← hsame.name, ← exn, k.name]
  have hx1a : x1.address = y.address := hf.1.trans h0a
  rw [hsec, hx1a] at b1
  refine ⟨s0, h0, h0a, h0n, sec, b1, ?_⟩
  have hx1s : x1.sec = (adoptSection sec s0).sec := by
    cases hr0 with
    | plt sec' c1 c2 c3 =>
      rw [h0a, b1] at c1
      cases c1
      rw [c3]
    | code sec' last u c1 c2 c3 c4 =>
      rw [h0a, b1] at c1
      cases c1
      rw [reconstructCode_form c4, sizeSymbol_form c3]
  have hkn : x1.sec.name ≠ none := by
    rw [hx1s]
    unfold adoptSection
    cases e : s0.sec.name with
    | none => simp
    | some v => simp [e]
  rw [← k.sec, exs, b3, b2, ← hx1s]
  show (adoptSection sec x1).sec = x1.sec
  unfold adoptSection
  cases e : x1.sec.name with
  | none => exact absurd e hkn
  | some v => simp

theorem sorted_result {env : Env} {fl : AnalyzeFlags} {elf : Elf} {dbgsym : Option Elf} {st s1 s2 s3 r : AState}
    (f : Stages env fl elf dbgsym st s1 s2 s3 r) : Sorted r.symbols := by
  obtain ⟨g, e⟩ := f.run.ids
  rw [e]
  show Sorted (s3.symbols.map (setIds g))
  exact List.pairwise_map.mpr f.run.ok3.sorted

/-- The name of a section of a symbol. -/
theorem adoptSection_name (sec : ElfSec) (s : Symbol) :
    (adoptSection sec s).sec.name = (s.sec.name <|> some sec.name) := by
  unfold adoptSection
  cases e : s.sec.name with
  | none => simp
  | some v => simp [e]

/-- The symbols in front of an address before the reconstruction and in the result. -/
structure SameClosest (fl : AnalyzeFlags) (symbols : List Symbol) (target : Addr) (y : Symbol) : Prop where
  closest : ClosestTo symbols target y
  complete : fl.keep_unused = true ∨ y.address = target

theorem closest_before {env : Env} {fl : AnalyzeFlags} {elf : Elf} {dbgsym : Option Elf} {st s1 s2 s3 r : AState}
    (f : Stages env fl elf dbgsym st s1 s2 s3 r) (hr : reconstruct env st = .ok s1) {target : Addr} {y : Symbol}
    (h : SameClosest fl r.symbols target y) : ∃ y0, ClosestTo st.symbols target y0 ∧ y0.address = y.address ∧ y0.name = y.name := by
  obtain ⟨c1, c2, c3⟩ := h.closest
  obtain ⟨y0, h0, ha, hn, _⟩ := before_recon f hr c1
  refine ⟨y0, ⟨h0, by rw [ha]; exact c2, fun z hz hle => ?_⟩, ha, hn⟩
  rcases h.complete with hk | he
  · obtain ⟨_, hz1⟩ := reconstruct_ok hr
    obtain ⟨z1, m1, hru⟩ := zip_mem_left hz1 hz
    have e1 := hru.facts.1
    obtain ⟨z2, m2, e2⟩ := (addresses_of f).2 hk z1 m1
    rw [ha, ← e1, ← e2]
    exact c3 z2 m2 (by rw [e2, e1]; exact hle)
  · rw [ha, he]; exact hle

/-- Before the reconstruction, addresses are in the same sections. -/
theorem inNamed_before {env : Env} {fl : AnalyzeFlags} {elf : Elf} {dbgsym : Option Elf} {st s1 s2 s3 r : AState}
    (f : Stages env fl elf dbgsym st s1 s2 s3 r) (hr : reconstruct env st = .ok s1) (hd : DistinctSections elf)
    {target : Addr} {y : Symbol} (h : SameClosest fl r.symbols target y) (pre : String) :
    InSectionNamed st target pre ↔ InNamed elf r.symbols target pre := by
  obtain ⟨_, p2⟩ := f.st_part
  have hsec : st.sections = Tree.ofList (loadedSections elf.sections) := by rw [p2]; exact f.sections
  have hsorted : Sorted st.sections := by rw [hsec]; exact sorted_ofList _
  have key : ∀ n, SectionAt st target n ↔ SectionIn elf r.symbols target n := by
    intro n
    by_cases hat : ∃ x ∈ r.symbols, x.address = target
    · obtain ⟨x, hx, hxa⟩ := hat
      obtain ⟨x0, h0, ha, _, sec, h1, h2⟩ := before_recon f hr hx
      have hname := congrArg Section.name h2
      rw [adoptSection_name] at hname
      rw [hxa] at h1 ha
      have hx0 : Tree.find st.symbols target = some x0 := (find_eq_some_iff f.okFirst.sorted).mpr ⟨h0, ha⟩
      rw [← targetSection_iff f.okFirst.sorted hsorted]
      have ht : targetSection st target = x.sec.name := by
        unfold targetSection
        rw [hx0, h1, hname]
        cases e : x0.sec.name <;> simp [e]
      rw [ht]
      constructor
      · exact fun e => .symbol x n hx hxa e
      · intro h
        cases h with
        | symbol z _ hz hza hzn =>
          have : z = x := (sorted_result f).inj hz hx (by show z.address = x.address; rw [hza, hxa])
          rw [← this]; exact hzn
        | floor sec hnone _ => exact absurd hxa (hnone x hx)
    · have hk : fl.keep_unused = true := by
        rcases h.complete with hk | he
        · exact hk
        · exact absurd ⟨y, h.closest.1, he⟩ hat
      have hnone0 : ∀ z ∈ st.symbols, z.address ≠ target := by
        intro z hz he
        obtain ⟨_, hz1⟩ := reconstruct_ok hr
        obtain ⟨z1, m1, hru⟩ := zip_mem_left hz1 hz
        have e1 := hru.facts.1
        obtain ⟨z2, m2, e2⟩ := (addresses_of f).2 hk z1 m1
        exact hat ⟨z2, m2, by rw [e2, e1, he]⟩
      have hfn : Tree.find st.symbols target = none := find_eq_none_iff.mpr hnone0
      rw [← targetSection_iff f.okFirst.sorted hsorted]
      have ht : targetSection st target = (Tree.floor st.sections target).map (·.name) := by
        unfold targetSection
        rw [hfn]
        rfl
      rw [ht, hsec]
      constructor
      · intro h
        cases hf : Tree.floor (Tree.ofList (loadedSections elf.sections)) target with
        | none => rw [hf] at h; cases h
        | some sec =>
          rw [hf] at h
          cases h
          exact .floor sec (fun z hz e => hat ⟨z, hz, e⟩) (floor_section hd hf)
      · intro h
        cases h with
        | symbol z _ hz hza _ => exact absurd ⟨z, hz, hza⟩ hat
        | floor sec _ hso => rw [section_floor hso]; rfl
  unfold InSectionNamed InNamed
  simp only [key]

theorem importSlot_iff {env : Env} {fl : AnalyzeFlags} {elf : Elf} {dbgsym : Option Elf} {r st s1 : AState} {s s' : Symbol}
    (f : ReconOf env fl elf dbgsym r s st s1 s') (a : Addr) (n : Option String) :
    ImportSlot st a n ↔ ImportAt elf dbgsym a n := by
  unfold ImportSlot ImportAt
  simp only [f.relocations, firstAt_iff]

/-- C43 (partial): for each operand relative to the instruction pointer in a function of the result of an analysis there is a
relocation at the location of the encoded distance, and applying it according to the ABI, with the symbols of the result, gives
this distance. Missing: as for `C43_displacement_partial`; without the flag to keep unused symbols also targets without symbol
exactly there, since the closest one in front may have been dropped. -/
theorem C43_files_partial (env : Env) (fl : AnalyzeFlags) (elf : Elf) (dbgsym : Option Elf) (r : AState)
    (hd : SaneDecoder env) (hrec : fl.reconstruct = true) (h : analyze env fl elf dbgsym = .ok r) (hdist : DistinctSections elf)
    (s : Symbol) (hs : s ∈ r.symbols) (hx : s.sec.executable = true) (hp : ¬ PltSym s) (ht : TLS.is_tls s.address = false)
    (hw : s.address.toNat + s.size.toNat < 2 ^ 64) (bytes : List (BitVec 8)) (hb : ContentOf elf s bytes)
    (step : Step) (hstep : step ∈ disasm env s.address bytes) (op : Operand) (hop : op ∈ step.insn.ops)
    (offset size : BitVec 8) (target : Addr) (hpc : PcRelative (env.kind step.insn.id) step.insn op offset size target)
    -- all references at the location agree
    (hone : ∀ op' ∈ step.insn.ops, ∀ z t,
      RefersTo (tlsEnd env (tlsSegment elf)) (env.kind step.insn.id) step.insn op' offset z t → z = size ∧ t = target)
    -- no relocation at the target
    (hloc : ∀ q ∈ s.rels, q.offset ≠ target)
    (htls : TLS.is_tls target = false) (hz : size = 1 ∨ size = 2 ∨ size = 4 ∨ size = 8)
    (y : Symbol) (hy : ClosestTo r.symbols target y) (hyc : fl.keep_unused = true ∨ y.address = target)
    (hgot : size = 4 → InNamed elf r.symbols target ".got" → ¬ InNamed elf r.symbols target ".plt" →
      ∃ n, ImportAt elf dbgsym target (some n)) :
    ∃ q ∈ s.rels, q.offset = step.insn.address + offset.setWidth 64 ∧ q.target = target ∧ q.reconstructed = true ∧
      AppliedIn elf dbgsym r.symbols size q (target - nextAddress step.insn) := by
  obtain ⟨st, s1, s', f⟩ := recon_of h hrec hs hx hp
  obtain ⟨s2, s3, g⟩ := f.stages
  have hv := TLS.virt_of_regular ht
  have hc := f.code bytes hb
  rw [hv] at hc
  have hsc : SameClosest fl r.symbols target y := ⟨hy, hyc⟩
  obtain ⟨y0, c1, c2, c3⟩ := closest_before g f.done hsc
  have hin := fun pre => inNamed_before g f.done hdist hsc pre
  obtain ⟨q, hq, e1, e2, e3, e4⟩ := C43_displacement_partial env st s1 hd f.okFirst (by rw [f.sections]; exact sorted_ofList _)
    (by rw [f.relocations]; exact sorted_ofList _) f.new f.done s' f.mem (by rw [f.sec]; exact hx) (f.plt hp)
    (by rw [f.address, f.size, hv]; exact hw) _ hc step hstep op hop offset size target hpc (by rw [f.tls]; exact hone)
    (fun q hq => hloc q ((f.rels q).mp hq).1) htls hz y0 c1
    (fun h1 h2 h3 => by
      obtain ⟨n, hn⟩ := hgot h1 ((hin _).mp h2) (fun h4 => h3 ((hin _).mpr h4))
      exact ⟨n, (importSlot_iff f _ _).mpr hn⟩)
  refine ⟨q, ((f.rels q).mp hq).1, e1, e2, e3, ?_⟩
  have hsame : ∀ {z : Symbol}, ClosestTo st.symbols q.target z → z = y0 := by
    intro z hz
    rw [e2] at hz
    exact f.okFirst.sorted.inj hz.1 c1.1 (BitVec.eq_of_toNat_eq (Nat.le_antisymm (c1.2.2 z hz.1 hz.2.1) (hz.2.2 y0 c1.1 c1.2.1)))
  generalize target - nextAddress step.insn = v at e4
  cases e4 with
  | plain z h1 h2 h3 =>
    rw [hsame h3] at h2 ⊢
    rw [c2]
    exact .plain y h1 (by rw [← c3]; exact h2) (by rw [e2]; exact hy)
  | plt z h1 h2 h3 h4 h5 =>
    rw [hsame h5] at h4 ⊢
    rw [c2]
    exact .plt y h1 h2 (by rw [e2] at h3 ⊢; exact (hin _).mp h3) (by rw [← c3]; exact h4) (by rw [e2]; exact hy)
  | got slot h1 h2 h3 => exact .got slot h1 h2 ((importSlot_iff f _ _).mp h3)

/-! ### C45: relocations of the file -/

/-- C45 (partial): relocations of the files in code are attached to functions of the result unless a relocation was reconstructed
for this location, and relocations are either reconstructed or those of the files. Missing: relocations of the file at a
reconstructed location get lost. -/
theorem C45_files_partial (env : Env) (fl : AnalyzeFlags) (elf : Elf) (dbgsym : Option Elf) (r : AState)
    (h : analyze env fl elf dbgsym = .ok r) (s : Symbol) (hs : s ∈ r.symbols) (hx : s.sec.executable = true)
    (ht : TLS.is_tls s.address = false) (hw : s.address.toNat + s.size.toNat < 2 ^ 64)
    (e : ElfRel) (he : FirstAt (allRelocations elf dbgsym) e) (hin : InRange s e.offset) :
    ((∃ q ∈ s.rels, FileRel env fl.resolve_internal (gotAddress elf) e q) ↔
      ¬ ∃ q ∈ s.rels, q.offset = e.offset ∧ q.reconstructed = true) ∧
    ∀ q ∈ s.rels, ∀ z ∈ s.rels, q.offset = z.offset → q = z := by
  obtain ⟨st, s1, s2, s3, f⟩ := Bean.stages h
  obtain ⟨x, hxm, k, _⟩ := f.kept s hs
  have hrl : s1.relocations = Tree.ofList (allRelocations elf dbgsym) := by
    rw [f.same1]; exact congrArg FilePart.relocations f.part
  have hrr : s1.relative_relocations = Tree.ofList (allRelative elf dbgsym) := by
    rw [f.same1]; exact congrArg FilePart.relative f.part
  have hgot := (got_of f).1
  have hv := TLS.virt_of_regular ht
  obtain ⟨s0, h0, sec, _, _, h3⟩ := rels_exact f.run.ok1 (by rw [hrl]; exact sorted_ofList _) (by rw [hrr]; exact sorted_ofList _)
    f.run.internal hxm (Or.inl (by rw [k.sec]; exact hx))
  rw [k.address, k.size, hv] at h3
  have hsorted : Sorted s.rels := by rw [← k.rels]; exact f.run.ok2.rels x hxm
  have hinj : ∀ q ∈ s.rels, ∀ z ∈ s.rels, q.offset = z.offset → q = z := fun q hq z hz e => hsorted.inj hq hz e
  have hend : (s.address + s.size).toNat = s.address.toNat + s.size.toNat := by
    rw [BitVec.toNat_add, Nat.mod_eq_of_lt hw]
  have h0r : ∀ q ∈ s0.rels, q.reconstructed = true := by
    intro q hq
    rcases f.run.first with ⟨_, hr⟩ | ⟨hr, _⟩
    · exact reconstruct_reconstructed f.okFirst (fun s hs => (f.fresh s hs).rels) hr h0 hq
    · rw [(f.first s0 h0).2.2.2 hr] at hq; cases hq
  refine ⟨⟨?_, ?_⟩, hinj⟩
  · rintro ⟨q, hq, hf⟩ ⟨z, hz, hze, hzr⟩
    have : z = q := hinj z hz q hq (by rw [hze, hf.offset])
    subst this
    rw [hf.original] at hzr
    cases hzr
  · intro hno
    have hfree : ∀ q ∈ s0.rels, q.offset ≠ e.offset := fun q hq he' =>
      hno ⟨q, by rw [← k.rels]; exact (h3 q).mpr (Or.inl hq), he', h0r q hq⟩
    unfold InRange at hin
    rw [hv] at hin
    refine ⟨_, by rw [← k.rels]; exact (h3 _).mpr (Or.inr (Or.inl ⟨e, by rw [hrl]; exact firstAt_iff.mp he,
      by rw [BitVec.le_def]; exact hin.1, by rw [BitVec.lt_def, hend]; exact hin.2, rfl, hfree⟩)), ?_⟩
    rw [hgot]
    exact relOfElf_spec _ _ _ _ _

/-! ### C66: thread-local variables -/

/-- Value of a relocation for a thread-local variable, as `AppliedTls`. -/
inductive AppliedTlsIn (symbols : List Symbol) (tls_end : Addr) (q : Rel) : BitVec 64 → Prop
  | tpoff (y : Symbol) : q.type = R_X86_64_TPOFF32 ∨ q.type = R_X86_64_TPOFF64 → y ∈ symbols → y.name = q.name →
      y.address = q.target → AppliedTlsIn symbols tls_end q (TLS.virt_addr y.address + q.addend - tls_end)

/-- C66 (partial): for each operand relative to the segment register in a function of the result of an analysis there is a
relocation at the location of the encoded distance to the variable, with the type for its size and the name of the variable. But
it stands for twice this distance. -/
theorem C66_files_partial (env : Env) (fl : AnalyzeFlags) (elf : Elf) (dbgsym : Option Elf) (r : AState)
    (hd : SaneDecoder env) (hrec : fl.reconstruct = true) (h : analyze env fl elf dbgsym = .ok r)
    (s : Symbol) (hs : s ∈ r.symbols) (hx : s.sec.executable = true) (hp : ¬ PltSym s) (ht : TLS.is_tls s.address = false)
    (hw : s.address.toNat + s.size.toNat < 2 ^ 64) (bytes : List (BitVec 8)) (hb : ContentOf elf s bytes)
    (step : Step) (hstep : step ∈ disasm env s.address bytes)
    (base index : Reg) (scale : BitVec 32) (disp : BitVec 64) (acc : BitVec 8) (hbase : base ≠ X86_REG_RIP)
    (hop : .mem X86_REG_FS base index scale disp acc ∈ step.insn.ops)
    (hone : ∀ op' ∈ step.insn.ops, ∀ z t,
      RefersTo (tlsEnd env (tlsSegment elf)) (env.kind step.insn.id) step.insn op' step.insn.disp_offset z t →
      op' = .mem X86_REG_FS base index scale disp acc)
    (hloc : ∀ q ∈ s.rels, q.offset ≠ TLS.trans_addr (tlsEnd env (tlsSegment elf) + disp) true)
    (hz : step.insn.disp_size = 4 ∨ step.insn.disp_size = 8)
    (hreg : TLS.is_tls (tlsEnd env (tlsSegment elf) + disp) = false)
    (y : Symbol) (hy : y ∈ r.symbols) (hya : y.address = TLS.trans_addr (tlsEnd env (tlsSegment elf) + disp) true) :
    ∃ q ∈ s.rels, q.offset = step.insn.address + step.insn.disp_offset.setWidth 64 ∧ q.target = y.address ∧
      q.reconstructed = true ∧ q.name = y.name ∧ (step.insn.disp_size = 4 → q.type = R_X86_64_TPOFF32) ∧
      (step.insn.disp_size = 8 → q.type = R_X86_64_TPOFF64) ∧
      ∀ v, AppliedTlsIn r.symbols (tlsEnd env (tlsSegment elf)) q v ↔ v = disp + disp := by
  obtain ⟨st, s1, s', f⟩ := recon_of h hrec hs hx hp
  obtain ⟨s2, s3, g⟩ := f.stages
  have hv := TLS.virt_of_regular ht
  have hc := f.code bytes hb
  rw [hv] at hc
  obtain ⟨q, hq, h1, h2, h3, h4, h5, h6, h7⟩ := C66_tls_partial env st s1 hd f.okFirst f.new f.done s' f.mem
    (by rw [f.sec]; exact hx) (f.plt hp) (by rw [f.address, f.size, hv]; exact hw) _ hc step hstep base index scale disp acc
    hbase hop (by rw [f.tls]; exact hone) (by rw [f.tls]; exact fun q hq => hloc q ((f.rels q).mp hq).1)
  rw [f.tls] at h2
  obtain ⟨y0, m0, ea, en, _⟩ := before_recon g f.done hy
  have hqn : q.name = y.name := by rw [← en]; exact h7 y0 m0 (by rw [ea, hya, h2])
  have hvy : TLS.virt_addr (TLS.trans_addr (tlsEnd env (tlsSegment elf) + disp) true) = tlsEnd env (tlsSegment elf) + disp :=
    TLS.virt_trans _ true hreg
  refine ⟨q, ((f.rels q).mp hq).1, h1, by rw [h2, hya], h3, hqn, h5, h6, fun v => ⟨fun hv' => ?_, fun hv' => ?_⟩⟩
  · cases hv' with
    | tpoff y' _ _ _ e4 =>
      rw [e4, h2, hvy, h4]
      grind
  · have : v = TLS.virt_addr y.address + q.addend - tlsEnd env (tlsSegment elf) := by
      rw [hya, hvy, h4, hv']
      grind
    rw [this]
    refine .tpoff y ?_ hy hqn.symm (by rw [hya, h2])
    rcases hz with hz | hz
    · exact Or.inl (h5 hz)
    · exact Or.inr (h6 hz)

/-! ### Examples -/

def rexLoadText (n : Addr) : ElfSeg where
  type := .load
  offset := 0x100
  virt_addr := 0x1000
  size := n
  virt_size := n
  executable := true

def rexLoadData : ElfSeg where
  type := .load
  offset := 0x200
  virt_addr := 0x2000
  size := 8
  virt_size := 8
  writeable := true

/-- A file with this code, a second section, these relocations and symbols. -/
def rexElf (code : List (BitVec 8)) (sec : ElfSec) (rels : List ElfRel) (syms : List ElfSym) (segs : List ElfSeg := []) : Elf where
  entry := 0x1000
  segments := [rexLoadText (BitVec.ofNat 64 code.length), rexLoadData] ++ segs
  sections := [runTable [], rexText code, sec, { imgRela 0 with relocations := rels }, runTable syms]

def rexSyms : List ElfSym := [imgFunc 0x1000 16 "main" .global, imgFunc 0x1010 1 "f" .local, imgVar 0x2000 8 "v" 2]

theorem rexElf_loaded {code : List (BitVec 8)} {sec sec' : ElfSec} {rels : List ElfRel} {syms : List ElfSym} {segs : List ElfSeg}
    (h : Loaded (rexElf code sec rels syms segs) sec') : sec' = rexText code ∨ sec' = sec := by
  obtain ⟨h1, h2, _⟩ := h
  simp only [rexElf, List.mem_cons, List.not_mem_nil, or_false] at h1
  rcases h1 with rfl | rfl | rfl | rfl | rfl
  · cases h2
  · exact Or.inl rfl
  · exact Or.inr rfl
  · cases h2
  · cases h2

theorem rexText_start (code : List (BitVec 8)) : secStart (rexText code) = 0x1000 := by
  have : secStart (rexText code) = secStart (rexText []) := rfl
  rw [this]
  decide

theorem rexElf_distinct (code : List (BitVec 8)) (rels : List ElfRel) (syms : List ElfSym) (segs : List ElfSeg) :
    DistinctSections (rexElf code (rexData ".data") rels syms segs) := by
  intro sec sec' h h' e
  rcases rexElf_loaded h with rfl | rfl <;> rcases rexElf_loaded h' with rfl | rfl
  · rfl
  · rw [rexText_start] at e; exact absurd e (by decide)
  · rw [rexText_start] at e; exact absurd e (by decide)
  · rfl

/-- The content of the function at the start of the code. -/
theorem rexElf_content {code : List (BitVec 8)} (hc : code.length < 2 ^ 64) (hne : code ≠ []) {sec : ElfSec} {rels : List ElfRel} {syms : List ElfSym}
    {segs : List ElfSeg} (hsec : 0x1000 < (secStart sec).toNat) {s : Symbol} (ha : s.address = 0x1000)
    (hz : s.size.toNat ≤ code.length) : ContentOf (rexElf code sec rels syms segs) s (code.take s.size.toNat) := by
  refine ⟨rexText code, ⟨⟨List.mem_cons_of_mem _ List.mem_cons_self, rfl, ?_⟩, by rw [ha, rexText_start]; exact Nat.le_refl _, ?_⟩, ?_, ?_⟩
  · show BitVec.ofNat 64 code.length ≠ 0
    intro e
    have := congrArg BitVec.toNat e
    rw [BitVec.toNat_ofNat, Nat.mod_eq_of_lt hc] at this
    exact hne (List.eq_nil_of_length_eq_zero this)
  · intro sec' h hle
    rcases rexElf_loaded h with rfl | rfl
    · exact Or.inl rfl
    · rw [ha] at hle
      have : (secStart sec').toNat ≤ 0x1000 := hle
      omega
  · rw [ha]
    show (TLS.virt_addr 0x1000 - 0x1000).toNat + _ ≤ code.length
    rw [show (TLS.virt_addr 0x1000 - 0x1000).toNat = 0 from by decide]
    omega
  · rw [ha]
    show _ = (code.drop (TLS.virt_addr 0x1000 - 0x1000).toNat).take _
    rw [show (TLS.virt_addr 0x1000 - 0x1000).toNat = 0 from by decide]
    rfl

/-- A function at the start of the code with these relocations. -/
def hasRels (r : AState) (n : Addr) (rels : List Rel) : Bool :=
  r.symbols.any (fun s => decide (s.address = 0x1000 ∧ s.size = n ∧ s.sec.executable = true ∧ s.sec.name = some ".text" ∧ s.rels = rels))

theorem hasRels_iff {r : AState} {n : Addr} {rels : List Rel} (h : hasRels r n rels = true) :
    ∃ s ∈ r.symbols, s.address = 0x1000 ∧ s.size = n ∧ s.sec.executable = true ∧ s.sec.name = some ".text" ∧ s.rels = rels := by
  unfold hasRels at h
  rw [List.any_eq_true] at h
  obtain ⟨s, hs, h⟩ := h
  exact ⟨s, hs, of_decide_eq_true h⟩

theorem text_plt {s : Symbol} (h : s.sec.name = some ".text") : ¬ PltSym s := by
  rintro ⟨n, h1, h2⟩
  rw [h] at h1
  cases h1
  revert h2
  decide +kernel

/-- The result for the code with a call, a load and a jump. -/
theorem rexElf_ok : ∃ r, analyze rexEnv { reconstruct := true } (rexElf rexCode (rexData ".data") [] rexSyms) none = .ok r ∧
    (∃ s ∈ r.symbols, s.address = 0x1000 ∧ s.size = 16 ∧ s.sec.executable = true ∧ s.sec.name = some ".text" ∧ s.rels = rexMain.rels) ∧
    ∃ y, ClosestTo r.symbols 0x2000 y ∧ y.address = 0x2000 ∧ y.sec.name = some ".data" := by
  obtain ⟨r, h, hp⟩ := ok_such (m := analyze rexEnv { reconstruct := true } (rexElf rexCode (rexData ".data") [] rexSyms) none)
    (P := fun r => hasRels r 16 rexMain.rels && r.symbols.any (fun y => decide (ClosestTo r.symbols 0x2000 y ∧ y.address = 0x2000 ∧
      y.sec.name = some ".data"))) (by decide +kernel)
  rw [Bool.and_eq_true, List.any_eq_true] at hp
  obtain ⟨hp, y, _, hy⟩ := hp
  exact ⟨r, h, hasRels_iff hp, y, of_decide_eq_true hy⟩

/-- The load gets a relocation, which stands for the encoded distance. -/
example : ∃ r, analyze rexEnv { reconstruct := true } (rexElf rexCode (rexData ".data") [] rexSyms) none = .ok r ∧
    ∃ s ∈ r.symbols, ∃ q ∈ s.rels, q.offset = 0x1006 ∧
      AppliedIn (rexElf rexCode (rexData ".data") [] rexSyms) none r.symbols 4 q 0xff6 := by
  obtain ⟨r, h, ⟨s, hs, e1, e2, e3, e4, e5⟩, y, hy, ya, yn⟩ := rexElf_ok
  have hb := rexElf_content (code := rexCode) (by decide) (by decide) (sec := rexData ".data") (rels := []) (syms := rexSyms) (segs := [])
    (by decide) e1 (by rw [e2]; decide)
  rw [e2] at hb
  obtain ⟨q, h1, h2, _, _, h3⟩ := C43_files_partial rexEnv { reconstruct := true } _ none r rexEnv_sane rfl h
    (rexElf_distinct _ _ _ _) s hs e3 (text_plt e4) (by rw [e1]; decide) (by rw [e1, e2]; decide) _ hb rexStep
    (by rw [e1]; decide +kernel) (.mem 0 X86_REG_RIP 0 1 0xff6 1) (by decide) _ _ _ (.rip 0 0 1 0xff6 1)
    (by
      intro op' hop' z t hr
      rcases List.mem_cons.mp hop' with rfl | hop'
      · rcases hr with hr | hr <;> cases hr
      · cases List.mem_singleton.mp hop'
        rcases hr with hr | hr
        · cases hr
          exact ⟨rfl, rfl⟩
        · cases hr)
    (by rw [e5]; decide) (by decide) (by decide) y hy (Or.inr ya)
    (by
      rintro _ ⟨n, h1, h2⟩
      cases h1 with
      | symbol z _ hz hza hzn =>
        obtain ⟨_, _, _, _, g⟩ := Bean.stages h
        have : z = y := (sorted_result g).inj hz hy.1 (hza.trans ya.symm)
        subst this
        rw [yn] at hzn
        cases hzn
        exact absurd h2 (by decide +kernel)
      | floor sec hno _ => exact absurd ya (hno y hy.1))
  exact ⟨r, h, s, hs, q, h1, h2, h3⟩

/-- The load reads a variable outside of the function. -/
example : ∃ r, analyze rexEnv { reconstruct := true } (rexElf rexCode (rexData ".data") [] rexSyms) none = .ok r ∧
    ∃ s ∈ r.symbols, ∃ step ∈ disasm rexEnv s.address (rexCode.take 16), ∃ op ∈ step.insn.ops,
      Describes (rexEnv.kind step.insn.id) s step op (rexRel 0x1006 R_X86_64_PC32 "v" (-4) 0x2000 0x01) := by
  obtain ⟨r, h, ⟨s, hs, e1, e2, e3, e4, e5⟩, _⟩ := rexElf_ok
  have hb := rexElf_content (code := rexCode) (by decide) (by decide) (sec := rexData ".data") (rels := []) (syms := rexSyms) (segs := [])
    (by decide) e1 (by rw [e2]; decide)
  rw [e2] at hb
  obtain ⟨step, h1, op, h2, _, _, _, _, h3⟩ := C67_files_partial rexEnv { reconstruct := true } _ none r rexEnv_sane rfl h
    s hs e3 (text_plt e4) (by rw [e1]; decide) (by rw [e1, e2]; decide) _ hb (rexRel 0x1006 R_X86_64_PC32 "v" (-4) 0x2000 0x01)
    (by rw [e5]; decide) rfl (by rw [e1]; exact rexMain_free)
  exact ⟨r, h, s, hs, step, h1, op, h2, h3⟩

example : ∃ r, analyze rexEnv { reconstruct := true } (rexElf rexCode (rexData ".data") [] rexSyms) none = .ok r ∧
    ∃ s ∈ r.symbols, ∃ step ∈ disasm rexEnv s.address (rexCode.take 16), step.insn.address = 0x1005 := by
  obtain ⟨r, h, ⟨s, hs, e1, e2, e3, e4, e5⟩, _⟩ := rexElf_ok
  have hb := rexElf_content (code := rexCode) (by decide) (by decide) (sec := rexData ".data") (rels := []) (syms := rexSyms) (segs := [])
    (by decide) e1 (by rw [e2]; decide)
  rw [e2] at hb
  obtain ⟨step, h1, h2, _⟩ := C44_files_partial rexEnv { reconstruct := true } _ none r rexEnv_sane rfl h
    s hs e3 (text_plt e4) (by rw [e1]; decide) (by rw [e1, e2]; decide) _ hb (rexRel 0x1006 R_X86_64_PC32 "v" (-4) 0x2000 0x01)
    (by rw [e5]; decide) rfl (by rw [e1]; exact rexMain_free)
  exact ⟨r, h, s, hs, step, h1, by rw [h2]; decide⟩

/-- C43: a load from an entry of the global offset table that is not imported gets a relocation that cannot be applied. -/
theorem C43_files_counterexample : ∃ (env : Env) (elf : Elf) (r : AState) (s : Symbol) (q : Rel), SaneDecoder env ∧
    analyze env { reconstruct := true } elf none = .ok r ∧ s ∈ r.symbols ∧ s.rels = [q] ∧ q.target = 0x2000 ∧
    q.type = R_X86_64_GOTPCREL ∧ ContentOf elf s [0x8b, 0xfb, 0x0f, 0, 0, 0xc3] ∧
    ∀ size v, ¬ AppliedIn elf none r.symbols size q v := by
  obtain ⟨r, h, hp⟩ := ok_such (m := analyze rexEnv { reconstruct := true } (rexElf [0x8b, 0xfb, 0x0f, 0, 0, 0xc3] (rexData ".got")
      [{ offset := 0x2000, type := R_X86_64_RELATIVE, addend := 0x1000 }] [imgFunc 0x1000 6 "f" .global]) none)
    (P := fun r => hasRels r 6 [{ rexRel 0x1001 R_X86_64_GOTPCREL "" (-4) 0x2000 1 with name := none }]) (by decide +kernel)
  obtain ⟨s, hs, e1, e2, _, _, e5⟩ := hasRels_iff hp
  refine ⟨rexEnv, _, r, s, _, rexEnv_sane, h, hs, e5, rfl, rfl, ?_, ?_⟩
  · have := rexElf_content (code := [0x8b, 0xfb, 0x0f, 0, 0, 0xc3]) (by decide) (by decide) (sec := rexData ".got")
      (rels := [{ offset := 0x2000, type := R_X86_64_RELATIVE, addend := 0x1000 }]) (syms := [imgFunc 0x1000 6 "f" .global]) (segs := [])
      (by decide) e1 (by rw [e2]; decide)
    rw [e2] at this
    exact this
  · intro size v h
    cases h with
    | plain y h1 => rcases h1 with ⟨_, h1⟩ | ⟨_, h1⟩ | ⟨_, h1⟩ | ⟨_, h1⟩ <;> exact absurd h1 (by decide)
    | plt y h1 h2 => exact absurd h2 (by decide)
    | got slot h1 h2 h3 =>
      obtain ⟨rel, h4, _, s, h5, _⟩ := h3
      have h6 := mem_ofList (firstAt_iff.mp h4)
      simp only [allRelocations, partsOf, rexElf, runTable, rexText, rexData, imgRela] at h6
      have h7 : rel ∈ ([{ offset := 0x2000, type := R_X86_64_RELATIVE, addend := 0x1000 }] : List ElfRel) := by simpa using h6
      cases List.mem_singleton.mp h7
      cases h5

/-- C43, C44, C67: a conditional branch to the location of a relocation gets no relocation. Instead the relocation of the call
there claims to belong to a conditional branch that starts in front of the function. -/
theorem C44_files_counterexample : ∃ (env : Env) (elf : Elf) (r : AState) (s : Symbol) (q : Rel), SaneDecoder env ∧
    analyze env { reconstruct := true } elf none = .ok r ∧ s ∈ r.symbols ∧ ContentOf elf s (rexMiddleCode.take 16) ∧ s.rels = [q] ∧
    q.offset = s.address + 1 ∧ q.reconstructed = true ∧ (q.offset - q.instruction_offset.setWidth 64).toNat < s.address.toNat ∧
    q.instruction_access &&& ACCESSFLAG_CONDITIONAL ≠ 0 ∧
    (∃ step ∈ disasm env s.address (rexMiddleCode.take 16), step.insn.address = s.address ∧ env.kind step.insn.id = .call) ∧
    (∃ step ∈ disasm env s.address (rexMiddleCode.take 16), ∃ op ∈ step.insn.ops, ∃ offset size,
      PcRelative (env.kind step.insn.id) step.insn op offset size (s.address + 1) ∧
      ∀ q ∈ s.rels, q.offset ≠ step.insn.address + offset.setWidth 64) := by
  obtain ⟨r, h, hp⟩ := ok_such (m := analyze rexEnv { reconstruct := true } (rexElf rexMiddleCode (rexData ".data") [] rexSyms) none)
    (P := fun r => hasRels r 16 rexMiddleMain.rels) (by decide +kernel)
  obtain ⟨s, hs, e1, e2, _, _, e5⟩ := hasRels_iff hp
  have hb := rexElf_content (code := rexMiddleCode) (by decide) (by decide) (sec := rexData ".data") (rels := []) (syms := rexSyms) (segs := [])
    (by decide) e1 (by rw [e2]; decide)
  rw [e2] at hb
  refine ⟨rexEnv, _, r, s, _, rexEnv_sane, h, hs, hb, e5, by rw [e1]; rfl, rfl, by rw [e1]; decide, by decide,
    ⟨{ insn := rexBranch 0x1000 4 [0xe8] 5 1 0x0b, address := 0x1005, rest := (rexMiddleCode.take 16).drop 5 }, by rw [e1]; decide +kernel,
      by rw [e1]; rfl, by decide⟩,
    { insn := rexBranch 0x1005 6 [0x0f, 0x85] 6 2 (-10), address := 0x100b, rest := [0xc3, 0x90, 0x90, 0x90, 0x90] },
    by rw [e1]; decide +kernel, .imm 0x1001 0, by decide, _, _, by rw [e1]; exact .branch _ _ (by unfold Branching; decide), ?_⟩
  rw [e5]
  decide

/-- The relocation for a call of an imported function. -/
def rexExt : ElfRel where
  offset := 0x1001
  type := R_X86_64_PC32
  addend := -4
  symbol := some { value := 0, name := some "ext" }

/-- C45: the relocation of the file for the call of an imported function is attached without reconstruction and lost with it. -/
theorem C45_files_counterexample : ∃ (env : Env) (elf : Elf) (r r' : AState) (s s' : Symbol) (e : ElfRel),
    analyze env {} elf none = .ok r ∧ analyze env { reconstruct := true } elf none = .ok r' ∧ s ∈ r.symbols ∧ s' ∈ r'.symbols ∧
    s'.address = s.address ∧ FirstAt (allRelocations elf none) e ∧ InRange s' e.offset ∧
    (∃ q ∈ s.rels, FileRel env false (gotAddress elf) e q ∧ q.name = some "ext") ∧
    (∀ q ∈ s'.rels, ¬ FileRel env false (gotAddress elf) e q) ∧ ∀ q ∈ s'.rels, q.name ≠ some "ext" := by
  obtain ⟨r, h, hp⟩ := ok_such (m := analyze rexEnv {} (rexElf [0xe8, 0, 0, 0, 0, 0xc3] (rexData ".data") [rexExt]
      [imgFunc 0x1000 6 "main" .global]) none) (P := fun r => hasRels r 6 [relOfElf rexEnv 0x1000 false 0 rexExt]) (by decide +kernel)
  obtain ⟨r', h', hp'⟩ := ok_such (m := analyze rexEnv { reconstruct := true } (rexElf [0xe8, 0, 0, 0, 0, 0xc3] (rexData ".data") [rexExt]
      [imgFunc 0x1000 6 "main" .global]) none) (P := fun r => hasRels r 6 rexImportSym.rels) (by decide +kernel)
  obtain ⟨s, hs, e1, e2, e3, e4, e5⟩ := hasRels_iff hp
  obtain ⟨s', hs', e1', e2', e3', e4', e5'⟩ := hasRels_iff hp'
  have hfirst : FirstAt (allRelocations (rexElf [0xe8, 0, 0, 0, 0, 0xc3] (rexData ".data") [rexExt]
      [imgFunc 0x1000 6 "main" .global]) none) rexExt := ⟨[], [], by decide, by simp⟩
  have hin : InRange s' rexExt.offset := by unfold InRange; rw [e1', e2']; decide
  refine ⟨rexEnv, _, r, r', s, s', rexExt, h, h', hs, hs', by rw [e1, e1'], hfirst, hin, ?_, ?_, by rw [e5']; decide⟩
  · rw [e5]
    exact ⟨_, List.mem_singleton.mpr rfl, relOfElf_spec _ _ _ _ _, rfl⟩
  · intro q hq hf
    refine (C45_files_partial rexEnv { reconstruct := true } _ none r' h' s' hs' e3' (by rw [e1']; decide) (by rw [e1', e2']; decide) rexExt
      hfirst hin).1.mp ⟨q, hq, hf⟩ ⟨_, by rw [e5']; exact List.mem_cons_self, rfl, rfl⟩

/-- A thread-local variable at the end of the storage. -/
def rexTlsSym : ElfSym where
  value := 4
  size := 4
  name := some "x"
  type := .tls
  bind := .local
  shndx := .index 2

def rexTlsSeg : ElfSeg where
  type := .tls
  offset := 0x200
  virt_addr := 0x2000
  size := 8
  virt_size := 8

/-- C66: the distance -4 of the variable becomes -8. -/
theorem C66_files_counterexample : ∃ (env : Env) (elf : Elf) (r : AState) (s : Symbol) (q : Rel), SaneDecoder env ∧
    analyze env { reconstruct := true } elf none = .ok r ∧ s ∈ r.symbols ∧ ContentOf elf s [0x64, 0xfc, 0xff, 0xff, 0xff, 0xc3] ∧
    q ∈ s.rels ∧ q.offset = s.address + 1 ∧ q.name = some "x" ∧
    ∀ v, AppliedTlsIn r.symbols (tlsEnd env (tlsSegment elf)) q v ↔ v = -8 := by
  obtain ⟨r, h, hp⟩ := ok_such (m := analyze rexEnv { reconstruct := true } (rexElf [0x64, 0xfc, 0xff, 0xff, 0xff, 0xc3]
      { rexData ".tdata" with tls := true } [] [imgFunc 0x1000 6 "main" .global, rexTlsSym] [rexTlsSeg]) none)
    (P := fun r => hasRels r 6 rexTlsMain.rels && r.symbols.any (fun y => decide (y.address = TLS.trans_addr 0x2004 true ∧ y.name = some "x")))
    (by decide +kernel)
  rw [Bool.and_eq_true, List.any_eq_true] at hp
  obtain ⟨hp, y, hy, hyd⟩ := hp
  obtain ⟨ya, yn⟩ := of_decide_eq_true hyd
  obtain ⟨s, hs, e1, e2, e3, e4, e5⟩ := hasRels_iff hp
  have hb := rexElf_content (code := [0x64, 0xfc, 0xff, 0xff, 0xff, 0xc3]) (by decide) (by decide)
    (sec := { rexData ".tdata" with tls := true }) (rels := []) (syms := [imgFunc 0x1000 6 "main" .global, rexTlsSym]) (segs := [rexTlsSeg])
    (by decide) e1 (by rw [e2]; decide)
  rw [e2] at hb
  obtain ⟨q, h1, h2, _, _, h3, _, _, h4⟩ := C66_files_partial rexEnv { reconstruct := true } _ none r rexEnv_sane rfl h
    s hs e3 (text_plt e4) (by rw [e1]; decide) (by rw [e1, e2]; decide) _ hb rexTlsStep (by rw [e1]; decide +kernel) 0 0 1 (-4) 1 (by decide)
    (by decide) (fun op h => rexTls_single op h _) (by rw [e5]; decide) (by decide) (by decide) y hy (by rw [ya]; decide)
  exact ⟨rexEnv, _, r, s, q, rexEnv_sane, h, hs, hb, h1, by rw [e1]; exact h2, by rw [h3, yn], h4⟩

end Bean

import Verif.Lemmas.TotalRun
/-
Property theorems C93: the analysis of well-formed files completes.
-/
namespace Bean
open Tree Spec Props

/-- C93: a file whose tables can be read, whose code can be decoded and whose symbols lie in its sections is analysed
completely: no assertion fails, nothing is read outside of the file and no missing element of a table is accessed. -/
theorem C93_completes_partial (env : Env) (fl : AnalyzeFlags) (elf : Elf) (dbgsym : Option Elf) (hl : Legible elf dbgsym)
    (hp : Spec.PlainCode env fl { sections := Tree.ofList (loadedSections elf.sections), relocations := Tree.ofList (allRelocations elf dbgsym) })
    (hd : fl.reconstruct = true → SaneDecoder env)
    (hc : ∀ st, gather env fl elf dbgsym = .ok st → Contained env fl elf dbgsym st.symbols) :
    ∃ r, analyze env fl elf dbgsym = .ok r := analyze_safe hl hp hd hc

/-! ### Decidable form of the conditions -/

-- quantifiers over lists of addresses are decided by enumerating the list
attribute [-instance] BitVec.instDecidableForallBitVec BitVec.instDecidableForallBitVecSucc BitVec.instDecidableExistsBitVec
  BitVec.instDecidableExistsBitVecSucc

/-- The possible sizes of a symbol. -/
def sizesFor (env : Env) (t : SymTree) (sec : ElfSec) (s : Symbol) : List Addr :=
  s.size :: (secEnd env sec - s.address) ::
    (t.filter (fun z => decide (s.address < z.address ∧ z.address < secEnd env sec))).map (fun z => z.address - s.address)

theorem sizesFor_mem {env : Env} {t : SymTree} {sec : ElfSec} {s : Symbol} {n : Addr} (h : SizeFor env t sec s n) :
    n ∈ sizesFor env t sec s := by
  unfold sizesFor
  rcases h with rfl | rfl | ⟨z, h1, h2, h3, rfl⟩
  · simp
  · simp
  · refine List.mem_cons_of_mem _ (List.mem_cons_of_mem _ (List.mem_map.mpr ⟨z, List.mem_filter.mpr ⟨h1, ?_⟩, rfl⟩))
    exact decide_eq_true ⟨h2, h3⟩

instance (elf : Elf) (dbgsym : Option Elf) (sec : ElfSec) (s : Symbol) (n : Addr) : Decidable (Stored elf dbgsym sec s n) :=
  decidable_of_iff ((TLS.virt_addr s.address - sec.virt_addr).toNat + n.toNat ≤ sec.data.length ∧
    ∀ o ∈ allRelative elf dbgsym, s.address ≤ o → o.toNat < (TLS.virt_addr s.address).toNat + n.toNat →
      (o - sec.virt_addr).toNat + 8 ≤ sec.data.length) ⟨fun ⟨h1, h2⟩ => ⟨h1, h2⟩, fun ⟨h1, h2⟩ => ⟨h1, h2⟩⟩

instance (elf : Elf) (dbgsym : Option Elf) (t : SymTree) (sec : ElfSec) (s : Symbol) (n : Addr) :
    Decidable (CodeWithin elf dbgsym t sec s n) :=
  decidable_of_iff (Stored elf dbgsym sec s n ∧ s.address.toNat + n.toNat < 2 ^ 64 ∧ ∃ z ∈ t, s.address + n ≤ z.address)
    ⟨fun ⟨h1, h2, h3⟩ => ⟨h1, h2, h3⟩, fun ⟨h1, h2, h3⟩ => ⟨h1, h2, h3⟩⟩

instance (sec : ElfSec) (seg : ElfSeg) (a : Addr) : Decidable (NoContent sec seg a) := by unfold NoContent; infer_instance

instance (env : Env) (elf : Elf) (dbgsym : Option Elf) (sec : ElfSec) (seg : ElfSeg) (s : Symbol) (n : Addr) :
    Decidable (DataWithin env elf dbgsym sec seg s n) :=
  decidable_of_iff ((TLS.virt_addr s.address).toNat + n.toNat ≤ (env.align_up (seg.virt_addr + seg.virt_size) seg.alignment).toNat ∧
      (¬ NoContent sec seg (TLS.virt_addr s.address) → Stored elf dbgsym sec s n) ∧
      (¬ NoContent sec seg (TLS.virt_addr s.address) → ∀ e ∈ allRelocations elf dbgsym,
        (TLS.virt_addr s.address).toNat ≤ e.offset.toNat → e.offset.toNat < (TLS.virt_addr s.address).toNat + n.toNat →
        e.offset.toNat + (env.reloc_size e.type).toNat ≤ (TLS.virt_addr s.address).toNat + n.toNat) ∧
      (¬ NoContent sec seg (TLS.virt_addr s.address) → ∀ o ∈ allRelative elf dbgsym,
        s.address ≤ o → o.toNat < (TLS.virt_addr s.address).toNat + n.toNat →
        o.toNat + (env.reloc_size R_X86_64_RELATIVE).toNat ≤ (TLS.virt_addr s.address).toNat + n.toNat))
    ⟨fun ⟨h1, h2, h3, h4⟩ => ⟨h1, h2, h3, h4⟩, fun ⟨h1, h2, h3, h4⟩ => ⟨h1, h2, h3, h4⟩⟩

instance (elf : Elf) (sec : ElfSec) (a : Addr) (seg : ElfSeg) : Decidable (SegmentFor elf sec a seg) := by
  unfold SegmentFor; infer_instance

instance (elf : Elf) (a : Addr) (sec : ElfSec) : Decidable (SectionOf elf a sec) :=
  decidable_of_iff (Loaded elf sec ∧ (secStart sec).toNat ≤ a.toNat ∧ ∀ sec' ∈ elf.sections, Loaded elf sec' →
      (secStart sec').toNat ≤ a.toNat → sec' = sec ∨ (secStart sec').toNat < (secStart sec).toNat)
    ⟨fun ⟨h1, h2, h3⟩ => ⟨h1, h2, fun sec' h => h3 sec' h.1 h⟩, fun ⟨h1, h2, h3⟩ => ⟨h1, h2, fun sec' _ h => h3 sec' h⟩⟩

/-- Decidable condition for `Within`. -/
def WithinB (env : Env) (elf : Elf) (dbgsym : Option Elf) (t : SymTree) (s : Symbol) (sec : ElfSec) : Prop :=
  SectionOf elf s.address sec ∧ s.address ≤ secEnd env sec ∧
  (IsCode sec s → sec.tls = false ∧ TLS.is_tls s.address = false ∧ ∀ n ∈ sizesFor env t sec s, CodeWithin elf dbgsym t sec s n) ∧
  (¬ IsCode sec s → ∃ seg ∈ elf.segments, SegmentFor elf sec (TLS.virt_addr s.address) seg ∧
    ∀ n ∈ sizesFor env t sec s, DataWithin env elf dbgsym sec seg s n)

instance (env : Env) (elf : Elf) (dbgsym : Option Elf) (t : SymTree) (s : Symbol) (sec : ElfSec) :
    Decidable (WithinB env elf dbgsym t s sec) := by unfold WithinB; infer_instance

theorem within_of {env : Env} {elf : Elf} {dbgsym : Option Elf} {t : SymTree} {s : Symbol} {sec : ElfSec}
    (h : WithinB env elf dbgsym t s sec) : Within env elf dbgsym t s sec := by
  obtain ⟨h1, h2, h3, h4⟩ := h
  refine ⟨h1, h2, fun hx => ?_, fun hx => ?_⟩
  · obtain ⟨h5, h6, h7⟩ := h3 hx
    exact ⟨h5, h6, fun n hn => h7 n (sizesFor_mem hn)⟩
  · obtain ⟨seg, _, h5, h6⟩ := h4 hx
    exact ⟨seg, h5, fun n hn => h6 n (sizesFor_mem hn)⟩

/-- Decidable condition for `Contained`; `z` is the symbol in front of everything. -/
def ContainedB (env : Env) (fl : AnalyzeFlags) (elf : Elf) (dbgsym : Option Elf) (t : SymTree) : Prop :=
  (∀ s ∈ t, ∃ sec ∈ elf.sections, WithinB env elf dbgsym t s sec) ∧
  (fl.reconstruct = true → ∃ z ∈ t, z.name ≠ none ∧
    (∀ e ∈ allRelocations elf dbgsym, (relOfElf env 0 fl.resolve_internal (gotAddress elf) e).target = 0 ∨
      z.address ≤ (relOfElf env 0 fl.resolve_internal (gotAddress elf) e).target) ∧
    (∀ o ∈ allRelative elf dbgsym, ∀ sec ∈ elf.sections,
      leValue ((sec.data.drop (o - sec.virt_addr).toNat).take 8) = 0 ∨
      z.address ≤ leValue ((sec.data.drop (o - sec.virt_addr).toNat).take 8)) ∧
    ∀ s ∈ t, ∀ sec ∈ elf.sections, SectionOf elf s.address sec → ∀ n ∈ sizesFor env t sec s,
      ∀ a ∈ codeRels env (tlsEnd env (tlsSegment elf))
        (disasm env s.address ((sec.data.drop (s.address - sec.virt_addr).toNat).take n.toNat)), a.target = 0 ∨ z.address ≤ a.target)

instance (env : Env) (fl : AnalyzeFlags) (elf : Elf) (dbgsym : Option Elf) (t : SymTree) :
    Decidable (ContainedB env fl elf dbgsym t) := by unfold ContainedB; infer_instance

theorem contained_of {env : Env} {fl : AnalyzeFlags} {elf : Elf} {dbgsym : Option Elf} {t : SymTree}
    (h : ContainedB env fl elf dbgsym t) : Contained env fl elf dbgsym t := by
  obtain ⟨h1, h2⟩ := h
  refine ⟨fun s hs => ?_, fun hr => ?_⟩
  · obtain ⟨sec, _, h⟩ := h1 s hs
    exact ⟨sec, within_of h⟩
  · obtain ⟨z, hz, hn, h3, h4, h5⟩ := h2 hr
    refine ⟨z, hz, hn, fun a ha => ?_⟩
    cases ha with
    | relocation e a he => exact h3 e he
    | packed o sec ho hsec => exact h4 o ho sec hsec
    | code s sec n x op offset size target hs hsec hsize hx hop href =>
      have main : ∃ b ∈ operandRels (tlsEnd env (tlsSegment elf)) (env.kind x.insn.id) x.insn op, b.target = a := by
        rcases href with href | href
        · obtain ⟨b, hb, hpc⟩ := operandRels_pc href
          exact ⟨b, hb, hpc.target⟩
        · cases href with
          | fs => exact ⟨_, List.mem_append_left _ (by rw [if_pos rfl]; exact List.mem_singleton.mpr rfl), rfl⟩
      obtain ⟨b, hb, rfl⟩ := main
      exact h5 s hs sec hsec.loaded.1 hsec n (sizesFor_mem hsize) b (mem_codeRels.mpr ⟨x, hx, op, hop, hb⟩)

/-! ### Example -/

/-- The file of the examples for the reconstruction. -/
def totElf : Elf := rexElf rexCode (rexData ".data") [] rexSyms


/-- The symbols before relocations and identifiers are determined. -/
def totSym (a size : Addr) (name : Option String) (type : SymType) (bind : SymBind) (flags : BitVec 16) (sec : Section) : Symbol where
  address := a
  size := size
  name := name
  type := type
  bind := bind
  flags := flags
  sec := sec

def totSyms : SymTree :=
  [totSym 0x1000 16 (some "main") .func .global SYMBOL_ENTRY (imgSec 0x1000 ".text" false true 0),
   totSym 0x1010 1 (some "f") .func .local 0 (imgSec 0x1000 ".text" false true 0),
   totSym 0x1011 0 none .unknown .local 0 {},
   totSym 0x2000 8 (some "v") .object .local 0 (imgSec 0x2000 ".data" true false 0),
   totSym 0x2008 0 none .unknown .local 0 {}]

theorem tot_within : ContainedB rexEnv { reconstruct := true } totElf none totSyms := by decide +kernel

theorem tot_contained : ∀ st, gather rexEnv { reconstruct := true } totElf none = .ok st →
    Contained rexEnv { reconstruct := true } totElf none st.symbols := by
  intro st h
  obtain ⟨st', h', hp⟩ := ok_such (m := gather rexEnv { reconstruct := true } totElf none)
    (P := fun st => decide (st.symbols = totSyms)) (by decide +kernel)
  rw [h] at h'
  cases h'
  rw [of_decide_eq_true hp]
  exact contained_of tot_within

/-- The entries of the symbol tables. -/
def tableEntries (d : Elf) : List ElfSym :=
  (d.sections.filter (fun tbl => decide ((tbl.type = .symtab ∨ tbl.type = .dynsym) ∧ tbl.size ≠ 0))).flatMap (·.symbols)

theorem tableEntries_mem {d : Elf} {sym : ElfSym} (h : TableEntry d sym) : sym ∈ tableEntries d := by
  obtain ⟨tbl, h1, h2, h3, h4⟩ := h
  exact List.mem_flatMap.mpr ⟨tbl, List.mem_filter.mpr ⟨h1, decide_eq_true ⟨h2, h3⟩⟩, h4⟩

/-- The section of an entry. -/
def entrySection (d : Elf) (sym : ElfSym) : Option ElfSec :=
  match sym.shndx with
  | .index n => d.sections[n]?
  | _ => none

theorem entrySection_of {d : Elf} {sym : ElfSym} {sec : ElfSec} (h : InSection d.sections sym sec) :
    entrySection d sym = some sec := by
  obtain ⟨n, h1, h2⟩ := h
  unfold entrySection
  rw [h1]
  exact h2

/-- A statement on all entries of the tables and their sections. -/
theorem entries_all {d : Elf} (P : ElfSym → ElfSec → Bool)
    (h : (tableEntries d).all (fun sym => match entrySection d sym with | some sec => P sym sec | none => true) = true) :
    ∀ sym, TableEntry d sym → ∀ sec, InSection d.sections sym sec → P sym sec = true := by
  intro sym hs sec hsec
  have := List.all_eq_true.mp h sym (tableEntries_mem hs)
  rw [entrySection_of hsec] at this
  exact this

theorem part_none {elf d : Elf} (h : Part elf none d) : d = elf := h.resolve_right (fun h => by cases h)

theorem tot_legible : Legible totElf none where
  distinct := rexElf_distinct _ _ _ _
  tls := by decide
  segments := by decide
  index := by
    intro d hd sym hs n hn
    rw [part_none hd] at hs ⊢
    have : (tableEntries totElf).all (fun sym => match sym.shndx with
      | .index n => decide (n < totElf.sections.length)
      | _ => true) = true := by decide
    have := List.all_eq_true.mp this sym (tableEntries_mem hs)
    rw [hn] at this
    exact of_decide_eq_true this
  thread := by
    intro d hd sym hs sec hsec ht
    rw [part_none hd] at hs hsec
    exact absurd ht (of_decide_eq_true
      (entries_all (fun sym _ => decide (sym.type ≠ .tls)) (by decide) sym hs sec hsec))
  other := by
    intro d hd sym hs sec hsec _
    rw [part_none hd] at hs hsec
    exact of_decide_eq_true (entries_all (fun sym sec => decide (TLS.is_tls sym.value = false ∧
      (sym.type ≠ .notype → sec.virt_addr ≤ sym.value) ∧ PlainAt sec (TLS.trans_addr sym.value sec.tls))) (by decide +kernel)
      sym hs sec hsec)
  agree := by
    intro d hd sym hs d' hd' sym' hs' _ _ sec sec' k h1 h2
    rw [part_none hd] at hs h1
    rw [part_none hd'] at hs' h2
    have key : ∀ sym, TableEntry totElf sym → ∀ sec, InSection totElf.sections sym sec →
        (sec.writeable = decide (0x2000#64 ≤ TLS.trans_addr sym.value sec.tls) ∧
         sec.executable = !decide (0x2000#64 ≤ TLS.trans_addr sym.value sec.tls)) ∧ sym.type ≠ .tls := fun sym hs sec hsec =>
      of_decide_eq_true (entries_all (fun sym sec => decide ((sec.writeable = decide (0x2000#64 ≤ TLS.trans_addr sym.value sec.tls) ∧
         sec.executable = !decide (0x2000#64 ≤ TLS.trans_addr sym.value sec.tls)) ∧ sym.type ≠ .tls)) (by decide +kernel) sym hs sec hsec)
    obtain ⟨⟨e1, e2⟩, e3⟩ := key sym hs sec h1.1
    obtain ⟨⟨e1', e2'⟩, e3'⟩ := key sym' hs' sec' h2.1
    rcases h1.2 with ⟨h, _⟩ | ⟨_, _, _, hk⟩
    · exact absurd h e3
    · rcases h2.2 with ⟨h, _⟩ | ⟨_, _, _, hk'⟩
      · exact absurd h e3'
      · rw [e1, e1', e2, e2', ← hk, ← hk']
        exact ⟨rfl, rfl⟩
  relative := by
    intro rel hrel
    have : allRelocations totElf none = [] := by decide +kernel
    rw [this] at hrel
    cases hrel
  packed := by
    intro o ho
    have : allRelative totElf none = [] := by decide +kernel
    rw [this] at ho
    cases ho

theorem tot_steps {sec : ElfSec} {steps : List Step}
    (h : SectionCode rexEnv { sections := Tree.ofList (loadedSections totElf.sections) } sec steps) :
    sec = rexText rexCode ∧ steps = disasm rexEnv 0x1000 rexCode := by
  obtain ⟨h1, h2, bytes, h3, h4⟩ := h
  have h5 : sec = rexText rexCode := by
    rcases rexElf_loaded (mem_loadedSections.mp (mem_ofList h1)) with h | h
    · exact h
    · rw [h] at h2; cases h2
  subst h5
  have : readBytes (rexText rexCode).data 0 (rexText rexCode).size = .ok rexCode := by rfl
  rw [this] at h3
  cases h3
  exact ⟨rfl, h4⟩

theorem tot_plain : Spec.PlainCode rexEnv { reconstruct := true }
    { sections := Tree.ofList (loadedSections totElf.sections), relocations := Tree.ofList (allRelocations totElf none) } where
  names := by
    intro sec steps hc hn
    exact absurd hn (by simp [namesPlt])
  plain := by decide +kernel
  steps := by
    intro sec steps hc
    obtain ⟨rfl, rfl⟩ := tot_steps hc
    decide +kernel
  operands := by
    intro sec steps hc
    obtain ⟨rfl, rfl⟩ := tot_steps hc
    decide +kernel
  targets := by
    intro sec steps hc x hx _ t ht target _ _
    rw [(tot_steps hc).2] at hx
    exact of_decide_eq_true (allTargets_of (p := fun _ t => decide (TLS.is_tls t = false)) (by decide +kernel) x hx t ht)

example : ∃ r, analyze rexEnv { reconstruct := true } totElf none = .ok r :=
  C93_completes_partial rexEnv { reconstruct := true } totElf none tot_legible tot_plain (fun _ => rexEnv_sane) tot_contained

/-! ### The conditions are needed -/

/-- C93: conversely, each symbol of a result of a debug build lies in a section of the file or at its end. -/
theorem C93_located (env : Env) (fl : AnalyzeFlags) (elf : Elf) (dbgsym : Option Elf) (r : AState) (hb : env.build = .debug)
    (hd : DistinctSections elf) (h : analyze env fl elf dbgsym = .ok r) :
    ∀ s ∈ r.symbols, ∃ sec, SectionOf elf s.address sec ∧ s.address ≤ secEnd env sec := by
  intro s hs
  obtain ⟨st0, st, t, s1, s2, s3, hg, hi⟩ := analyze_ok h
  obtain ⟨f, e⟩ := hi.ids
  rw [e] at hs
  obtain ⟨y3, h3, rfl⟩ := List.mem_map.mp hs
  have es := hashExternal_closed hi.ok2.sorted hi.external
  rw [es] at h3
  obtain ⟨y2, h2, rfl⟩ := List.mem_map.mp h3
  obtain ⟨_, hin, _⟩ := hashInternal_ok hi.ok1 hi.internal
  obtain ⟨i, y1, x, hy1, hx, _, rfl⟩ := (hin y2).mp h2
  obtain ⟨sec, z, h4, h5, _⟩ := hashSymbol_ok hx
  obtain ⟨n, _, _, _, _, h6⟩ := sizeSymbol_ok h5
  have h7 := (h6 hb).2
  have ha : (finishSymbol env fl x).address = y1.address := by
    have := (hashSymbol_same (hi.ok1.rels y1 (List.mem_of_getElem? hy1)) hx).1.address
    unfold finishSymbol
    split <;> exact this
  have e1 : s1.sections = Tree.ofList (loadedSections elf.sections) := by rw [hi.same1]; exact hg.sections
  rw [e1] at h4
  rw [(adoptSection_same sec y1).1.address] at h7
  show ∃ sec, SectionOf elf (finishSymbol env fl x).address sec ∧ (finishSymbol env fl x).address ≤ secEnd env sec
  rw [ha]
  exact ⟨sec, floor_section hd h4, BitVec.le_def.mpr h7⟩

example : ∃ r, analyze rexEnv { reconstruct := true } totElf none = .ok r ∧
    ∀ s ∈ r.symbols, ∃ sec, SectionOf totElf s.address sec ∧ s.address ≤ secEnd rexEnv sec := by
  obtain ⟨r, h⟩ := C93_completes_partial rexEnv { reconstruct := true } totElf none tot_legible tot_plain
    (fun _ => rexEnv_sane) tot_contained
  exact ⟨r, h, C93_located rexEnv { reconstruct := true } totElf none r rfl (rexElf_distinct _ _ _ _) h⟩

/-- The memory that is protected after relocation, up to the end of a page behind the last section. -/
def totRelro : ElfSeg where
  type := .gnuRelro
  virt_addr := 0x2000
  size := 0x10
  virt_size := 0x10

/-- C93: files that violate the conditions are not analysed: the end of a protected region behind its last section, a
symbol with a size that exceeds its section, a symbol in front of all sections, and a symbol with an index behind the section table. -/
theorem C93_counterexample :
    analyze rexEnv {} (rexElf rexCode (rexData ".data") [] rexSyms [totRelro]) none = .error .assert ∧
    analyze rexEnv {} (rexElf rexCode (rexData ".data") [] [imgVar 0x2000 0x100 "w" 2]) none = .error .assert ∧
    analyze rexEnv {} (rexElf rexCode (rexData ".data") [] [imgFunc 0x800 4 "w" .global]) none = .error .assert ∧
    analyze rexEnv {} (rexElf rexCode (rexData ".data") [] [imgVar 0x2000 8 "w" 9]) none = .error .ub := by
  have key : ∀ (m : M AState) (f : Fault), (match m with | .ok _ => false | .error e => decide (e = f)) = true → m = .error f := by
    intro m f h
    cases m with
    | ok x => cases h
    | error e => rw [of_decide_eq_true h]
  refine ⟨key _ _ ?_, key _ _ ?_, key _ _ ?_, key _ _ ?_⟩ <;> decide +kernel

end Bean

import Verif.Props.Targets
import Verif.Props.Insert
/-
C31 for results of the complete analysis: flags of regions announced by the file.
-/
namespace Bean
open Tree Spec Props

/-- A region announced by the segments or sections of the file. -/
def Announced (elf : Elf) (f : SectionFlag) : Prop :=
  (∃ seg ∈ elf.segments, SegAnnounces seg f) ∨ ∃ sec ∈ elf.sections, SecAnnounces sec f

theorem gather_regions {env : Env} {fl : AnalyzeFlags} {elf : Elf} {dbgsym : Option Elf} {st : AState}
    (h : gather env fl elf dbgsym = .ok st) (f : SectionFlag) : f ∈ st.section_flags ↔ Announced elf f := by
  unfold gather at h
  cases h1 : readSegments env.build {} elf.segments with
  | error e => rw [h1] at h; cases h
  | ok s1 =>
    simp only [bind, Except.bind, h1] at h
    cases h2 : readSections env.build true s1 elf.sections with
    | error e => rw [h2] at h; cases h
    | ok s2 =>
      simp only [h2] at h
      cases h3 : readDebug env.build s2 dbgsym with
      | error e => rw [h3] at h; cases h
      | ok s3 =>
        simp only [h3] at h
        cases h4 : readTargets env.build s3 with
        | error e => rw [h4] at h; cases h
        | ok s4 =>
          simp only [h4] at h
          cases h5 : findFunctions env fl s4 with
          | error e => rw [h5] at h; cases h
          | ok s5 =>
            simp only [h5] at h
            cases h
            show f ∈ s5.section_flags ↔ _
            have e5 : s5.section_flags = s3.section_flags := by
              rw [(findFunctions_touch h5).1]
              show s4.section_flags = _
              rw [(readTargets_touch h4).1]
            have e3 : f ∈ s3.section_flags ↔ f ∈ s2.section_flags := by
              cases dbgsym with
              | none => cases h3; exact Iff.rfl
              | some d =>
                rw [C31_section_regions env.build false s2 s3 d.sections h3 f]
                simp
            rw [e5, e3, C31_section_regions env.build true s1 s2 _ h2 f, C31_segment_regions env.build {} s1 _ h1 f]
            unfold Announced
            simp

/-- The flags of a section before the regions are considered. -/
theorem gathered_region_flags {env : Env} {fl : AnalyzeFlags} {elf : Elf} {dbgsym : Option Elf} {st1 st : AState} {t : SymTree}
    (h : Gathered env fl elf dbgsym st1 st t) : ∀ s ∈ st.symbols, ∀ m : BitVec 16, s.sec.flags &&& m ≠ 0#16 ↔
      ∃ f ∈ st.section_flags, f.flag &&& m ≠ 0#16 ∧ s.address ≥ f.start ∧ s.address + s.size < f.start + f.size := by
  obtain ⟨h1, _, _, _⟩ := gathered_facts h
  have z1 : ∀ s ∈ st1.symbols, s.sec.flags = 0 :=
    h.read.inv (P := fun s => s.sec.flags = 0) (fun _ => rfl) (fun _ _ h => h) (fun _ _ h => h) sorted_nil (fun _ h => by cases h)
  have z2 : ∀ s ∈ t, s.sec.flags = 0 :=
    h.touch.inv (P := fun s => s.sec.flags = 0) (fun _ => rfl) (fun _ _ h => h) (fun _ _ h => h) h1 z1
  intro s hs m
  have efl : st.section_flags = st1.section_flags := by rw [h.result]
  rw [h.result] at hs
  replace hs : s ∈ addFlags elf.entry st1.section_flags t := hs
  obtain ⟨s0, hs0, rfl⟩ := addFlags_mem.mp hs
  generalize hs1 : (if s0.address = elf.entry then { s0 with flags := s0.flags ||| SYMBOL_ENTRY } else s0) = s1
  have e : s1.sec = s0.sec := by
    rw [← hs1]; split <;> rfl
  obtain ⟨x, q1, q2, q3, q4⟩ := flagSymbol_base st1.section_flags s1
  obtain ⟨⟨fl', q5⟩, q6⟩ := regionFlags_spec st1.section_flags m x
  have hz : ¬ x.sec.flags &&& m ≠ 0#16 := by
    rw [q2, e, z2 s0 hs0]; simp
  have ha : (flagSymbol st1.section_flags s1).address = x.address := by rw [q1, q5]
  have hn : (flagSymbol st1.section_flags s1).size = x.size := by rw [q1, q5]
  rw [ha, hn, q1, q6, efl]
  constructor
  · rintro (h | h)
    · exact absurd h hz
    · exact h
  · exact Or.inr

/-- The first state of a symbol of the result: same address and section flags, no larger size. -/
theorem final_section {env : Env} {fl : AnalyzeFlags} {elf : Elf} {dbgsym : Option Elf} {st s1 s2 s3 r : AState}
    (f : Stages env fl elf dbgsym st s1 s2 s3 r) {s : Symbol} (hs : s ∈ r.symbols) :
    ∃ s0 ∈ st.symbols, s0.address = s.address ∧ s0.size.toNat ≤ s.size.toNat ∧ s.sec.flags = s0.sec.flags := by
  obtain ⟨x, hx, k, _⟩ := f.kept s hs
  obtain ⟨_, hmem, _⟩ := hashInternal_ok f.run.ok1 f.run.internal
  obtain ⟨i, x1, y, a1, a2, a3, a4⟩ := (hmem x).mp hx
  have hx1 := List.mem_of_getElem? a1
  obtain ⟨hsame, _, sec, w, b1, b2, b3, b4, _⟩ := hashSymbol_same (f.run.ok1.rels x1 hx1) a2
  obtain ⟨n, c1, c2, _⟩ := sizeSymbol_ok b4
  rw [finish_used a3] at a4
  have exs : x.sec = y.sym.sec := by rw [a4]
  have exa : x.address = y.sym.address := by rw [a4]
  have exz : x.size = y.sym.size := by rw [a4]
  have had := adoptSection_same sec x1
  have e1 : s.address = x1.address := by rw [← k.address, exa, hsame.address]
  have e2 : x1.size.toNat ≤ s.size.toNat := by
    rw [← k.size, exz]
    rw [had.2.1] at c2
    rw [c1] at b2
    have : n = y.sym.size := congrArg Symbol.size b2
    rw [← this]
    exact c2
  have e3 : s.sec.flags = x1.sec.flags := by
    rw [← k.sec, exs, b3, b2]
    exact had.2.2.2.2.2
  rw [e1, e3]
  rcases f.run.first with ⟨_, hrec⟩ | ⟨_, he⟩
  · obtain ⟨_, z⟩ := reconstruct_ok hrec
    obtain ⟨s0, h0, hr⟩ := zip_mem_right z hx1
    have hao := fun sec => adoptSection_same sec s0
    refine ⟨s0, h0, ?_⟩
    cases hr with
    | plt sec' hf hp he =>
      subst he
      rw [(hao sec').2.1] at e2
      exact ⟨(hao sec').1.address.symm, e2, (hao sec').2.2.2.2.2⟩
    | code sec' last u hf hp h1 h2 =>
      obtain ⟨n', e4, e5, _⟩ := sizeSymbol_ok h1
      have e6 := reconstructCode_form h2
      have e7 : x1.size = n' := by rw [e6, e4]
      rw [(hao sec').2.1] at e5
      refine ⟨?_, by rw [e7] at e2; omega, ?_⟩
      · rw [e6, e4]; exact (hao sec').1.address.symm
      · rw [e6, e4]; exact (hao sec').2.2.2.2.2
  · rw [he] at hx1
    exact ⟨x1, hx1, rfl, e2, rfl⟩

/-- C31: a flag of the section of a symbol is announced by the file for a region the symbol starts in. (The size may exceed
the region, see `C31_grown`.) -/
theorem C31_files_sound_partial (env : Env) (fl : AnalyzeFlags) (elf : Elf) (dbgsym : Option Elf) (r : AState)
    (h : analyze env fl elf dbgsym = .ok r) (hfit : ∀ f, Announced elf f → FlagFits f) (s : Symbol) (hs : s ∈ r.symbols)
    (hw : NoWrap s) (m : BitVec 16) (hm : s.sec.flags &&& m ≠ 0#16) :
    ∃ f, Announced elf f ∧ f.flag &&& m ≠ 0#16 ∧ f.start.toNat ≤ s.address.toNat ∧
      s.address.toNat < f.start.toNat + f.size.toNat := by
  obtain ⟨st, s1, s2, s3, g⟩ := stages h
  obtain ⟨s0, h0, e1, e2, e3⟩ := final_section g hs
  obtain ⟨st0, t, hg⟩ := gather_ok g.file
  rw [e3] at hm
  obtain ⟨f, hf, h1, h2, h3⟩ := (gathered_region_flags hg s0 h0 m).mp hm
  have ha := (gather_regions g.file f).mp hf
  refine ⟨f, ha, h1, ?_, ?_⟩
  · rw [← e1]; exact BitVec.le_def.mp h2
  · have hff := hfit f ha
    unfold FlagFits at hff
    unfold NoWrap at hw
    rw [e1, BitVec.lt_def, BitVec.toNat_add, BitVec.toNat_add] at h3
    rw [Nat.mod_eq_of_lt (by omega), Nat.mod_eq_of_lt hff] at h3
    omega

/-- C31: a symbol inside of a region announced by the file carries the flag, if it does not extend up to the end of the
region. -/
theorem C31_files_complete_partial (env : Env) (fl : AnalyzeFlags) (elf : Elf) (dbgsym : Option Elf) (r : AState)
    (h : analyze env fl elf dbgsym = .ok r) (f : SectionFlag) (ha : Announced elf f) (hff : FlagFits f)
    (s : Symbol) (hs : s ∈ r.symbols) (hin : Inside s f)
    (hend : s.address.toNat + s.size.toNat ≠ f.start.toNat + f.size.toNat) (m : BitVec 16) (hm : f.flag &&& m ≠ 0#16) :
    s.sec.flags &&& m ≠ 0#16 := by
  obtain ⟨st, s1, s2, s3, g⟩ := stages h
  obtain ⟨s0, h0, e1, e2, e3⟩ := final_section g hs
  obtain ⟨st0, t, hg⟩ := gather_ok g.file
  rw [e3]
  refine (gathered_region_flags hg s0 h0 m).mpr ⟨f, (gather_regions g.file f).mpr ha, hm, ?_, ?_⟩
  · rw [e1]; exact BitVec.le_def.mpr hin.1
  · unfold FlagFits at hff
    have := hin.2
    rw [e1, BitVec.lt_def, BitVec.toNat_add, BitVec.toNat_add]
    rw [Nat.mod_eq_of_lt (by omega), Nat.mod_eq_of_lt hff]
    omega

/-- C31: the addresses of thread-local symbols carry a mark that the regions do not have. Such symbols have no flags, whatever
the file announces for the segment with their initial values. -/
theorem C31_thread_local (env : Env) (fl : AnalyzeFlags) (elf : Elf) (dbgsym : Option Elf) (r : AState)
    (h : analyze env fl elf dbgsym = .ok r)
    (hfit : ∀ f, Announced elf f → f.start.toNat + f.size.toNat ≤ 2 ^ 52) (s : Symbol) (hs : s ∈ r.symbols)
    (hw : NoWrap s) (ht : TLS.is_tls s.address = true) : s.sec.flags = 0#16 := by
  refine Classical.byContradiction (fun hne => ?_)
  obtain ⟨f, ha, _, _, h2⟩ := C31_files_sound_partial env fl elf dbgsym r h
    (fun f ha => Nat.lt_of_le_of_lt (hfit f ha) (by decide)) s hs hw (BitVec.allOnes 16) (by rw [BitVec.and_allOnes]; exact hne)
  have hlt : s.address.toNat < 2 ^ 52 := Nat.lt_of_lt_of_le h2 (hfit f ha)
  have hz : s.address &&& TLS.ADDRESS_FLAG = 0#64 := by
    apply BitVec.eq_of_getLsbD_eq
    intro i hi
    rw [BitVec.getLsbD_and]
    by_cases h52 : i < 52
    · have : ∀ j : Fin 52, TLS.ADDRESS_FLAG.getLsbD j.val = false := by decide
      rw [this ⟨i, h52⟩]
      simp
    · have : s.address.getLsbD i = false := by
        rw [BitVec.getLsbD]
        exact Nat.testBit_lt_two_pow (Nat.lt_of_lt_of_le hlt (Nat.pow_le_pow_right (by decide) (by omega)))
      rw [this]
      simp
  rw [(TLS.is_tls_eq_false_iff s.address).mpr hz] at ht
  cases ht

/-! ### A file with a region that ends within and at the end of symbols -/

def regText : ElfSec where
  name := ".text"
  virt_addr := 0x1000
  size := 1
  executable := true
  data := [0xc3]

def regData : ElfSec where
  name := ".data"
  virt_addr := 0x2000
  size := 0x20
  writeable := true
  data := List.replicate 32 0

/-- A region with the first sixteen bytes of the data. -/
def regSeg (ty : SegType) : ElfSeg where
  type := ty
  offset := 0x200
  virt_addr := 0x2000
  size := 16
  virt_size := 16

def regLoad : ElfSeg where
  type := .load
  offset := 0x100
  virt_addr := 0x1000
  size := 1
  virt_size := 1
  executable := true

def regLoadData : ElfSeg where
  type := .load
  offset := 0x200
  virt_addr := 0x2000
  size := 0x20
  virt_size := 0x20
  writeable := true

/-- The file with two variables of eight bytes, the second one at the given address. -/
def regElf (ty : SegType) (b : Addr) : Elf where
  entry := 0x1000
  segments := [regLoad, regLoadData, regSeg ty]
  sections := [runTable [], regText, regData,
    runTable [imgFunc 0x1000 1 "main" .global, imgVar 0x2000 8 "a" 2, imgVar b 8 "b" 2]]

def regFlag (flag : BitVec 16) : SectionFlag := { flag := flag, start := 0x2000, size := 16 }

theorem reg_announced (b : Addr) (f : SectionFlag) :
    (Announced (regElf .gnuRelro b) f ↔ f = regFlag SECTION_RELRO) ∧ (Announced (regElf .note b) f ↔ f = regFlag SECTION_NOTE) := by
  have hsec : ∀ ty, ¬ ∃ sec ∈ (regElf ty b).sections, SecAnnounces sec f := by
    rintro ty ⟨sec, h1, _, h3, _, _, h4⟩
    simp only [regElf, List.mem_cons, List.not_mem_nil, or_false] at h1
    rcases h1 with rfl | rfl | rfl | rfl
    · cases h3
    · simp [specialTypes, regText] at h4
    · simp [specialTypes, regData] at h4
    · cases h3
  have hload : ∀ seg : ElfSeg, seg.type = .load → ¬ seg.size < seg.virt_size → ¬ SegAnnounces seg f := by
    rintro seg h1 h2 (⟨_, h, _⟩ | ⟨_, _, ⟨h, _⟩ | ⟨h, _⟩ | ⟨h, _⟩ | ⟨h, _⟩⟩ | ⟨h, _⟩)
    · exact h2 h
    all_goals rw [h1] at h; cases h
  have key : ∀ ty flag, (SegAnnounces (regSeg ty) f ↔ f = regFlag flag) → (Announced (regElf ty b) f ↔ f = regFlag flag) := by
    intro ty flag hk
    unfold Announced
    rw [← hk]
    constructor
    · rintro (⟨seg, h1, h2⟩ | h)
      · simp only [regElf, List.mem_cons, List.not_mem_nil, or_false] at h1
        rcases h1 with rfl | rfl | rfl
        · exact absurd h2 (hload _ rfl (by decide))
        · exact absurd h2 (hload _ rfl (by decide))
        · exact h2
      · exact absurd h (hsec ty)
    · exact fun h => Or.inl ⟨regSeg ty, by simp [regElf], h⟩
  constructor
  · refine key _ _ ?_
    cases f
    simp [SegAnnounces, regSeg, regFlag]
    constructor
    · rintro ⟨rfl, rfl, rfl⟩; exact ⟨rfl, rfl, rfl⟩
    · rintro ⟨rfl, rfl, rfl⟩; exact ⟨rfl, rfl, rfl⟩
  · refine key _ _ ?_
    cases f
    simp [SegAnnounces, regSeg, regFlag]
    constructor
    · rintro ⟨rfl, rfl, rfl⟩; exact ⟨rfl, rfl, rfl⟩
    · rintro ⟨rfl, rfl, rfl⟩; exact ⟨rfl, rfl, rfl⟩

/-- A symbol with the size and section flags. -/
def hasRegion (r : AState) (a n : Addr) (flags : BitVec 16) : Bool :=
  r.symbols.any (fun s => decide (s.address = a ∧ s.size = n ∧ s.sec.flags = flags))

theorem hasRegion_iff {r : AState} {a n : Addr} {flags : BitVec 16} (h : hasRegion r a n flags = true) :
    ∃ s ∈ r.symbols, s.address = a ∧ s.size = n ∧ s.sec.flags = flags := by
  unfold hasRegion at h
  rw [List.any_eq_true] at h
  obtain ⟨s, hs, h⟩ := h
  exact ⟨s, hs, of_decide_eq_true h⟩

/-- The first variable carries the flag, as it has to. -/
example : ∃ r, analyze exEnv {} (regElf .gnuRelro 0x2008) none = .ok r ∧ ∃ s ∈ r.symbols, s.address = 0x2000 ∧
    Inside s (regFlag SECTION_RELRO) ∧ s.sec.flags &&& SECTION_RELRO ≠ 0#16 := by
  obtain ⟨r, h, hp⟩ := ok_such (m := analyze exEnv {} (regElf .gnuRelro 0x2008) none)
    (P := fun r => hasRegion r 0x2000 8 SECTION_RELRO) (by decide +kernel)
  obtain ⟨s, hs, e1, e2, _⟩ := hasRegion_iff hp
  have hin : Inside s (regFlag SECTION_RELRO) := by unfold Inside; rw [e1, e2]; decide
  exact ⟨r, h, s, hs, e1, hin, C31_files_complete_partial exEnv {} _ none r h _ ((reg_announced _ _).1.mpr rfl)
    (by unfold FlagFits; decide) s hs hin (by rw [e1, e2]; decide) _ (by decide)⟩

/-- C31: completeness fails for the whole analysis as well. The second variable is in the region, but has no flag. -/
theorem C31_files_counterexample : ∃ r, analyze exEnv {} (regElf .gnuRelro 0x2008) none = .ok r ∧ ∃ s ∈ r.symbols,
    Announced (regElf .gnuRelro 0x2008) (regFlag SECTION_RELRO) ∧ Inside s (regFlag SECTION_RELRO) ∧
    s.sec.flags = 0#16 ∧ s.sec.writeable = true := by
  obtain ⟨r, h, hp⟩ := ok_such (m := analyze exEnv {} (regElf .gnuRelro 0x2008) none)
    (P := fun r => r.symbols.any (fun s => decide (s.address = 0x2008 ∧ s.size = 8 ∧ s.sec.flags = 0#16 ∧ s.sec.writeable = true)))
    (by decide +kernel)
  obtain ⟨s, hs, hp⟩ := List.any_eq_true.mp hp
  obtain ⟨e1, e2, e3, e4⟩ := of_decide_eq_true hp
  exact ⟨r, h, s, hs, (reg_announced _ _).1.mpr rfl, by unfold Inside; rw [e1, e2]; decide, e3, e4⟩

/-- C31: the flags are decided before the sizes of the symbols are final. The symbol behind the first variable carries the flag
although it extends beyond the region. -/
theorem C31_grown : ∃ r, analyze exEnv {} (regElf .note 0x2018) none = .ok r ∧ ∃ s ∈ r.symbols,
    s.sec.flags &&& SECTION_NOTE ≠ 0#16 ∧ ∀ f, Announced (regElf .note 0x2018) f → ¬ Inside s f := by
  obtain ⟨r, h, hp⟩ := ok_such (m := analyze exEnv {} (regElf .note 0x2018) none)
    (P := fun r => hasRegion r 0x2008 16 SECTION_NOTE) (by decide +kernel)
  obtain ⟨s, hs, e1, e2, e3⟩ := hasRegion_iff hp
  refine ⟨r, h, s, hs, by rw [e3]; decide, fun f hf => ?_⟩
  rw [(reg_announced _ _).2.mp hf]
  unfold Inside
  rw [e1, e2]
  decide

/-! ### Thread-local variables -/

def regTdata : ElfSec where
  name := ".tdata"
  virt_addr := 0x2000
  size := 0x10
  writeable := true
  tls := true
  data := List.replicate 16 0

def regRest : ElfSec where
  name := ".data"
  virt_addr := 0x2010
  size := 0x10
  writeable := true
  data := List.replicate 16 0

def regTls : ElfSeg where
  type := .tls
  offset := 0x200
  virt_addr := 0x2000
  size := 0x10
  virt_size := 0x10

def regTlsVar : ElfSym where
  value := 0
  size := 8
  name := some "t"
  type := .tls
  shndx := .index 2

/-- The initial values of thread-local variables are read-only after relocation. -/
def regTlsElf : Elf where
  entry := 0x1000
  segments := [regLoad, regLoadData, regTls, regSeg .gnuRelro]
  sections := [runTable [], regText, regTdata, regRest,
    runTable [imgFunc 0x1000 1 "main" .global, regTlsVar]]

theorem regTls_announced (f : SectionFlag) (h : Announced regTlsElf f) : f.start.toNat + f.size.toNat ≤ 2 ^ 52 := by
  rcases h with ⟨seg, h1, h2⟩ | ⟨sec, h1, _, h3, h4, h5, _⟩
  · simp only [regTlsElf, List.mem_cons, List.not_mem_nil, or_false] at h1
    rcases h2 with ⟨_, h, _⟩ | ⟨h3, h4, _⟩ | ⟨h, _⟩
    · rcases h1 with rfl | rfl | rfl | rfl <;> exact absurd h (by decide)
    · rw [h3, h4]
      rcases h1 with rfl | rfl | rfl | rfl <;> decide
    · rcases h1 with rfl | rfl | rfl | rfl <;> cases h
  · rw [h4, h5]
    simp only [regTlsElf, List.mem_cons, List.not_mem_nil, or_false] at h1
    rcases h1 with rfl | rfl | rfl | rfl | rfl <;> decide

example : ∃ r, analyze exEnv {} regTlsElf none = .ok r ∧ ∃ s ∈ r.symbols, s.name = some "t" ∧ TLS.is_tls s.address = true ∧
    s.sec.flags = 0#16 := by
  obtain ⟨r, h, hp⟩ := ok_such (m := analyze exEnv {} regTlsElf none)
    (P := fun r => r.symbols.any (fun s => decide (s.address = 0xf0000000002000 ∧ s.size = 16 ∧ s.name = some "t"))) (by decide +kernel)
  obtain ⟨s, hs, hp⟩ := List.any_eq_true.mp hp
  obtain ⟨e1, e2, e3⟩ := of_decide_eq_true hp
  have ht : TLS.is_tls s.address = true := by rw [e1]; decide
  exact ⟨r, h, s, hs, e3, ht, C31_thread_local _ _ _ _ r h regTls_announced s hs (by unfold NoWrap; rw [e1, e2]; decide) ht⟩

end Bean

import Verif.Props.Files
import Verif.Props.FileData
import Verif.Props.Update
import Verif.Lemmas.Targets
/-
Property theorems C89 to C92: symbols at the targets of pointers and the flags of symbols in results of the analysis.
-/
namespace Bean
open Tree Spec Props

/-! ### A file for the examples -/

/-- The environment of the examples with a mark for targets of indirect branches. -/
def cetEnv : Env where
  decode := fun a l => match l with
    | 0xf3#8 :: _ :: _ :: _ :: _ => some { address := a, size := 4, id := 8, opcode := [0xf3] }
    | l => exDecode a l
  kind := fun id => if id = 8 then .endbr else exKind id
  align_up := exEnv.align_up
  xxhash := exEnv.xxhash
  str_bytes := exEnv.str_bytes
  push_str := exEnv.push_str
  reloc_size := exEnv.reloc_size
  reloc_value := exEnv.reloc_value
  junk := exEnv.junk

/-- Code, with `h` given: functions with and without mark, one without entry in the symbol table, padding. -/
def tgtText (h : BitVec 8) : ElfSec where
  name := ".text"
  virt_addr := 0x1000
  size := 20
  executable := true
  data := [0xf3, 0x0f, 0x1e, 0xfa, 0xc3,          -- main
    0x90,                                          -- padding
    0xc7, 0x05, 0xf3, 0x0f, 0x1e, 0xfa, 0xc3,      -- g
    0xeb, h,                                       -- h: jump
    0xc3,                                          -- no symbol
    0x90, 0x90, 0x90, 0x90]

/-- Code for jumps to other libraries. -/
def tgtPlt : ElfSec where
  name := ".plt"
  virt_addr := 0x1100
  size := 4
  executable := true
  data := [0xc7, 0x05, 0xc7, 0x06]

/-- Two pointers, the second one in the form of packed relocations. -/
def tgtData : ElfSec where
  name := ".data"
  virt_addr := 0x2000
  size := 16
  writeable := true
  data := [0, 0, 0, 0, 0, 0, 0, 0, 0x0f, 0x10, 0, 0, 0, 0, 0, 0]

def tgtRel : ElfRel where
  offset := 0x2000
  type := R_X86_64_RELATIVE
  addend := 0x1005

def tgtRela : ElfSec where
  type := .rela
  name := ".rela.dyn"
  virt_addr := 0
  size := 24
  allocate := false
  relocations := [tgtRel]

def tgtRelr : ElfSec where
  type := .relr
  name := ".relr.dyn"
  virt_addr := 0
  size := 8
  allocate := false
  relative := [0x2008]

def tgtSyms : List ElfSym :=
  [imgFunc 0x1000 5 "main" .global, imgFunc 0x1006 7 "g" .global, imgFunc 0x100d 2 "h" .global]

def tgtPltSym : ElfSym where
  value := 0x1100
  size := 2
  name := some "p"
  type := .func
  bind := .local
  shndx := .index 2

def tgtLoad : ElfSeg where
  type := .load
  offset := 0x100
  virt_addr := 0x1000
  size := 0x104
  virt_size := 0x104
  executable := true

def tgtLoadData : ElfSeg where
  type := .load
  offset := 0x300
  virt_addr := 0x2000
  size := 16
  virt_size := 16
  writeable := true

/-- The file for an entry point and the target of the jump. -/
def tgtElf (entry : Addr) (h : BitVec 8) : Elf where
  entry := entry
  segments := [tgtLoad, tgtLoadData]
  sections := [runTable [], tgtText h, tgtPlt, tgtData, tgtRela, tgtRelr, runTable (tgtSyms ++ [tgtPltSym])]

/-- A successful outcome with a decidable property. -/
theorem ok_such {α : Type} {m : M α} {P : α → Bool}
    (h : (match m with
      | .ok x => P x
      | .error _ => false) = true) : ∃ x, m = .ok x ∧ P x = true := by
  cases m with
  | error e => cases h
  | ok x => exact ⟨x, rfl, h⟩

/-- A symbol at the address with the flags. -/
def hasSym (r : AState) (a n : Addr) (x : Bool) (flags : BitVec 16) : Bool :=
  r.symbols.any (fun s => decide (s.address = a ∧ s.size = n ∧ s.sec.executable = x ∧ s.flags = flags))

theorem hasSym_iff {r : AState} {a n : Addr} {x : Bool} {flags : BitVec 16} (h : hasSym r a n x flags = true) :
    ∃ s ∈ r.symbols, s.address = a ∧ s.size = n ∧ s.sec.executable = x ∧ s.flags = flags := by
  unfold hasSym at h
  rw [List.any_eq_true] at h
  obtain ⟨s, hs, h⟩ := h
  exact ⟨s, hs, of_decide_eq_true h⟩

theorem tgt_loaded {e : Addr} {h : BitVec 8} {sec : ElfSec} (hl : Loaded (tgtElf e h) sec) :
    sec = tgtText h ∨ sec = tgtPlt ∨ sec = tgtData := by
  obtain ⟨h1, h2, _⟩ := hl
  simp only [tgtElf, List.mem_cons, List.not_mem_nil, or_false] at h1
  rcases h1 with rfl | rfl | rfl | rfl | rfl | rfl | rfl
  · cases h2
  · exact Or.inl rfl
  · exact Or.inr (Or.inl rfl)
  · exact Or.inr (Or.inr rfl)
  · cases h2
  · cases h2
  · cases h2

theorem tgt_start (h : BitVec 8) : (secStart (tgtText h)).toNat = 0x1000 := by
  show (TLS.trans_addr 0x1000 false).toNat = 0x1000
  decide

theorem tgt_text {e a : Addr} {h : BitVec 8} (h1 : 0x1000 ≤ a.toNat) (h2 : a.toNat < 0x1100) :
    SectionOf (tgtElf e h) a (tgtText h) := by
  refine ⟨⟨by simp [tgtElf], rfl, (by decide : (20 : Addr) ≠ 0)⟩, by rw [tgt_start]; exact h1, fun sec hl hle => ?_⟩
  rcases tgt_loaded hl with rfl | rfl | rfl
  · exact Or.inl rfl
  · have : 0x1100 ≤ a.toNat := hle
    omega
  · have : 0x2000 ≤ a.toNat := hle
    omega

theorem tgt_data {e a : Addr} {h : BitVec 8} (h1 : 0x2000 ≤ a.toNat) : SectionOf (tgtElf e h) a tgtData := by
  refine ⟨⟨by simp [tgtElf], rfl, (by decide : (16 : Addr) ≠ 0)⟩, h1, fun sec hl hle => ?_⟩
  rcases tgt_loaded hl with rfl | rfl | rfl
  · exact Or.inr (by rw [tgt_start]; decide)
  · exact Or.inr (by decide)
  · exact Or.inl rfl

/-! ### Symbols that are left out -/

/-- A symbol of the state before the identification is in the result, or it only consists of NOPs. -/
theorem kept_or_nops {env : Env} {fl : AnalyzeFlags} {elf : Elf} {dbgsym : Option Elf} {st s1 s2 s3 r : AState}
    (f : Stages env fl elf dbgsym st s1 s2 s3 r) {s0 : Symbol} (h0 : s0 ∈ st.symbols) {sec : ElfSec}
    (hsec : SectionOf elf s0.address sec) :
    (∃ s ∈ r.symbols, s.address = s0.address ∧
      ∀ a : Addr, s0.address.toNat ≤ a.toNat → a.toNat < (sectionEnd env sec).toNat →
        (∀ y ∈ st.symbols, s0.address.toNat < y.address.toNat → a.toNat < y.address.toNat) → Covers s a) ∨
    (fl.keep_unused = false ∧ s0.name = none ∧ ∃ n, OnlyNops env sec s0.address n ∧
      ∀ a : Addr, a.toNat < (sectionEnd env sec).toNat →
        (∀ y ∈ st.symbols, s0.address.toNat < y.address.toNat → a.toNat < y.address.toNat) →
        a.toNat < s0.address.toNat + n.toNat) := by
  have hi := f.run
  have hfl1 : ∀ a, Tree.floor s1.sections a = Tree.floor (Tree.ofList (loadedSections elf.sections)) a := by
    intro a
    rw [f.same1]
    show Tree.floor r.sections a = _
    rw [f.sections]
  have hfl : Tree.floor st.sections s0.address = some sec := by
    have e : s1.sections = st.sections := by rw [hi.same1]
    rw [← e, hfl1]
    exact section_floor hsec
  rcases identified_covers hi h0 hfl with hl | ⟨hk, hn⟩
  · exact Or.inl hl
  obtain ⟨x1, hx1, g, _⟩ := zip_mem_left hi.zip1 h0
  have hsec1 : Tree.floor s1.sections x1.address = some sec := by
    rw [hfl1, g.address]; exact section_floor hsec
  rcases C32_coverage env fl s1 s2 hi.ok1 hi.internal x1 hx1 sec hsec1 with ⟨s, hs, ha, _, hc⟩ | ⟨_, _, hgone⟩
  · left
    obtain ⟨fi, e⟩ := hi.ids
    have fe := ext_facts hi.ok2 hi.external
    refine ⟨setIds fi (extSym env s2.global_offset_table s2.symbols s2.symbols s), ?_, ha.trans g.address, ?_⟩
    · rw [e]
      exact List.mem_map_of_mem ((fe.mem _).mpr ⟨s, hs, rfl⟩)
    · intro a b1 b2 b3
      exact hc a (by rw [g.address]; exact b1) b2 (fun y hy hlt => by
        obtain ⟨y0, hy0, gy, _⟩ := zip_mem_right hi.zip1 hy
        rw [gy.address] at hlt ⊢
        rw [g.address] at hlt
        exact b3 y0 hy0 hlt)
  · right
    have hrel : Sorted s1.relocations := by
      rw [f.same1]
      show Sorted r.relocations
      rw [show r.relocations = _ from congrArg FilePart.relocations f.part]
      exact sorted_ofList _
    have hrel2 : Sorted s1.relative_relocations := by
      rw [f.same1]
      show Sorted r.relative_relocations
      rw [show r.relative_relocations = _ from congrArg FilePart.relative f.part]
      exact sorted_ofList _
    obtain ⟨_, _, _, _, _, sec', n, steps, q1, _, _, ⟨sec'', bytes, q2, q3, q4⟩, q5, _, _, q6⟩ :=
      C42_removed env fl s1 s2 hi.ok1 hrel hrel2 hi.internal x1 hx1 hgone
    rw [hsec1] at q1
    cases q1
    have q2' : Tree.floor s1.sections x1.address = some sec'' := q2
    rw [hsec1] at q2'
    cases q2'
    refine ⟨hk, hn, n, ?_, fun a b1 b2 => ?_⟩
    · have q3' : readBytes sec.data (TLS.virt_addr x1.address - sec.virt_addr) n = .ok bytes := q3
      rw [g.address] at q3'
      unfold readBytes at q3'
      by_cases hc : (TLS.virt_addr s0.address - sec.virt_addr).toNat + n.toNat ≤ sec.data.length
      · rw [if_pos hc] at q3'
        cases q3'
        refine ⟨hc, fun x hx => q5 x ?_⟩
        rw [q4]
        show x ∈ disasm env (TLS.virt_addr x1.address) _
        rw [g.address]
        exact hx
      · rw [if_neg hc] at q3'
        cases q3'
    · have := q6 a b1 (fun y hy hlt => by
        obtain ⟨y0, hy0, gy, _⟩ := zip_mem_right hi.zip1 hy
        rw [gy.address] at hlt ⊢
        rw [g.address] at hlt
        exact b2 y0 hy0 hlt)
      rw [g.address] at this
      exact this

/-- C72: each address of a loaded section, including the padding up to its alignment, is covered by a symbol of the result,
or it lies in a range in which there is nothing but NOPs (and the flag to keep unused symbols is not given). -/
theorem C72_coverage_code (env : Env) (fl : AnalyzeFlags) (elf : Elf) (dbgsym : Option Elf) (r : AState)
    (h : analyze env fl elf dbgsym = .ok r) (a : Addr) (sec : ElfSec) (hsec : SectionOf elf a sec)
    (hhigh : a.toNat < (sectionEnd env sec).toNat) :
    (∃ s ∈ r.symbols, Covers s a) ∨
    (fl.keep_unused = false ∧ ∃ k n, OnlyNops env sec k n ∧ k.toNat ≤ a.toNat ∧ a.toNat < k.toNat + n.toNat) := by
  obtain ⟨st, s1, s2, s3, f⟩ := stages h
  obtain ⟨st0, t, hg⟩ := gather_ok f.file
  have hsections : st.sections = st0.sections := by rw [hg.result]
  have hmem : sec ∈ st.sections := by
    have := (floor_eq_some_iff (sorted_ofList (loadedSections elf.sections))).mp (section_floor hsec)
    rw [hg.sections]
    exact this.1
  obtain ⟨y, hy, hyk⟩ := hg.search.start sec (hsections ▸ hmem)
  obtain ⟨z, hz, gz⟩ := addFlags_enlarged (entry := elf.entry) (fs := st0.section_flags) hy
  have hz' : z ∈ st.symbols := by rw [hg.result]; exact hz
  have hzk : z.address = secStart sec := gz.address.trans hyk
  obtain ⟨s0, hf⟩ : ∃ s0, Tree.floor st.symbols a = some s0 := by
    cases hf : Tree.floor st.symbols a with
    | some s0 => exact ⟨s0, rfl⟩
    | none =>
      have := floor_eq_none_iff.mp hf z hz'
      have h2 : ¬ z.address ≤ a := bv_not_le.mpr this
      rw [hzk, BitVec.le_def] at h2
      exact absurd hsec.start h2
  obtain ⟨hm, hle, hmax⟩ := (floor_eq_some_iff f.okFirst.sorted).mp hf
  have hle' : s0.address.toNat ≤ a.toNat := BitVec.le_def.mp hle
  have hge : (secStart sec).toNat ≤ s0.address.toNat := by
    have := hmax z hz' (BitVec.le_def.mpr (by show z.address.toNat ≤ _; rw [hzk]; exact hsec.start))
    have h2 : z.address ≤ s0.address := this
    rw [hzk, BitVec.le_def] at h2
    exact h2
  have hsec0 : SectionOf elf s0.address sec :=
    ⟨hsec.loaded, hge, fun sec' hl h2 => hsec.closest sec' hl (Nat.le_trans h2 hle')⟩
  have hnext : ∀ y ∈ st.symbols, s0.address.toNat < y.address.toNat → a.toNat < y.address.toNat := by
    intro y hy hlt
    rcases Nat.lt_or_ge a.toNat y.address.toNat with h1 | h1
    · exact h1
    · have h2 : y.address ≤ s0.address := hmax y hy (BitVec.le_def.mpr h1)
      rw [BitVec.le_def] at h2
      omega
  rcases kept_or_nops f hm hsec0 with ⟨s, hs, _, hc⟩ | ⟨hk, _, n, ho, hc⟩
  · exact Or.inl ⟨s, hs, hc a hle' hhigh hnext⟩
  · exact Or.inr ⟨hk, s0.address, n, ho, hle', hc a hhigh hnext⟩

/-- The padding behind the second function. -/
example : (∃ s ∈ [runMain, runF], Covers s 0x1005) ∨
    (({} : AnalyzeFlags).keep_unused = false ∧ ∃ k n, OnlyNops exEnv runText k n ∧ k.toNat ≤ (0x1005 : Addr).toNat ∧
      (0x1005 : Addr).toNat < k.toNat + n.toNat) :=
  C72_coverage_code exEnv {} (runElf runSyms) none _ run_ok 0x1005 runText (run_section _ _ (by decide)) (by decide +kernel)

/-! ### Targets of pointers -/

/-- The files have a pointer to the address that is relocated with the base address: its relocation names the address, or it is
a packed relocation and the address is stored at its location. -/
inductive PointsTo (elf : Elf) (dbgsym : Option Elf) (k : Addr) : Prop
  | named (rel : ElfRel) : FirstAt (allRelocations elf dbgsym) rel → RelativeType rel.type → rel.addend = k →
      PointsTo elf dbgsym k
  | stored (loc : Addr) (sec to : ElfSec) : loc ∈ allRelative elf dbgsym → SectionOf elf loc sec →
      (loc - sec.virt_addr).toNat + 8 ≤ sec.data.length →
      leValue ((sec.data.drop (loc - sec.virt_addr).toNat).take 8) = k → Loaded elf to → (secStart to).toNat ≤ k.toNat →
      PointsTo elf dbgsym k

theorem pointsTo_has {env : Env} {fl : AnalyzeFlags} {elf : Elf} {dbgsym : Option Elf} {st s1 s2 s3 r : AState}
    (f : Stages env fl elf dbgsym st s1 s2 s3 r) {k : Addr} (hp : PointsTo elf dbgsym k) : Has st.symbols k := by
  obtain ⟨x, y, t, hs, ht, e1, e2, hsy, hto, es⟩ := gather_targets f.file
  obtain ⟨k1, k2⟩ := readTargets_has hs ht
  have part := gather_part f.file
  have esec : x.sections = Tree.ofList (loadedSections elf.sections) := by
    rw [e2, ← f.sections]
    have : s1.sections = st.sections := by rw [f.run.same1]
    rw [← this, f.same1]
  have hy : Has y.symbols k := by
    cases hp with
    | named rel h1 h2 h3 =>
      rw [← h3]
      refine k1 rel ?_ h2
      rw [show x.relocations = _ from congrArg FilePart.relocations (e1.trans part)]
      exact firstAt_iff.mp h1
    | stored loc sec to h1 h2 h3 h4 h5 h6 =>
      rw [← h4]
      refine k2 loc ?_ sec _ (by rw [esec]; exact section_floor h2) (readBytes_of (n := 8) h3 rfl) ?_
      · rw [show x.relative_relocations = _ from congrArg FilePart.relative (e1.trans part)]
        obtain ⟨z, hz, hzk⟩ := ofList_key h1
        have : z = loc := hzk
        exact this ▸ hz
      · rw [esec]
        show ∃ sec', Tree.floor _ (leValue ((sec.data.drop (loc - sec.virt_addr).toNat).take 8)) = some sec'
        rw [h4]
        cases hf : Tree.floor (Tree.ofList (loadedSections elf.sections)) k with
        | some sec' => exact ⟨sec', rfl⟩
        | none =>
          exfalso
          obtain ⟨z, hz, hzk⟩ := ofList_key (mem_loadedSections.mpr h5)
          have := floor_eq_none_iff.mp hf z hz
          rw [hzk] at this
          have h7 : k.toNat < (secStart to).toNat := BitVec.lt_def.mp this
          omega
  obtain ⟨s, hst, rfl⟩ := hto.has hsy hy
  obtain ⟨s', hs', g⟩ := addFlags_enlarged (entry := elf.entry) (fs := y.section_flags) hst
  exact ⟨s', by rw [es]; exact hs', g.address⟩

/-- C89: with the flag to keep unused symbols, each pointer in the files that is relocated with the base address leads to the
start of a symbol of the result. -/
theorem C89_targets (env : Env) (fl : AnalyzeFlags) (elf : Elf) (dbgsym : Option Elf) (r : AState)
    (h : analyze env fl elf dbgsym = .ok r) (hk : fl.keep_unused = true) (k : Addr) (hp : PointsTo elf dbgsym k) :
    ∃ s ∈ r.symbols, s.address = k := by
  obtain ⟨st, s1, s2, s3, f⟩ := stages h
  obtain ⟨s0, h0, rfl⟩ := pointsTo_has f hp
  obtain ⟨x, hx, g, _⟩ := zip_mem_left f.run.zip1 h0
  obtain ⟨z, hz, e⟩ := (addresses_of f).2 hk x hx
  exact ⟨z, hz, e.trans g.address⟩

/-- The pointers of the file. -/
theorem tgt_pointer (e : Addr) (h : BitVec 8) : PointsTo (tgtElf e h) none 0x1005 :=
  .named tgtRel ⟨[], [], rfl, fun _ h => by cases h⟩ (by decide) rfl

theorem tgt_pointer' (e : Addr) (h : BitVec 8) : PointsTo (tgtElf e h) none 0x100f :=
  .stored 0x2008 tgtData (tgtText h) (by simp [allRelative, partsOf, tgtElf, runTable, tgtText, tgtPlt, tgtData, tgtRela, tgtRelr])
    (tgt_data (by decide)) (by decide) (by decide) (tgt_text (a := 0x1000) (by decide) (by decide)).loaded
    (by rw [tgt_start]; decide)

example : ∃ r, analyze cetEnv { keep_unused := true } (tgtElf 0x1000 0xf1) none = .ok r ∧
    (∃ s ∈ r.symbols, s.address = 0x1005) ∧ ∃ s ∈ r.symbols, s.address = 0x100f := by
  obtain ⟨r, h, _⟩ := ok_such (m := analyze cetEnv { keep_unused := true } (tgtElf 0x1000 0xf1) none) (P := fun _ => true)
    (by decide +kernel)
  exact ⟨r, h, C89_targets _ _ _ _ r h rfl _ (tgt_pointer _ _), C89_targets _ _ _ _ r h rfl _ (tgt_pointer' _ _)⟩

/-- C89: without the flag, there is a symbol at the target of a pointer unless there are only NOPs from there on up to the next
symbol (hence at least at the target itself, if it is in front of the end of the section). -/
theorem C89_default (env : Env) (fl : AnalyzeFlags) (elf : Elf) (dbgsym : Option Elf) (r : AState)
    (h : analyze env fl elf dbgsym = .ok r) (k : Addr) (hp : PointsTo elf dbgsym k) (sec : ElfSec) (hsec : SectionOf elf k sec) :
    (∃ s ∈ r.symbols, s.address = k) ∨
    (fl.keep_unused = false ∧ ∃ n, OnlyNops env sec k n ∧ (k.toNat < (sectionEnd env sec).toNat → n ≠ 0)) := by
  obtain ⟨st, s1, s2, s3, f⟩ := stages h
  obtain ⟨s0, h0, rfl⟩ := pointsTo_has f hp
  rcases kept_or_nops f h0 hsec with ⟨s, hs, e, _⟩ | ⟨hk, _, n, ho, hc⟩
  · exact Or.inl ⟨s, hs, e⟩
  · refine Or.inr ⟨hk, n, ho, fun hlt hz => ?_⟩
    have := hc s0.address hlt (fun _ _ h => h)
    rw [hz] at this
    exact absurd this (by simp)

/-- Both cases occur: the second pointer leads to a function that is not in the symbol table. -/
example : ∃ r, analyze cetEnv {} (tgtElf 0x1000 0xf1) none = .ok r ∧ (∃ s ∈ r.symbols, s.address = 0x100f) := by
  obtain ⟨r, h, hp⟩ := ok_such (m := analyze cetEnv {} (tgtElf 0x1000 0xf1) none)
    (P := fun _ => true) (by decide +kernel)
  refine ⟨r, h, ?_⟩
  rcases C89_default _ _ _ _ r h _ (tgt_pointer' _ _) (tgtText 0xf1) (tgt_text (by decide) (by decide)) with h | ⟨_, n, h1, h2⟩
  · exact h
  · exfalso
    have hn := h2 (by decide +kernel)
    have hn' : n.toNat ≠ 0 := fun hc => hn (BitVec.eq_of_toNat_eq hc)
    have hle : 15 + n.toNat ≤ 20 := h1.inside
    have h3 := h1.nops
    have hb : (tgtText 0xf1).data.drop (TLS.virt_addr 0x100f - (tgtText 0xf1).virt_addr).toNat = [0xc3, 0x90, 0x90, 0x90, 0x90] := by
      decide
    rw [hb] at h3
    have key : ∀ m : Fin 6, m ≠ 0 → ¬ ∀ x ∈ disasm cetEnv (TLS.virt_addr 0x100f) (List.take m [0xc3, 0x90, 0x90, 0x90, 0x90]),
        cetEnv.kind x.insn.id = .nop := by
      decide
    exact key ⟨n.toNat, by omega⟩ (fun e => hn' (congrArg Fin.val e)) h3

/-- C89: the pointer to the padding does not lead to a symbol by default. -/
theorem C89_dropped : ∃ r, analyze cetEnv {} (tgtElf 0x1000 0xf1) none = .ok r ∧ PointsTo (tgtElf 0x1000 0xf1) none 0x1005 ∧
    ¬ ∃ s ∈ r.symbols, s.address = 0x1005 := by
  obtain ⟨r, h, hp⟩ := ok_such (m := analyze cetEnv {} (tgtElf 0x1000 0xf1) none)
    (P := fun r => r.symbols.all (fun s => decide (s.address ≠ 0x1005))) (by decide +kernel)
  refine ⟨r, h, tgt_pointer _ _, fun ⟨s, hs, e⟩ => ?_⟩
  exact of_decide_eq_true (List.all_eq_true.mp hp s hs) e

/-! ### Flags -/

/-- The first state of a symbol of the result and its flags. -/
theorem final_flags {env : Env} {fl : AnalyzeFlags} {elf : Elf} {dbgsym : Option Elf} {st s1 s2 s3 r : AState}
    (f : Stages env fl elf dbgsym st s1 s2 s3 r) {s : Symbol} (hs : s ∈ r.symbols) :
    ∃ s0 ∈ st.symbols, s0.address = s.address ∧ s0.type = s.type ∧ s0.flags = firstFlags elf.entry s0 ∧
      (s0.type = .func → s0.sec.name.isSome = true) ∧
      (s0.sec.name.isSome = true → s.sec = s0.sec) ∧
      ((s.sec.executable = false ∧ s.flags = s0.flags) ∨
       (s.sec.executable = true ∧ ∃ bytes n,
          (∀ b, ContentOf elf s b → b = bytes) ∧
          s.flags = codeFlags env n (disasm env (TLS.virt_addr s.address) bytes) s0.flags ∧
          (SymFits (fileCtx env elf s) →
            (n = 1 ↔ OnlyJumps env (fileCtx env elf s) (disasm env (TLS.virt_addr s.address) bytes))))) := by
  obtain ⟨st0, t, hg⟩ := gather_ok f.file
  obtain ⟨x, hx, k, _⟩ := f.kept s hs
  obtain ⟨_, hmem, _⟩ := hashInternal_ok f.run.ok1 f.run.internal
  obtain ⟨i, x1, y, a1, a2, a3, a4⟩ := (hmem x).mp hx
  have hx1 := List.mem_of_getElem? a1
  obtain ⟨hsame, _⟩ := hashSymbol_same (f.run.ok1.rels x1 hx1) a2
  obtain ⟨sec, b1, b2, b3⟩ := hashSymbol_flags (f.run.ok1.rels x1 hx1) a2
  -- the state in front of the identification
  obtain ⟨s0, h0, c1, c2, c3, c4⟩ : ∃ s0 ∈ st.symbols, s0.address = x1.address ∧ s0.type = x1.type ∧ x1.flags = s0.flags ∧
      (s0.sec.name.isSome = true → x1.sec = s0.sec) := by
    have hsecs : ∀ (s0 : Symbol) (sec : ElfSec), s0.sec.name.isSome = true → (adoptSection sec s0).sec = s0.sec := by
      intro s0 sec hn
      unfold adoptSection
      rw [if_neg]
      cases e : s0.sec.name with
      | none => rw [e] at hn; cases hn
      | some v => simp
    rcases f.run.first with ⟨_, hrec⟩ | ⟨_, he⟩
    · obtain ⟨_, z⟩ := reconstruct_ok hrec
      obtain ⟨s0, h0, hr⟩ := zip_mem_right z hx1
      have had := fun sec => adoptSection_same sec s0
      refine ⟨s0, h0, ?_⟩
      cases hr with
      | plt sec' hf hp he =>
        rw [he]
        exact ⟨(had sec').1.address.symm, (had sec').1.type.symm, (had sec').2.2.1, fun hn => hsecs s0 sec' hn⟩
      | code sec' last u hf hp h1 h2 =>
        obtain ⟨n, e1, _⟩ := sizeSymbol_ok h1
        rw [reconstructCode_form h2, e1]
        exact ⟨(had sec').1.address.symm, (had sec').1.type.symm, (had sec').2.2.1, fun hn => hsecs s0 sec' hn⟩
    · rw [he] at hx1
      exact ⟨x1, hx1, rfl, rfl, rfl, fun _ => rfl⟩
  rw [finish_used a3] at a4
  have exs : x.sec = y.sym.sec := by rw [a4]
  have exf : x.flags = y.sym.flags := by rw [a4]
  have exa : x.address = y.sym.address := by rw [a4]
  have exz : x.size = y.sym.size := by rw [a4]
  obtain ⟨g1, g2⟩ := gathered_flags hg s0 h0
  refine ⟨s0, h0, ?_, ?_, g1, g2, ?_, ?_⟩
  · rw [c1, ← k.address, exa, hsame.address]
  · rw [c2, ← k.type, a4]
    exact hsame.type.symm
  · intro hn
    rw [← k.sec, exs, b2]
    have hn1 : x1.sec.name.isSome = true := by rw [c4 hn]; exact hn
    unfold adoptSection
    rw [if_neg, c4 hn]
    cases e : x1.sec.name with
    | none => rw [e] at hn1; cases hn1
    | some v => simp
  · rcases b3 with ⟨d1, d2⟩ | ⟨d1, bytes, n, d2, d3, d4⟩
    · left
      exact ⟨by rw [← k.sec, exs]; exact d1, by rw [← k.flags, exf, d2, c3]⟩
    · right
      refine ⟨by rw [← k.sec, exs]; exact d1, bytes, n, ?_, ?_, ?_⟩
      · intro b hb
        obtain ⟨sec', q1, q2⟩ := content_of f k hb
        rw [exa, hsame.address] at q1 q2
        rw [b1] at q1
        cases q1
        rw [exz, d2] at q2
        cases q2
        rfl
      · rw [← k.flags, exf, d3, c3, ← k.address, exa, hsame.address]
      · have hcx : symCtx env s1 y.sym = fileCtx env elf s := by
          rw [← fileCtx_of f k]
          unfold symCtx
          rw [exa, exz]
        rw [hcx] at d4
        rw [← k.address, exa, hsame.address]
        exact d4

theorem firstFlags_bits (entry : Addr) (s : Symbol) :
    ((firstFlags entry s).getLsbD 0 = true ↔ s.address = entry) ∧ ((firstFlags entry s).getLsbD 1 = true ↔ LinkSection s.sec) ∧
    (firstFlags entry s).getLsbD 2 = false := by
  unfold firstFlags
  by_cases h1 : s.address = entry <;> by_cases h2 : LinkSection s.sec <;> simp [h1, h2, SYMBOL_ENTRY, SYMBOL_TRAMPOLINE]

theorem codeFlags_bits (env : Env) (n : Nat) (steps : List Step) (flags : BitVec 16) :
    (codeFlags env n steps flags).getLsbD 0 = flags.getLsbD 0 ∧
    ((codeFlags env n steps flags).getLsbD 1 = true ↔ flags.getLsbD 1 = true ∨ n = 1) ∧
    ((codeFlags env n steps flags).getLsbD 2 = true ↔ flags.getLsbD 2 = true ∨ Marked env steps) := by
  have hm : (∃ x ∈ relevant env steps, env.kind x.insn.id = .endbr) ↔ Marked env steps := by
    unfold Marked
    simp only [mem_relevant]
  unfold codeFlags
  by_cases h1 : ∃ x ∈ relevant env steps, env.kind x.insn.id = .endbr
  · rw [if_pos h1]
    have := hm.mp h1
    by_cases h2 : n = 1 <;> simp [h2, this, SYMBOL_USING_CET, SYMBOL_TRAMPOLINE]
  · rw [if_neg h1]
    have : ¬ Marked env steps := fun h => h1 (hm.mpr h)
    by_cases h2 : n = 1 <;> simp [h2, this, SYMBOL_TRAMPOLINE]

/-- C90: in the result of an analysis exactly the symbol at the entry point of the file is marked as such. -/
theorem C90_entry (env : Env) (fl : AnalyzeFlags) (elf : Elf) (dbgsym : Option Elf) (r : AState)
    (h : analyze env fl elf dbgsym = .ok r) (s : Symbol) (hs : s ∈ r.symbols) : IsEntry s ↔ s.address = elf.entry := by
  obtain ⟨st, s1, s2, s3, f⟩ := stages h
  obtain ⟨s0, h0, e1, _, e2, _, _, hf⟩ := final_flags f hs
  have hb := (firstFlags_bits elf.entry s0).1
  rw [← e2, e1] at hb
  unfold IsEntry
  rcases hf with ⟨_, e⟩ | ⟨_, bytes, n, _, e, _⟩
  · rw [e]; exact hb
  · rw [e, (codeFlags_bits env n _ _).1]; exact hb

example : ∃ r, analyze cetEnv {} (tgtElf 0x1006 0xf1) none = .ok r ∧ ∃ s ∈ r.symbols, IsEntry s ∧ s.address = 0x1006 := by
  obtain ⟨r, h, hp⟩ := ok_such (m := analyze cetEnv {} (tgtElf 0x1006 0xf1) none)
    (P := fun r => r.symbols.any (fun s => decide (s.address = 0x1006))) (by decide +kernel)
  rw [List.any_eq_true] at hp
  obtain ⟨s, hs, e⟩ := hp
  have e := of_decide_eq_true e
  exact ⟨r, h, s, hs, (C90_entry _ _ _ _ r h s hs).mpr e, e⟩

/-- C90: there is no entry point in the result if the symbol tables do not have a symbol there. -/
theorem C90_missing : ∃ r, analyze cetEnv {} (tgtElf 0x1004 0xf1) none = .ok r ∧ SectionOf (tgtElf 0x1004 0xf1) 0x1004 (tgtText 0xf1) ∧
    ¬ ∃ s ∈ r.symbols, IsEntry s := by
  obtain ⟨r, h, hp⟩ := ok_such (m := analyze cetEnv {} (tgtElf 0x1004 0xf1) none)
    (P := fun r => r.symbols.all (fun s => decide (s.address ≠ 0x1004))) (by decide +kernel)
  refine ⟨r, h, tgt_text (by decide) (by decide), fun ⟨s, hs, he⟩ => ?_⟩
  exact of_decide_eq_true (List.all_eq_true.mp hp s hs) ((C90_entry _ _ _ _ r h s hs).mp he)

/-- The mark for targets of indirect branches. -/
def UsesCet (s : Symbol) : Prop := s.flags.getLsbD 2 = true

/-- C91 (partial): in the result of an analysis a function is marked for the use of control-flow enforcement iff there is an
instruction for targets of indirect branches anywhere in it. Missing for the full property: that this instruction is the first
one, see `C91_elsewhere`. -/
theorem C91_marked_partial (env : Env) (fl : AnalyzeFlags) (elf : Elf) (dbgsym : Option Elf) (r : AState)
    (h : analyze env fl elf dbgsym = .ok r) (s : Symbol) (hs : s ∈ r.symbols) (hx : s.sec.executable = true)
    (bytes : List (BitVec 8)) (hb : ContentOf elf s bytes) :
    UsesCet s ↔ Marked env (disasm env (TLS.virt_addr s.address) bytes) := by
  obtain ⟨st, s1, s2, s3, f⟩ := stages h
  obtain ⟨s0, h0, e1, _, e2, _, _, hf⟩ := final_flags f hs
  have hb0 := (firstFlags_bits elf.entry s0).2.2
  rw [← e2] at hb0
  unfold UsesCet
  rcases hf with ⟨hn, _⟩ | ⟨_, bytes', n, hu, e, _⟩
  · rw [hx] at hn; cases hn
  · rw [e, (codeFlags_bits env n _ _).2.2, hb0, hu bytes hb]
    simp

/-- The content of symbols of the file. -/
theorem tgt_content {e : Addr} {h : BitVec 8} {s : Symbol} {a n : Addr} (ha : s.address = a) (hn : s.size = n)
    (h1 : 0x1000 ≤ a.toNat) (h2 : a.toNat < 0x1100) (h3 : (TLS.virt_addr a - 0x1000).toNat + n.toNat ≤ 20) :
    ContentOf (tgtElf e h) s (((tgtText h).data.drop (TLS.virt_addr a - 0x1000).toNat).take n.toNat) := by
  refine ⟨tgtText h, ?_, ?_, ?_⟩
  · rw [ha]; exact tgt_text h1 h2
  · rw [ha, hn]; exact h3
  · rw [ha, hn]; rfl

/-- The first function has the mark. -/
example : ∃ r, analyze cetEnv {} (tgtElf 0x1000 0xf1) none = .ok r ∧ ∃ s ∈ r.symbols, s.address = 0x1000 ∧ UsesCet s ∧
    Marked cetEnv (disasm cetEnv (TLS.virt_addr s.address) [0xf3, 0x0f, 0x1e, 0xfa, 0xc3]) := by
  obtain ⟨r, h, hp⟩ := ok_such (m := analyze cetEnv {} (tgtElf 0x1000 0xf1) none)
    (P := fun r => hasSym r 0x1000 5 true 5) (by decide +kernel)
  obtain ⟨s, hs, ha, hn, hx, hf⟩ := hasSym_iff hp
  have hc : ContentOf (tgtElf 0x1000 0xf1) s [0xf3, 0x0f, 0x1e, 0xfa, 0xc3] :=
    tgt_content ha hn (by decide) (by decide) (by decide)
  have hu : UsesCet s := by unfold UsesCet; rw [hf]; decide
  exact ⟨r, h, s, hs, ha, hu, (C91_marked_partial _ _ _ _ r h s hs hx _ hc).mp hu⟩

/-- C91: the mark does not mean that the function starts with such an instruction. The redirect of an update is placed behind
an instruction of four bytes at its start, here within an instruction. -/
theorem C91_elsewhere : ∃ r, analyze cetEnv {} (tgtElf 0x1000 0xf1) none = .ok r ∧ ∃ s ∈ r.symbols, ∃ bytes,
    ContentOf (tgtElf 0x1000 0xf1) s bytes ∧ UsesCet s ∧ endbrSize s = 4 ∧
    (disasm cetEnv (TLS.virt_addr s.address) bytes).map (·.insn.address) = [s.address, s.address + 2, s.address + 6] := by
  obtain ⟨r, h, hp⟩ := ok_such (m := analyze cetEnv {} (tgtElf 0x1000 0xf1) none)
    (P := fun r => hasSym r 0x1006 7 true 4) (by decide +kernel)
  obtain ⟨s, hs, ha, hn, hx, hf⟩ := hasSym_iff hp
  have hc : ContentOf (tgtElf 0x1000 0xf1) s [0xc7, 0x05, 0xf3, 0x0f, 0x1e, 0xfa, 0xc3] :=
    tgt_content ha hn (by decide) (by decide) (by decide)
  have hu : UsesCet s := by unfold UsesCet; rw [hf]; decide
  refine ⟨r, h, s, hs, _, hc, hu, if_pos hu, ?_⟩
  rw [ha]
  decide

/-- C91: data is not marked. -/
theorem C91_data (env : Env) (fl : AnalyzeFlags) (elf : Elf) (dbgsym : Option Elf) (r : AState)
    (h : analyze env fl elf dbgsym = .ok r) (s : Symbol) (hs : s ∈ r.symbols) (hx : s.sec.executable = false) : ¬ UsesCet s := by
  obtain ⟨st, s1, s2, s3, f⟩ := stages h
  obtain ⟨s0, h0, e1, _, e2, _, _, hf⟩ := final_flags f hs
  have hb0 := (firstFlags_bits elf.entry s0).2.2
  rw [← e2] at hb0
  unfold UsesCet
  rcases hf with ⟨_, e⟩ | ⟨hn, _⟩
  · rw [e, hb0]; decide
  · rw [hx] at hn; cases hn

example : ∃ r, analyze cetEnv {} (tgtElf 0x1000 0xf1) none = .ok r ∧ ∃ s ∈ r.symbols, s.address = 0x2000 ∧ ¬ UsesCet s := by
  obtain ⟨r, h, hp⟩ := ok_such (m := analyze cetEnv {} (tgtElf 0x1000 0xf1) none)
    (P := fun r => hasSym r 0x2000 16 false 0) (by decide +kernel)
  obtain ⟨s, hs, ha, hn, hx, hf⟩ := hasSym_iff hp
  exact ⟨r, h, s, hs, ha, C91_data _ _ _ _ r h s hs hx⟩

/-- C92: only symbols in the tables for other libraries and functions that consist of a single jump are trampolines. -/
theorem C92_sound (env : Env) (fl : AnalyzeFlags) (elf : Elf) (dbgsym : Option Elf) (r : AState)
    (h : analyze env fl elf dbgsym = .ok r) (s : Symbol) (hs : s ∈ r.symbols) (ht : IsTrampoline s)
    (hf : s.address.toNat + s.size.toNat < 2 ^ 64) (bytes : List (BitVec 8)) (hb : ContentOf elf s bytes) :
    LinkSection s.sec ∨
    (s.sec.executable = true ∧ OnlyJumps env (fileCtx env elf s) (disasm env (TLS.virt_addr s.address) bytes)) := by
  obtain ⟨st, s1, s2, s3, f⟩ := stages h
  obtain ⟨s0, h0, e1, _, e2, _, e3, hc⟩ := final_flags f hs
  have hb0 := (firstFlags_bits elf.entry s0).2.1
  rw [← e2] at hb0
  have link : LinkSection s0.sec → LinkSection s.sec := by
    intro hl
    rw [e3]
    · exact hl
    · rcases hl with hl | ⟨_, hl⟩
      · rw [hl]; rfl
      · cases e : s0.sec.name with
        | none => rw [e] at hl; cases hl
        | some v => rfl
  unfold IsTrampoline at ht
  rcases hc with ⟨_, e⟩ | ⟨hx, bytes', n, hu, e, hj⟩
  · rw [e] at ht
    exact Or.inl (link (hb0.mp ht))
  · rw [e, (codeFlags_bits env n _ _).2.1] at ht
    rcases ht with ht | ht
    · exact Or.inl (link (hb0.mp ht))
    · rw [hu bytes hb]
      exact Or.inr ⟨hx, (hj hf).mp ht⟩

/-- C92: a function that consists of a single jump out of it is a trampoline. -/
theorem C92_jump (env : Env) (fl : AnalyzeFlags) (elf : Elf) (dbgsym : Option Elf) (r : AState)
    (h : analyze env fl elf dbgsym = .ok r) (s : Symbol) (hs : s ∈ r.symbols) (hx : s.sec.executable = true)
    (hf : s.address.toNat + s.size.toNat < 2 ^ 64) (bytes : List (BitVec 8)) (hb : ContentOf elf s bytes)
    (hj : OnlyJumps env (fileCtx env elf s) (disasm env (TLS.virt_addr s.address) bytes)) : IsTrampoline s := by
  obtain ⟨st, s1, s2, s3, f⟩ := stages h
  obtain ⟨s0, h0, e1, _, e2, _, e3, hc⟩ := final_flags f hs
  unfold IsTrampoline
  rcases hc with ⟨hn, _⟩ | ⟨_, bytes', n, hu, e, hj'⟩
  · rw [hx] at hn; cases hn
  · rw [e, (codeFlags_bits env n _ _).2.1]
    rw [hu bytes hb] at hj
    exact Or.inr ((hj' hf).mpr hj)

/-- The function `h` is a trampoline. -/
example : ∃ r, analyze cetEnv {} (tgtElf 0x1000 0xf1) none = .ok r ∧ ∃ s ∈ r.symbols, s.address = 0x100d ∧ IsTrampoline s ∧
    ¬ LinkSection s.sec ∧ OnlyJumps cetEnv (fileCtx cetEnv (tgtElf 0x1000 0xf1) s) (disasm cetEnv (TLS.virt_addr s.address) [0xeb, 0xf1]) := by
  obtain ⟨r, h, hp⟩ := ok_such (m := analyze cetEnv {} (tgtElf 0x1000 0xf1) none)
    (P := fun r => r.symbols.any (fun s => decide (s.address = 0x100d ∧ s.size = 2 ∧ s.sec.executable = true ∧ ¬ LinkSection s.sec)))
    (by decide +kernel)
  rw [List.any_eq_true] at hp
  obtain ⟨s, hs, hp⟩ := hp
  obtain ⟨ha, hn, hx, hl⟩ := of_decide_eq_true hp
  have hc : ContentOf (tgtElf 0x1000 0xf1) s [0xeb, 0xf1] := tgt_content ha hn (by decide) (by decide) (by decide)
  have hf : s.address.toNat + s.size.toNat < 2 ^ 64 := by rw [ha, hn]; decide
  have hj : OnlyJumps cetEnv (fileCtx cetEnv (tgtElf 0x1000 0xf1) s) (disasm cetEnv (TLS.virt_addr s.address) [0xeb, 0xf1]) := by
    unfold fileCtx
    rw [ha, hn]
    decide +kernel
  have ht := C92_jump _ _ _ _ r h s hs hx hf _ hc hj
  refine ⟨r, h, s, hs, ha, ht, hl, ?_⟩
  rcases C92_sound _ _ _ _ r h s hs ht hf _ hc with h1 | ⟨_, h2⟩
  · exact absurd h1 hl
  · exact h2

/-- C92 (partial): functions of the symbol table in the tables for other libraries are trampolines. Missing for the full
property: other symbols in these tables, see `C92_unmarked`. -/
theorem C92_tables_partial (env : Env) (fl : AnalyzeFlags) (elf : Elf) (dbgsym : Option Elf) (r : AState)
    (h : analyze env fl elf dbgsym = .ok r) (s : Symbol) (hs : s ∈ r.symbols) (ht : s.type = .func) (hl : LinkSection s.sec) :
    IsTrampoline s := by
  obtain ⟨st, s1, s2, s3, f⟩ := stages h
  obtain ⟨s0, h0, e1, e1', e2, e2', e3, hc⟩ := final_flags f hs
  have hb0 := (firstFlags_bits elf.entry s0).2.1
  rw [← e2] at hb0
  rw [e3 (e2' (e1'.trans ht))] at hl
  have h1 := hb0.mpr hl
  unfold IsTrampoline
  rcases hc with ⟨_, e⟩ | ⟨_, bytes', n, hu, e, _⟩
  · rw [e]; exact h1
  · rw [e, (codeFlags_bits env n _ _).2.1]; exact Or.inl h1

example : ∃ r, analyze cetEnv {} (tgtElf 0x1000 0xf1) none = .ok r ∧ ∃ s ∈ r.symbols, s.address = 0x1100 ∧ IsTrampoline s := by
  obtain ⟨r, h, hp⟩ := ok_such (m := analyze cetEnv {} (tgtElf 0x1000 0xf1) none)
    (P := fun r => r.symbols.any (fun s => decide (s.address = 0x1100 ∧ s.type = .func ∧ LinkSection s.sec))) (by decide +kernel)
  rw [List.any_eq_true] at hp
  obtain ⟨s, hs, hp⟩ := hp
  obtain ⟨ha, ht, hl⟩ := of_decide_eq_true hp
  exact ⟨r, h, s, hs, ha, C92_tables_partial _ _ _ _ r h s hs ht hl⟩

/-- C92: a symbol that results from the end of another one in such a table is not marked: its section is determined too late. -/
theorem C92_unmarked : ∃ r, analyze cetEnv {} (tgtElf 0x1000 0xf1) none = .ok r ∧
    ∃ s ∈ r.symbols, LinkSection s.sec ∧ s.sec.executable = true ∧ ¬ IsTrampoline s := by
  obtain ⟨r, h, hp⟩ := ok_such (m := analyze cetEnv {} (tgtElf 0x1000 0xf1) none)
    (P := fun r => r.symbols.any (fun s => decide (LinkSection s.sec ∧ s.sec.executable = true ∧ s.flags = 0))) (by decide +kernel)
  rw [List.any_eq_true] at hp
  obtain ⟨s, hs, hp⟩ := hp
  obtain ⟨hl, hx, hf⟩ := of_decide_eq_true hp
  refine ⟨r, h, s, hs, hl, hx, ?_⟩
  unfold IsTrampoline
  rw [hf]
  decide

/-- The calls of an update with a callback for redirects. -/
def redirectsOf (r r' : AState) : Trace :=
  process .debug (fun v => v.setWidth 32) 1 { redirect := some (fun _ _ _ _ => true), relocate := none, skipmsg := false } r.symbols
    r'.symbols 0 0

/-- C92: a function that only calls another one at its end becomes a trampoline. If it calls a different one in the new
version, it is mapped to its new version, but there is no redirect for it. -/
theorem C92_tail_call : ∃ r r', analyze cetEnv {} (tgtElf 0x1000 0xf1) none = .ok r ∧
    analyze cetEnv {} (tgtElf 0x1000 0xf7) none = .ok r' ∧
    ∃ s ∈ r.symbols, s.name = some "h" ∧ s.type = .func ∧ s.bind = .global ∧
    (∃ m, map .debug (fun v => v.setWidth 32) r.symbols r'.symbols true = .ok m ∧ (s.address, s.address) ∈ m) ∧
    (redirectsOf r r').2 = none ∧
    ∀ e ∈ (redirectsOf r r').1, ∀ f t n a, e ≠ .redirect (.function s) f t n a := by
  obtain ⟨r, h, hp⟩ := ok_such (m := analyze cetEnv {} (tgtElf 0x1000 0xf1) none)
    (P := fun r => match analyze cetEnv {} (tgtElf 0x1000 0xf7) none with
      | .error _ => false
      | .ok r' => (match map .debug (fun v => v.setWidth 32) r.symbols r'.symbols true with
        | .error _ => false
        | .ok m => r.symbols.any (fun s => decide (s.name = some "h" ∧ s.type = .func ∧ s.bind = .global ∧
            (s.address, s.address) ∈ m ∧ s.flags = 2)) && (redirectsOf r r').2.isNone)) (by decide +kernel)
  cases h' : analyze cetEnv {} (tgtElf 0x1000 0xf7) none with
  | error e => rw [h'] at hp; cases hp
  | ok r' =>
    rw [h'] at hp
    simp only at hp
    cases hm : map .debug (fun v => v.setWidth 32) r.symbols r'.symbols true with
    | error e => rw [hm] at hp; cases hp
    | ok m =>
      rw [hm] at hp
      simp only [Bool.and_eq_true, List.any_eq_true, Option.isNone_iff_eq_none] at hp
      obtain ⟨⟨s, hs, hq⟩, hn⟩ := hp
      obtain ⟨q1, q2, q3, q4, q5⟩ := of_decide_eq_true hq
      refine ⟨r, r', h, rfl, s, hs, q1, q2, q3, ⟨m, hm, q4⟩, hn, fun e he f t n a heq => ?_⟩
      subst heq
      have := (C22_redirect_functions .debug _ 1 _ r.symbols r'.symbols (C72_wellformed _ _ _ _ r h).1 (C72_wellformed _ _ _ _ r' h').1
        0 0 m hm s f t n a he).2.2.1
      apply this
      unfold IsTrampoline
      rw [q5]
      decide

/-! ### Updates of analyzed files -/

/-- The instructions fit into the bytes. -/
theorem disasmN_sizes (env : Env) (fuel : Nat) (a : Addr) (bytes : List (BitVec 8)) :
    ((disasmN env fuel a bytes).map (·.insn.size)).sum ≤ bytes.length ∧ ∀ x ∈ disasmN env fuel a bytes, 0 < x.insn.size ∧
      ∃ a l, env.decode a l = some x.insn := by
  induction fuel generalizing a bytes with
  | zero => exact ⟨Nat.zero_le _, fun _ h => by cases h⟩
  | succ fuel ih =>
    unfold disasmN
    cases hd : env.decode a bytes with
    | none => exact ⟨Nat.zero_le _, fun _ h => by cases h⟩
    | some insn =>
      simp only
      by_cases hc : 0 < insn.size ∧ insn.size ≤ bytes.length
      · rw [if_pos hc]
        obtain ⟨h1, h2⟩ := ih (a + BitVec.ofNat 64 insn.size) (bytes.drop insn.size)
        rw [List.length_drop] at h1
        refine ⟨?_, fun x hx => ?_⟩
        · rw [List.map_cons, List.sum_cons]
          show insn.size + _ ≤ _
          omega
        · rcases List.mem_cons.mp hx with rfl | hx
          · exact ⟨hc.1, a, bytes, hd⟩
          · exact h2 x hx
      · rw [if_neg hc]
        exact ⟨Nat.zero_le _, fun _ h => by cases h⟩

theorem two_le_sum {l : List Step} {x y : Step} (hx : x ∈ l) (hy : y ∈ l) (hne : x ≠ y) :
    x.insn.size + y.insn.size ≤ (l.map (·.insn.size)).sum := by
  have one : ∀ {l : List Step} {z : Step}, z ∈ l → z.insn.size ≤ (l.map (·.insn.size)).sum := by
    intro l z hz
    induction l with
    | nil => cases hz
    | cons w l ih =>
      rw [List.map_cons, List.sum_cons]
      rcases List.mem_cons.mp hz with rfl | hz
      · omega
      · have := ih hz; omega
  induction l with
  | nil => cases hx
  | cons w l ih =>
    rw [List.map_cons, List.sum_cons]
    rcases List.mem_cons.mp hx with hx' | hx' <;> rcases List.mem_cons.mp hy with hy' | hy'
    · exact absurd (hx'.trans hy'.symm) hne
    · have := one hy'; rw [hx']; omega
    · have := one hx'; rw [hy']; omega
    · have := ih hx' hy'; omega

/-- The code has an instruction besides marks for targets of indirect branches. -/
def HasCode (env : Env) (steps : List Step) : Prop := ∃ x ∈ steps, env.kind x.insn.id ≠ .endbr

/-- C62: an update from the result of an analysis runs to its end, whatever the callbacks do, if each function in the file that
is no trampoline has an instruction (besides marks for targets of indirect branches, which have four bytes). -/
theorem C62_files (env : Env) (fl : AnalyzeFlags) (elf : Elf) (dbgsym : Option Elf) (r : AState)
    (h : analyze env fl elf dbgsym = .ok r) (hmark : ∀ a l i, env.decode a l = some i → env.kind i.id = .endbr → i.size = 4)
    (hcode : ∀ s ∈ r.symbols, IsFunction s → ¬ IsTrampoline s → ∃ bytes, ContentOf elf s bytes ∧
      HasCode env (disasm env (TLS.virt_addr s.address) bytes))
    (b : Build) (hash : BitVec 64 → BitVec 32) (flags : BitVec 32) (cb : Callbacks) (to : SymTree) (ht : Ordered to) (fb tb : Addr)
    (m : List (Addr × Addr)) (hm : map b hash r.symbols to (flags.getLsbD 0) = .ok m) :
    (process b hash flags cb r.symbols to fb tb).2 = none := by
  refine C62_no_fault b hash flags cb r.symbols to (C72_wellformed _ _ _ _ r h).1 ht fb tb m hm (fun s hs h1 h2 => ?_)
  obtain ⟨bytes, hc, x, hx, hk⟩ := hcode s hs h1 h2
  have hlen : bytes.length ≤ s.size.toNat := by
    obtain ⟨sec, _, _, rfl⟩ := hc
    rw [List.length_take]
    exact Nat.min_le_left _ _
  obtain ⟨hsum, hpos⟩ := disasmN_sizes env bytes.length (TLS.virt_addr s.address) bytes
  have hxs := (hpos x hx).1
  unfold endbrSize
  by_cases hu : s.flags.getLsbD 2 = true
  · rw [if_pos hu]
    obtain ⟨y, hy, hyk⟩ := (C91_marked_partial env fl elf dbgsym r h s hs h1.1 bytes hc).mp hu
    obtain ⟨_, pre, post, e, _⟩ := hy
    have hym : y ∈ disasm env (TLS.virt_addr s.address) bytes := by rw [e]; simp
    obtain ⟨_, a, l, hd⟩ := hpos y hym
    have h4 := hmark a l y.insn hd hyk
    have := two_le_sum hx hym (fun e => hk (by rw [e]; exact hyk))
    have h5 : ((disasm env (TLS.virt_addr s.address) bytes).map (·.insn.size)).sum ≤ bytes.length := hsum
    omega
  · rw [if_neg hu]
    have h6 : x.insn.size ≤ ((disasm env (TLS.virt_addr s.address) bytes).map (·.insn.size)).sum := by
      obtain ⟨p, q, e⟩ := List.append_of_mem hx
      rw [e, List.map_append, List.sum_append, List.map_cons, List.sum_cons]
      omega
    have h5 : ((disasm env (TLS.virt_addr s.address) bytes).map (·.insn.size)).sum ≤ bytes.length := hsum
    omega

/-- Two functions that fill the section. -/
def fullSyms : List ElfSym := [runFunc 0x1000 3 "main" .global, runFunc 0x1003 3 "f" .local]

example : ∃ r, analyze cetEnv {} (runElf fullSyms) none = .ok r ∧ (redirectsOf r r).2 = none := by
  obtain ⟨r, h, hp⟩ := ok_such (m := analyze cetEnv {} (runElf fullSyms) none)
    (P := fun r => r.symbols.all (fun s => decide (s.address = 0x1000 ∧ s.size = 3 ∨ s.address = 0x1003 ∧ s.size = 3)) &&
      (match map .debug (fun v => v.setWidth 32) r.symbols r.symbols true with
        | .error _ => false
        | .ok _ => true)) (by decide +kernel)
  rw [Bool.and_eq_true] at hp
  obtain ⟨hp, hq⟩ := hp
  cases hm : map .debug (fun v => v.setWidth 32) r.symbols r.symbols true with
  | error e => rw [hm] at hq; cases hq
  | ok m =>
    refine ⟨r, h, C62_files _ _ _ _ r h ?_ (fun s hs _ _ => ?_) _ _ _ _ _ (C72_wellformed _ _ _ _ r h).1 _ _ m hm⟩
    · intro a l i hd hk
      have hid : i.id = 8 := by
        have : (if i.id = 8 then InsKind.endbr else exKind i.id) = .endbr := hk
        by_cases h8 : i.id = 8
        · exact h8
        · rw [if_neg h8] at this
          unfold exKind at this
          repeat (split at this <;> first | cases this | skip)
      clear hk
      simp only [cetEnv] at hd
      split at hd
      · cases hd; rfl
      · exfalso
        unfold exDecode at hd
        split at hd <;> first | (cases hd; done) | (cases hd; simp [exBranch, exLoad, exStore] at hid)
    · have := of_decide_eq_true (List.all_eq_true.mp hp s hs)
      rcases this with ⟨h1, h2⟩ | ⟨h1, h2⟩
      · refine ⟨[0xe8, 0x01, 0xc3], ⟨runText, by rw [h1]; exact run_section _ _ (by decide), by rw [h1, h2]; decide,
          by rw [h1, h2]; decide⟩, ?_⟩
        rw [h1]
        unfold HasCode
        decide
      · refine ⟨[0x90, 0xc3, 0x90], ⟨runText, by rw [h1]; exact run_section _ _ (by decide), by rw [h1, h2]; decide,
          by rw [h1, h2]; decide⟩, ?_⟩
        rw [h1]
        unfold HasCode
        decide

/-- C62: with the flag to keep unused symbols the update of this file to itself fails in a build with assertions, as there is a
symbol without size at the end of the section. -/
theorem C62_end_marker : ∃ r, analyze cetEnv { keep_unused := true } (runElf fullSyms) none = .ok r ∧
    (∃ m, map .debug (fun v => v.setWidth 32) r.symbols r.symbols true = .ok m) ∧ (redirectsOf r r).2 = some .assert := by
  obtain ⟨r, h, hp⟩ := ok_such (m := analyze cetEnv { keep_unused := true } (runElf fullSyms) none)
    (P := fun r => (match map .debug (fun v => v.setWidth 32) r.symbols r.symbols true with
        | .error _ => false
        | .ok _ => true) && decide ((redirectsOf r r).2 = some .assert)) (by decide +kernel)
  rw [Bool.and_eq_true] at hp
  obtain ⟨hq, hp⟩ := hp
  cases hm : map .debug (fun v => v.setWidth 32) r.symbols r.symbols true with
  | error e => rw [hm] at hq; cases hq
  | ok m => exact ⟨r, h, ⟨m, hm⟩, of_decide_eq_true hp⟩

end Bean

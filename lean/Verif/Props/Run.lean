import Verif.Lemmas.Run
import Verif.Props.HashCode
import Verif.Props.HashExamples
import Verif.Props.HashExternal
/-
Property theorems C72 and C73: results of the complete analysis of a file.
-/
namespace Bean
open Tree Spec Props

theorem analyze_ok {env : Env} {fl : AnalyzeFlags} {elf : Elf} {dbgsym : Option Elf} {r : AState}
    (h : analyze env fl elf dbgsym = .ok r) : ∃ st0 st t s1 s2 s3, Gathered env fl elf dbgsym st0 st t ∧
      Identified env fl st s1 s2 s3 r := by
  unfold analyze at h
  cases h1 : gather env fl elf dbgsym with
  | error e => rw [h1] at h; cases h
  | ok st =>
    rw [h1] at h
    obtain ⟨st0, t, hg⟩ := gather_ok h1
    obtain ⟨_, _, hok, hf⟩ := gathered_facts hg
    obtain ⟨s1, s2, s3, hi⟩ := identify_ok hok hf h
    exact ⟨st0, st, t, s1, s2, s3, hg, hi⟩

theorem dependsOn_setIds {got : Addr} {t : SymTree} (hs : Sorted t) (f : Addr → List (Addr × BitVec 64)) {x y : Symbol}
    (hy : y ∈ t) : DependsOn got (t.map (setIds f)) (setIds f x) (setIds f y) ↔ DependsOn got t x y := by
  unfold DependsOn ClosestSym
  have hmem : ∀ z, setIds f z ∈ t.map (setIds f) ↔ ∃ z' ∈ t, setIds f z' = setIds f z := fun z => List.mem_map
  constructor
  · rintro ⟨ref, h1, ⟨h2, h3, h4, h5⟩, h6, h7⟩
    refine ⟨ref, h1, ⟨hy, h3, fun z hz => ?_, h5⟩, h6, h7⟩
    exact h4 (setIds f z) (List.mem_map_of_mem hz)
  · rintro ⟨ref, h1, ⟨h2, h3, h4, h5⟩, h6, h7⟩
    refine ⟨ref, h1, ⟨List.mem_map_of_mem hy, h3, fun z hz => ?_, h5⟩, h6, h7⟩
    obtain ⟨z', hz', rfl⟩ := List.mem_map.mp hz
    exact h4 z' hz'

/-- C72: whatever file is analyzed, with whatever flags and debug symbols, the symbols of a successful analysis are strictly
ordered by address (hence unique), their relocations are strictly ordered by location, each dependency is the address of a
symbol of the result, and the dependencies are exactly the inverse of the references. -/
theorem C72_wellformed (env : Env) (fl : AnalyzeFlags) (elf : Elf) (dbgsym : Option Elf) (r : AState)
    (h : analyze env fl elf dbgsym = .ok r) :
    Ordered r.symbols ∧
    (∀ s ∈ r.symbols, s.rels.Pairwise (fun x y => x.offset.toNat < y.offset.toNat)) ∧
    DepsLive r.symbols ∧
    ∀ x ∈ r.symbols, ∀ y ∈ r.symbols, x.address ∈ y.deps ↔ DependsOn r.global_offset_table r.symbols x y := by
  obtain ⟨st0, st, t, s1, s2, s3, hg, hi⟩ := analyze_ok h
  obtain ⟨f, e⟩ := hi.ids
  have es : r.symbols = s3.symbols.map (setIds f) := by rw [e]
  have eg : r.global_offset_table = s3.global_offset_table := by rw [e, hi.same3]
  obtain ⟨hlive, hinv⟩ := C41_inverse env s2 s3 hi.ok2 hi.external hi.noDeps
  rw [es, eg]
  refine ⟨?_, ?_, ?_, ?_⟩
  · exact (ordered_iff_sorted _).mpr (sorted_map_key hi.ok3.sorted _ (fun _ => rfl))
  · intro s hs
    obtain ⟨s', h1, rfl⟩ := List.mem_map.mp hs
    have := hi.ok3.rels s' h1
    exact List.Pairwise.imp (fun h => BitVec.lt_def.mp h) this
  · intro s hs d hd
    obtain ⟨s', h1, rfl⟩ := List.mem_map.mp hs
    obtain ⟨q, h2, h3⟩ := hlive s' h1 d hd
    exact ⟨setIds f q, List.mem_map_of_mem h2, h3⟩
  · intro x hx y hy
    obtain ⟨x', h1, rfl⟩ := List.mem_map.mp hx
    obtain ⟨y', h2, rfl⟩ := List.mem_map.mp hy
    rw [dependsOn_setIds hi.ok3.sorted f h2]
    exact hinv x' h1 y' h2

/-- The sections known to the analysis. -/
theorem mem_loadedSections {elf : Elf} {sec : ElfSec} : sec ∈ loadedSections elf.sections ↔ Loaded elf sec := by
  unfold loadedSections Loaded
  rw [List.mem_filter]
  simp

/-- What becomes of a symbol known before the identification. -/
theorem identified_covers {env : Env} {fl : AnalyzeFlags} {st s1 s2 s3 r : AState} (hi : Identified env fl st s1 s2 s3 r)
    {s0 : Symbol} (h0 : s0 ∈ st.symbols) {sec : ElfSec} (hsec : Tree.floor st.sections s0.address = some sec) :
    (∃ s ∈ r.symbols, s.address = s0.address ∧
      ∀ a : Addr, s0.address.toNat ≤ a.toNat → a.toNat < (sectionEnd env sec).toNat →
        (∀ y ∈ st.symbols, s0.address.toNat < y.address.toNat → a.toNat < y.address.toNat) → Covers s a) ∨
    (fl.keep_unused = false ∧ s0.name = none) := by
  obtain ⟨x1, hx1, g, _⟩ := zip_mem_left hi.zip1 h0
  have hsec1 : Tree.floor s1.sections x1.address = some sec := by
    rw [hi.same1, g.address]; exact hsec
  obtain ⟨f, e⟩ := hi.ids
  have es : r.symbols = s3.symbols.map (setIds f) := by rw [e]
  rcases C32_coverage env fl s1 s2 hi.ok1 hi.internal x1 hx1 sec hsec1 with ⟨s, hs, ha, _, hc⟩ | ⟨h1, h2, _⟩
  · left
    have e3 := hashExternal_closed hi.ok2.sorted hi.external
    refine ⟨setIds f (extSym env s2.global_offset_table s2.symbols s2.symbols s), ?_, ha.trans g.address, ?_⟩
    · rw [es, e3]
      exact List.mem_map_of_mem (List.mem_map_of_mem hs)
    · intro a b1 b2 b3
      have := hc a (by rw [g.address]; exact b1) b2 (fun y hy hlt => by
        obtain ⟨y0, hy0, gy, _⟩ := zip_mem_right hi.zip1 hy
        rw [gy.address] at hlt ⊢
        rw [g.address] at hlt
        exact b3 y0 hy0 hlt)
      exact this
  · right
    exact ⟨h1, by rw [← g.name]; exact h2⟩

/-- C72: nothing in the memory image is left out. With the flag to keep unused symbols each address of a loaded section,
including the padding up to its alignment, is covered by a symbol of the result, unless another section starts in between. -/
theorem C72_coverage (env : Env) (fl : AnalyzeFlags) (elf : Elf) (dbgsym : Option Elf) (r : AState)
    (h : analyze env fl elf dbgsym = .ok r) (hkeep : fl.keep_unused = true) (sec : ElfSec) (hsec : Loaded elf sec) (a : Addr)
    (hlow : (secStart sec).toNat ≤ a.toNat) (hhigh : a.toNat < (sectionEnd env sec).toNat)
    (honly : ∀ sec', Loaded elf sec' → (secStart sec').toNat ≤ a.toNat →
      sec' = sec ∨ (secStart sec').toNat < (secStart sec).toNat) :
    ∃ s ∈ r.symbols, Covers s a := by
  obtain ⟨st0, st, t, s1, s2, s3, hg, hi⟩ := analyze_ok h
  obtain ⟨hs0, hst, hok, _⟩ := gathered_facts hg
  have hsections : st.sections = st0.sections := by rw [hg.result]
  -- the section is known
  have hmem : sec ∈ st.sections := by
    rw [hg.sections]
    obtain ⟨y, hy, hyk⟩ := ofList_key (mem_loadedSections.mpr hsec)
    have hl := mem_loadedSections.mp (mem_ofList hy)
    have hyk' : secStart y = secStart sec := hyk
    rcases honly y hl (by rw [hyk']; exact hlow) with rfl | hlt
    · exact hy
    · rw [hyk'] at hlt; omega
  have hsortsec : Sorted st.sections := by rw [hg.sections]; exact sorted_ofList _
  -- the closest symbol
  obtain ⟨y, hy, hyk⟩ := hg.search.start sec (hsections ▸ hmem)
  obtain ⟨z, hz, gz⟩ := addFlags_enlarged (entry := elf.entry) (fs := st0.section_flags) hy
  have hz' : z ∈ st.symbols := by rw [hg.result]; exact hz
  have hzk : z.address = secStart sec := gz.address.trans hyk
  obtain ⟨s0, hf⟩ : ∃ s0, Tree.floor st.symbols a = some s0 := by
    cases hf : Tree.floor st.symbols a with
    | some s0 => exact ⟨s0, rfl⟩
    | none =>
      have := floor_eq_none_iff.mp hf z hz'
      have h2 : ¬ z.address ≤ a := bv_not_le.mpr this
      rw [hzk, BitVec.le_def] at h2
      exact absurd hlow h2
  obtain ⟨hm, hle, hmax⟩ := (floor_eq_some_iff hok.sorted).mp hf
  have hle' : s0.address.toNat ≤ a.toNat := BitVec.le_def.mp hle
  have hge : (secStart sec).toNat ≤ s0.address.toNat := by
    have := hmax z hz' (BitVec.le_def.mpr (by show z.address.toNat ≤ _; rw [hzk]; exact hlow))
    have h2 : z.address ≤ s0.address := this
    rw [hzk, BitVec.le_def] at h2
    exact h2
  have hfsec : Tree.floor st.sections s0.address = some sec := by
    refine (floor_eq_some_iff hsortsec).mpr ⟨hmem, BitVec.le_def.mpr hge, ?_⟩
    intro sec' hsec' hle2
    have hl : Loaded elf sec' := by
      rw [hg.sections] at hsec'
      exact mem_loadedSections.mp (mem_ofList hsec')
    have h2 : (secStart sec').toNat ≤ s0.address.toNat := BitVec.le_def.mp hle2
    rcases honly sec' hl (Nat.le_trans h2 hle') with rfl | hlt
    · exact bv_le_refl _
    · exact BitVec.le_def.mpr (Nat.le_of_lt hlt)
  rcases identified_covers hi hm hfsec with ⟨s, hs, _, hc⟩ | ⟨hk, _⟩
  · refine ⟨s, hs, hc a hle' hhigh (fun y hy hlt => ?_)⟩
    rcases Nat.lt_or_ge a.toNat y.address.toNat with h1 | h1
    · exact h1
    · have h2 : y.address ≤ s0.address := hmax y hy (BitVec.le_def.mpr h1)
      rw [BitVec.le_def] at h2
      omega
  · rw [hkeep] at hk; cases hk

/-! A file with two functions for the examples. -/

/-- A call of the function behind, whose padding is not part of it. -/
def runCode : List (BitVec 8) := [0xe8, 0x01, 0xc3, 0x90, 0xc3, 0x90]

/-- The section of the code. -/
def runText : ElfSec where
  name := ".text"
  virt_addr := 0x1000
  size := 6
  executable := true
  data := runCode

/-- A symbol table. -/
def runTable (syms : List ElfSym) : ElfSec where
  type := .symtab
  name := ".symtab"
  virt_addr := 0
  size := 24
  allocate := false
  symbols := syms

/-- A function of the table. -/
def runFunc (a size : Addr) (name : String) (bind : ElfSymBind) : ElfSym where
  value := a
  size := size
  name := some name
  type := .func
  bind := bind
  shndx := .index 1

/-- The file for a table. -/
def runElf (syms : List ElfSym) : Elf where
  entry := 0x1000
  segments := [{ type := .load, virt_addr := 0x1000, size := 6, virt_size := 6, executable := true }]
  sections := [runTable [], runText, runTable syms]

/-- Two functions. -/
def runSyms : List ElfSym := [runFunc 0x1000 3 "main" .global, runFunc 0x1003 2 "f" .local]

/-- The section part of the resulting symbols. -/
def runSec : Section where
  address := 0x1000
  name := some ".text"
  executable := true

/-- The first function of the result. -/
def runMain : Symbol where
  address := 0x1000
  size := 3
  name := some "main"
  type := .func
  bind := .global
  flags := SYMBOL_ENTRY
  sec := runSec
  id := { internal := 0xe6a3acce09633c11, external := 0x5163bef50379b540 }
  refs := [0x1003]

/-- The second function of the result. -/
def runF : Symbol where
  address := 0x1003
  size := 2
  name := some "f"
  type := .func
  sec := runSec
  id := { internal := 0x000000000c1cabdf }
  deps := [0x1000]

/-- The padding. -/
def runPad : Symbol where
  address := 0x1005
  size := 1
  sec := { name := some ".text", executable := true }
  id := { internal := 7 }

/-- The result for symbols. -/
def runState (symbols : SymTree) : AState where
  symbols := symbols
  sections := [runText]
  segments := (runElf []).segments

theorem run_ok : analyze exEnv {} (runElf runSyms) none = .ok (runState [runMain, runF]) := by
  exact ok_of_decide (by decide +kernel)

theorem run_all : analyze exEnv { keep_unused := true } (runElf runSyms) none = .ok (runState [runMain, runF, runPad]) := by
  exact ok_of_decide (by decide +kernel)

/-- The second function has the dependency as the first one refers to it. -/
example : runMain.address ∈ runF.deps ↔ DependsOn 0 [runMain, runF] runMain runF :=
  (C72_wellformed exEnv {} (runElf runSyms) none _ run_ok).2.2.2 runMain (by decide) runF (by decide)

theorem run_loaded {syms : List ElfSym} {sec : ElfSec} (h : Loaded (runElf syms) sec) : sec = runText := by
  obtain ⟨h1, h2, h3⟩ := h
  have : sec = runTable [] ∨ sec = runText ∨ sec = runTable syms := by
    simpa [runElf] using h1
  rcases this with rfl | rfl | rfl
  · cases h2
  · rfl
  · cases h2

/-- The padding is covered. -/
example : ∃ s ∈ [runMain, runF, runPad], Covers s 0x1005 :=
  C72_coverage exEnv { keep_unused := true } (runElf runSyms) none _ run_all rfl runText (by decide) 0x1005 (by decide)
    (by decide +kernel) (fun sec' h _ => Or.inl (run_loaded h))

/-- C72: by default unnamed symbols are dropped and with them the memory they cover. -/
theorem C72_coverage_default :
    analyze exEnv {} (runElf runSyms) none = .ok (runState [runMain, runF]) ∧ Loaded (runElf runSyms) runText ∧
    (secStart runText).toNat ≤ (0x1005 : Addr).toNat ∧ (0x1005 : Addr).toNat < (sectionEnd exEnv runText).toNat ∧
    ¬ ∃ s ∈ [runMain, runF], Covers s 0x1005 :=
  ⟨run_ok, by decide, by decide, by decide +kernel, by unfold Covers; decide⟩

/-! C73: symbols of the tables. -/

theorem beanType_none {t : ElfSymType} (h : t ≠ .notype) : beanType t ≠ .none := by
  cases t <;> first | exact absurd rfl h | decide

/-- All entries at address `k` that have a name have the name `n`. -/
def Agree (elf : Elf) (dbgsym : Option Elf) (k : Addr) (n : String) : Prop :=
  ∀ d, Part elf dbgsym d → ∀ e, TableEntry d e → DefinesAt d e k → e.name = none ∨ e.name = some "" ∨ e.name = some n

/-- The arguments of insertions at the address. -/
theorem source_at {elf : Elf} {dbgsym : Option Elf} {tls : Option ElfSeg} {k : Addr} (hreg : TLS.is_tls k = false)
    (hfit : ∀ d, Part elf dbgsym d → ∀ e, TableEntry d e → k.toNat + e.size.toNat < 2 ^ 64)
    (htype : ∀ d, Part elf dbgsym d → ∀ e, TableEntry d e → DefinesAt d e k → e.type ≠ .notype)
    {a : InsertArgs} (h : Source elf dbgsym tls a) (ha : a.address = k) :
    Fits a ∧ beanType a.type ≠ .none ∧ ∀ n, Agree elf dbgsym k n → a.name = none ∨ a.name = some "" ∨ a.name = some n := by
  have table : ∀ d, Part elf dbgsym d → FromTable d.sections tls a → Fits a ∧ beanType a.type ≠ .none ∧
      ∀ n, Agree elf dbgsym k n → a.name = none ∨ a.name = some "" ∨ a.name = some n := by
    rintro d hd ⟨tbl, h1, h2, h3, e, h4, h5⟩
    have he : TableEntry d e := ⟨tbl, h1, h2, h3, h4⟩
    obtain ⟨sec, _, h6 | h6 | h6⟩ := mem_symOps h5
    · obtain ⟨_, seg, _, rfl⟩ := h6
      exfalso
      rw [← ha] at hreg
      have : TLS.is_tls (TLS.trans_addr (seg.virt_addr + e.value) true) = false := hreg
      rw [TLS.is_tls_trans_true] at this
      cases this
    · obtain ⟨hdef, rfl⟩ := h6
      have hat : DefinesAt d e k := ⟨sec, hdef, ha.symm⟩
      refine ⟨?_, beanType_none (htype d hd e he hat), fun n hn => hn d hd e he hat⟩
      have := hfit d hd e he
      rw [← ha] at this
      exact this
    · obtain ⟨_, _, rfl⟩ := h6
      refine ⟨?_, (by decide : beanType .hiproc ≠ .none), fun n _ => Or.inl rfl⟩
      exact BitVec.isLt _
  rcases h with ⟨h1, h2, h3, _⟩ | h | ⟨d, hd, h⟩
  · refine ⟨?_, h2, fun n _ => Or.inl h3⟩
    unfold Fits
    rw [h1]
    exact BitVec.isLt _
  · exact table elf (Or.inl rfl) h
  · exact table d (Or.inr hd) h

theorem stepAt_merge {a : InsertArgs} {s : Symbol} (h1 : beanType a.type ≠ .none) (h2 : s.type ≠ .none) :
    stepAt a (some s) = mergeSymbol a s := by
  unfold stepAt
  simp only
  rw [if_neg (fun h => h2 h.1), if_pos (Or.inl h1)]

theorem merge_type {a : InsertArgs} {s : Symbol} (h1 : beanType a.type ≠ .none) (h2 : s.type ≠ .none) :
    (mergeSymbol a s).type ≠ .none := by
  unfold mergeSymbol
  simp only
  split
  · exact h1
  · exact h2

/-- The name after a merge. -/
theorem merge_name (a : InsertArgs) (s : Symbol) :
    (s.name ≠ none → (mergeSymbol a s).name ≠ none) ∧
    (∀ n, n ≠ "" → s.name = some n → (mergeSymbol a s).name = some n) ∧
    (a.name ≠ none → (mergeSymbol a s).name ≠ none) ∧
    (∀ n, a.name = some n → (s.name = none ∨ s.name = some "" ∨ s.name = some n) → (mergeSymbol a s).name = some n) ∧
    ((mergeSymbol a s).name = a.name ∨ (mergeSymbol a s).name = s.name) := by
  have e : (mergeSymbol a s).name = if takesName s a.name then a.name else s.name := rfl
  rw [e]
  unfold takesName
  cases ha : a.name with
  | none => simp
  | some m =>
    cases hs : s.name with
    | none => simp
    | some l => grind

/-- Requirements of a declared symbol. -/
structure Shown (sym : ElfSym) (s : Symbol) : Prop where
  wrap : NoWrap s
  type : s.type ≠ .none
  size : sym.size.toNat ≤ s.size.toNat

structure NameShown (sym : ElfSym) (Ag : String → Prop) (s : Symbol) : Prop where
  named : sym.name ≠ none → s.name ≠ none
  name : ∀ n, n ≠ "" → sym.name = some n → Ag n → s.name = some n

/-- What is known about an insertion at the address of the symbol. -/
def Harmless (Ag : String → Prop) (a : InsertArgs) : Prop :=
  Fits a ∧ beanType a.type ≠ .none ∧ ∀ n, Ag n → a.name = none ∨ a.name = some "" ∨ a.name = some n

/-- A further harmless insertion keeps what is required. -/
theorem shown_step {sym : ElfSym} {Ag : String → Prop} {a : InsertArgs} {s : Symbol} (hh : Harmless Ag a) (hs : s.address = a.address) :
    (Shown sym s → Shown sym (stepAt a (some s))) ∧ (s.type ≠ .none → NameShown sym Ag s → NameShown sym Ag (stepAt a (some s))) := by
  obtain ⟨q1, q2, q3⟩ := hh
  constructor
  · rintro ⟨p1, p2, p3⟩
    rw [stepAt_merge q2 p2]
    obtain ⟨m1, m2, m3⟩ := merge_size hs q1 p1
    exact ⟨m3, merge_type q2 p2, Nat.le_trans p3 (BitVec.le_def.mp m1)⟩
  · rintro p2 ⟨p4, p5⟩
    rw [stepAt_merge q2 p2]
    obtain ⟨n1, n2, n3, n4, n5⟩ := merge_name a s
    exact ⟨fun h => n1 (p4 h), fun n hn h1 h2 => n2 n hn (p5 n hn h1 h2)⟩

/-- A symbol that is inserted remains, if other insertions at its address are harmless and the search for functions keeps it,
with its name if `Nm` holds. -/
theorem declared_by {env : Env} {fl : AnalyzeFlags} {elf : Elf} {dbgsym : Option Elf} {r : AState}
    (h : analyze env fl elf dbgsym = .ok r) {d : Elf} (hd : Part elf dbgsym d) {sym : ElfSym} (hsym : TableEntry d sym)
    {sec : ElfSec} {k : Addr} (hin : symbolArgs sec sym k ∈ symOps d.sections r.tls_segment sym) {Ag : String → Prop} {Nm : Prop}
    (hsrc : ∀ a, Source elf dbgsym r.tls_segment a → a.address = k → Harmless Ag a)
    (hsearch : ∀ st0 st t, Gathered env fl elf dbgsym st0 st t → (∀ a, Sizeless a → a.address = k → Harmless Ag a) →
      (∃ s ∈ st0.symbols, s.address = k ∧ Shown sym s ∧ NameShown sym Ag s) →
      ∃ s ∈ t, s.address = k ∧ Shown sym s ∧ (Nm → NameShown sym Ag s))
    (hkeep : fl.keep_unused = true ∨ (sym.name ≠ none ∧ Nm)) :
    ∃ s ∈ r.symbols, s.address = k ∧ sym.size.toNat ≤ s.size.toNat ∧
      (Nm → ∀ n, n ≠ "" → sym.name = some n → Ag n → s.name = some n) := by
  obtain ⟨st0, st, t, s1, s2, s3, hg, hi⟩ := analyze_ok h
  obtain ⟨hs0, hst, hok, _⟩ := gathered_facts hg
  have htls : r.tls_segment = st.tls_segment := by
    obtain ⟨f, e⟩ := hi.ids
    rw [e]
  rw [htls] at hin hsrc
  obtain ⟨tbl, g1, g2, g3, g4⟩ := hsym
  obtain ⟨t1, t2, u1, u2, u3⟩ := hg.via d hd tbl g1 g2 g3 sym g4 _ hin
  have hown : Source elf dbgsym st.tls_segment (symbolArgs sec sym k) := by
    rcases hd with rfl | hd
    · exact Or.inr (Or.inl ⟨tbl, g1, g2, g3, sym, g4, hin⟩)
    · exact Or.inr (Or.inr ⟨d, hd, tbl, g1, g2, g3, sym, g4, hin⟩)
  have hself := hsrc _ hown rfl
  -- symbols at the address before
  have hsort1 : Sorted t1 := u1.sorted sorted_nil
  have hbefore := u1.always (k := k)
    (P := fun s => NoWrap s ∧ s.type ≠ .none ∧ ∀ n, Ag n →
      s.name = none ∨ s.name = some "" ∨ s.name = some n)
    (fun a hA ha => ⟨(hsrc a hA ha).1, (hsrc a hA ha).2.1, (hsrc a hA ha).2.2⟩)
    (fun a s hA ha hs hP => by
      obtain ⟨p1, p2, p3⟩ := hP
      obtain ⟨q1, q2, q3⟩ := hsrc a hA ha
      rw [stepAt_merge q2 p2]
      refine ⟨(merge_size (hs.trans ha.symm) q1 p1).2.2, merge_type q2 p2, fun n hn => ?_⟩
      rcases (merge_name a s).2.2.2.2 with e | e
      · rw [e]; exact q3 n hn
      · rw [e]; exact p3 n hn)
    sorted_nil (fun _ h => by cases h)
  -- the symbol after its insertion
  obtain ⟨e1, e2, e3⟩ := insertSymbol_spec hsort1 u2
  have hafter : ∃ s ∈ t2, s.address = k ∧
      (Shown sym s ∧
       NameShown sym Ag s) := by
    refine ⟨_, (find_mem e2).1, (find_mem e2).2, ?_⟩
    obtain ⟨q1, q2, q3⟩ := hself
    cases hp : Tree.find t1 (symbolArgs sec sym k).address with
    | none =>
      exact ⟨⟨q1, q2, Nat.le_refl _⟩, ⟨fun h => h, fun n _ hn _ => hn⟩⟩
    | some pos =>
      obtain ⟨p1, p2, p3⟩ := hbefore pos (find_mem hp).1 (find_mem hp).2
      rw [stepAt_merge q2 p2]
      obtain ⟨m1, m2, m3⟩ := merge_size (find_mem hp).2 q1 p1
      obtain ⟨n1, n2, n3, n4, n5⟩ := merge_name (symbolArgs sec sym k) pos
      refine ⟨⟨m3, merge_type q2 p2, BitVec.le_def.mp m2⟩, ⟨n3, fun n _ hn hag => n4 n hn (p3 n hag)⟩⟩
  have hread := u3.at (P := fun s => Shown sym s ∧
      NameShown sym Ag s)
    (fun a s hA ha hs hP => ⟨(shown_step (hsrc a hA ha) (hs.trans ha.symm)).1 hP.1, (shown_step (hsrc a hA ha) (hs.trans ha.symm)).2 hP.1.type hP.2⟩)
    (fun hF => hF.elim) e1 hafter
  obtain ⟨s, x1, x2, x3, x4⟩ := hsearch st0 st t hg (fun a hA => hsrc a (Or.inl hA)) hread
  -- the remaining steps
  obtain ⟨y, y1, y2⟩ := addFlags_enlarged (entry := elf.entry) (fs := st0.section_flags) x1
  have y1' : y ∈ st.symbols := by rw [hg.result]; exact y1
  obtain ⟨z, z1, z2, _⟩ := zip_mem_left hi.zip1 y1'
  have gz := y2.trans z2
  obtain ⟨f, e⟩ := hi.ids
  rcases (hashInternal_enlarged hi.ok1 hi.internal).1 z z1 with ⟨w, w1, w2⟩ | ⟨w1, w2⟩
  · have gw := gz.trans w2
    have e3 := hashExternal_closed hi.ok2.sorted hi.external
    refine ⟨setIds f (extSym env s2.global_offset_table s2.symbols s2.symbols w), ?_, gw.address.trans x2,
      Nat.le_trans x3.size gw.size, ?_⟩
    · rw [e, e3]
      exact List.mem_map_of_mem (List.mem_map_of_mem w1)
    · intro hno n hn h1 h2
      show w.name = _
      rw [gw.name]
      exact (x4 hno).name n hn h1 h2
  · exfalso
    rcases hkeep with hk | ⟨hk1, hk2⟩
    · rw [hk] at w1; cases w1
    · rw [gz.name] at w2
      exact (x4 hk2).named hk1 w2

/-- A symbol that is inserted remains, if other insertions at its address are harmless. -/
theorem declared_core {env : Env} {fl : AnalyzeFlags} {elf : Elf} {dbgsym : Option Elf} {r : AState}
    (h : analyze env fl elf dbgsym = .ok r) {d : Elf} (hd : Part elf dbgsym d) {sym : ElfSym} (hsym : TableEntry d sym)
    {sec : ElfSec} {k : Addr} (hin : symbolArgs sec sym k ∈ symOps d.sections r.tls_segment sym) {Ag : String → Prop}
    (hsrc : ∀ a, Source elf dbgsym r.tls_segment a → a.address = k → Harmless Ag a)
    (hkeep : fl.keep_unused = true ∨ (sym.name ≠ none ∧ NoImportNames fl elf)) :
    ∃ s ∈ r.symbols, s.address = k ∧ sym.size.toNat ≤ s.size.toNat ∧
      (NoImportNames fl elf → ∀ n, n ≠ "" → sym.name = some n → Ag n → s.name = some n) := by
  refine declared_by h hd hsym hin hsrc ?_ hkeep
  intro st0 st t hg hless hread
  have hs0 := (gathered_facts hg).1
  have hsearch := hg.touch.at (P := fun s => Shown sym s ∧
      (¬ Naming fl st0.sections → NameShown sym Ag s))
    (fun a s hA ha hs hP => ⟨(shown_step (hless a hA ha) (hs.trans ha.symm)).1 hP.1,
      fun hN => (shown_step (hless a hA ha) (hs.trans ha.symm)).2 hP.1.type (hP.2 hN)⟩)
    (fun hN n s hP => ⟨⟨hP.1.wrap, hP.1.type, hP.1.size⟩, fun hN' => absurd hN hN'⟩) hs0
    (by obtain ⟨s, x1, x2, x3⟩ := hread; exact ⟨s, x1, x2, x3.1, fun _ => x3.2⟩)
  obtain ⟨s, x1, x2, x3, x4⟩ := hsearch
  refine ⟨s, x1, x2, x3, fun hno => x4 ?_⟩
  rintro ⟨sec', hm, hp⟩
  have : sec' ∈ st.sections := by rw [hg.result]; exact hm
  rw [hg.sections] at this
  rw [hno sec' (mem_loadedSections.mp (mem_ofList this))] at hp
  cases hp

/-- C73: a symbol that one of the tables of the file or of its debug symbols declares is present in the result of the analysis,
at its address and at least with its size; if no name of an imported function takes its place, it has the declared name, as
long as there are no different names for the same address. This holds unless there is an untyped symbol at the same address.
Names are not required if unused symbols are kept. -/
theorem C73_declared_partial (env : Env) (fl : AnalyzeFlags) (elf : Elf) (dbgsym : Option Elf) (r : AState)
    (h : analyze env fl elf dbgsym = .ok r) (d : Elf) (hd : Part elf dbgsym d) (sym : ElfSym) (hsym : TableEntry d sym)
    (k : Addr) (hk : DefinesAt d sym k) (hreg : TLS.is_tls k = false)
    (hfit : ∀ d, Part elf dbgsym d → ∀ e, TableEntry d e → k.toNat + e.size.toNat < 2 ^ 64)
    (htype : ∀ d, Part elf dbgsym d → ∀ e, TableEntry d e → DefinesAt d e k → e.type ≠ .notype)
    (hkeep : fl.keep_unused = true ∨ (sym.name ≠ none ∧ NoImportNames fl elf)) :
    ∃ s ∈ r.symbols, s.address = k ∧ sym.size.toNat ≤ s.size.toNat ∧
      (NoImportNames fl elf → ∀ n, n ≠ "" → sym.name = some n → Agree elf dbgsym k n → s.name = some n) := by
  obtain ⟨sec, hdef, rfl⟩ := hk
  exact declared_core h hd hsym (by rw [symOps_defines hdef]; exact List.mem_cons_self) (fun a ha hk => source_at hreg hfit htype ha hk) hkeep

theorem run_entry {syms : List ElfSym} {d : Elf} {e : ElfSym} (h1 : Part (runElf syms) none d) (h2 : TableEntry d e) :
    d = runElf syms ∧ e ∈ syms := by
  rcases h1 with rfl | h1
  · refine ⟨rfl, ?_⟩
    obtain ⟨tbl, t1, t2, t3, t4⟩ := h2
    have : tbl = runTable [] ∨ tbl = runText ∨ tbl = runTable syms := by
      simpa [runElf] using t1
    rcases this with rfl | rfl | rfl
    · cases t4
    · cases t4
    · exact t4
  · cases h1

theorem run_defines {syms : List ElfSym} (a size : Addr) (name : String) (bind : ElfSymBind) (ha : a ≠ 0) :
    DefinesAt (runElf syms) (runFunc a size name bind) a :=
  ⟨runText, ⟨⟨1, rfl, rfl⟩, fun h => (by cases h), ha, rfl⟩, (TLS.trans_false a).symm⟩

theorem run_agree {syms : List ElfSym} {k : Addr} {n : String}
    (h : ∀ e ∈ syms, e.value = k → e.name = none ∨ e.name = some "" ∨ e.name = some n) : Agree (runElf syms) none k n := by
  rintro d hd e he ⟨sec, hdef, hk⟩
  obtain ⟨rfl, he'⟩ := run_entry hd he
  obtain ⟨i, h1, h2⟩ := hdef.index
  have hsec : sec = runTable [] ∨ sec = runText ∨ sec = runTable syms := by
    have := List.mem_of_getElem? h2
    simpa [runElf] using this
  refine h e he' ?_
  rw [hk]
  rcases hsec with rfl | rfl | rfl <;> exact (TLS.trans_false _).symm

/-- The first function of the table, by the theorem. -/
example : ∃ s ∈ [runMain, runF], s.address = 0x1000 ∧ 3 ≤ s.size.toNat ∧ s.name = some "main" := by
  obtain ⟨s, h1, h2, h3, h4⟩ := C73_declared_partial exEnv {} (runElf runSyms) none _ run_ok (runElf runSyms) (Or.inl rfl)
    (runFunc 0x1000 3 "main" .global) ⟨runTable runSyms, by decide, by decide, by decide, by decide⟩ 0x1000
    (run_defines _ _ _ _ (by decide)) (by decide)
    (fun d hd e he => by
      obtain ⟨rfl, he'⟩ := run_entry hd he
      clear he
      revert e
      decide)
    (fun d hd e he _ => by
      obtain ⟨rfl, he'⟩ := run_entry hd he
      exact (by decide : ∀ e ∈ runSyms, e.type ≠ .notype) e he')
    (Or.inr ⟨by decide, fun sec hs => by rw [run_loaded hs]; decide⟩)
  refine ⟨s, h1, h2, h3, h4 (fun sec hs => by rw [run_loaded hs]; decide) "main" (by decide) rfl (run_agree ?_)⟩
  decide

/-- A table with an untyped symbol in front of a function at the same address. -/
def runUntyped : List ElfSym :=
  [{ runFunc 0x1000 0 "start" .global with type := .notype }, runFunc 0x1000 5 "main" .global, runFunc 0x1003 2 "f" .local]

/-- C73: without the restriction on untyped symbols a declared function gets lost, neither its size nor its name is part of
the result. -/
theorem C73_untyped :
    analyze exEnv {} (runElf runUntyped) none = .ok (runState [{ runMain with name := some "start", type := .none }, runF]) ∧
    TableEntry (runElf runUntyped) (runFunc 0x1000 5 "main" .global) ∧
    DefinesAt (runElf runUntyped) (runFunc 0x1000 5 "main" .global) 0x1000 ∧ NoImportNames {} (runElf runUntyped) ∧
    ¬ ∃ s ∈ [{ runMain with name := some "start", type := .none }, runF], s.address = 0x1000 ∧
      (5 ≤ s.size.toNat ∨ s.name = some "main" ∨ s.type = .func) := by
  refine ⟨ok_of_decide (by decide +kernel), ⟨runTable runUntyped, by decide, by decide, by decide, by decide⟩,
    run_defines _ _ _ _ (by decide), fun sec hs => by rw [run_loaded hs]; decide, by decide⟩

end Bean

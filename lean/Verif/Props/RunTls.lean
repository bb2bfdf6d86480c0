import Verif.Props.FileRecon
import Verif.Lemmas.FindKeeps
/-
C73 for all symbols, including thread-local ones.
-/
namespace Bean
open Tree Spec

/-- The entry belongs to a thread-local variable at the (translated) address `k`. -/
def PlacesTls (elf d : Elf) (sym : ElfSym) (k : Addr) : Prop :=
  sym.type = .tls ∧ ∃ sec seg, InSection d.sections sym sec ∧ tlsSegment elf = some seg ∧ k = TLS.trans_addr (seg.virt_addr + sym.value) true

/-- The entry belongs to a symbol at the (translated) address `k`. -/
def Places (elf d : Elf) (sym : ElfSym) (k : Addr) : Prop := DefinesAt d sym k ∨ PlacesTls elf d sym k

/-- All entries for the address `k` that have a name have the name `n`. -/
def AgreeAll (elf : Elf) (dbgsym : Option Elf) (k : Addr) (n : String) : Prop :=
  ∀ d, Part elf dbgsym d → ∀ e, TableEntry d e → Places elf d e k → e.name = none ∨ e.name = some "" ∨ e.name = some n

theorem symOps_tls {secs : List ElfSec} {seg : ElfSeg} {sym : ElfSym} {sec : ElfSec} (ht : sym.type = .tls) (h : InSection secs sym sec) :
    symOps secs (some seg) sym = [symbolArgs sec sym (TLS.trans_addr (seg.virt_addr + sym.value) true)] := by
  obtain ⟨n, h1, h2⟩ := h
  unfold symOps
  rw [h1]
  dsimp only
  rw [h2]
  dsimp only
  rw [if_pos ht]

/-- The search for functions keeps a symbol, and its name unless it belongs to code that gets the names of imported functions. -/
theorem search_shown {env : Env} {fl : AnalyzeFlags} {elf : Elf} {dbgsym : Option Elf} {sym : ElfSym} {k : Addr} {Ag : String → Prop}
    (st0 st : AState) (t : SymTree) (hg : Gathered env fl elf dbgsym st0 st t) (hless : ∀ a, Sizeless a → a.address = k → Harmless Ag a)
    (h0 : ∃ s ∈ st0.symbols, s.address = k ∧ Shown sym s ∧ NameShown sym Ag s) :
    ∃ s ∈ t, s.address = k ∧ Shown sym s ∧ (¬ PltCode env fl elf k → NameShown sym Ag s) := by
  have hload : ∀ sec ∈ st0.sections, Loaded elf sec := by
    intro sec hm
    have : sec ∈ st.sections := by rw [hg.result]; exact hm
    rw [hg.sections] at this
    exact mem_loadedSections.mp (mem_ofList this)
  have code : ∀ sec pre x post start, SlotAt env fl st0 sec pre x post start → PltCode env fl elf start := by
    rintro sec pre x post start ⟨⟨c1, c2, bytes, c3, c4⟩, hn, _, hs⟩
    refine ⟨sec, hload sec c1, hn, c2, bytes, c3, ?_⟩
    rcases hs with hs | ⟨y, hy, hs⟩
    · exact Or.inl hs
    · refine Or.inr ⟨y, ?_, hs⟩
      rw [← c4]
      rcases List.mem_append.mp hy with hy | hy
      · exact List.mem_append_left _ hy
      · rw [List.mem_singleton.mp hy]
        exact List.mem_append_right _ List.mem_cons_self
  refine (findFunctions_keeps (A := Sizeless) (I := fun t => Sorted t ∧ ∃ s ∈ t, s.address = k ∧ Shown sym s ∧
    (¬ PltCode env fl elf k → NameShown sym Ag s)) ⟨fun _ _ _ => plain_sizeless _ _, fun _ _ _ _ _ _ => plain_func _ _,
      fun _ _ _ _ => plain_func _ _, ?_, ?_, ?_⟩ hg.found ⟨(gathered_facts hg).1, ?_⟩).2
  · rintro t t' a hA hi ⟨hs, hk⟩
    refine ⟨(insertSymbol_spec hs hi).1, ?_⟩
    exact (Touch.one (N := False) hA hi).at (P := fun s => Shown sym s ∧ (¬ PltCode env fl elf k → NameShown sym Ag s))
      (fun a s hA ha hs hP => ⟨(shown_step (hless a hA ha) (hs.trans ha.symm)).1 hP.1,
        fun hN => (shown_step (hless a hA ha) (hs.trans ha.symm)).2 hP.1.type (hP.2 hN)⟩) (fun hF => hF.elim) hs hk
  · rintro t sec pre x post start n _ hslot _ ⟨hs, s, hm, hk, hsh, hnm⟩
    refine ⟨(Touch.rename (b := env.build) (A := Sizeless) start n trivial .refl).sorted hs, _, List.mem_map_of_mem hm, ?_, ?_⟩
    · split <;> exact hk
    · split
      · rename_i he
        have he' : s.address = start := he
        refine ⟨⟨hsh.wrap, hsh.type, hsh.size⟩, fun hno => absurd ?_ hno⟩
        rw [← hk, he']
        exact code _ _ _ _ _ hslot
      · exact ⟨hsh, hnm⟩
  · rintro t sec pre x post start sec' n _ _ _ _ ⟨hs, s, hm, hrest⟩
    exact ⟨sorted_insert hs _, s, (mem_insert' hs).mpr (Or.inl hm), hrest⟩
  · obtain ⟨s, x1, x2, x3, x4⟩ := h0
    exact ⟨s, x1, x2, x3, fun _ => x4⟩

/-- **C73** for all addresses: a symbol that one of the tables of the file or of its debug symbols declares, thread-local or not, is present in the result of the analysis,
at its address and at least with its size; unless it is part of a procedure linkage table whose functions get the names of imported ones, it has the declared name, as long as there are no different names for the
same address. This holds unless there is an untyped symbol at the same address. -/
theorem C73_all_partial (env : Env) (fl : AnalyzeFlags) (elf : Elf) (dbgsym : Option Elf) (r : AState)
    (h : analyze env fl elf dbgsym = .ok r) (d : Elf) (hd : Part elf dbgsym d) (sym : ElfSym) (hsym : TableEntry d sym)
    (k : Addr) (hk : Places elf d sym k)
    (hfit : ∀ d, Part elf dbgsym d → ∀ e, TableEntry d e → k.toNat + e.size.toNat < 2 ^ 64)
    (htype : ∀ d, Part elf dbgsym d → ∀ e, TableEntry d e → Places elf d e k → e.type ≠ .notype)
    (hkeep : fl.keep_unused = true ∨ (sym.name ≠ none ∧ ¬ PltCode env fl elf k)) :
    ∃ s ∈ r.symbols, s.address = k ∧ sym.size.toNat ≤ s.size.toNat ∧
      (¬ PltCode env fl elf k → ∀ n, n ≠ "" → sym.name = some n → AgreeAll elf dbgsym k n → s.name = some n) := by
  have htls : r.tls_segment = tlsSegment elf := by
    obtain ⟨st, s1, s2, s3, f⟩ := stages h
    exact congrArg FilePart.tls f.part
  have table : ∀ a d, a.address = k → Part elf dbgsym d → FromTable d.sections r.tls_segment a → Harmless (AgreeAll elf dbgsym k) a := by
    rintro a d ha hd ⟨tbl, h1, h2, h3, e, h4, h5⟩
    have he : TableEntry d e := ⟨tbl, h1, h2, h3, h4⟩
    have entry : ∀ sec, a = symbolArgs sec e k → Places elf d e k → Harmless (AgreeAll elf dbgsym k) a := by
      rintro sec rfl hp
      exact ⟨hfit d hd e he, beanType_none (htype d hd e he hp), fun n hn => hn d hd e he hp⟩
    obtain ⟨sec, hs, h6 | h6 | h6⟩ := mem_symOps h5
    · obtain ⟨t1, seg, t2, t3⟩ := h6
      rw [htls] at t2
      have hk' : k = TLS.trans_addr (seg.virt_addr + e.value) true := by rw [← ha, t3]; rfl
      exact entry sec (by rw [hk']; exact t3) (Or.inr ⟨t1, sec, seg, hs, t2, hk'⟩)
    · obtain ⟨hdef, t3⟩ := h6
      have hk' : k = TLS.trans_addr e.value sec.tls := by rw [← ha, t3]; rfl
      exact entry sec (by rw [hk']; exact t3) (Or.inl ⟨sec, hdef, hk'⟩)
    · obtain ⟨_, _, rfl⟩ := h6
      exact ⟨BitVec.isLt _, (by decide : beanType .hiproc ≠ .none), fun n _ => Or.inl rfl⟩
  have hsrc : ∀ a, Source elf dbgsym r.tls_segment a → a.address = k → Harmless (AgreeAll elf dbgsym k) a := by
    intro a hA ha
    rcases hA with ⟨h1, h2, h3, _⟩ | hA | ⟨d', hd', hA⟩
    · refine ⟨?_, h2, fun n _ => Or.inl h3⟩
      unfold Fits
      rw [h1]
      exact BitVec.isLt _
    · exact table a elf ha (Or.inl rfl) hA
    · exact table a d' ha (Or.inr hd') hA
  rcases hk with ⟨sec, hdef, rfl⟩ | ⟨t1, sec, seg, hs, t2, rfl⟩
  · exact declared_by h hd hsym (by rw [symOps_defines hdef]; exact List.mem_cons_self) hsrc search_shown hkeep
  · exact declared_by h hd hsym (by rw [htls, t2, symOps_tls t1 hs]; exact List.mem_singleton.mpr rfl) hsrc search_shown hkeep

/-- A file with a function and a thread-local variable. -/
def tlsFile : Elf := rexElf [0x64, 0xfc, 0xff, 0xff, 0xff, 0xc3] { rexData ".tdata" with tls := true } [] [imgFunc 0x1000 6 "main" .global, rexTlsSym] [rexTlsSeg]

theorem tlsFile_entry {d : Elf} {e : ElfSym} (hd : Part tlsFile none d) (he : TableEntry d e) : d = tlsFile ∧ (e = imgFunc 0x1000 6 "main" .global ∨ e = rexTlsSym) := by
  rcases hd with rfl | hd
  · obtain ⟨tbl, h1, _, _, h4⟩ := he
    exact ⟨rfl, (by decide : ∀ tbl ∈ tlsFile.sections, ∀ e ∈ tbl.symbols, e = imgFunc 0x1000 6 "main" .global ∨ e = rexTlsSym) tbl h1 e h4⟩
  · cases hd

example (r : AState) (h : analyze rexEnv { keep_unused := true } tlsFile none = .ok r) :
    ∃ s ∈ r.symbols, s.address = TLS.trans_addr 0x2004 true ∧ 4 ≤ s.size.toNat := by
  obtain ⟨s, h1, h2, h3, _⟩ := C73_all_partial rexEnv _ tlsFile none r h tlsFile (Or.inl rfl) rexTlsSym
    (by unfold TableEntry; decide) _ (Or.inr ⟨rfl, { rexData ".tdata" with tls := true }, rexTlsSeg, ⟨2, rfl, rfl⟩, rfl, rfl⟩)
    (fun d hd e he => by rcases (tlsFile_entry hd he).2 with rfl | rfl <;> decide)
    (fun d hd e he _ => by rcases (tlsFile_entry hd he).2 with rfl | rfl <;> decide) (Or.inl rfl)
  exact ⟨s, h1, h2, h3⟩

example : ∃ r, analyze rexEnv { keep_unused := true } tlsFile none = .ok r := by
  obtain ⟨r, h, _⟩ := ok_such (m := analyze rexEnv { keep_unused := true } tlsFile none) (P := fun _ => true) (by decide +kernel)
  exact ⟨r, h⟩

end Bean

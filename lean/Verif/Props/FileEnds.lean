import Verif.Props.FileRegions
import Verif.Props.HashCode
/-
C31 for results of the complete analysis: regions that end with a symbol.
-/
namespace Bean
open Tree Spec Props

/-- Without reconstruction a symbol is enlarged at most up to the next symbol. -/
theorem final_size {env : Env} {fl : AnalyzeFlags} {elf : Elf} {dbgsym : Option Elf} {st s1 s2 s3 r : AState}
    (f : Stages env fl elf dbgsym st s1 s2 s3 r) (hr : fl.reconstruct = false) {s : Symbol} (hs : s ∈ r.symbols) (hw : NoWrap s) :
    ∃ s0 ∈ st.symbols, s0.address = s.address ∧ s.sec.flags = s0.sec.flags ∧ s0.size ≤ s.size ∧ (s.size = s0.size ∨
      ∀ z ∈ st.symbols, s.address < z.address → s.address.toNat + s.size.toNat ≤ z.address.toNat) := by
  obtain ⟨x, hx, k, _⟩ := f.kept s hs
  obtain ⟨_, hmem, _⟩ := hashInternal_ok f.run.ok1 f.run.internal
  obtain ⟨i, x1, y, a1, a2, a3, a4⟩ := (hmem x).mp hx
  have hx1 := List.mem_of_getElem? a1
  obtain ⟨hsame, _, sec, w, b1, b2, b3, b4, _⟩ := hashSymbol_same (f.run.ok1.rels x1 hx1) a2
  rw [finish_used a3] at a4
  have exs : x.sec = y.sym.sec := by rw [a4]
  have exa : x.address = y.sym.address := by rw [a4]
  have exz : x.size = y.sym.size := by rw [a4]
  have had := adoptSection_same sec x1
  have e1 : s.address = x1.address := by rw [← k.address, exa, hsame.address]
  have e2 : s.size = w.size := by rw [← k.size, exz, b2]
  have e3 : s.sec.flags = x1.sec.flags := by
    rw [← k.sec, exs, b3, b2]
    exact had.2.2.2.2.2
  have hst : s1 = st := by
    rcases f.run.first with ⟨h, _⟩ | ⟨_, he⟩
    · rw [hr] at h; cases h
    · exact he
  rw [hst] at hx1 a1 b4
  refine ⟨x1, hx1, e1.symm, e3, ?_⟩
  have hnext := lastAddr_next f.okFirst.sorted a1
  generalize lastAddr (st.symbols.drop (i + 1)) = last at b4 hnext
  have hle : ∀ z ∈ st.symbols, s.address < z.address → last ≤ z.address := by
    intro z hz hlt
    rw [e1] at hlt
    rcases hnext with ⟨h, _⟩ | ⟨q, _, _, h, he⟩
    · exact absurd (h z hz) (BitVec.not_le.mpr hlt)
    · rw [he]; exact h z hz hlt
  unfold sizeSymbol at b4
  replace b4 := (massert_bind_ok b4).2
  generalize TLS.trans_addr (env.align_up (sec.virt_addr + sec.size) sec.alignment) sec.tls = E at b4
  have hm : (if last < E then last else E) ≤ last := by
    split
    · exact BitVec.le_refl _
    · next hn => exact BitVec.not_lt.mp hn
  generalize (if last < E then last else E) = m at b4 hm
  replace b4 := Except.ok.inj b4
  by_cases hc : m - (adoptSection sec x1).address > (adoptSection sec x1).size
  · rw [if_pos hc] at b4
    refine ⟨?_, Or.inr ?_⟩
    · rw [e2, ← b4]
      rw [had.2.1] at hc
      exact BitVec.le_of_lt hc
    intro z hz hlt
    have hz' := BitVec.le_def.mp (BitVec.le_trans hm (hle z hz hlt))
    have e4 : w.size = m - s.address := by rw [← b4, e1]; show m - _ = _; rw [had.1.address]
    unfold NoWrap at hw
    rw [e2, e4] at hw ⊢
    rw [BitVec.toNat_sub] at hw ⊢
    have := m.isLt
    have := s.address.isLt
    omega
  · rw [if_neg hc] at b4
    have e4 : s.size = x1.size := by rw [e2, ← b4, had.2.1]
    exact ⟨e4 ▸ BitVec.le_refl _, Or.inl e4⟩

theorem readSegment_relro {b : Build} {seg : ElfSeg} (ht : seg.type = .gnuRelro) {st st' : AState}
    (h : readSegment b st seg = .ok st') (hs : Sorted st.symbols) : Has st'.symbols (seg.virt_addr + seg.size) := by
  unfold readSegment at h
  rw [ht] at h
  obtain ⟨t, e1, e2⟩ := stInsert_ok h
  rw [e2]
  exact insert_has (a := { address := seg.virt_addr + seg.size, writeable := true }) hs e1

theorem readSegments_relro {b : Build} {segs : List ElfSeg} {seg : ElfSeg} (hm : seg ∈ segs) (ht : seg.type = .gnuRelro) :
    ∀ {st st' : AState}, readSegments b st segs = .ok st' → Sorted st.symbols → Has st'.symbols (seg.virt_addr + seg.size) := by
  induction segs with
  | nil => cases hm
  | cons a segs ih =>
    intro st st' h hs
    unfold readSegments at h
    rw [List.foldlM_cons] at h
    cases h1 : readSegment b st a with
    | error e => rw [h1] at h; cases h
    | ok x =>
      rw [h1] at h
      have hx : Sorted x.symbols := (readSegment_read (segs := [a]) (List.mem_singleton.mpr rfl) h1).touch.sorted hs
      rcases List.mem_cons.mp hm with rfl | hm
      · exact (readSegments_read (b := b) (segs := segs) h).touch.has hx (readSegment_relro ht h1 hs)
      · exact ih hm h hx

/-- There is a symbol at the end of each region that is read-only after relocation. -/
theorem gather_relro {env : Env} {fl : AnalyzeFlags} {elf : Elf} {dbgsym : Option Elf} {st : AState}
    (h : gather env fl elf dbgsym = .ok st) {seg : ElfSeg} (hm : seg ∈ elf.segments) (ht : seg.type = .gnuRelro) :
    Has st.symbols (seg.virt_addr + seg.size) := by
  unfold gather at h
  cases h1 : readSegments env.build {} elf.segments with
  | error e => rw [h1] at h; cases h
  | ok s1 =>
    simp only [bind, Except.bind, h1] at h
    have k1 := readSegments_relro hm ht h1 sorted_nil
    have g1 := (readSegments_read h1).touch.sorted sorted_nil
    cases h2 : readSections env.build true s1 elf.sections with
    | error e => rw [h2] at h; cases h
    | ok s2 =>
      simp only [h2] at h
      have k2 := (readSections_read h2).touch.has g1 k1
      have g2 := (readSections_read h2).touch.sorted g1
      cases h3 : readDebug env.build s2 dbgsym with
      | error e => rw [h3] at h; cases h
      | ok s3 =>
        simp only [h3] at h
        obtain ⟨g3, k3⟩ : Sorted s3.symbols ∧ Has s3.symbols (seg.virt_addr + seg.size) := by
          cases dbgsym with
          | none => cases h3; exact ⟨g2, k2⟩
          | some d => exact ⟨(readSections_read h3).touch.sorted g2, (readSections_read h3).touch.has g2 k2⟩
        cases h4 : readTargets env.build s3 with
        | error e => rw [h4] at h; cases h
        | ok s4 =>
          simp only [h4] at h
          have k4 := (readTargets_touch h4).2.has g3 k3
          have g4 := (readTargets_touch h4).2.sorted g3
          cases h5 : findFunctions env fl s4 with
          | error e => rw [h5] at h; cases h
          | ok s5 =>
            simp only [h5] at h
            cases h
            obtain ⟨s, hs, e⟩ := (findFunctions_touch h5).2.has g4 k4
            obtain ⟨s', hs', g⟩ := addFlags_enlarged (entry := elf.entry) (fs := s5.section_flags) hs
            exact ⟨s', hs', by rw [g.address]; exact e⟩

theorem region_inside {env : Env} {fl : AnalyzeFlags} {elf : Elf} {dbgsym : Option Elf} {st s1 s2 s3 r : AState}
    (g : Stages env fl elf dbgsym st s1 s2 s3 r) (hr : fl.reconstruct = false) (hfit : ∀ f, Announced elf f → FlagFits f)
    {s : Symbol} (hs : s ∈ r.symbols) (hw : NoWrap s) {m : BitVec 16} (hm : s.sec.flags &&& m ≠ 0#16)
    (hend : ∀ f, Announced elf f → f.flag &&& m ≠ 0#16 → Has st.symbols (f.start + f.size)) :
    ∃ f, Announced elf f ∧ f.flag &&& m ≠ 0#16 ∧ Inside s f := by
  obtain ⟨s0, h0, e1, e3, e4, e2⟩ := final_size g hr hs hw
  obtain ⟨st0, t, hg⟩ := gather_ok g.file
  rw [e3] at hm
  obtain ⟨f, hf, h1, h2, h3⟩ := (gathered_region_flags hg s0 h0 m).mp hm
  have ha := (gather_regions g.file f).mp hf
  have hff := hfit f ha
  unfold FlagFits at hff
  unfold NoWrap at hw
  have hend' : (f.start + f.size).toNat = f.start.toNat + f.size.toNat := by
    rw [BitVec.toNat_add, Nat.mod_eq_of_lt hff]
  rw [e1] at h2 h3
  refine ⟨f, ha, h1, BitVec.le_def.mp h2, ?_⟩
  rw [BitVec.lt_def, hend', BitVec.toNat_add] at h3
  rcases e2 with e2 | e2
  · rw [← e2, Nat.mod_eq_of_lt hw] at h3
    omega
  · obtain ⟨z, hz, hza⟩ := hend f ha h1
    by_cases hlt : s.address < z.address
    · have := e2 z hz hlt
      rw [hza, hend'] at this
      exact this
    · exfalso
      rw [BitVec.not_lt, BitVec.le_def, hza, hend'] at hlt
      have := BitVec.le_def.mp e4
      rw [Nat.mod_eq_of_lt (by omega)] at h3
      omega

/-- C31: a flag of the section of a symbol is announced by the file for a region the symbol lies in, if the result has a symbol at
the end of each of the regions with this flag. -/
theorem C31_files_inside_partial (env : Env) (fl : AnalyzeFlags) (elf : Elf) (dbgsym : Option Elf) (r : AState)
    (h : analyze env fl elf dbgsym = .ok r) (hr : fl.reconstruct = false) (hfit : ∀ f, Announced elf f → FlagFits f)
    (s : Symbol) (hs : s ∈ r.symbols) (hw : NoWrap s) (m : BitVec 16) (hm : s.sec.flags &&& m ≠ 0#16)
    (hend : ∀ f, Announced elf f → f.flag &&& m ≠ 0#16 → ∃ z ∈ r.symbols, z.address = f.start + f.size) :
    ∃ f, Announced elf f ∧ f.flag &&& m ≠ 0#16 ∧ Inside s f := by
  obtain ⟨st, s1, s2, s3, g⟩ := stages h
  refine region_inside g hr hfit hs hw hm (fun f ha hf => ?_)
  obtain ⟨z, hz, e⟩ := hend f ha hf
  obtain ⟨z', hz', e'⟩ := (addresses_of g).1 z hz
  have hst : s1 = st := by
    rcases g.run.first with ⟨h, _⟩ | ⟨_, he⟩
    · rw [hr] at h; cases h
    · exact he
  exact ⟨z', hst ▸ hz', e'.trans e⟩

theorem announced_relro {elf : Elf} {f : SectionFlag} (ha : Announced elf f) (hf : f.flag &&& SECTION_RELRO ≠ 0#16) :
    ∃ seg ∈ elf.segments, seg.type = .gnuRelro ∧ f.start = seg.virt_addr ∧ f.size = seg.virt_size := by
  rcases ha with ⟨seg, hm, ⟨_, _, e⟩ | ⟨e1, e2, h⟩ | ⟨_, _, x, hx, _, _, e⟩⟩ | ⟨sec, _, _, _, _, _, h⟩
  · rw [e] at hf
    exact absurd (show SECTION_NOBITS &&& SECTION_RELRO = 0#16 by decide) hf
  · rcases h with ⟨_, e⟩ | ⟨_, e⟩ | ⟨ht, _⟩ | ⟨_, e⟩
    · rw [e] at hf; exact absurd rfl hf
    · rw [e] at hf; exact absurd rfl hf
    · exact ⟨seg, hm, ht, e1, e2⟩
    · rw [e] at hf; exact absurd rfl hf
  · exfalso
    rw [e] at hf
    revert hf
    have : ∀ x ∈ dynRegions, ¬ x.2.2 &&& SECTION_RELRO ≠ 0#16 := by decide
    exact this x hx
  · exfalso
    rcases h with h | ⟨_, e⟩ | ⟨_, e⟩
    · have : ∀ x ∈ specialTypes, ¬ x.2 &&& SECTION_RELRO ≠ 0#16 := by decide
      exact this _ h hf
    · rw [e] at hf; exact absurd rfl hf
    · rw [e] at hf; exact absurd rfl hf

/-- C31: symbols with the flag for memory that is read-only after relocation lie completely in a region of the file with this
property. (The regions end with a symbol, hence the growth shown by `C31_grown` is impossible.) -/
theorem C31_relro (env : Env) (fl : AnalyzeFlags) (elf : Elf) (dbgsym : Option Elf) (r : AState)
    (h : analyze env fl elf dbgsym = .ok r) (hr : fl.reconstruct = false) (hfit : ∀ f, Announced elf f → FlagFits f)
    (hsize : ∀ seg ∈ elf.segments, seg.type = .gnuRelro → seg.size = seg.virt_size)
    (s : Symbol) (hs : s ∈ r.symbols) (hw : NoWrap s) (hm : s.sec.flags &&& SECTION_RELRO ≠ 0#16) :
    ∃ seg ∈ elf.segments, seg.type = .gnuRelro ∧ seg.virt_addr.toNat ≤ s.address.toNat ∧
      s.address.toNat + s.size.toNat ≤ seg.virt_addr.toNat + seg.virt_size.toNat := by
  obtain ⟨st, s1, s2, s3, g⟩ := stages h
  obtain ⟨f, ha, hf, hin⟩ := region_inside g hr hfit hs hw hm (fun f ha hf => by
    obtain ⟨seg, h1, h2, e1, e2⟩ := announced_relro ha hf
    rw [e1, e2, ← hsize seg h1 h2]
    exact gather_relro g.file h1 h2)
  obtain ⟨seg, h1, h2, e1, e2⟩ := announced_relro ha hf
  unfold Inside at hin
  rw [e1, e2] at hin
  exact ⟨seg, h1, h2, hin⟩

/-- The memory behind the first variable is enlarged up to the end of the region, although the next variable starts behind. -/
example : ∃ r, analyze exEnv {} (regElf .gnuRelro 0x2018) none = .ok r ∧ ∃ s ∈ r.symbols, s.address = 0x2008 ∧ s.size = 8 ∧
    (∃ seg ∈ (regElf .gnuRelro 0x2018).segments, seg.type = .gnuRelro ∧ seg.virt_addr.toNat ≤ s.address.toNat ∧
      s.address.toNat + s.size.toNat ≤ seg.virt_addr.toNat + seg.virt_size.toNat) ∧
    ∃ f, Announced (regElf .gnuRelro 0x2018) f ∧ f.flag &&& SECTION_RELRO ≠ 0#16 ∧ Inside s f := by
  obtain ⟨r, h, hp⟩ := ok_such (m := analyze exEnv { keep_unused := false } (regElf .gnuRelro 0x2018) none)
    (P := fun r => hasRegion r 0x2008 8 SECTION_RELRO && hasRegion r 0x2010 8 0) (by decide +kernel)
  obtain ⟨hp1, hp2⟩ := (Bool.and_eq_true _ _ ▸ hp : _ ∧ _)
  obtain ⟨s, hs, e1, e2, e3⟩ := hasRegion_iff hp1
  obtain ⟨z, hz, e4, _, _⟩ := hasRegion_iff hp2
  have hfit : ∀ f, Announced (regElf .gnuRelro 0x2018) f → FlagFits f := by
    intro f hf
    rw [(reg_announced _ _).1.mp hf]
    unfold FlagFits
    decide
  have hw : NoWrap s := by unfold NoWrap; rw [e1, e2]; decide
  have hm : s.sec.flags &&& SECTION_RELRO ≠ 0#16 := by rw [e3]; decide
  refine ⟨r, h, s, hs, e1, e2, ?_, ?_⟩
  · refine C31_relro exEnv {} _ none r h rfl hfit ?_ s hs hw hm
    simp only [regElf, List.mem_cons, List.not_mem_nil, or_false]
    rintro seg (rfl | rfl | rfl) ht
    · cases ht
    · cases ht
    · rfl
  · refine C31_files_inside_partial exEnv {} _ none r h rfl hfit s hs hw _ hm (fun f hf _ => ⟨z, hz, ?_⟩)
    rw [(reg_announced _ _).1.mp hf, e4]
    decide

end Bean

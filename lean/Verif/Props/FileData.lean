import Verif.Props.Files
import Verif.Props.FileExamples
/-
The properties of data and of relocations for results of the complete analysis, in terms of the files.
-/
namespace Bean
open Tree Spec Props

/-- Loaded segments in ascending order: one at a higher offset of the file starts behind the content of one at a lower
offset, and no segment starts at an offset that exceeds its address. -/
structure OrderedSegments (elf : Elf) : Prop where
  distinct : ∀ x ∈ loadSegments elf, ∀ y ∈ loadSegments elf, x.offset = y.offset → x = y
  order : ∀ x ∈ loadSegments elf, ∀ y ∈ loadSegments elf, x.offset < y.offset →
    x.virt_addr.toNat + x.size.toNat ≤ y.virt_addr.toNat
  nowrap : ∀ x ∈ loadSegments elf, x.offset ≤ x.virt_addr ∧ x.virt_addr.toNat + x.size.toNat < 2 ^ 64

/-- The symbol starts in the content of a segment: in that for thread-local storage if it is in a section for such
variables, otherwise in a loaded one. -/
structure Filled (elf : Elf) (s : Symbol) : Prop where
  section_ : ∃ sec, SectionOf elf s.address sec ∧ sec.type ≠ .nobits ∧
    (sec.tls = true → ∃ seg, tlsSegment elf = some seg ∧ TLS.virt_addr s.address < seg.virt_addr + seg.size) ∧
    (sec.tls = false → OrderedSegments elf ∧ ∃ c ∈ loadSegments elf, Backed c (TLS.virt_addr s.address))

theorem OrderedSegments.mem {elf : Elf} (h : OrderedSegments elf) {c : ElfSeg} :
    c ∈ Tree.ofList (loadSegments elf) ↔ c ∈ loadSegments elf :=
  mem_ofList_iff h.distinct

theorem OrderedSegments.ascending {elf : Elf} (h : OrderedSegments elf) : Ascending (Tree.ofList (loadSegments elf)) :=
  ⟨sorted_ofList _, fun x hx y hy => h.order x (h.mem.mp hx) y (h.mem.mp hy), fun x hx => h.nowrap x (h.mem.mp hx)⟩

theorem got_of {env : Env} {fl : AnalyzeFlags} {elf : Elf} {dbgsym : Option Elf} {st s1 s2 s3 r : AState}
    (f : Stages env fl elf dbgsym st s1 s2 s3 r) : s1.global_offset_table = gotAddress elf ∧
      s2.global_offset_table = gotAddress elf ∧ s3.global_offset_table = gotAddress elf ∧
      r.global_offset_table = gotAddress elf := by
  have hr : r.global_offset_table = gotAddress elf := congrArg FilePart.got f.part
  refine ⟨?_, ?_, ?_, hr⟩
  · rw [f.same1]; exact hr
  · rw [f.same2]; exact hr
  · rw [f.same3]; exact hr

theorem filled_initialised {env : Env} {fl : AnalyzeFlags} {elf : Elf} {dbgsym : Option Elf} {st s1 s2 s3 r : AState}
    (f : Stages env fl elf dbgsym st s1 s2 s3 r) {s s' : Symbol} (hs' : s' ∈ s2.symbols) (hx : s.sec.executable = false)
    (k : Kept s' s) (h : Filled elf s) : Initialised s1 s' := by
  obtain ⟨sec, h1, h2, h3, h4⟩ := h.section_
  have hfl : Tree.floor s1.sections s'.address = some sec := by
    rw [f.same1, k.address]
    show Tree.floor r.sections s.address = _
    rw [f.sections]
    exact section_floor h1
  cases ht : sec.tls with
  | true =>
    obtain ⟨seg, e1, e2⟩ := h3 ht
    refine ⟨sec, seg, hfl, h2, ?_, by rw [k.address]; exact e2⟩
    rw [if_pos ht, f.same1]
    exact (congrArg FilePart.tls f.part).trans e1
  | false =>
    obtain ⟨ho, c, hc, hb⟩ := h4 ht
    have hseg : s1.segments = Tree.ofList (loadSegments elf) := by
      rw [f.same1]
      exact congrArg FilePart.segments f.part
    exact C39_backed_partial env fl s1 s2 f.run.ok1 f.run.internal s' hs' (by rw [k.sec]; exact hx)
      (by rw [hseg]; exact ho.ascending) c (by rw [hseg]; exact ho.mem.mpr hc) (by rw [k.address]; exact hb) sec hfl h2 ht

theorem img_data_section : SectionOf (imgElf 0x1000 0) 0x2000 (imgData 0x1000 0) := by
  refine ⟨⟨by simp [imgElf], rfl, by decide⟩, Nat.le_refl _, fun sec h hle => ?_⟩
  rcases img_loaded h with rfl | rfl | rfl
  · right; decide
  · exact Or.inl rfl
  · exact absurd hle (by decide)

theorem img_data_section' : SectionOf (imgElf 0x5000 7) 0x6000 (imgData 0x5000 7) := by
  refine ⟨⟨by simp [imgElf], rfl, by decide⟩, Nat.le_refl _, fun sec h hle => ?_⟩
  rcases img_loaded h with rfl | rfl | rfl
  · right; decide
  · exact Or.inl rfl
  · exact absurd hle (by decide)

theorem img_bss_section : SectionOf (imgElf 0x1000 0) 0x3000 (imgBss 0x1000) := by
  refine ⟨⟨by simp [imgElf], rfl, by decide⟩, Nat.le_refl _, fun sec h hle => ?_⟩
  rcases img_loaded h with rfl | rfl | rfl
  · right; decide
  · right; decide
  · exact Or.inl rfl

theorem img_ordered : OrderedSegments (imgElf 0x1000 0) := ⟨by decide, by decide, by decide⟩

theorem img_ordered' : OrderedSegments (imgElf 0x5000 7) := ⟨by decide, by decide, by decide⟩

theorem img_filled : Filled (imgElf 0x1000 0) (imgV 0x1000) :=
  ⟨imgData 0x1000 0, img_data_section, by decide, fun h => (by cases h), fun _ =>
    ⟨img_ordered, imgLoadData 0x1000, by decide, by unfold Backed; decide⟩⟩

theorem img_filled' : Filled (imgElf 0x5000 7) (imgV 0x5000) :=
  ⟨imgData 0x5000 7, img_data_section', by decide, fun h => (by cases h), fun _ =>
    ⟨img_ordered', imgLoadData 0x5000, by decide, by unfold Backed; decide⟩⟩

theorem img_fits : DataFits exEnv (gotAddress (imgElf 0x1000 0)) (imgV 0x1000) :=
  ⟨by decide, by decide, by decide⟩

theorem img_fits' : DataFits exEnv (gotAddress (imgElf 0x5000 7)) (imgV 0x5000) :=
  ⟨by decide, by decide, by decide⟩

theorem img_content : ContentOf (imgElf 0x1000 0) (imgV 0x1000) [0, 0, 0, 0, 0, 0, 0, 0, 1, 2, 3, 4] :=
  ⟨imgData 0x1000 0, img_data_section, by decide, by decide⟩

theorem img_content' : ContentOf (imgElf 0x5000 7) (imgV 0x5000) [7, 7, 0, 0, 0, 0, 0, 0, 1, 2, 3, 4] :=
  ⟨imgData 0x5000 7, img_data_section', by decide, by decide⟩

theorem pageBytes_kept {s s' : Symbol} (k : Kept s' s) : pageBytes s' = pageBytes s := by
  have p : PageMatters s' ↔ PageMatters s := by unfold PageMatters; rw [k.sec]
  unfold pageBytes
  rw [k.address]
  by_cases h : PageMatters s
  · rw [if_pos h, if_pos (p.mpr h)]
  · rw [if_neg h, if_neg (fun c => h (p.mp c))]

theorem dataInput_kept {env : Env} {got : Addr} {s s' : Symbol} (k : Kept s' s) (bytes : List (BitVec 8)) :
    dataInput env got s' bytes = dataInput env got s bytes := by
  unfold dataInput
  rw [pageBytes_kept k, k.address, k.rels]

theorem attributeBytes_kept {env : Env} {fl : AnalyzeFlags} {s s' : Symbol} (k : Kept s' s) :
    attributeBytes env fl s' = attributeBytes env fl s := by
  unfold attributeBytes
  rw [k.name, k.type, k.bind, k.sec]

/-- The content of a symbol is unique. -/
theorem content_unique {elf : Elf} {s : Symbol} {b b' : List (BitVec 8)} (h : ContentOf elf s b) (h' : ContentOf elf s b') :
    b = b' := by
  obtain ⟨sec, h1, _, rfl⟩ := h
  obtain ⟨sec', h1', _, rfl⟩ := h'
  have e : sec' = sec := by
    have a := section_floor h1
    rw [section_floor h1'] at a
    cases a; rfl
  rw [e]

/-- C37: the internal identifier of initialised data in the result of an analysis is the hash of the content of the file
with zeros in place of what is subject to relocations (without the first two entries of the global offset table) and, if the
data can be changed at run time, the page offset. -/
theorem C37_files (env : Env) (fl : AnalyzeFlags) (elf : Elf) (dbgsym : Option Elf) (r : AState)
    (h : analyze env fl elf dbgsym = .ok r) (s : Symbol) (hs : s ∈ r.symbols) (hx : s.sec.executable = false)
    (hi : Filled elf s) (hfit : DataFits env (gotAddress elf) s) :
    ∃ bytes, ContentOf elf s bytes ∧
      s.id.internal = env.xxhash (dataInput env (gotAddress elf) s bytes ++ attributeBytes env fl s) := by
  obtain ⟨_, s1, s2, s3, f⟩ := stages h
  obtain ⟨x, hxm, k, _⟩ := f.kept s hs
  have hgot := (got_of f).1
  obtain ⟨bytes, ⟨sec, h1, h2⟩, h3⟩ := C37_identifier env fl s1 s2 f.run.ok1 f.run.internal x hxm (by rw [k.sec]; exact hx)
    (filled_initialised f hxm hx k hi)
    ⟨by rw [k.address, k.size]; exact hfit.fits, by rw [k.address, k.size, k.rels, hgot]; exact hfit.layout⟩
  obtain ⟨sec', hsec, _⟩ := hi.section_
  have h1' : Tree.floor s1.sections x.address = some sec' := by
    rw [f.same1, k.address]
    show Tree.floor r.sections s.address = _
    rw [f.sections]
    exact section_floor hsec
  have hse : sec' = sec := by rw [h1'] at h1; cases h1; rfl
  subst hse
  refine ⟨bytes, ⟨sec', hsec, ?_⟩, ?_⟩
  · rw [k.address, k.size] at h2
    unfold readBytes at h2
    split at h2
    · rename_i hc; cases h2; exact ⟨hc, rfl⟩
    · cases h2
  · rw [← k.internal, h3, hgot, dataInput_kept k, attributeBytes_kept k]

/-- The pointer is left out. -/
example : (imgV 0x1000).id.internal =
    exEnv.xxhash (dataInput exEnv 0 (imgV 0x1000) [0, 0, 0, 0, 0, 0, 0, 0, 1, 2, 3, 4] ++ []) := by
  obtain ⟨b, h1, h2⟩ := C37_files exEnv {} _ none _ img_ok (imgV 0x1000) (by decide) rfl img_filled img_fits
  rw [content_unique h1 img_content] at h2
  exact h2

/-- C38: if initialised data of two files agree except for what is subject to relocations, if the relocations are moved along,
and, for data that can be changed at run time, if the page offset is the same, then the analyses of these files give them the
same internal identifier. -/
theorem C38_files (env : Env) (fl : AnalyzeFlags) (elf elf' : Elf) (dbgsym dbgsym' : Option Elf) (r r' : AState)
    (h : analyze env fl elf dbgsym = .ok r) (h' : analyze env fl elf' dbgsym' = .ok r')
    (s s' : Symbol) (hs : s ∈ r.symbols) (hs' : s' ∈ r'.symbols) (hx : s.sec.executable = false)
    (hx' : s'.sec.executable = false) (hi : Filled elf s) (hi' : Filled elf' s')
    (hf : DataFits env (gotAddress elf) s) (hf' : DataFits env (gotAddress elf') s')
    (bytes bytes' : List (BitVec 8)) (hd : ContentOf elf s bytes) (hd' : ContentOf elf' s' bytes')
    (hl : bytes.length = bytes'.length)
    (hb : ∀ i, ¬ Masked env s.rels ((TLS.virt_addr s.address).toNat + i) → bytes[i]? = bytes'[i]?) (d : Addr)
    (hm : TLS.virt_addr s'.address = TLS.virt_addr s.address + d) (hr : MovedRels d s.rels s'.rels)
    (hg : TLS.virt_addr s.address = gotAddress elf ↔ TLS.virt_addr s'.address = gotAddress elf')
    (hp : PageMatters s ↔ PageMatters s') (hpage : PageMatters s → d.toNat % 4096 = 0)
    (ha : attributeBytes env fl s = attributeBytes env fl s') :
    s.id.internal = s'.id.internal := by
  obtain ⟨_, s1, s2, s3, f⟩ := stages h
  obtain ⟨_, s1', s2', s3', f'⟩ := stages h'
  obtain ⟨x, hxm, k, _⟩ := f.kept s hs
  obtain ⟨x', hxm', k', _⟩ := f'.kept s' hs'
  have g := (got_of f).1
  have g' := (got_of f').1
  have p : PageMatters x ↔ PageMatters s := by unfold PageMatters; rw [k.sec]
  have p' : PageMatters x' ↔ PageMatters s' := by unfold PageMatters; rw [k'.sec]
  obtain ⟨sec, b1, b2⟩ := content_of f k hd
  obtain ⟨sec', b1', b2'⟩ := content_of f' k' hd'
  rw [← k.internal, ← k'.internal]
  exact C38_moved env fl s1 s1' s2 s2' f.run.ok1 f'.run.ok1 f.run.internal f'.run.internal x x' hxm hxm'
    (by rw [k.sec]; exact hx) (by rw [k'.sec]; exact hx') (filled_initialised f hxm hx k hi)
    (filled_initialised f' hxm' hx' k' hi')
    ⟨by rw [k.address, k.size]; exact hf.fits, by rw [k.address, k.size, k.rels, g]; exact hf.layout⟩
    ⟨by rw [k'.address, k'.size]; exact hf'.fits, by rw [k'.address, k'.size, k'.rels, g']; exact hf'.layout⟩
    bytes bytes' ⟨sec, b1, b2⟩ ⟨sec', b1', b2'⟩ hl (by rw [k.address, k.rels]; exact hb) d
    (by rw [k.address, k'.address]; exact hm) (by rw [k.rels, k'.rels]; exact hr)
    (by rw [k.address, k'.address, g, g']; exact hg) (p.trans (hp.trans p'.symm)) (fun c => hpage (p.mp c))
    (by rw [attributeBytes_kept k, attributeBytes_kept k']; exact ha)

/-- The same data elsewhere with another pointer in the file. -/
example : (imgV 0x1000).id.internal = (imgV 0x5000).id.internal :=
  C38_files exEnv {} _ _ none none _ _ img_ok img_moved (imgV 0x1000) (imgV 0x5000) (by decide) (by decide) rfl rfl
    img_filled img_filled' img_fits img_fits' _ _ img_content img_content' rfl
    (by
      intro i h
      have h8 : 8 ≤ i := by
        refine Nat.le_of_not_lt (fun hlt => h ?_)
        refine ⟨_, List.mem_cons_self, ?_, ?_⟩
        · show 0x2000 ≤ 0x2000 + i; omega
        · show 0x2000 + i < 0x2000 + 8; omega
      obtain ⟨k, rfl⟩ := Nat.exists_eq_add_of_le h8
      rw [Nat.add_comm]
      rfl)
    0x4000 rfl (.cons ⟨rfl, rfl⟩ .nil) (by decide) (by decide) (by decide) rfl

/-- C39: zero-initialised data (in a section without content) is identified in the result of an analysis by its size and, if
it can be changed, by its page offset. It has no relocations, unless they were reconstructed. -/
theorem C39_files (env : Env) (fl : AnalyzeFlags) (elf : Elf) (dbgsym : Option Elf) (r : AState)
    (h : analyze env fl elf dbgsym = .ok r) (s : Symbol) (hs : s ∈ r.symbols) (hx : s.sec.executable = false)
    (sec : ElfSec) (hsec : SectionOf elf s.address sec) (hn : sec.type = .nobits) :
    s.id.internal = env.xxhash (pageBytes s ++ zeros s.size.toNat ++ attributeBytes env fl s) ∧
    (fl.reconstruct = false → s.rels = [] ∧ s.refs = []) := by
  obtain ⟨_, s1, s2, s3, f⟩ := stages h
  obtain ⟨x, hxm, k, hrefs⟩ := refs_of f hs
  have hfl : Tree.floor s1.sections x.address = some sec := by
    rw [f.same1, k.address]
    show Tree.floor r.sections s.address = _
    rw [f.sections]
    exact section_floor hsec
  obtain ⟨h1, s0, h2, h3, h4, h5⟩ := C39_zero env fl s1 s2 f.run.ok1 f.run.internal x hxm (by rw [k.sec]; exact hx) sec hfl hn
  constructor
  · rw [← k.internal, h1, attributeBytes_kept k, k.size, pageBytes_kept k]
  · intro hrec
    obtain ⟨e1, _, _, e4⟩ := f.first s0 h2
    have hr : s.rels = [] := by rw [← k.rels, h4]; exact e4 hrec
    refine ⟨hr, List.eq_nil_iff_forall_not_mem.mpr (fun t ht => ?_)⟩
    rcases (hrefs t).mp ht with ht | ⟨rel, ht, _⟩
    · rw [h5, e1] at ht; cases ht
    · rw [hr] at ht; cases ht

/-- The zero-initialised variable. -/
example : (imgZ 0x1000).id.internal = exEnv.xxhash (pageBytes (imgZ 0x1000) ++ zeros 8 ++ []) :=
  (C39_files exEnv {} _ none _ img_ok (imgZ 0x1000) (by decide) rfl (imgBss 0x1000) img_bss_section rfl).1

/-- C39: data with content in the file is not taken for zero-initialised: with the segments in ascending order, or in debug
builds with segments that do not share memory, the content identifies it (see `C37_files`). This is the latter case. -/
theorem C39_files_debug (env : Env) (fl : AnalyzeFlags) (elf : Elf) (dbgsym : Option Elf) (r : AState)
    (hdebug : env.build = .debug) (h : analyze env fl elf dbgsym = .ok r) (s : Symbol) (hs : s ∈ r.symbols)
    (hx : s.sec.executable = false)
    (hd : ∀ x ∈ loadSegments elf, ∀ y ∈ loadSegments elf, x.offset = y.offset → x = y)
    (ha : Separate env (loadSegments elf)) (c : ElfSeg) (hc : c ∈ loadSegments elf)
    (hb : Backed c (TLS.virt_addr s.address)) (hsize : s.size ≠ 0)
    (sec : ElfSec) (hsec : SectionOf elf s.address sec) (hn : sec.type ≠ .nobits) (ht : sec.tls = false)
    (hfit : DataFits env (gotAddress elf) s) (bytes : List (BitVec 8)) (hbytes : ContentOf elf s bytes) :
    s.id.internal = env.xxhash (dataInput env (gotAddress elf) s bytes ++ attributeBytes env fl s) := by
  obtain ⟨_, s1, s2, s3, f⟩ := stages h
  obtain ⟨x, hxm, k, _⟩ := f.kept s hs
  have hgot := (got_of f).1
  obtain ⟨sec', b1, b2⟩ := content_of f k hbytes
  have hfl : Tree.floor s1.sections x.address = some sec := by
    rw [f.same1, k.address]
    show Tree.floor r.sections s.address = _
    rw [f.sections]
    exact section_floor hsec
  have hseg : s1.segments = Tree.ofList (loadSegments elf) := by
    rw [f.same1]
    exact congrArg FilePart.segments f.part
  have hmem : ∀ c, c ∈ Tree.ofList (loadSegments elf) ↔ c ∈ loadSegments elf := fun c => mem_ofList_iff hd
  have hi : Initialised s1 x := by
    refine C39_debug env fl s1 s2 f.run.ok1 hdebug f.run.internal x hxm (by rw [k.sec]; exact hx)
      (by rw [hseg]; exact sorted_ofList _) ?_ c (by rw [hseg]; exact (hmem c).mpr hc) (by rw [k.address]; exact hb)
      (by rw [k.size]; exact hsize) (by rw [k.address, k.size]; have := hfit.fits; omega) sec hfl hn ht
    rw [hseg]
    exact ⟨fun x hx y hy => ha.apart x ((hmem x).mp hx) y ((hmem y).mp hy), fun x hx => ha.nowrap x ((hmem x).mp hx)⟩
  obtain ⟨bytes', ⟨sec'', h1, h2⟩, h3⟩ := C37_identifier env fl s1 s2 f.run.ok1 f.run.internal x hxm
    (by rw [k.sec]; exact hx) hi
    ⟨by rw [k.address, k.size]; exact hfit.fits, by rw [k.address, k.size, k.rels, hgot]; exact hfit.layout⟩
  rw [b1] at h1
  cases h1
  rw [b2] at h2
  cases h2
  rw [← k.internal, h3, hgot, dataInput_kept k, attributeBytes_kept k]

theorem img_separate : Separate exEnv (loadSegments (imgElf 0x1000 0)) := by
  refine ⟨fun x hx y hy hne a h1 h2 => ?_, by decide⟩
  have two : ∀ z ∈ loadSegments (imgElf 0x1000 0), z = imgLoadText 0x1000 ∨ z = imgLoadData 0x1000 := by decide
  obtain ⟨h3, h4⟩ := h1
  obtain ⟨h5, h6⟩ := h2
  rcases two x hx with rfl | rfl <;> rcases two y hy with rfl | rfl
  · exact hne rfl
  · have h4 : a.toNat < 0x1006 := h4
    have h5 : 0x2000 ≤ a.toNat := BitVec.le_def.mp h5
    omega
  · have h3 : 0x2000 ≤ a.toNat := h3
    have h6 : a.toNat < 0x1006 := BitVec.lt_def.mp h6
    omega
  · exact hne rfl

example : (imgV 0x1000).id.internal =
    exEnv.xxhash (dataInput exEnv 0 (imgV 0x1000) [0, 0, 0, 0, 0, 0, 0, 0, 1, 2, 3, 4] ++ []) :=
  C39_files_debug exEnv {} _ none _ rfl img_ok (imgV 0x1000) (by decide) rfl img_ordered.distinct
    img_separate
    (imgLoadData 0x1000) (by decide) (by unfold Backed; decide) (by decide) (imgData 0x1000 0)
    img_data_section (by decide) rfl img_fits _ img_content

/-- The first relocation for a location. -/
def FirstAt (l : List ElfRel) (e : ElfRel) : Prop := ∃ front back, l = front ++ e :: back ∧ ∀ z ∈ front, z.offset ≠ e.offset

theorem firstAt_iff {l : List ElfRel} {e : ElfRel} : FirstAt l e ↔ e ∈ Tree.ofList l := by
  rw [mem_ofList_first, List.find?_eq_some_iff_append]
  unfold FirstAt
  constructor
  · rintro ⟨a, b, h1, h2⟩
    refine ⟨beq_self_eq_true _, a, b, h1, fun z hz => ?_⟩
    have : key z ≠ key e := h2 z hz
    simp [this]
  · rintro ⟨_, a, b, h1, h2⟩
    refine ⟨a, b, h1, fun z hz (e' : key z = key e) => ?_⟩
    have := h2 z hz
    simp [e'] at this

/-- C65 (partial): code and initialised data in the result of an analysis (without reconstruction) carry exactly the
relocations of the files in their range, each with type, symbol, addend and target according to the file. If the files have
several relocations for a location, the first one counts. Not for thread-local data (see `C65_counterexample`). -/
theorem C65_files_partial (env : Env) (fl : AnalyzeFlags) (elf : Elf) (dbgsym : Option Elf) (r : AState)
    (hrec : fl.reconstruct = false) (h : analyze env fl elf dbgsym = .ok r) (s : Symbol) (hs : s ∈ r.symbols)
    (hi : s.sec.executable = true ∨ (s.sec.executable = false ∧ Filled elf s)) (ht : TLS.is_tls s.address = false)
    (hw : s.address.toNat + s.size.toNat < 2 ^ 64) (sec : ElfSec) (hsec : SectionOf elf s.address sec) :
    (∀ e, FirstAt (allRelocations elf dbgsym) e → InRange s e.offset →
      ∃ q ∈ s.rels, FileRel env fl.resolve_internal (gotAddress elf) e q) ∧
    (∀ o ∈ allRelative elf dbgsym, InRange s o → (∀ e ∈ allRelocations elf dbgsym, e.offset ≠ o) →
      ∀ q, RelativeAt sec o q → q ∈ s.rels) ∧
    (∀ q ∈ s.rels, InRange s q.offset ∧
      ((∃ e, FirstAt (allRelocations elf dbgsym) e ∧ FileRel env fl.resolve_internal (gotAddress elf) e q) ∨
       (q.offset ∈ allRelative elf dbgsym ∧ RelativeAt sec q.offset q))) := by
  obtain ⟨_, s1, s2, s3, f⟩ := stages h
  obtain ⟨x, hxm, k, _⟩ := f.kept s hs
  have hv : TLS.virt_addr s.address = s.address := TLS.virt_of_regular ht
  have hgot := (got_of f).1
  have hrl : s1.relocations = Tree.ofList (allRelocations elf dbgsym) := by
    rw [f.same1]; exact congrArg FilePart.relocations f.part
  have hrr : s1.relative_relocations = Tree.ofList (allRelative elf dbgsym) := by
    rw [f.same1]; exact congrArg FilePart.relative f.part
  have hfl : Tree.floor s1.sections x.address = some sec := by
    rw [f.same1, k.address]
    show Tree.floor r.sections s.address = _
    rw [f.sections]
    exact section_floor hsec
  have hr : ∀ o, InRange x o ↔ InRange s o := by intro o; unfold InRange; rw [k.address, k.size]
  obtain ⟨s0, h0, sec', h1, h2, h3, h4, h5⟩ := C65_relocations_partial env fl s1 s2 f.run.ok1 (by rw [hrl]; exact sorted_ofList _)
    (by rw [hrr]; exact sorted_ofList _) f.run.internal x hxm
    (by rcases hi with hi | ⟨hx, hi⟩
        · exact Or.inl (by rw [k.sec]; exact hi)
        · exact Or.inr (filled_initialised f hxm hx k hi))
    (by rw [k.address]; exact ht) (by rw [k.address, k.size, hv]; exact hw)
  rw [hfl] at h2
  cases h2
  have h0r : s0.rels = [] := (f.first s0 h0).2.2.2 hrec
  rw [hgot, hrl, k.rels] at h3
  rw [hrl, hrr, k.rels] at h4
  rw [hgot, hrl, hrr, k.rels] at h5
  have hnone : ∀ o, ∀ z ∈ s0.rels, z.offset ≠ o := by rw [h0r]; intro o z hz; cases hz
  refine ⟨fun e he hin => ?_, fun o ho hin hno q hq => ?_, fun q hq => ?_⟩
  · exact h3 e (firstAt_iff.mp he) ((hr _).mpr hin) (hnone _)
  · obtain ⟨o', ho', hk⟩ := ofList_key ho
    have hk' : o' = o := hk
    subst hk'
    exact h4 o' ho' ((hr _).mpr hin) (hnone _) (fun e he => hno e (mem_ofList he)) q hq
  · rcases h5 q hq with h5 | ⟨h6, h7⟩
    · rw [h0r] at h5; cases h5
    refine ⟨(hr _).mp h6, ?_⟩
    rcases h7 with ⟨e, he, h7⟩ | ⟨h7, h8⟩
    · exact Or.inl ⟨e, firstAt_iff.mpr he, h7⟩
    · exact Or.inr ⟨mem_ofList h7, h8⟩

example : ∃ q ∈ (imgV 0x1000).rels, FileRel exEnv false 0 (imgRel 0x1000) q :=
  (C65_files_partial exEnv {} _ none _ rfl img_ok (imgV 0x1000) (by decide) (Or.inr ⟨rfl, img_filled⟩) (by decide) (by decide)
    (imgData 0x1000 0) img_data_section).1 (imgRel 0x1000) ⟨[], [], by decide, by simp⟩
    (by unfold InRange; decide)

/-- C35, C40: the references of data in the result of an analysis are the targets of its relocations. -/
theorem C35_files_data (env : Env) (fl : AnalyzeFlags) (elf : Elf) (dbgsym : Option Elf) (r : AState)
    (h : analyze env fl elf dbgsym = .ok r) (s : Symbol) (hs : s ∈ r.symbols) (hx : s.sec.executable = false)
    (t : Addr) (ht : t ≠ 0) : t ∈ s.refs ↔ ∃ rel ∈ s.rels, rel.target = t := by
  obtain ⟨_, s1, s2, s3, f⟩ := stages h
  obtain ⟨x, hxm, k, hrefs⟩ := refs_of f hs
  rw [hrefs]
  constructor
  · rintro (h1 | ⟨rel, h1, h2, _⟩)
    · obtain ⟨s0, sec, seg, df⟩ := data_facts f.run.ok1 f.run.internal hxm (by rw [k.sec]; exact hx)
      have e0 := (f.first s0 df.mem).1
      rcases df.kind with ⟨_, _, h2, _⟩ | ⟨_, y, y', bytes, c, _, _, hy, h2, h3, h4, h5, _⟩
      · rw [h2, e0] at h1; cases h1
      · have ha := addRelocations_added (by rw [hy]; exact f.run.ok1.rels s0 df.mem) h3
        rw [← h5, ha.refs, h2, e0] at h1
        rcases h1 with h1 | ⟨_, rel, h1, _, _, h6⟩
        · cases h1
        · rw [h4, k.rels] at h1
          exact ⟨rel, h1, h6⟩
    · exact ⟨rel, h1, h2⟩
  · rintro ⟨rel, h1, h2⟩
    exact Or.inr ⟨rel, h1, h2, ht⟩

example : (0x1000 : Addr) ∈ (imgV 0x1000).refs :=
  (C35_files_data exEnv {} _ none _ img_ok (imgV 0x1000) (by decide) rfl 0x1000 (by decide)).mpr ⟨_, List.mem_cons_self, rfl⟩

end Bean

import Verif.Lemmas.Image
import Verif.Props.Run
import Verif.Props.FileExamples
import Verif.Props.HashInsn
import Verif.Props.HashData
/-
The properties of identifiers, references and relocations for results of the complete analysis, in terms of the files.
-/
namespace Bean
open Tree Spec Props

/-- What the last steps leave as it is. -/
structure Kept (s' s : Symbol) : Prop where
  address : s'.address = s.address
  size : s'.size = s.size
  name : s'.name = s.name
  type : s'.type = s.type
  bind : s'.bind = s.bind
  sec : s'.sec = s.sec
  flags : s'.flags = s.flags
  rels : s'.rels = s.rels
  internal : s'.id.internal = s.id.internal

/-- The states of the analysis. -/
structure Stages (env : Env) (fl : AnalyzeFlags) (elf : Elf) (dbgsym : Option Elf) (st s1 s2 s3 r : AState) : Prop where
  file : gather env fl elf dbgsym = .ok st
  part : filePart r = ⟨Tree.ofList (loadSegments elf), tlsSegment elf, gotAddress elf, Tree.ofList (allRelocations elf dbgsym),
    Tree.ofList (allRelative elf dbgsym)⟩
  sections : r.sections = Tree.ofList (loadedSections elf.sections)
  okFirst : SymsOK st.symbols
  fresh : ∀ s ∈ st.symbols, Fresh s
  run : Identified env fl st s1 s2 s3 r
  same1 : s1 = { r with symbols := s1.symbols }
  same2 : s2 = { r with symbols := s2.symbols }
  same3 : s3 = { r with symbols := s3.symbols }
  first : ∀ s ∈ s1.symbols, s.refs = [] ∧ s.deps = [] ∧ s.id = {} ∧ (fl.reconstruct = false → s.rels = [])
  kept : ∀ s ∈ r.symbols, ∃ s' ∈ s2.symbols, Kept s' s ∧ ∃ s'' ∈ s3.symbols, Kept s'' s ∧ s''.refs = s.refs ∧ s''.id = s.id

theorem stages {env : Env} {fl : AnalyzeFlags} {elf : Elf} {dbgsym : Option Elf} {r : AState}
    (h : analyze env fl elf dbgsym = .ok r) : ∃ st s1 s2 s3, Stages env fl elf dbgsym st s1 s2 s3 r := by
  unfold analyze at h
  cases h1 : gather env fl elf dbgsym with
  | error e => rw [h1] at h; cases h
  | ok st =>
    rw [h1] at h
    obtain ⟨st0, t, hg⟩ := gather_ok h1
    obtain ⟨_, _, hok, hf⟩ := gathered_facts hg
    obtain ⟨s1, s2, s3, hi⟩ := identify_ok hok hf h
    obtain ⟨f, e⟩ := hi.ids
    have hr : ∀ t, ({ r with symbols := t } : AState) = { st with symbols := t } := by intro t; rw [e]
    have er : filePart r = filePart st := by rw [e]; rfl
    have es : r.symbols = s3.symbols.map (setIds f) := by rw [e]
    have fe := ext_facts hi.ok2 hi.external
    refine ⟨st, s1, s2, s3, h1, er.trans (gather_part h1), by rw [e]; exact hg.sections, hok, hf, hi, ?_, ?_, ?_, ?_, ?_⟩
    · rw [hr]; exact hi.same1
    · rw [hr]; exact hi.same2
    · rw [hr]; exact hi.same3
    · intro s hs
      obtain ⟨s0, h0, _, _, e2, e3, e4⟩ := zip_mem_right hi.zip1 hs
      have f0 := hf s0 h0
      refine ⟨e4.trans f0.refs, e2.trans f0.deps, e3.trans f0.ident, fun hrec => ?_⟩
      rcases hi.first with ⟨hc, _⟩ | ⟨_, he⟩
      · rw [hrec] at hc; cases hc
      · rw [he] at hs
        exact (hf s hs).rels
    · intro s hs
      rw [es] at hs
      obtain ⟨s'', h3, rfl⟩ := List.mem_map.mp hs
      obtain ⟨s', h2, rfl⟩ := (fe.mem s'').mp h3
      exact ⟨s', h2, ⟨rfl, rfl, rfl, rfl, rfl, rfl, rfl, rfl, rfl⟩, _, h3, ⟨rfl, rfl, rfl, rfl, rfl, rfl, rfl, rfl, rfl⟩, rfl, rfl⟩

/-- The section of an address. -/
theorem section_floor {elf : Elf} {a : Addr} {sec : ElfSec} (h : SectionOf elf a sec) :
    Tree.floor (Tree.ofList (loadedSections elf.sections)) a = some sec := by
  have hmem : sec ∈ Tree.ofList (loadedSections elf.sections) := by
    obtain ⟨y, hy, hyk⟩ := ofList_key (mem_loadedSections.mpr h.loaded)
    have hl := mem_loadedSections.mp (mem_ofList hy)
    have hyk' : secStart y = secStart sec := hyk
    rcases h.closest y hl (by rw [hyk']; exact h.start) with rfl | hlt
    · exact hy
    · rw [hyk'] at hlt; omega
  refine (floor_eq_some_iff (sorted_ofList _)).mpr ⟨hmem, BitVec.le_def.mpr h.start, fun sec' hsec' hle => ?_⟩
  rcases h.closest sec' (mem_loadedSections.mp (mem_ofList hsec')) (BitVec.le_def.mp hle) with rfl | hlt
  · exact bv_le_refl _
  · exact BitVec.le_def.mpr (Nat.le_of_lt hlt)

theorem readBytes_of {data bytes : List (BitVec 8)} {o n : Addr} (h : o.toNat + n.toNat ≤ data.length)
    (hb : bytes = (data.drop o.toNat).take n.toNat) : readBytes data o n = .ok bytes := by
  unfold readBytes
  rw [if_pos h, hb]

/-- The content of a symbol. -/
theorem content_of {env : Env} {fl : AnalyzeFlags} {elf : Elf} {dbgsym : Option Elf} {st s1 s2 s3 r : AState}
    (f : Stages env fl elf dbgsym st s1 s2 s3 r) {s s' : Symbol} (k : Kept s' s) {bytes : List (BitVec 8)}
    (h : ContentOf elf s bytes) : ∃ sec, Tree.floor s1.sections s'.address = some sec ∧
      readBytes sec.data (TLS.virt_addr s'.address - sec.virt_addr) s'.size = .ok bytes := by
  obtain ⟨sec, h1, h2, h3⟩ := h
  refine ⟨sec, ?_, ?_⟩
  · rw [f.same1, k.address]
    show Tree.floor r.sections s.address = _
    rw [f.sections]
    exact section_floor h1
  · rw [k.address, k.size]
    exact readBytes_of h2 h3

theorem Kept.attributes {s s' u u' : Symbol} (k : Kept s' s) (l : Kept u' u) (h : SameAttributes s u) : SameAttributes s' u' := by
  unfold SameAttributes at h ⊢
  rw [k.name, k.type, k.bind, k.sec, l.name, l.type, l.bind, l.sec]
  exact h

/-! ### Code -/

/-- C33: if two files contain functions with the same bytes (not thread-local, wherever they are), then the analyses of
these files give them the same internal identifier. -/
theorem C33_files (env : Env) (fl : AnalyzeFlags) (elf elf' : Elf) (dbgsym dbgsym' : Option Elf) (r r' : AState)
    (h : analyze env fl elf dbgsym = .ok r) (h' : analyze env fl elf' dbgsym' = .ok r')
    (s s' : Symbol) (hs : s ∈ r.symbols) (hs' : s' ∈ r'.symbols)
    (hx : s.sec.executable = true) (hx' : s'.sec.executable = true)
    (hf : s.address.toNat + s.size.toNat < 2 ^ 64) (hf' : s'.address.toNat + s'.size.toNat < 2 ^ 64)
    (ht : TLS.is_tls s.address = false) (ht' : TLS.is_tls s'.address = false)
    (hm : MovesWith env (s'.address - s.address)) (hz : s.size = s'.size)
    (bytes : List (BitVec 8)) (hb : ContentOf elf s bytes) (hb' : ContentOf elf' s' bytes)
    (hattr : fl.hash_attributes = true → SameAttributes s s') : s.id.internal = s'.id.internal := by
  obtain ⟨_, s1, s2, s3, f⟩ := stages h
  obtain ⟨_, s1', s2', s3', f'⟩ := stages h'
  obtain ⟨x, hxm, k, _⟩ := f.kept s hs
  obtain ⟨x', hxm', k', _⟩ := f'.kept s' hs'
  obtain ⟨sec, b1, b2⟩ := content_of f k hb
  obtain ⟨sec', b1', b2'⟩ := content_of f' k' hb'
  rw [← k.internal, ← k'.internal]
  rw [TLS.virt_of_regular (by rw [k.address]; exact ht)] at b2
  rw [TLS.virt_of_regular (by rw [k'.address]; exact ht')] at b2'
  exact C33_same_bytes env fl s1 s1' s2 s2' f.run.ok1 f'.run.ok1 f.run.internal f'.run.internal x x' hxm hxm'
    (by rw [k.sec]; exact hx) (by rw [k'.sec]; exact hx') (by rw [k.address, k.size]; exact hf)
    (by rw [k'.address, k'.size]; exact hf') (by rw [k.address]; exact ht) (by rw [k'.address]; exact ht')
    (by rw [k.address, k'.address]; exact hm) (by rw [k.size, k'.size]; exact hz) sec sec' bytes b1 b1' b2 b2'
    (fun ha => k.attributes k' (hattr ha))

theorem img_main_content : ContentOf (imgElf 0x1000 0) (imgMain 0x1000) [0xe8, 0x01, 0xc3] := by
  refine ⟨imgText 0x1000, ⟨⟨by simp [imgElf], rfl, by decide⟩, Nat.le_refl _, fun sec h hle => ?_⟩, by decide, by decide⟩
  rcases img_loaded h with rfl | rfl | rfl
  · exact Or.inl rfl
  · exact absurd hle (by decide)
  · exact absurd hle (by decide)

theorem img_main_content' : ContentOf (imgElf 0x5000 7) (imgMain 0x5000) [0xe8, 0x01, 0xc3] := by
  refine ⟨imgText 0x5000, ⟨⟨by simp [imgElf], rfl, by decide⟩, Nat.le_refl _, fun sec h hle => ?_⟩, by decide, by decide⟩
  rcases img_loaded h with rfl | rfl | rfl
  · exact Or.inl rfl
  · exact absurd hle (by decide)
  · exact absurd hle (by decide)

example : (imgMain 0x1000).id.internal = (imgMain 0x5000).id.internal :=
  C33_files exEnv {} _ _ none none _ _ img_ok img_moved (imgMain 0x1000) (imgMain 0x5000) (by decide) (by decide) rfl rfl
    (by decide) (by decide) (by decide) (by decide) (exMoves _) rfl _ img_main_content img_main_content' (by simp)

/-- The context of a function in a file. -/
def fileCtx (env : Env) (elf : Elf) (s : Symbol) : SymCtx where
  address := s.address
  size := s.size
  tls_end := tlsEnd env (tlsSegment elf)

theorem fileCtx_of {env : Env} {fl : AnalyzeFlags} {elf : Elf} {dbgsym : Option Elf} {st s1 s2 s3 r : AState}
    (f : Stages env fl elf dbgsym st s1 s2 s3 r) {s s' : Symbol} (k : Kept s' s) : symCtx env s1 s' = fileCtx env elf s := by
  unfold symCtx fileCtx
  have e : s1.tls_segment = tlsSegment elf := by
    rw [f.same1]
    exact congrArg FilePart.tls f.part
  rw [k.address, k.size, e]

theorem code_of {env : Env} {fl : AnalyzeFlags} {elf : Elf} {dbgsym : Option Elf} {st s1 s2 s3 r : AState}
    (f : Stages env fl elf dbgsym st s1 s2 s3 r) {s s' : Symbol} (k : Kept s' s) {bytes : List (BitVec 8)}
    (h : ContentOf elf s bytes) : CodeOf env s1 s' (disasm env (TLS.virt_addr s.address) bytes) := by
  obtain ⟨sec, b1, b2⟩ := content_of f k h
  exact ⟨sec, bytes, b1, b2, by rw [k.address]⟩

/-- C36: the internal identifier of a function in the result of an analysis is the hash of what its instructions contribute
in their order (and of its attributes, if requested). -/
theorem C36_files (env : Env) (fl : AnalyzeFlags) (elf : Elf) (dbgsym : Option Elf) (r : AState)
    (h : analyze env fl elf dbgsym = .ok r) (s : Symbol) (hs : s ∈ r.symbols) (hx : s.sec.executable = true)
    (hf : s.address.toNat + s.size.toNat < 2 ^ 64) (bytes : List (BitVec 8)) (hb : ContentOf elf s bytes) :
    s.id.internal = env.xxhash (codeInput env (fileCtx env elf s) (disasm env (TLS.virt_addr s.address) bytes) ++
      attributeBytes env fl s) := by
  obtain ⟨_, s1, s2, s3, f⟩ := stages h
  obtain ⟨x, hxm, k, _⟩ := f.kept s hs
  have := C36_input env fl s1 s2 f.run.ok1 f.run.internal x hxm (by rw [k.sec]; exact hx)
    (by rw [fileCtx_of f k]; exact hf) _ (code_of f k hb)
  rw [fileCtx_of f k, k.internal] at this
  rw [this]
  congr 2
  unfold attributeBytes
  rw [k.name, k.type, k.bind, k.sec]

/-- C34: functions of two files that only differ in NOPs, in what follows a leaving instruction with nothing but zeros behind
it, and in their location have the same internal identifier. Missing for the full property: see
`C34_nops_and_padding_partial`. -/
theorem C34_files_partial (env : Env) (fl : AnalyzeFlags) (elf elf' : Elf) (dbgsym dbgsym' : Option Elf) (r r' : AState)
    (h : analyze env fl elf dbgsym = .ok r) (h' : analyze env fl elf' dbgsym' = .ok r')
    (s s' : Symbol) (hs : s ∈ r.symbols) (hs' : s' ∈ r'.symbols)
    (hx : s.sec.executable = true) (hx' : s'.sec.executable = true)
    (hf : s.address.toNat + s.size.toNat < 2 ^ 64) (hf' : s'.address.toNat + s'.size.toNat < 2 ^ 64)
    (bytes bytes' : List (BitVec 8)) (hb : ContentOf elf s bytes) (hb' : ContentOf elf' s' bytes')
    (hsim : CodeSim env (fileCtx env elf s) (fileCtx env elf' s') (disasm env (TLS.virt_addr s.address) bytes)
      (disasm env (TLS.virt_addr s'.address) bytes'))
    (hattr : fl.hash_attributes = true → SameAttributes s s') : s.id.internal = s'.id.internal := by
  obtain ⟨_, s1, s2, s3, f⟩ := stages h
  obtain ⟨_, s1', s2', s3', f'⟩ := stages h'
  obtain ⟨x, hxm, k, _⟩ := f.kept s hs
  obtain ⟨x', hxm', k', _⟩ := f'.kept s' hs'
  rw [← k.internal, ← k'.internal]
  refine C34_nops_and_padding_partial env fl s1 s1' s2 s2' f.run.ok1 f'.run.ok1 f.run.internal f'.run.internal x x' hxm hxm'
    (by rw [k.sec]; exact hx) (by rw [k'.sec]; exact hx') (by rw [fileCtx_of f k]; exact hf)
    (by rw [fileCtx_of f' k']; exact hf') _ _ (code_of f k hb) (code_of f' k' hb') ?_ (fun ha => k.attributes k' (hattr ha))
  rw [fileCtx_of f k, fileCtx_of f' k']
  exact hsim

/-- The content of the examples. -/
theorem run_section (syms : List ElfSym) (a : Addr) (h : 0x1000 ≤ a.toNat) : SectionOf (runElf syms) a runText where
  loaded := ⟨List.mem_cons_of_mem _ List.mem_cons_self, rfl, by decide⟩
  start := h
  closest := fun _ hs _ => Or.inl (run_loaded hs)

/-- The second function starts behind the NOP. -/
def runLate : List ElfSym := [runFunc 0x1000 3 "main" .global, runFunc 0x1004 1 "f" .local]

def runLateF : Symbol where
  address := 0x1004
  size := 1
  name := some "f"
  type := .func
  sec := runSec
  id := { internal := 0x000000000c1cabdf }

theorem run_late : analyze exEnv {} (runElf runLate) none = .ok (runState
    [{ runMain with id := { internal := 0xe6a3acce09633c11, external := 0x122e2d83 } }, runLateF]) := by
  exact ok_of_decide (by decide +kernel)

/-- A NOP in front of the return. -/
example : runF.id.internal = runLateF.id.internal := by
  refine C34_files_partial exEnv {} (runElf runSyms) (runElf runLate) none none _ _ run_ok run_late runF runLateF (by decide)
    (by decide) rfl rfl (by decide) (by decide) [0x90, 0xc3] [0xc3] ⟨runText, run_section _ _ (by decide), by decide, by decide⟩
    ⟨runText, run_section _ _ (by decide), by decide, by decide⟩ ?_ (by simp)
  refine .nopLeft rfl ?_
  exact .step ⟨rfl, rfl, rfl, .nil, by decide⟩ .nil

/-- The addresses of the symbols. -/
theorem addresses_of {env : Env} {fl : AnalyzeFlags} {elf : Elf} {dbgsym : Option Elf} {st s1 s2 s3 r : AState}
    (f : Stages env fl elf dbgsym st s1 s2 s3 r) :
    (∀ z ∈ r.symbols, ∃ z' ∈ s1.symbols, z'.address = z.address) ∧
    (fl.keep_unused = true → ∀ z ∈ s1.symbols, ∃ z' ∈ r.symbols, z'.address = z.address) := by
  constructor
  · intro z hz
    obtain ⟨x, hx, k, _⟩ := f.kept z hz
    obtain ⟨x1, h1, g, _⟩ := (hashInternal_enlarged f.run.ok1 f.run.internal).2 x hx
    exact ⟨x1, h1, by rw [← g.address, k.address]⟩
  · intro hk z hz
    rcases (hashInternal_enlarged f.run.ok1 f.run.internal).1 z hz with ⟨x, hx, g⟩ | ⟨hn, _⟩
    · obtain ⟨fi, e⟩ := f.run.ids
      have fe := ext_facts f.run.ok2 f.run.external
      refine ⟨setIds fi (extSym env s2.global_offset_table s2.symbols s2.symbols x), ?_, g.address⟩
      rw [e]
      exact List.mem_map_of_mem ((fe.mem _).mpr ⟨x, hx, rfl⟩)
    · rw [hk] at hn; cases hn

/-- The references of a symbol in the result. -/
theorem refs_of {env : Env} {fl : AnalyzeFlags} {elf : Elf} {dbgsym : Option Elf} {st s1 s2 s3 r : AState}
    (f : Stages env fl elf dbgsym st s1 s2 s3 r) {s : Symbol} (hs : s ∈ r.symbols) :
    ∃ x ∈ s2.symbols, Kept x s ∧ ∀ t, t ∈ s.refs ↔ t ∈ x.refs ∨ ∃ rel ∈ s.rels, rel.target = t ∧ t ≠ 0 := by
  obtain ⟨x, hx, k, y, hy, l, e1, e2⟩ := f.kept s hs
  obtain ⟨x', hx', e, hr⟩ := C40_references env s2 s3 f.run.ok2 f.run.external y hy
  have ea : x'.address = y.address := (congrArg Symbol.address e).symm
  have : x' = x := f.run.ok2.sorted.inj hx' hx (by show x'.address = x.address; rw [ea, l.address, k.address])
  subst this
  refine ⟨x', hx, k, fun t => ?_⟩
  rw [← e1, hr, l.rels]

/-- C35: the references of a function in the result of an analysis are those of its instructions to addresses outside of it
and to thread-local variables, the targets of its relocations, and the following symbol if it is taken to continue there.
Missing for the full property: see `C35_references_partial`. -/
theorem C35_files_partial (env : Env) (fl : AnalyzeFlags) (elf : Elf) (dbgsym : Option Elf) (r : AState)
    (h : analyze env fl elf dbgsym = .ok r) (s : Symbol) (hs : s ∈ r.symbols) (hx : s.sec.executable = true)
    (hf : s.address.toNat + s.size.toNat < 2 ^ 64) (htls : TLS.is_tls s.address = false)
    (bytes : List (BitVec 8)) (hb : ContentOf elf s bytes) (t : Addr) (ht : t ≠ 0) :
    (CodeRefers env (fileCtx env elf s) (disasm env s.address bytes) t ∨ (∃ rel ∈ s.rels, rel.target = t) → t ∈ s.refs) ∧
    (t ∈ s.refs → CodeRefers env (fileCtx env elf s) (disasm env s.address bytes) t ∨ (∃ rel ∈ s.rels, rel.target = t) ∨
      (Continues env (fileCtx env elf s) (disasm env s.address bytes) ∧ s.address.toNat + s.size.toNat ≤ t.toNat ∧
        ∀ z ∈ r.symbols, s.address.toNat + s.size.toNat ≤ z.address.toNat → t.toNat ≤ z.address.toNat)) ∧
    (Continues env (fileCtx env elf s) (disasm env s.address bytes) → fl.keep_unused = true →
      ∀ y ∈ r.symbols, y.address = t → s.address.toNat + s.size.toNat ≤ t.toNat →
        (∀ z ∈ r.symbols, s.address.toNat + s.size.toNat ≤ z.address.toNat → t.toNat ≤ z.address.toNat) → t ∈ s.refs) := by
  obtain ⟨_, s1, s2, s3, f⟩ := stages h
  obtain ⟨x, hxm, k, hrefs⟩ := refs_of f hs
  have hc := code_of f k hb
  rw [TLS.virt_of_regular htls] at hc
  obtain ⟨x1, h1, g, _⟩ := (hashInternal_enlarged f.run.ok1 f.run.internal).2 x hxm
  have key := C35_references_partial env fl s1 s2 f.run.ok1 f.run.internal x hxm (by rw [k.sec]; exact hx)
    (by rw [k.address, k.size]; exact hf) (by rw [k.address]; exact htls) _ hc x1 h1 g.address.symm t
  rw [fileCtx_of f k, (f.first x1 h1).1, k.rels, k.address, k.size] at key
  rw [hrefs, key]
  obtain ⟨a1, a2⟩ := addresses_of f
  refine ⟨?_, ?_, ?_⟩
  · rintro (h | ⟨rel, h1, h2⟩)
    · exact Or.inl (Or.inr (Or.inl h))
    · exact Or.inr ⟨rel, h1, h2, ht⟩
  · rintro ((h | h | ⟨_, rel, h2, _, _, h3⟩ | ⟨h2, y, h3, rfl, h4, h5⟩) | ⟨rel, h2, h3, _⟩)
    · cases h
    · exact Or.inl h
    · exact Or.inr (Or.inl ⟨rel, h2, h3⟩)
    · refine Or.inr (Or.inr ⟨h2, h4, fun z hz hle => ?_⟩)
      obtain ⟨z', hz', e⟩ := a1 z hz
      rw [← e] at hle ⊢
      exact h5 z' hz' hle
    · exact Or.inr (Or.inl ⟨rel, h2, h3⟩)
  · intro hcont hk y hy hya hle hmin
    obtain ⟨y', hy', e⟩ := a1 y hy
    refine Or.inl (Or.inr (Or.inr (Or.inr ⟨hcont, y', hy', e.trans hya, by rw [e, hya]; exact hle, fun z hz hz2 => ?_⟩)))
    obtain ⟨z', hz', e'⟩ := a2 hk z hz
    rw [e, hya, ← e']
    rw [← e'] at hz2
    exact hmin z' hz' hz2

/-- The bytes of the first function. -/
theorem runMain_content : ContentOf (runElf runSyms) runMain [0xe8, 0x01, 0xc3] :=
  ⟨runText, run_section _ _ (by decide), by decide, by decide⟩

/-- The call in front of the second function. -/
example : (0x1003 : Addr) ∈ runMain.refs := by
  refine (C35_files_partial exEnv {} (runElf runSyms) none _ run_ok runMain (by decide) rfl (by decide) (by decide) _
    runMain_content 0x1003 (by decide)).1 (Or.inl ?_)
  refine ⟨_, ⟨?_, [], _, rfl, by simp⟩, .imm 0x1003 0, by decide, Or.inl ?_⟩
  · decide
  · exact .branch _ _ (by decide) (by decide)

example : runMain.id.internal = exEnv.xxhash (codeInput exEnv (fileCtx exEnv (runElf runSyms) runMain)
    (disasm exEnv 0x1000 [0xe8, 0x01, 0xc3]) ++ []) :=
  C36_files exEnv {} (runElf runSyms) none _ run_ok runMain (by decide) rfl (by decide) _ runMain_content

end Bean

import Verif.Props.FileData
import Verif.Props.OffsetIds
/-
The properties of external and complete identifiers for results of the complete analysis, in terms of the files.
-/
namespace Bean
open Tree Spec Props

theorem closest_setIds {t : SymTree} (f : Addr → List (Addr × BitVec 64)) {ref : Addr} {y : Symbol}
    (h : ClosestSym t ref y) : ClosestSym (t.map (setIds f)) ref (setIds f y) := by
  obtain ⟨h1, h2, h3, h4⟩ := h
  refine ⟨List.mem_map_of_mem h1, h2, fun z hz hle => ?_, h4⟩
  obtain ⟨z', hz', rfl⟩ := List.mem_map.mp hz
  exact h3 z' hz' hle

theorem closest_of_setIds {t : SymTree} (f : Addr → List (Addr × BitVec 64)) {ref : Addr} {y : Symbol}
    (h : ClosestSym (t.map (setIds f)) ref y) : ∃ y', ClosestSym t ref y' ∧ setIds f y' = y := by
  obtain ⟨h1, h2, h3, h4⟩ := h
  obtain ⟨y', hy', rfl⟩ := List.mem_map.mp h1
  exact ⟨y', ⟨hy', h2, fun z hz hle => h3 (setIds f z) (List.mem_map_of_mem hz) hle, h4⟩, rfl⟩

theorem gotCase_setIds {got : Addr} {y : Symbol} {ref : Addr} (f : Addr → List (Addr × BitVec 64)) :
    GotCase got (setIds f y) ref ↔ GotCase got y ref := Iff.rfl

/-- Identifiers of positions have no influence on what references lead to. -/
theorem refers_setIds {got : Addr} {t : SymTree} (f : Addr → List (Addr × BitVec 64)) {ref : Addr} {x : Referent}
    (h : Refers got t ref x) : Refers got (t.map (setIds f)) ref x := by
  cases h with
  | gotEntry y h1 h2 h3 => exact .gotEntry (setIds f y) (closest_setIds f h1) h2 h3
  | imported y rel h1 h2 h3 => exact .imported (setIds f y) rel (closest_setIds f h1) h2 h3
  | api y h1 h2 h3 => exact .api (setIds f y) (closest_setIds f h1) h2 h3
  | content y h1 h2 h3 => exact .content (setIds f y) (closest_setIds f h1) h2 h3
  | nowhere h1 =>
    refine .nowhere (fun y hy => ?_)
    obtain ⟨y', hy', _⟩ := closest_of_setIds f hy
    exact h1 y' hy'

theorem zip_refers {got : Addr} {t : SymTree} (f : Addr → List (Addr × BitVec 64)) {l : List Addr} {xs : List Referent}
    (h : Zip (Refers got t) l xs) : Zip (Refers got (t.map (setIds f))) l xs :=
  zip_mono (fun _ _ h => refers_setIds f h) h

/-- The external identifier is not set before it is calculated. -/
theorem external_zero {env : Env} {fl : AnalyzeFlags} {elf : Elf} {dbgsym : Option Elf} {st s1 s2 s3 r : AState}
    (f : Stages env fl elf dbgsym st s1 s2 s3 r) {s : Symbol} (hs : s ∈ s2.symbols) : s.id.external = 0 := by
  obtain ⟨_, hmem, _⟩ := hashInternal_ok f.run.ok1 f.run.internal
  obtain ⟨i, s0, x, h1, h2, h3, h4⟩ := (hmem s).mp hs
  have hm := List.mem_of_getElem? h1
  rw [finish_used h3] at h4
  have h5 := (hashSymbol_same (f.run.ok1.rels s0 hm) h2).1.id
  rw [h4]
  show x.sym.id.external = 0
  rw [h5, (f.first s0 hm).2.2.1]

/-- C40: the external identifier of a symbol in the result of an analysis is the hash of its relocations and of what its
references lead to; it is zero if there are none. -/
theorem C40_files (env : Env) (fl : AnalyzeFlags) (elf : Elf) (dbgsym : Option Elf) (r : AState)
    (h : analyze env fl elf dbgsym = .ok r) (s : Symbol) (hs : s ∈ r.symbols) :
    (¬ (s.rels = [] ∧ s.refs = []) → ∃ bytes,
      ExternalInput env (gotAddress elf) r.symbols s bytes ∧ s.id.external = env.xxhash bytes) ∧
    (s.rels = [] ∧ s.refs = [] → s.id.external = 0) := by
  obtain ⟨_, s1, s2, s3, f⟩ := stages h
  obtain ⟨_, _, _, y, hy, k, e1, e2⟩ := f.kept s hs
  obtain ⟨h1, h2⟩ := C40_input env s2 s3 f.run.ok2 f.run.external y hy
  rw [k.rels, e1] at h1 h2
  constructor
  · intro hne
    obtain ⟨bytes, ⟨xs, h3, h4⟩, h5⟩ := h1 hne
    obtain ⟨fi, e⟩ := f.run.ids
    refine ⟨bytes, ⟨xs, ?_, ?_⟩, by rw [← e2]; exact h5⟩
    · rw [(got_of f).2.2.1, e1] at h3
      have := zip_refers fi h3
      rw [e]
      exact this
    · rw [h4, k.rels, k.address]
  · intro hno
    obtain ⟨s0, h3, _, h4⟩ := h2 hno
    rw [← e2, h4]
    exact external_zero f h3

example : (imgF 0x1000).id.external = 0 :=
  (C40_files exEnv {} _ none _ img_ok (imgF 0x1000) (by decide)).2 ⟨rfl, rfl⟩

/-- The external identifiers of symbols of two files. -/
theorem external_same {env : Env} {fl : AnalyzeFlags} {elf elf' : Elf} {dbgsym dbgsym' : Option Elf} {r r' : AState}
    (h : analyze env fl elf dbgsym = .ok r) (h' : analyze env fl elf' dbgsym' = .ok r')
    {s s' : Symbol} (hs : s ∈ r.symbols) (hs' : s' ∈ r'.symbols) (hrel : Zip (SameRel s s') s.rels s'.rels)
    (href : Zip (fun ref ref' => ∃ x, Refers (gotAddress elf) r.symbols ref x ∧
      Refers (gotAddress elf') r'.symbols ref' x) s.refs s'.refs) : s.id.external = s'.id.external := by
  obtain ⟨_, s1, s2, s3, f⟩ := stages h
  obtain ⟨_, s1', s2', s3', f'⟩ := stages h'
  obtain ⟨_, _, _, y, hy, k, e1, e2⟩ := f.kept s hs
  obtain ⟨_, _, _, y', hy', k', e1', e2'⟩ := f'.kept s' hs'
  obtain ⟨fi, e⟩ := f.run.ids
  obtain ⟨fi', e'⟩ := f'.run.ids
  by_cases hne : s.rels = [] ∧ s.refs = []
  · have h1 : s'.rels = [] ∧ s'.refs = [] := by
      rw [hne.1] at hrel
      rw [hne.2] at href
      constructor
      · generalize s'.rels = l at hrel; cases hrel; rfl
      · generalize s'.refs = l at href; cases href; rfl
    rw [(C40_files env fl elf dbgsym r h s hs).2 hne, (C40_files env fl elf' dbgsym' r' h' s' hs').2 h1]
  · rw [← e2, ← e2']
    have uniq : ∀ {got : Addr} {t : SymTree} (ht : SymsOK t) (g : Addr → List (Addr × BitVec 64)) {ref : Addr} {x : Referent},
        Refers got (t.map (setIds g)) ref x → Refers got t ref x := by
      intro got t ht g ref x hx
      cases hx with
      | gotEntry z h1 h2 h3 =>
        obtain ⟨z', hz, rfl⟩ := closest_of_setIds g h1
        exact .gotEntry z' hz h2 h3
      | imported z rel h1 h2 h3 =>
        obtain ⟨z', hz, rfl⟩ := closest_of_setIds g h1
        exact .imported z' rel hz h2 h3
      | api z h1 h2 h3 =>
        obtain ⟨z', hz, rfl⟩ := closest_of_setIds g h1
        exact .api z' hz h2 h3
      | content z h1 h2 h3 =>
        obtain ⟨z', hz, rfl⟩ := closest_of_setIds g h1
        exact .content z' hz h2 h3
      | nowhere h1 => exact .nowhere (fun z hz => h1 _ (closest_setIds g hz))
    refine C40_external env s2 s2' s3 s3' f.run.ok2 f'.run.ok2 f.run.external f'.run.external y y' hy hy'
      (by rw [k.rels, e1]; exact hne) ?_ ?_
    · rw [k.rels, k'.rels]
      refine zip_mono (fun q q' hq => ?_) hrel
      exact ⟨by rw [k.address, k'.address]; exact hq.offset, hq.type, hq.resolved, hq.unresolved⟩
    · rw [e1, e1', (got_of f).2.2.1, (got_of f').2.2.1]
      refine zip_mono (fun ref ref' hq => ?_) href
      obtain ⟨x, hx, hx'⟩ := hq
      rw [show r.symbols = s3.symbols.map (setIds fi) by rw [e]] at hx
      rw [show r'.symbols = s3'.symbols.map (setIds fi') by rw [e']] at hx'
      exact ⟨x, uniq f.run.ok3 fi hx, uniq f'.run.ok3 fi' hx'⟩

/-- C88: if two files contain functions with the same bytes (not thread-local, wherever they are), with the same relocations
relative to the functions, and with references that lead to the same things (the same position in contents with the same identifier, the
same exported symbol, the same import, or the same entry of the global offset table), then the complete
identifiers of the functions in the analyses of the files are equal. -/
theorem C88_code (env : Env) (fl : AnalyzeFlags) (elf elf' : Elf) (dbgsym dbgsym' : Option Elf) (r r' : AState)
    (h : analyze env fl elf dbgsym = .ok r) (h' : analyze env fl elf' dbgsym' = .ok r')
    (s s' : Symbol) (hs : s ∈ r.symbols) (hs' : s' ∈ r'.symbols)
    (hx : s.sec.executable = true) (hx' : s'.sec.executable = true)
    (hf : s.address.toNat + s.size.toNat < 2 ^ 64) (hf' : s'.address.toNat + s'.size.toNat < 2 ^ 64)
    (ht : TLS.is_tls s.address = false) (ht' : TLS.is_tls s'.address = false)
    (hm : MovesWith env (s'.address - s.address)) (hz : s.size = s'.size)
    (bytes : List (BitVec 8)) (hb : ContentOf elf s bytes) (hb' : ContentOf elf' s' bytes)
    (hattr : fl.hash_attributes = true → SameAttributes s s')
    (hrel : Zip (SameRel s s') s.rels s'.rels)
    (href : Zip (fun ref ref' => ∃ x, Refers (gotAddress elf) r.symbols ref x ∧
      Refers (gotAddress elf') r'.symbols ref' x) s.refs s'.refs) : s.id = s'.id := by
  have h1 := C33_files env fl elf elf' dbgsym dbgsym' r r' h h' s s' hs hs' hx hx' hf hf' ht ht' hm hz bytes hb hb' hattr
  have h2 := external_same h h' hs hs' hrel href
  cases hi : s.id
  cases hi' : s'.id
  rw [hi, hi'] at h1 h2
  cases h1; cases h2; rfl

/-- The reference of the function. -/
theorem img_refers : Refers (gotAddress (imgElf 0x1000 0)) (imgState 0x1000 0).symbols 0x1003 (.content 0xc1cabdf .func 0) :=
  .content (imgF 0x1000) ⟨by decide, by decide, by decide, by decide⟩ (by
    rintro (⟨c, _⟩ | ⟨_, c, _⟩)
    · exact absurd c (by decide)
    · exact absurd c (by decide)) (by decide)

theorem img_refers' : Refers (gotAddress (imgElf 0x5000 7)) (imgState 0x5000 7).symbols 0x5003 (.content 0xc1cabdf .func 0) :=
  .content (imgF 0x5000) ⟨by decide, by decide, by decide, by decide⟩ (by
    rintro (⟨c, _⟩ | ⟨_, c, _⟩)
    · exact absurd c (by decide)
    · exact absurd c (by decide)) (by decide)

example : (imgMain 0x1000).id = (imgMain 0x5000).id :=
  C88_code exEnv {} _ _ none none _ _ img_ok img_moved (imgMain 0x1000) (imgMain 0x5000) (by decide) (by decide) rfl rfl
    (by decide) (by decide) (by decide) (by decide) (exMoves _) rfl _ img_main_content img_main_content' (by simp) .nil
    (.cons ⟨_, img_refers, img_refers'⟩ .nil)

/-- C88: the same for initialised data: equal except for what is subject to relocations, with the page offset for data that can
be changed at run time. -/
theorem C88_data (env : Env) (fl : AnalyzeFlags) (elf elf' : Elf) (dbgsym dbgsym' : Option Elf) (r r' : AState)
    (h : analyze env fl elf dbgsym = .ok r) (h' : analyze env fl elf' dbgsym' = .ok r')
    (s s' : Symbol) (hs : s ∈ r.symbols) (hs' : s' ∈ r'.symbols) (hx : s.sec.executable = false)
    (hx' : s'.sec.executable = false) (hi : Filled elf s) (hi' : Filled elf' s')
    (hf : DataFits env (gotAddress elf) s) (hf' : DataFits env (gotAddress elf') s')
    (bytes bytes' : List (BitVec 8)) (hd : ContentOf elf s bytes) (hd' : ContentOf elf' s' bytes')
    (hl : bytes.length = bytes'.length)
    (hb : ∀ i, ¬ Masked env s.rels ((TLS.virt_addr s.address).toNat + i) → bytes[i]? = bytes'[i]?) (d : Addr)
    (hm : TLS.virt_addr s'.address = TLS.virt_addr s.address + d) (hr : MovedRels d s.rels s'.rels)
    (hg : TLS.virt_addr s.address = gotAddress elf ↔ TLS.virt_addr s'.address = gotAddress elf')
    (hp : PageMatters s ↔ PageMatters s') (hpage : PageMatters s → d.toNat % 4096 = 0)
    (ha : attributeBytes env fl s = attributeBytes env fl s')
    (hrel : Zip (SameRel s s') s.rels s'.rels)
    (href : Zip (fun ref ref' => ∃ x, Refers (gotAddress elf) r.symbols ref x ∧
      Refers (gotAddress elf') r'.symbols ref' x) s.refs s'.refs) : s.id = s'.id := by
  have h1 := C38_files env fl elf elf' dbgsym dbgsym' r r' h h' s s' hs hs' hx hx' hi hi' hf hf' bytes bytes' hd hd' hl hb d hm
    hr hg hp hpage ha
  have h2 := external_same h h' hs hs' hrel href
  cases e : s.id
  cases e' : s'.id
  rw [e, e'] at h1 h2
  cases h1; cases h2; rfl

/-- The pointer leads to a global function. -/
theorem img_pointer : Refers (gotAddress (imgElf 0x1000 0)) (imgState 0x1000 0).symbols 0x1000 (.api (some "main") .func) :=
  .api (imgMain 0x1000) ⟨by decide, by decide, by decide, by decide⟩ (by
    rintro (⟨c, _⟩ | ⟨_, c, _⟩)
    · exact absurd c (by decide)
    · exact absurd c (by decide)) (by decide)

theorem img_pointer' : Refers (gotAddress (imgElf 0x5000 7)) (imgState 0x5000 7).symbols 0x5000 (.api (some "main") .func) :=
  .api (imgMain 0x5000) ⟨by decide, by decide, by decide, by decide⟩ (by
    rintro (⟨c, _⟩ | ⟨_, c, _⟩)
    · exact absurd c (by decide)
    · exact absurd c (by decide)) (by decide)

example : (imgV 0x1000).id = (imgV 0x5000).id :=
  C88_data exEnv {} _ _ none none _ _ img_ok img_moved (imgV 0x1000) (imgV 0x5000) (by decide) (by decide) rfl rfl
    img_filled img_filled' img_fits img_fits' _ _ img_content img_content' rfl
    (by
      intro i h
      have h8 : 8 ≤ i := by
        refine Nat.le_of_not_lt (fun hlt => h ?_)
        refine ⟨_, List.mem_cons_self, ?_, ?_⟩
        · show 0x2000 ≤ 0x2000 + i; omega
        · show 0x2000 + i < 0x2000 + 8; omega
      obtain ⟨k, rfl⟩ := Nat.exists_eq_add_of_le h8
      rw [Nat.add_comm]
      rfl)
    0x4000 rfl (.cons ⟨rfl, rfl⟩ .nil) (by decide) (by decide) (by decide) rfl
    (.cons ⟨rfl, rfl, by decide, by decide⟩ .nil) (.cons ⟨_, img_pointer, img_pointer'⟩ .nil)

/-! ### Positions -/

/-- A function with jumps to its start and to an instruction in its middle. -/
def posCode : List (BitVec 8) := [0x0f, 0x85, 0x01, 0, 0, 0, 0x90, 0x0f, 0x85, 0xf3, 0xff, 0xff, 0xff, 0xc3]

def posText (b : Addr) : ElfSec where
  name := ".text"
  virt_addr := b
  size := 14
  executable := true
  data := posCode

/-- The file. -/
def posElf (b : Addr) : Elf where
  entry := b
  segments := [{ type := .load, offset := 0x100, virt_addr := b, size := 14, virt_size := 14, executable := true }]
  sections := [runTable [], posText b, runTable [imgFunc b 14 "main" .global]]

/-- A reconstructed relocation in it. -/
def posRel (offset addend target : Addr) : Rel where
  offset := offset
  type := R_X86_64_PC32
  name := some "main"
  addend := addend
  target := target
  reconstructed := true
  instruction_offset := 2
  instruction_access := 0x1c

/-- The resulting symbol. -/
def posMain (b : Addr) : Symbol where
  address := b
  size := 14
  name := some "main"
  type := .func
  bind := .global
  flags := SYMBOL_ENTRY
  sec := imgSec b ".text" false true 0
  id := { internal := 0x5688e1a08f0ae3c6, external := 0x144fe65ba2759658 }
  refs := [b + 7, b]
  rels := [posRel (b + 2) 3 (b + 7), posRel (b + 9) (-4) b]
  offset_ids := [(7, 0x9407675ae2c1187a)]

def posState (b : Addr) : AState where
  symbols := [posMain b]
  sections := [posText b]
  segments := (posElf b).segments

theorem pos_ok : analyze rexEnv { reconstruct := true } (posElf 0x1000) none = .ok (posState 0x1000) := by
  exact ok_of_decide (by decide +kernel)

theorem pos_moved : analyze rexEnv { reconstruct := true } (posElf 0x5000) none = .ok (posState 0x5000) := by
  exact ok_of_decide (by decide +kernel)

theorem pos_loaded {b : Addr} {sec : ElfSec} (h : Loaded (posElf b) sec) : sec = posText b := by
  obtain ⟨h1, h2, _⟩ := h
  have : sec = runTable [] ∨ sec = posText b ∨ sec = runTable [imgFunc b 14 "main" .global] := by
    simpa [posElf] using h1
  rcases this with rfl | rfl | rfl
  · cases h2
  · rfl
  · cases h2

theorem pos_content : ContentOf (posElf 0x1000) (posMain 0x1000) posCode :=
  ⟨posText 0x1000, ⟨⟨by simp [posElf], rfl, by decide⟩, Nat.le_refl _, fun _ h _ => Or.inl (pos_loaded h)⟩, by decide,
    by decide⟩

theorem pos_content' : ContentOf (posElf 0x5000) (posMain 0x5000) posCode :=
  ⟨posText 0x5000, ⟨⟨by simp [posElf], rfl, by decide⟩, Nat.le_refl _, fun _ h _ => Or.inl (pos_loaded h)⟩, by decide,
    by decide⟩

/-- C46: the identifiers of positions in the result of an analysis are the hashes of the code in front of the position. -/
theorem C46_files (env : Env) (fl : AnalyzeFlags) (elf : Elf) (dbgsym : Option Elf) (r : AState)
    (h : analyze env fl elf dbgsym = .ok r) (s : Symbol) (hs : s ∈ r.symbols) (hw : NoWrap s)
    (ht : TLS.is_tls s.address = false) (bytes : List (BitVec 8)) (hb : ContentOf elf s bytes)
    (o : Addr) (v : BitVec 64) (hv : HMap.find s.offset_ids o = some v) :
    fl.reconstruct = true ∧ ∃ t, Interesting r.symbols t ∧ s.address < t ∧ o = t - s.address ∧ s.sec.executable = true ∧
      Before env (disasm env s.address bytes) t ∧
      v = env.xxhash (codeUpTo env r.symbols s t 0 (disasm env s.address bytes)) := by
  obtain ⟨_, s1, s2, s3, f⟩ := stages h
  rcases f.run.last with ⟨hr, h1⟩ | ⟨_, h1⟩
  · refine ⟨hr, ?_⟩
    obtain ⟨t, h2, h3, h4, h5, steps, ⟨sec, b, h6, h7, h8⟩, h9, h10⟩ :=
      C46_identifiers env s3 r f.run.ok3 f.run.noIds h1 s hs hw ht o v hv
    rw [f.sections] at h6
    obtain ⟨sec', c1, c2, c3⟩ := hb
    rw [section_floor c1] at h6
    cases h6
    rw [readBytes_of c2 c3] at h7
    cases h7
    rw [TLS.virt_of_regular ht] at h8
    subst h8
    exact ⟨t, h2, h3, h4, h5, h9, h10⟩
  · rw [h1] at hs
    rw [f.run.noIds s hs] at hv
    cases hv

/-- The identifier of the position behind the NOP. -/
example : ∃ t, Interesting [posMain 0x1000] t ∧ 0x1000 < t ∧ 7 = t - 0x1000 ∧
    Before rexEnv (disasm rexEnv 0x1000 posCode) t ∧
    0x9407675ae2c1187a = rexEnv.xxhash (codeUpTo rexEnv [posMain 0x1000] (posMain 0x1000) t 0 (disasm rexEnv 0x1000 posCode)) := by
  obtain ⟨_, t, h1, h2, h3, _, h4, h5⟩ := C46_files rexEnv { reconstruct := true } _ none _ pos_ok (posMain 0x1000) (by decide) (by unfold NoWrap; decide)
    (by decide) posCode pos_content 7 0x9407675ae2c1187a (by decide)
  exact ⟨t, h1, h2, h3, h4, h5⟩

/-- C46 (partial): with reconstruction, if something refers to the start of a function, then every address inside of it that
relocations make interesting has an identifier (up to the last instruction other than NOP). Missing: see
`C46_recorded_partial`. -/
theorem C46_files_partial (env : Env) (fl : AnalyzeFlags) (elf : Elf) (dbgsym : Option Elf) (r : AState)
    (h : analyze env fl elf dbgsym = .ok r) (hr : fl.reconstruct = true) (hdis : Disjoint r.symbols)
    (s : Symbol) (hs : s ∈ r.symbols) (hw : NoWrap s) (hx : s.sec.executable = true)
    (ht : TLS.is_tls s.address = false) (bytes : List (BitVec 8)) (hb : ContentOf elf s bytes)
    (hstart : Interesting r.symbols s.address) (t : Addr) (hi : Interesting r.symbols t) (hlt : s.address < t)
    (hbef : Before env (disasm env s.address bytes) t) :
    HMap.find s.offset_ids (t - s.address) =
      some (env.xxhash (codeUpTo env r.symbols s t 0 (disasm env s.address bytes))) := by
  obtain ⟨_, s1, s2, s3, f⟩ := stages h
  rcases f.run.last with ⟨_, h1⟩ | ⟨h1, _⟩
  · obtain ⟨fi, e⟩ := f.run.ids
    have hd3 : Disjoint s3.symbols := by
      intro x hx y hy hlt
      exact hdis (setIds fi x) (by rw [e]; exact List.mem_map_of_mem hx) (setIds fi y)
        (by rw [e]; exact List.mem_map_of_mem hy) hlt
    refine C46_recorded_partial env s3 r f.run.ok3 f.run.noIds hd3 h1 s hs hw hx ht hstart _ ?_ t hi hlt hbef
    obtain ⟨sec, c1, c2, c3⟩ := hb
    refine ⟨sec, bytes, ?_, readBytes_of c2 c3, by rw [TLS.virt_of_regular ht]⟩
    rw [f.sections]
    exact section_floor c1
  · rw [hr] at h1; cases h1

example : HMap.find (posMain 0x1000).offset_ids 7 =
    some (rexEnv.xxhash (codeUpTo rexEnv [posMain 0x1000] (posMain 0x1000) 0x1007 0 (disasm rexEnv 0x1000 posCode))) :=
  C46_files_partial rexEnv { reconstruct := true } _ none _ pos_ok rfl (by unfold Disjoint; decide) (posMain 0x1000) (by decide)
    (by unfold NoWrap; decide) rfl (by decide) posCode pos_content
    ⟨posMain 0x1000, by decide, posRel 0x1009 (-4) 0x1000, by decide, Or.inl rfl⟩ 0x1007
    ⟨posMain 0x1000, by decide, posRel 0x1002 3 0x1007, by decide, Or.inl rfl⟩ (by decide) (by decide +kernel)

/-- C68: positions in functions of two files with the same instructions and corresponding references have the same identifier. -/
theorem C68_files (env : Env) (fl : AnalyzeFlags) (elf elf' : Elf) (dbgsym dbgsym' : Option Elf) (r r' : AState)
    (h : analyze env fl elf dbgsym = .ok r) (h' : analyze env fl elf' dbgsym' = .ok r')
    (s s' : Symbol) (hs : s ∈ r.symbols) (hs' : s' ∈ r'.symbols) (hw : NoWrap s) (hw' : NoWrap s')
    (ht : TLS.is_tls s.address = false) (ht' : TLS.is_tls s'.address = false)
    (bytes bytes' : List (BitVec 8)) (hb : ContentOf elf s bytes) (hb' : ContentOf elf' s' bytes')
    (hsteps : SameSteps env s s' (disasm env s.address bytes) (disasm env s'.address bytes'))
    (hrels : SameRels r.symbols s r'.symbols s' s.rels s'.rels)
    (o : Addr) (v w : BitVec 64) (hv : HMap.find s.offset_ids o = some v) (hv' : HMap.find s'.offset_ids o = some w) :
    v = w := by
  have hr := (C46_files env fl elf dbgsym r h s hs hw ht bytes hb o v hv).1
  obtain ⟨_, s1, s2, s3, f⟩ := stages h
  obtain ⟨_, s1', s2', s3', f'⟩ := stages h'
  rcases f.run.last with ⟨_, h1⟩ | ⟨h1, _⟩
  · rcases f'.run.last with ⟨_, h1'⟩ | ⟨h1', _⟩
    · refine C68_position_independent env s3 r s3' r' f.run.ok3 f'.run.ok3 f.run.noIds f'.run.noIds h1 h1' s hs s' hs' hw hw'
        ht ht' _ _ ?_ ?_ hsteps hrels o v w hv hv'
      · obtain ⟨sec, c1, c2, c3⟩ := hb
        refine ⟨sec, bytes, ?_, readBytes_of c2 c3, by rw [TLS.virt_of_regular ht]⟩
        rw [f.sections]
        exact section_floor c1
      · obtain ⟨sec, c1, c2, c3⟩ := hb'
        refine ⟨sec, bytes', ?_, readBytes_of c2 c3, by rw [TLS.virt_of_regular ht']⟩
        rw [f'.sections]
        exact section_floor c1
    · rw [hr] at h1'; cases h1'
  · rw [hr] at h1; cases h1

example (v w : BitVec 64) (hv : HMap.find (posMain 0x1000).offset_ids 7 = some v)
    (hw : HMap.find (posMain 0x5000).offset_ids 7 = some w) : v = w :=
  C68_files rexEnv { reconstruct := true } _ _ none none _ _ pos_ok pos_moved (posMain 0x1000) (posMain 0x5000) (by decide)
    (by decide) (by unfold NoWrap; decide) (by unfold NoWrap; decide) (by decide) (by decide) posCode posCode pos_content
    pos_content' (by decide +kernel)
    (.cons (by decide) (.own (by decide) (by decide) (by unfold Covers; decide) (by unfold Covers; decide) (by decide))
      (.cons (by decide) (.own (by decide) (by decide) (by unfold Covers; decide) (by unfold Covers; decide) (by decide)) .nil))
    7 v w hv hw

end Bean

import Verif.Lemmas.HashData
import Verif.Props.HashInsn
/-
C37 to C39: identifiers of data; C65: attached relocations.
-/
namespace Bean
open Tree Spec

/-- A section with writeable data. -/
def exDataSec (base : Addr) (data : List (BitVec 8)) : ElfSec where
  name := ".data"
  virt_addr := base
  size := BitVec.ofNat 64 data.length
  writeable := true
  data := data

/-- A segment with writeable data. -/
def exDataSeg (offset base size virt_size : Addr) : ElfSeg where
  type := .load
  offset := offset
  virt_addr := base
  size := size
  virt_size := virt_size
  writeable := true

/-- A file with data at `base`, of which the second word is subject to a relocation. -/
def exData (base : Addr) (seed : BitVec 8) : AState where
  sections := [exDataSec base [1, 2, 3, 4, 5, 6, 7, 8, seed, seed, 0, 0, 0, 0, 0, 0]]
  segments := [exDataSeg 0x100 base 16 16]
  relocations := [{ offset := base + 8, type := R_X86_64_RELATIVE, addend := base }]
  symbols := [exSym base]

/-- The symbol in `exData` after the analysis. -/
def exDataSym (base : Addr) : Symbol where
  address := base
  size := 16
  sec := { name := some ".data", writeable := true }
  id := { internal := 0x3d46fe42a8c6560c }
  rels := [{ offset := base + 8, type := R_X86_64_RELATIVE, addend := base, target := base }]

set_option maxRecDepth 8000 in
theorem exData_hash : hashInternal exEnv {} (exData 0x2100 7) =
    .ok { exData 0x2100 7 with symbols := [exDataSym 0x2100] } := by
  rfl

set_option maxRecDepth 8000 in
theorem exData_hash' : hashInternal exEnv {} (exData 0x5100 9) =
    .ok { exData 0x5100 9 with symbols := [exDataSym 0x5100] } := by
  rfl

theorem exData_init : Initialised (exData 0x2100 7) (exDataSym 0x2100) :=
  ⟨exDataSec 0x2100 [1, 2, 3, 4, 5, 6, 7, 8, 7, 7, 0, 0, 0, 0, 0, 0], exDataSeg 0x100 0x2100 16 16, rfl, nofun, rfl,
    by decide⟩

theorem exData_init' : Initialised (exData 0x5100 9) (exDataSym 0x5100) :=
  ⟨exDataSec 0x5100 [1, 2, 3, 4, 5, 6, 7, 8, 9, 9, 0, 0, 0, 0, 0, 0], exDataSeg 0x100 0x5100 16 16, rfl, nofun, rfl,
    by decide⟩

theorem exData_fits (base : Addr) (h : base = 0x2100 ∨ base = 0x5100) : DataFits exEnv 0 (exDataSym base) := by
  rcases h with rfl | rfl
  all_goals exact ⟨by decide, ⟨by decide, by decide⟩⟩

/-! C37: content with relocated bytes masked. -/

theorem pageOffset_eq (s : Symbol) : pageOffset s (TLS.virt_addr s.address) = pageBytes s := by
  unfold pageOffset pageBytes
  have : (s.sec.writeable && !s.sec.has SECTION_RELRO) = true ↔ PageMatters s := by
    unfold PageMatters; simp
  by_cases h : PageMatters s
  · rw [if_pos h, if_pos (this.mpr h)]
    congr 1
  · rw [if_neg h, if_neg (fun h' => h (this.mp h'))]

theorem initialised_not_bss {st : AState} {s : Symbol} {sec : ElfSec} {seg : ElfSeg} (h : Initialised st s)
    (h1 : Tree.floor st.sections s.address = some sec)
    (h2 : dataSegment st sec (TLS.virt_addr s.address) = .ok seg) :
    isBss sec seg (TLS.virt_addr s.address) = false := by
  obtain ⟨sec', seg', h3, h4, h5, h6⟩ := h
  rw [h1] at h3
  cases h3
  unfold dataSegment at h2
  rw [h5] at h2
  cases h2
  unfold isBss
  simp only [Bool.or_eq_false_iff, beq_eq_false_iff_ne, ne_eq, decide_eq_false_iff_not, ge_iff_le]
  exact ⟨h4, bv_not_le.mpr h6⟩

/-- C37: the identifier of initialised data is the hash of its content with zeros in place of the relocated bytes,
without the first two entries of the global offset table, and behind the page offset if that matters. -/
theorem C37_identifier (env : Env) (fl : AnalyzeFlags) (st r : AState) (hok : SymsOK st.symbols)
    (h : hashInternal env fl st = .ok r) (s : Symbol) (hs : s ∈ r.symbols) (hx : s.sec.executable = false)
    (hi : Initialised st s) (hfit : DataFits env st.global_offset_table s) :
    ∃ bytes, DataOf st s bytes ∧
      s.id.internal = env.xxhash (dataInput env st.global_offset_table s bytes ++ attributeBytes env fl s) := by
  obtain ⟨s0, sec, seg, f⟩ := data_facts hok h hs hx
  have hb := initialised_not_bss hi f.floor f.segment
  rcases f.kind with ⟨h1, _⟩ | ⟨_, s1, s2, bytes, c, _, _, _, _, _, _, _, h1, h2, h3⟩
  · rw [hb] at h1; cases h1
  · refine ⟨bytes, ⟨sec, f.floor, h1⟩, ?_⟩
    rw [dataContent_eq hfit.fits (readBytes_length h1) hfit.layout] at h2
    cases h2
    rw [h3, pageOffset_eq]
    rfl

example : ∃ bytes, DataOf (exData 0x2100 7) (exDataSym 0x2100) bytes ∧
    (exDataSym 0x2100).id.internal = exEnv.xxhash (dataInput exEnv 0 (exDataSym 0x2100) bytes ++ []) :=
  C37_identifier exEnv {} (exData 0x2100 7) _ (by decide) exData_hash (exDataSym 0x2100) (by decide) rfl
    exData_init (exData_fits _ (Or.inl rfl))

example : dataInput exEnv 0 (exDataSym 0x2100) [1, 2, 3, 4, 5, 6, 7, 8, 9, 9, 9, 9, 9, 9, 9, 9] =
    [0, 1, 0, 0] ++ [1, 2, 3, 4, 5, 6, 7, 8, 0, 0, 0, 0, 0, 0, 0, 0] := by
  decide

theorem pageBytes_iff {s s' : Symbol} (h : PageMatters s ↔ PageMatters s') :
    (pageBytes s).length = (pageBytes s').length ∧
    (pageBytes s = pageBytes s' ↔ (PageMatters s →
      (TLS.virt_addr s.address).toNat % 4096 = (TLS.virt_addr s'.address).toNat % 4096)) := by
  unfold pageBytes
  by_cases hp : PageMatters s
  · rw [if_pos hp, if_pos (h.mp hp), le32_length, le32_length]
    refine ⟨rfl, ⟨fun e _ => ?_, fun e => by rw [e hp]⟩⟩
    have := congrArg BitVec.toNat (le32_inj e)
    rw [BitVec.toNat_ofNat, BitVec.toNat_ofNat] at this
    omega
  · rw [if_neg hp, if_neg (fun h' => hp (h.mpr h'))]
    exact ⟨rfl, ⟨fun _ h' => absurd h' hp, fun _ => rfl⟩⟩

/-- C37: if the same places of two data symbols are subject to relocations, and the page offset matters for both or for
none of them, then their inputs for the hash are equal iff they have the same size and the same content outside of
relocations (and the same page offset, if it matters). -/
theorem C37_same_input (env : Env) (got got' : Addr) (s s' : Symbol) (bytes bytes' : List (BitVec 8))
    (hp : PageMatters s ↔ PageMatters s')
    (hg : TLS.virt_addr s.address = got ↔ TLS.virt_addr s'.address = got')
    (hm : ∀ i, Masked env s.rels ((TLS.virt_addr s.address).toNat + i) ↔
      Masked env s'.rels ((TLS.virt_addr s'.address).toNat + i)) :
    dataInput env got s bytes = dataInput env got' s' bytes' ↔
      ((PageMatters s → (TLS.virt_addr s.address).toNat % 4096 = (TLS.virt_addr s'.address).toNat % 4096) ∧
       (bytes.drop (gotSkip got (TLS.virt_addr s.address))).length =
         (bytes'.drop (gotSkip got (TLS.virt_addr s.address))).length ∧
       ∀ i, gotSkip got (TLS.virt_addr s.address) ≤ i → ¬ Masked env s.rels ((TLS.virt_addr s.address).toNat + i) →
         bytes[i]? = bytes'[i]?) := by
  have hskip : gotSkip got' (TLS.virt_addr s'.address) = gotSkip got (TLS.virt_addr s.address) := by
    unfold gotSkip
    by_cases h : TLS.virt_addr s.address = got
    · rw [if_pos h, if_pos (hg.mp h)]
    · rw [if_neg h, if_neg (fun h' => h (hg.mpr h'))]
  obtain ⟨hl, hpg⟩ := pageBytes_iff hp
  unfold dataInput
  rw [hskip]
  rw [← hpg, ← maskBytes_eq_iff_drop env s.rels s'.rels _ _ bytes bytes' _ hm]
  constructor
  · intro e
    exact List.append_inj e hl
  · rintro ⟨e1, e2⟩
    rw [e1, e2]

example : dataInput exEnv 0 (exDataSym 0x2100) [1, 2, 3, 4, 5, 6, 7, 8, 9, 9, 9, 9, 9, 9, 9, 9] =
    dataInput exEnv 0 (exDataSym 0x2100) [1, 2, 3, 4, 5, 6, 7, 8, 7, 7, 7, 7, 7, 7, 7, 7] := by
  refine (C37_same_input exEnv 0 0 (exDataSym 0x2100) (exDataSym 0x2100) _ _ Iff.rfl Iff.rfl (fun _ => Iff.rfl)).mpr
    ⟨fun _ => rfl, rfl, fun i _ hm => ?_⟩
  by_cases hi : i < 8
  · have : ∀ i < 8, ([1, 2, 3, 4, 5, 6, 7, 8, 9, 9, 9, 9, 9, 9, 9, 9] : List (BitVec 8))[i]? =
      ([1, 2, 3, 4, 5, 6, 7, 8, 7, 7, 7, 7, 7, 7, 7, 7] : List (BitVec 8))[i]? := by decide
    exact this i hi
  · by_cases hj : i < 16
    · refine absurd ⟨{ offset := 0x2108, type := R_X86_64_RELATIVE, addend := 0x2100, target := 0x2100 }, by decide,
        ?_, ?_⟩ hm
      · show 0x2108 ≤ 0x2100 + i
        omega
      · show 0x2100 + i < 0x2108 + 8
        omega
    · rw [List.getElem?_eq_none (by simp; omega), List.getElem?_eq_none (by simp; omega)]

/-! C38: moving data. -/

theorem zip_mem {α β : Type} {R : α → β → Prop} {l : List α} {l' : List β} (h : Zip R l l') :
    (∀ x ∈ l, ∃ y ∈ l', R x y) ∧ ∀ y ∈ l', ∃ x ∈ l, R x y := by
  induction h with
  | nil => exact ⟨fun x hx => absurd hx List.not_mem_nil, fun x hx => absurd hx List.not_mem_nil⟩
  | cons hr _ ih =>
    refine ⟨fun x hx => ?_, fun x hx => ?_⟩
    · rcases List.mem_cons.mp hx with rfl | hx
      · exact ⟨_, List.mem_cons_self, hr⟩
      · obtain ⟨y, hy, hxy⟩ := ih.1 x hx
        exact ⟨y, List.mem_cons_of_mem _ hy, hxy⟩
    · rcases List.mem_cons.mp hx with rfl | hx
      · exact ⟨_, List.mem_cons_self, hr⟩
      · obtain ⟨y, hy, hxy⟩ := ih.2 x hx
        exact ⟨y, List.mem_cons_of_mem _ hy, hxy⟩

/-- Relocations that move with the data cover the same part of it. -/
theorem masked_moved {env : Env} {rels rels' : List Rel} {a a' d : Addr} {n n' stop stop' : Nat} (ha : a' = a + d)
    (hm : MovedRels d rels rels') (h : RelLayout env rels (a.toNat + n) stop)
    (h' : RelLayout env rels' (a'.toNat + n') stop') (i : Nat) :
    Masked env rels (a.toNat + i) ↔ Masked env rels' (a'.toNat + i) := by
  have key : ∀ r ∈ rels, ∀ q ∈ rels', q.offset = r.offset + d → q.type = r.type → env.reloc_size r.type ≠ 0 →
      q.offset.toNat - a'.toNat = r.offset.toNat - a.toNat ∧ a.toNat ≤ r.offset.toNat ∧ a'.toNat ≤ q.offset.toNat := by
    intro r hr q hq e1 e2 e3
    obtain ⟨h1, h2⟩ := h.within r hr e3
    obtain ⟨h3, h4⟩ := h'.within q hq (by rw [e2]; exact e3)
    have e4 : q.offset - a' = r.offset - a := by rw [e1, ha]; bv_omega
    have e5 := congrArg BitVec.toNat e4
    have h5 : a.toNat ≤ r.offset.toNat := by omega
    have h6 : a'.toNat ≤ q.offset.toNat := by omega
    refine ⟨?_, h5, h6⟩
    have l1 := r.offset.isLt
    have l2 := q.offset.isLt
    rw [BitVec.toNat_sub, BitVec.toNat_sub] at e5
    omega
  have hne : ∀ {t : Addr} {x y : Nat}, x ≤ y → y < x + (env.reloc_size t).toNat → env.reloc_size t ≠ 0 := by
    intro t x y h1 h2 e
    rw [e] at h2
    change y < x + 0 at h2
    omega
  obtain ⟨z1, z2⟩ := zip_mem hm
  constructor
  · rintro ⟨r, hr, h1, h2⟩
    obtain ⟨q, hq, e1, e2⟩ := z1 r hr
    obtain ⟨e3, h3, h4⟩ := key r hr q hq e1 e2 (hne h1 h2)
    refine ⟨q, hq, by omega, ?_⟩
    rw [e2]
    omega
  · rintro ⟨q, hq, h1, h2⟩
    obtain ⟨r, hr, e1, e2⟩ := z2 q hq
    rw [e2] at h2
    obtain ⟨e3, h3, h4⟩ := key r hr q hq e1 e2 (hne h1 h2)
    exact ⟨r, hr, by omega, by omega⟩

theorem dataOf_unique {st : AState} {s : Symbol} {b b' : List (BitVec 8)} (h : DataOf st s b) (h' : DataOf st s b') :
    b = b' := by
  obtain ⟨sec, h1, h2⟩ := h
  obtain ⟨sec', h3, h4⟩ := h'
  rw [h1] at h3
  cases h3
  rw [h2] at h4
  cases h4
  rfl

/-- C38: initialised data keeps its identifier in another file, if attributes, relocations and the content outside
of relocations are the same apart from a displacement, and this displacement is a multiple of the page size for writeable data which is not read-only
after relocation. -/
theorem C38_moved (env : Env) (fl : AnalyzeFlags) (st st' r r' : AState) (hok : SymsOK st.symbols)
    (hok' : SymsOK st'.symbols) (h : hashInternal env fl st = .ok r) (h' : hashInternal env fl st' = .ok r')
    (s s' : Symbol) (hs : s ∈ r.symbols) (hs' : s' ∈ r'.symbols) (hx : s.sec.executable = false)
    (hx' : s'.sec.executable = false) (hi : Initialised st s) (hi' : Initialised st' s')
    (hf : DataFits env st.global_offset_table s) (hf' : DataFits env st'.global_offset_table s')
    (bytes bytes' : List (BitVec 8)) (hd : DataOf st s bytes) (hd' : DataOf st' s' bytes')
    (hl : bytes.length = bytes'.length)
    (hb : ∀ i, ¬ Masked env s.rels ((TLS.virt_addr s.address).toNat + i) → bytes[i]? = bytes'[i]?) (d : Addr)
    (hm : TLS.virt_addr s'.address = TLS.virt_addr s.address + d) (hr : MovedRels d s.rels s'.rels)
    (hg : TLS.virt_addr s.address = st.global_offset_table ↔ TLS.virt_addr s'.address = st'.global_offset_table)
    (hp : PageMatters s ↔ PageMatters s') (hpage : PageMatters s → d.toNat % 4096 = 0)
    (ha : attributeBytes env fl s = attributeBytes env fl s') :
    s.id.internal = s'.id.internal := by
  obtain ⟨b, h1, h2⟩ := C37_identifier env fl st r hok h s hs hx hi hf
  obtain ⟨b', h3, h4⟩ := C37_identifier env fl st' r' hok' h' s' hs' hx' hi' hf'
  rw [← dataOf_unique hd h1] at h2
  rw [← dataOf_unique hd' h3] at h4
  rw [h2, h4, ha]
  congr 2
  refine (C37_same_input env _ _ s s' bytes bytes' hp hg
    (masked_moved hm hr hf.layout hf'.layout)).mpr
    ⟨fun hp => ?_, by rw [List.length_drop, List.length_drop, hl], fun i _ hi => hb i hi⟩
  have h5 := hpage hp
  rw [hm, BitVec.toNat_add]
  omega

example : (exDataSym 0x2100).id.internal = (exDataSym 0x5100).id.internal := by
  refine C38_moved exEnv {} _ _ _ _ (by decide) (by decide) exData_hash exData_hash' (exDataSym 0x2100)
    (exDataSym 0x5100) (by decide) (by decide) rfl rfl exData_init exData_init'
    (exData_fits _ (Or.inl rfl)) (exData_fits _ (Or.inr rfl)) _ _ ⟨_, rfl, rfl⟩ ⟨_, rfl, rfl⟩ rfl
    (fun i hm => ?_) 0x3000 (by decide) (.cons (by decide) .nil) (by decide) (by decide) (by decide) rfl
  by_cases hi : i < 8
  · have : ∀ i < 8, ([1, 2, 3, 4, 5, 6, 7, 8, 7, 7, 0, 0, 0, 0, 0, 0] : List (BitVec 8))[i]? =
      ([1, 2, 3, 4, 5, 6, 7, 8, 9, 9, 0, 0, 0, 0, 0, 0] : List (BitVec 8))[i]? := by decide
    exact this i hi
  · by_cases hj : i < 16
    · refine absurd ⟨{ offset := 0x2108, type := R_X86_64_RELATIVE, addend := 0x2100, target := 0x2100 }, by decide,
        ?_, ?_⟩ hm
      · show 0x2108 ≤ 0x2100 + i
        omega
      · show 0x2100 + i < 0x2108 + 8
        omega
    · rw [List.getElem?_eq_none (by change 16 ≤ i; omega), List.getElem?_eq_none (by change 16 ≤ i; omega)]

/-- C38: the input of the hash for writeable data which is not read-only after relocation changes iff the page offset
or the masked content changes. -/
theorem C38_writeable (env : Env) (got got' : Addr) (s s' : Symbol) (bytes bytes' : List (BitVec 8))
    (hp : PageMatters s) (hp' : PageMatters s') :
    dataInput env got s bytes = dataInput env got' s' bytes' ↔
      (TLS.virt_addr s.address).toNat % 4096 = (TLS.virt_addr s'.address).toNat % 4096 ∧
      maskBytes env s.rels ((TLS.virt_addr s.address).toNat + gotSkip got (TLS.virt_addr s.address))
        (bytes.drop (gotSkip got (TLS.virt_addr s.address))) =
      maskBytes env s'.rels ((TLS.virt_addr s'.address).toNat + gotSkip got' (TLS.virt_addr s'.address))
        (bytes'.drop (gotSkip got' (TLS.virt_addr s'.address))) := by
  obtain ⟨hl, hpg⟩ := pageBytes_iff (s := s) (s' := s') ⟨fun _ => hp', fun _ => hp⟩
  unfold dataInput
  constructor
  · intro e
    obtain ⟨e1, e2⟩ := List.append_inj e hl
    exact ⟨hpg.mp e1 hp, e2⟩
  · rintro ⟨e1, e2⟩
    rw [hpg.mpr (fun _ => e1), e2]

example : dataInput exEnv 0 (exDataSym 0x2100) [1, 2] ≠ dataInput exEnv 0 (exDataSym 0x2108) [1, 2] := by
  intro e
  have := ((C38_writeable exEnv 0 0 (exDataSym 0x2100) (exDataSym 0x2108) _ _ (by decide) (by decide)).mp e).1
  revert this
  decide

/-! C39: zero-initialised data. -/

/-- C39: data in a section without content is identified by its size (and its page offset, if that matters), and has
no further relocations. -/
theorem C39_zero (env : Env) (fl : AnalyzeFlags) (st r : AState) (hok : SymsOK st.symbols)
    (h : hashInternal env fl st = .ok r) (s : Symbol) (hs : s ∈ r.symbols) (hx : s.sec.executable = false)
    (sec : ElfSec) (hsec : Tree.floor st.sections s.address = some sec) (hn : sec.type = .nobits) :
    s.id.internal = env.xxhash (pageBytes s ++ zeros s.size.toNat ++ attributeBytes env fl s) ∧
    ∃ s0 ∈ st.symbols, s0.address = s.address ∧ s.rels = s0.rels ∧ s.refs = s0.refs := by
  obtain ⟨s0, sec', seg, f⟩ := data_facts hok h hs hx
  have := f.floor
  rw [hsec] at this
  cases this
  rcases f.kind with ⟨_, h1, h2, h3⟩ | ⟨h1, _⟩
  · rw [pageOffset_eq] at h3
    exact ⟨h3, s0, f.mem, f.address, h1, h2⟩
  · unfold isBss at h1
    rw [hn] at h1
    cases h1

/-- A section without content. -/
def exBssSec : ElfSec where
  type := .nobits
  name := ".bss"
  virt_addr := 0x2100
  size := 4
  writeable := true

/-- A file with zero-initialised data. -/
def exBss : AState where
  sections := [exBssSec]
  segments := [exDataSeg 0x100 0x2100 0 4]
  symbols := [exSym 0x2100]

/-- The symbol in `exBss` after the analysis. -/
def exBssSym : Symbol where
  address := 0x2100
  size := 4
  sec := { name := some ".bss", writeable := true }
  id := { internal := 0x00000574e15014c8 }

set_option maxRecDepth 8000 in
theorem exBss_hash : hashInternal exEnv {} exBss = .ok { exBss with symbols := [exBssSym] } := by
  rfl

example : exBssSym.id.internal = exEnv.xxhash ([0, 1, 0, 0] ++ [0, 0, 0, 0] ++ []) :=
  (C39_zero exEnv {} exBss _ (by decide) exBss_hash exBssSym (by decide) rfl exBssSec rfl rfl).1

/-- The content of a segment at an address comes from the file. -/
def Backed (c : ElfSeg) (a : Addr) : Prop :=
  c.virt_addr.toNat ≤ a.toNat ∧ a.toNat < c.virt_addr.toNat + c.size.toNat

/-- Segments with ascending addresses: a segment at a higher offset of the file starts behind the content of one
at a lower offset, and no segment starts at an offset that exceeds its address. -/
structure Ascending (segments : List ElfSeg) : Prop where
  sorted : Sorted segments
  order : ∀ x ∈ segments, ∀ y ∈ segments, x.offset < y.offset →
    x.virt_addr.toNat + x.size.toNat ≤ y.virt_addr.toNat
  nowrap : ∀ x ∈ segments, x.offset ≤ x.virt_addr ∧ x.virt_addr.toNat + x.size.toNat < 2 ^ 64

/-- The segment found for an address that is backed by file content is the right one or one with a higher offset. -/
theorem segment_floor {segments : List ElfSeg} (ha : Ascending segments) {c seg : ElfSeg} {a : Addr}
    (hc : c ∈ segments) (hb : Backed c a) (hf : Tree.floor segments a = some seg) :
    seg = c ∨ c.offset < seg.offset := by
  obtain ⟨h1, h2, h3⟩ := (floor_eq_some_iff ha.sorted).mp hf
  have h4 : c.offset ≤ a := by
    have h5 := BitVec.le_def.mp (ha.nowrap c hc).1
    have h6 := hb.1
    exact BitVec.le_def.mpr (by omega)
  have h5 : c.offset ≤ seg.offset := h3 c hc h4
  by_cases h6 : c.offset < seg.offset
  · exact Or.inr h6
  · left
    exact ha.sorted.inj h1 hc (bv_le_antisymm (bv_not_lt.mp h6) h5)

/-- C39 (partial): data backed by file content is identified by its content, if the segments have ascending addresses
that are not below their offset in the file. Without this restriction the segment is not the right one, see `C39_counterexample`. -/
theorem C39_backed_partial (env : Env) (fl : AnalyzeFlags) (st r : AState) (hok : SymsOK st.symbols)
    (h : hashInternal env fl st = .ok r) (s : Symbol) (hs : s ∈ r.symbols) (hx : s.sec.executable = false)
    (ha : Ascending st.segments) (c : ElfSeg) (hc : c ∈ st.segments) (hb : Backed c (TLS.virt_addr s.address))
    (sec : ElfSec) (hsec : Tree.floor st.sections s.address = some sec) (hn : sec.type ≠ .nobits)
    (ht : sec.tls = false) :
    Initialised st s := by
  obtain ⟨s0, sec', seg, f⟩ := data_facts hok h hs hx
  have hf := f.floor
  rw [hsec] at hf
  cases hf
  have hseg : Tree.floor st.segments (TLS.virt_addr s.address) = some seg := by
    have := f.segment
    unfold dataSegment at this
    rw [ht] at this
    simp only [Bool.false_eq_true, if_false] at this
    cases hq : Tree.floor st.segments (TLS.virt_addr s.address) with
    | none => rw [hq] at this; cases this
    | some x => rw [hq] at this; cases this; rfl
  refine ⟨sec, seg, hsec, hn, by rw [ht]; exact hseg, ?_⟩
  obtain ⟨hm, _⟩ := (floor_eq_some_iff ha.sorted).mp hseg
  have hw := (ha.nowrap seg hm).2
  rw [BitVec.lt_def, BitVec.toNat_add, Nat.mod_eq_of_lt hw]
  have hb2 := hb.2
  rcases segment_floor ha hc hb hseg with rfl | hlt
  · exact hb2
  · have := ha.order c hc seg hm hlt
    omega

example : Initialised (exData 0x2100 7) (exDataSym 0x2100) :=
  C39_backed_partial exEnv {} _ _ (by decide) exData_hash (exDataSym 0x2100) (by decide) rfl
    ⟨by decide, by decide, by decide⟩ (exDataSeg 0x100 0x2100 16 16) (by decide) (by unfold Backed; decide)
    (exDataSec 0x2100 [1, 2, 3, 4, 5, 6, 7, 8, 7, 7, 0, 0, 0, 0, 0, 0]) rfl (by decide) rfl

/-- A file in which the segment with the higher address has the lower offset. -/
def exSwap : AState where
  sections := [exDataSec 0x5000 [1, 2, 3, 4]]
  segments := [exDataSeg 0x1000 0x5000 4 4, exDataSeg 0x2000 0x1000 16 16]
  symbols := [exSym 0x5000]

/-- The symbol in `exSwap` after the analysis. -/
def exSwapSym : Symbol where
  address := 0x5000
  size := 4
  sec := { name := some ".data", writeable := true }
  id := { internal := 0x00000574ac69d987 }

/-- The environment of a release build. -/
def exRelease : Env := { exEnv with build := .release }

set_option maxRecDepth 8000 in
theorem exSwap_hash : hashInternal exRelease {} exSwap = .ok { exSwap with symbols := [exSwapSym] } := by
  rfl

/-- C39 does not hold in general: the segment of a symbol is looked up by the address of the symbol, but segments are
ordered by their offset in the file. In a release build a symbol with the content 1, 2, 3, 4 is identified by zeros if
the order of offsets and addresses differs. -/
theorem C39_counterexample : ∃ (env : Env) (st r : AState) (s : Symbol) (c : ElfSeg) (sec : ElfSec),
    hashInternal env {} st = .ok r ∧ s ∈ r.symbols ∧ c ∈ st.segments ∧ Backed c (TLS.virt_addr s.address) ∧
    Tree.floor st.sections s.address = some sec ∧ sec.type ≠ .nobits ∧ DataOf st s [1, 2, 3, 4] ∧
    s.id.internal = env.xxhash (pageBytes s ++ zeros 4) ∧
    (∀ x ∈ st.segments, ∀ y ∈ st.segments, ∀ a : Addr, Backed x a → Backed y a → x = y) := by
  refine ⟨exRelease, exSwap, _, exSwapSym, exDataSeg 0x1000 0x5000 4 4, exDataSec 0x5000 [1, 2, 3, 4], exSwap_hash,
    by decide, by decide, by unfold Backed; decide, rfl, by decide, ⟨exDataSec 0x5000 [1, 2, 3, 4], rfl, rfl⟩, by decide, ?_⟩
  intro x hx y hy a h1 h2
  simp only [exSwap, List.mem_cons, List.not_mem_nil, or_false] at hx hy
  unfold Backed at h1 h2
  rcases hx with rfl | rfl <;> rcases hy with rfl | rfl
  · rfl
  · exfalso
    have h3 : 0x5000 ≤ a.toNat := h1.1
    have h4 : a.toNat < 0x1010 := h2.2
    omega
  · exfalso
    have h3 : a.toNat < 0x1010 := h1.2
    have h4 : 0x5000 ≤ a.toNat := h2.1
    omega
  · rfl

/-- Segments whose contents are not in the (aligned) memory of another one. -/
structure Separate (env : Env) (segments : List ElfSeg) : Prop where
  apart : ∀ x ∈ segments, ∀ y ∈ segments, x ≠ y → ∀ a : Addr, Backed x a →
    ¬ (y.virt_addr ≤ a ∧ a < env.align_up (y.virt_addr + y.virt_size) y.alignment)
  nowrap : ∀ x ∈ segments, x.virt_addr.toNat + x.size.toNat < 2 ^ 64

/-- C39: a debug build identifies data backed by file content by its content (or stops with a failed assertion) for all
files with segments that do not share memory. -/
theorem C39_debug (env : Env) (fl : AnalyzeFlags) (st r : AState) (hok : SymsOK st.symbols)
    (hdebug : env.build = .debug)
    (h : hashInternal env fl st = .ok r) (s : Symbol) (hs : s ∈ r.symbols) (hx : s.sec.executable = false)
    (hsort : Sorted st.segments) (ha : Separate env st.segments) (c : ElfSeg) (hc : c ∈ st.segments)
    (hb : Backed c (TLS.virt_addr s.address)) (hsize : s.size ≠ 0)
    (hwrap : (TLS.virt_addr s.address).toNat + s.size.toNat < 2 ^ 64)
    (sec : ElfSec) (hsec : Tree.floor st.sections s.address = some sec) (hn : sec.type ≠ .nobits)
    (ht : sec.tls = false) :
    Initialised st s := by
  obtain ⟨s0, sec', seg, f⟩ := data_facts hok h hs hx
  have hf := f.floor
  rw [hsec] at hf
  cases hf
  have hseg : Tree.floor st.segments (TLS.virt_addr s.address) = some seg := by
    have := f.segment
    unfold dataSegment at this
    rw [ht] at this
    simp only [Bool.false_eq_true, if_false] at this
    cases hq : Tree.floor st.segments (TLS.virt_addr s.address) with
    | none => rw [hq] at this; cases this
    | some x => rw [hq] at this; cases this; rfl
  refine ⟨sec, seg, hsec, hn, by rw [ht]; exact hseg, ?_⟩
  obtain ⟨hm, _⟩ := (floor_eq_some_iff hsort).mp hseg
  have hw := ha.nowrap seg hm
  refine Classical.byContradiction (fun hlt => ?_)
  rw [BitVec.lt_def, BitVec.toNat_add, Nat.mod_eq_of_lt hw] at hlt
  by_cases he : c = seg
  · rw [← he] at hlt
    have := hb.2
    omega
  · refine ha.apart c hc seg hm he _ hb ⟨BitVec.le_def.mpr (by omega), ?_⟩
    have h1 := BitVec.le_def.mp (f.inside hdebug)
    rw [BitVec.toNat_add, Nat.mod_eq_of_lt hwrap] at h1
    have h2 : 0 < s.size.toNat := by
      rcases Nat.eq_zero_or_pos s.size.toNat with h3 | h3
      · exact absurd (BitVec.eq_of_toNat_eq h3) hsize
      · exact h3
    exact BitVec.lt_def.mpr (by omega)

example : Initialised (exData 0x2100 7) (exDataSym 0x2100) := by
  refine C39_debug exEnv {} _ _ (by decide) rfl exData_hash (exDataSym 0x2100) (by decide) rfl (by decide)
    ⟨?_, by decide⟩ (exDataSeg 0x100 0x2100 16 16) (by decide) (by unfold Backed; decide) (by decide) (by decide)
    (exDataSec 0x2100 [1, 2, 3, 4, 5, 6, 7, 8, 7, 7, 0, 0, 0, 0, 0, 0]) rfl (by decide) rfl
  intro x hx y hy hne
  cases List.mem_singleton.mp hx
  cases List.mem_singleton.mp hy
  exact absurd rfl hne

/-! C65: relocations of a symbol. -/

/-- The address is in the range of the symbol. -/
def InRange (s : Symbol) (o : Addr) : Prop :=
  (TLS.virt_addr s.address).toNat ≤ o.toNat ∧ o.toNat < (TLS.virt_addr s.address).toNat + s.size.toNat

/-- Attached relocations of code and of initialised data. -/
theorem rels_exact {env : Env} {fl : AnalyzeFlags} {st r : AState} (hok : SymsOK st.symbols)
    (hr : Sorted st.relocations) (hrel : Sorted st.relative_relocations)
    (h : hashInternal env fl st = .ok r) {s : Symbol} (hs : s ∈ r.symbols)
    (hi : s.sec.executable = true ∨ Initialised st s) :
    ∃ s0 ∈ st.symbols, ∃ sec, s0.address = s.address ∧ Tree.floor st.sections s.address = some sec ∧ ∀ q,
      q ∈ s.rels ↔ q ∈ s0.rels ∨
        (∃ e ∈ st.relocations, TLS.virt_addr s.address ≤ e.offset ∧ e.offset < TLS.virt_addr s.address + s.size ∧
          q = relOfElf env s.address fl.resolve_internal st.global_offset_table e ∧
          ∀ z ∈ s0.rels, z.offset ≠ e.offset) ∨
        (∃ o ∈ st.relative_relocations, s.address ≤ o ∧ o < TLS.virt_addr s.address + s.size ∧ RelativeAt sec o q ∧
          (∀ z ∈ s0.rels, z.offset ≠ o) ∧
          ∀ e ∈ st.relocations, TLS.virt_addr s.address ≤ e.offset → e.offset < TLS.virt_addr s.address + s.size →
            e.offset ≠ o) := by
  cases hx : s.sec.executable with
  | false =>
    obtain ⟨s0, sec, seg, f⟩ := data_facts hok h hs hx
    rcases hi with hi | hi
    · rw [hx] at hi; cases hi
    have hb := initialised_not_bss hi f.floor f.segment
    refine ⟨s0, f.mem, sec, f.address, f.floor, fun q => ?_⟩
    rcases f.kind with ⟨h1, _⟩ | ⟨_, s1, s2, bytes, c, h1, h2, h3, _, h4, h5, _⟩
    · rw [hb] at h1; cases h1
    · have := addRelocations_exact (by rw [h3]; exact hok.rels s0 f.mem) hr hrel h4 q
      rw [h1, h2, h3, h5] at this
      exact this
  | true =>
    obtain ⟨_, hmem, _⟩ := hashInternal_ok hok h
    obtain ⟨i, s0, x, h1, h2, h3, h4⟩ := (hmem s).mp hs
    have hm0 := List.mem_of_getElem? h1
    rw [finish_used h3] at h4
    obtain ⟨hsame, hsort, sec, sz, h5, h6, h7, h8, h9⟩ := hashSymbol_same (hok.rels s0 hm0) h2
    have had := adoptSection_same sec s0
    have haddr : s.address = s0.address := by rw [h4]; exact hsame.address
    have hxx : sz.sec.executable = true := by rw [← h7]; rw [h4] at hx; exact hx
    have hszaddr : sz.address = s.address := by rw [haddr, h6]; exact had.1.address
    have hsz : sz.size = s.size := by rw [h6, h4]
    have hszrels : sz.rels = s0.rels := by rw [h6]; exact had.2.2.2.1
    rcases h9 with ⟨_, h9⟩ | ⟨h9, _⟩
    · obtain ⟨s1, bytes, e1, e2, e3, e4, e5⟩ := hashExec_ok h9
      refine ⟨s0, hm0, sec, haddr.symm, by rw [haddr]; exact h5, fun q => ?_⟩
      have := addRelocations_exact (by rw [hszrels]; exact hok.rels s0 hm0) hr hrel e1 q
      have hform : x.sym.rels = s1.rels := by rw [fallThrough_form e3]; rfl
      have hrels : s.rels = x.sym.rels := by rw [h4]
      rw [hszaddr, hsz, hszrels, ← hform, ← hrels] at this
      exact this
    · rw [hxx] at h9; cases h9

theorem linkedBy_iff {arch : Arch} {t : Addr} : arch.relative t = true ↔ LinkedBy arch t := by
  unfold LinkedBy
  cases arch <;> simp [Arch.relative, R_X86_64_RELATIVE, R_X86_64_RELATIVE64]

theorem relOfElf_spec (env : Env) (a : Addr) (resolve : Bool) (got : Addr) (e : ElfRel) :
    FileRel env resolve got e (relOfElf env a resolve got e) := by
  have hu : (relOfElf env a resolve got e).undefined = true ↔ Imports e := by
    unfold relOfElf Imports
    cases e.symbol with
    | none => simp
    | some s => simp
  have ht : (relOfElf env a resolve got e).target =
      if (relOfElf env a resolve got e).undefined = true then 0
      else if env.arch.relative e.type then e.addend
      else if resolve then env.reloc_value e got
      else 0 := rfl
  refine ⟨rfl, rfl, rfl, rfl, hu, fun h => ?_, fun h h' => ?_, fun h h1 => ?_, rfl⟩
  · rw [ht, if_pos (hu.mpr h)]
  · rw [ht, if_neg (fun c => h (hu.mp c)), if_pos (linkedBy_iff.mpr h')]
  · rw [ht, if_neg (fun c => h (hu.mp c)), if_neg (fun c => h1 (linkedBy_iff.mp c))]

/-- C65 (partial): code and initialised data carry exactly the relocations in their range, each with type, symbol,
addend and target according to the file; the first one at a location wins. This is not true for packed relative relocations of thread-local
data, see `C65_counterexample`. -/
theorem C65_relocations_partial (env : Env) (fl : AnalyzeFlags) (st r : AState) (hok : SymsOK st.symbols)
    (hr : Sorted st.relocations) (hrel : Sorted st.relative_relocations)
    (h : hashInternal env fl st = .ok r) (s : Symbol) (hs : s ∈ r.symbols)
    (hi : s.sec.executable = true ∨ Initialised st s) (ht : TLS.is_tls s.address = false)
    (hw : (TLS.virt_addr s.address).toNat + s.size.toNat < 2 ^ 64) :
    ∃ s0 ∈ st.symbols, ∃ sec, s0.address = s.address ∧ Tree.floor st.sections s.address = some sec ∧
      (∀ e ∈ st.relocations, InRange s e.offset → (∀ z ∈ s0.rels, z.offset ≠ e.offset) →
        ∃ q ∈ s.rels, FileRel env fl.resolve_internal st.global_offset_table e q) ∧
      (∀ o ∈ st.relative_relocations, InRange s o → (∀ z ∈ s0.rels, z.offset ≠ o) →
        (∀ e ∈ st.relocations, e.offset ≠ o) → ∀ q, RelativeAt sec o q → q ∈ s.rels) ∧
      (∀ q ∈ s.rels, q ∈ s0.rels ∨ (InRange s q.offset ∧
        ((∃ e ∈ st.relocations, FileRel env fl.resolve_internal st.global_offset_table e q) ∨
         (q.offset ∈ st.relative_relocations ∧ RelativeAt sec q.offset q)))) := by
  obtain ⟨s0, h0, sec, h1, h2, h3⟩ := rels_exact hok hr hrel h hs hi
  have hend : (TLS.virt_addr s.address + s.size).toNat = (TLS.virt_addr s.address).toNat + s.size.toNat := by
    rw [BitVec.toNat_add, Nat.mod_eq_of_lt hw]
  have hrange : ∀ o : Addr, InRange s o ↔ TLS.virt_addr s.address ≤ o ∧ o < TLS.virt_addr s.address + s.size := by
    intro o
    unfold InRange
    rw [BitVec.le_def, BitVec.lt_def, hend]
  refine ⟨s0, h0, sec, h1, h2, fun e he hin hfree => ?_, fun o ho hin hfree hnone q hq => ?_, fun q hq => ?_⟩
  · obtain ⟨h4, h5⟩ := (hrange _).mp hin
    exact ⟨_, (h3 _).mpr (Or.inr (Or.inl ⟨e, he, h4, h5, rfl, hfree⟩)), relOfElf_spec _ _ _ _ _⟩
  · obtain ⟨h4, h5⟩ := (hrange _).mp hin
    refine (h3 q).mpr (Or.inr (Or.inr ⟨o, ho, ?_, h5, hq, hfree, fun e he _ _ => hnone e he⟩))
    rw [TLS.virt_of_regular ht] at h4
    exact h4
  · rcases (h3 q).mp hq with h4 | ⟨e, he, h4, h5, rfl, h6⟩ | ⟨o, ho, h4, h5, h6, h7, h8⟩
    · exact Or.inl h4
    · exact Or.inr ⟨(hrange _).mpr ⟨h4, h5⟩, Or.inl ⟨e, he, relOfElf_spec _ _ _ _ _⟩⟩
    · have ho' : q.offset = o := by
        obtain ⟨b, _, e⟩ := h6
        rw [e]
      rw [ho']
      refine Or.inr ⟨(hrange _).mpr ⟨?_, h5⟩, Or.inr ⟨ho, h6⟩⟩
      rw [TLS.virt_of_regular ht]
      exact h4

example : ∃ q ∈ (exDataSym 0x2100).rels, q.offset = 0x2108 := by
  obtain ⟨s0, h0, sec, _, _, h, _⟩ := C65_relocations_partial exEnv {} _ _ (by decide) (by decide) (by decide)
    exData_hash (exDataSym 0x2100) (by decide) (Or.inr exData_init) (by decide) (by decide)
  cases List.mem_singleton.mp h0
  obtain ⟨q, hq, e⟩ := h { offset := 0x2108, type := R_X86_64_RELATIVE, addend := 0x2100 } (by decide)
    (by unfold InRange; decide) (by decide)
  exact ⟨q, hq, e.offset⟩

/-- C65: packed relative relocations are not attached to symbols with a translated address, i.e., to thread-local
data. -/
theorem C65_tls (env : Env) (fl : AnalyzeFlags) (st r : AState) (hok : SymsOK st.symbols)
    (hr : Sorted st.relocations) (hrel : Sorted st.relative_relocations)
    (h : hashInternal env fl st = .ok r) (s : Symbol) (hs : s ∈ r.symbols)
    (hi : s.sec.executable = true ∨ Initialised st s) (a : Addr) (ha : s.address = TLS.trans_addr a true)
    (hw : a.toNat + s.size.toNat < 2 ^ 52) :
    ∃ s0 ∈ st.symbols, s0.address = s.address ∧ ∀ q ∈ s.rels, q ∈ s0.rels ∨ ∃ e ∈ st.relocations, e.offset = q.offset := by
  obtain ⟨s0, h0, sec, h1, h2, h3⟩ := rels_exact hok hr hrel h hs hi
  refine ⟨s0, h0, h1, fun q hq => ?_⟩
  rcases (h3 q).mp hq with h4 | ⟨e, he, h4, h5, rfl, h6⟩ | ⟨o, ho, h4, h5, h6, h7, h8⟩
  · exact Or.inl h4
  · exact Or.inr ⟨e, he, rfl⟩
  · exfalso
    have hb : a.toNat < 2 ^ 52 := by omega
    have hv : TLS.virt_addr s.address = a := by
      rw [ha]
      exact TLS.virt_trans a true ((TLS.is_tls_eq_false_iff a).mpr (TLS.regular_of_lt hb))
    have ht := TLS.trans_true_toNat hb
    rw [← ha] at ht
    rw [hv] at h5
    have h6 := BitVec.le_def.mp h4
    have h7 := BitVec.lt_def.mp h5
    rw [BitVec.toNat_add] at h7
    omega

/-- Thread-local data with a packed relative relocation. -/
def exTls : AState where
  sections := [{ exDataSec 0x3000 [1, 2, 3, 4, 5, 6, 7, 8] with name := ".tdata", tls := true }]
  tls_segment := some (exDataSeg 0x3000 0x3000 8 8)
  relative_relocations := [0x3000]
  symbols := [exSym (TLS.trans_addr 0x3000 true)]

/-- The symbol in `exTls` after the analysis. -/
def exTlsSym : Symbol where
  address := TLS.trans_addr 0x3000 true
  size := 8
  sec := { name := some ".tdata", writeable := true }
  id := { internal := 0x4ce1a919204b1ecb }

set_option maxRecDepth 8000 in
theorem exTls_hash : hashInternal exEnv {} exTls = .ok { exTls with symbols := [exTlsSym] } := by
  rfl

theorem exTls_init : Initialised exTls exTlsSym :=
  ⟨{ exDataSec 0x3000 [1, 2, 3, 4, 5, 6, 7, 8] with name := ".tdata", tls := true }, exDataSeg 0x3000 0x3000 8 8, rfl,
    by decide, rfl, by decide⟩

example : ∃ s0 ∈ exTls.symbols, s0.address = exTlsSym.address ∧
    ∀ q ∈ exTlsSym.rels, q ∈ s0.rels ∨ ∃ e ∈ exTls.relocations, e.offset = q.offset :=
  C65_tls exEnv {} exTls _ (by decide) (by decide) (by decide) exTls_hash exTlsSym (by decide) (Or.inr exTls_init)
    0x3000 rfl (by decide)

/-- C65 does not hold for thread-local data: a packed relative relocation in the range of the symbol is not attached,
since its offset is compared with the translated address. So the relocated value is part of the identifier. -/
theorem C65_counterexample : ∃ (env : Env) (st r : AState) (s : Symbol), hashInternal env {} st = .ok r ∧
    s ∈ r.symbols ∧ Initialised st s ∧ (∃ o ∈ st.relative_relocations, InRange s o) ∧ s.rels = [] ∧
    s.id.internal = env.xxhash (pageBytes s ++ [1, 2, 3, 4, 5, 6, 7, 8]) :=
  ⟨exEnv, exTls, _, exTlsSym, exTls_hash, by decide, exTls_init,
    ⟨0x3000, by decide, by unfold InRange; decide⟩, rfl, by decide⟩

end Bean

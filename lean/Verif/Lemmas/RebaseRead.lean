import Verif.Lemmas.RebaseBase
import Verif.Lemmas.Image
/-
Insertion of symbols and reading of tables for a moved file (C100).
-/
namespace Bean
open Bean.Spec

/-- What is known about symbols before they get identifiers. -/
structure GoodSym (tls : Bool) (k : Addr) (s : Symbol) : Prop where
  address : AddressedT tls k s.address
  size : s.size.toNat < 2 ^ 51
  sec : ZeroOr k s.sec.address
  deps : s.deps = []
  refs : s.refs = []
  rels : s.rels = []

/-- Moved arguments. -/
def rebaseArgs (k : Addr) (a : InsertArgs) : InsertArgs :=
  { a with address := a.address + k, section_address := rebaseZero k a.section_address }

/-- Arguments that can be moved. -/
structure GoodArgs (tls : Bool) (k : Addr) (a : InsertArgs) : Prop where
  address : AddressedT tls k a.address
  size : a.size.toNat < 2 ^ 51
  sec : ZeroOr k a.section_address

theorem newSymbol_good {tls : Bool} {k : Addr} {a : InsertArgs} (h : GoodArgs tls k a) : GoodSym tls k (newSymbol a) :=
  ⟨h.address, h.size, h.sec, rfl, rfl, rfl⟩

theorem symbol_shifts {tls : Bool} {k : Addr} {s : Symbol} (h : LowT tls k s.address) : Shifts (rebaseSymbol tls k) k s :=
  ⟨rfl, h.noWrap⟩

theorem goodSyms_shift {tls : Bool} {k : Addr} {t : SymTree} (h : ∀ s ∈ t, GoodSym tls k s) :
    ∀ s ∈ t, Shifts (rebaseSymbol tls k) k s := fun s hs => symbol_shifts (h s hs).address.lowT

theorem end_ge_iff {tls : Bool} {k a n m : Addr} (ha : LowT tls k a) (hn : n.toNat < 2 ^ 51) (hm : m.toNat < 2 ^ 51) :
    (a + k + n ≥ a + k + m) ↔ (a + n ≥ a + m) := by
  have := ha.lt
  have e : ∀ x : Addr, x.toNat < 2 ^ 51 → (a + x).toNat = a.toNat + x.toNat := by
    intro x hx; rw [BitVec.toNat_add]; omega
  have e' : ∀ x : Addr, x.toNat < 2 ^ 51 → (a + k + x).toNat = a.toNat + k.toNat + x.toNat := by
    intro x hx; rw [BitVec.toNat_add, add_toNat ha.noWrap]; omega
  rw [ge_iff_le, ge_iff_le, BitVec.le_def, BitVec.le_def, e _ hn, e _ hm, e' _ hn, e' _ hm]
  omega

theorem mergeSymbol_rebase {tls : Bool} {k : Addr} {a : InsertArgs} {s : Symbol} (ha : GoodArgs tls k a) (hs : GoodSym tls k s)
    (e : s.address = a.address) : rebaseSymbol tls k (mergeSymbol a s) = mergeSymbol (rebaseArgs k a) (rebaseSymbol tls k s) := by
  unfold rebaseSymbol mergeSymbol rebaseArgs
  simp only [takesName]
  congr 1
  · rw [e]
    have h := end_ge_iff ha.address.lowT hs.size ha.size
    by_cases hc : a.address + s.size ≥ a.address + a.size
    · rw [if_pos hc, if_pos (h.mpr hc)]; bv_omega
    · rw [if_neg hc, if_neg (fun h' => hc (h.mp h'))]; bv_omega
  · congr 1
    have := hs.sec.eq_zero
    by_cases hc : s.sec.address = 0
    · rw [if_pos hc, if_pos (this.mpr hc)]
    · rw [if_neg hc, if_neg (fun h => hc (this.mp h))]

theorem mergeSymbol_good {tls : Bool} {k : Addr} {a : InsertArgs} {s : Symbol} (ha : GoodArgs tls k a) (hs : GoodSym tls k s)
    (e : s.address = a.address) : GoodSym tls k (mergeSymbol a s) := by
  refine ⟨hs.address, ?_, ?_, hs.deps, hs.refs, hs.rels⟩
  · show BitVec.toNat ((if s.address + s.size ≥ a.address + a.size then s.address + s.size else a.address + a.size) - s.address) < _
    rw [e]
    split
    · rw [show a.address + s.size - a.address = s.size by bv_omega]; exact hs.size
    · rw [show a.address + a.size - a.address = a.size by bv_omega]; exact ha.size
  · show ZeroOr k (if s.sec.address = 0 then a.section_address else s.sec.address)
    split
    · exact ha.sec
    · exact hs.sec

theorem insertSymbol_rebase {b : Build} {tls : Bool} {k : Addr} {t : SymTree} {a : InsertArgs} (ht : ∀ s ∈ t, GoodSym tls k s)
    (ha : GoodArgs tls k a) :
    Carries (List.map (rebaseSymbol tls k)) (fun t => ∀ s ∈ t, GoodSym tls k s) (insertSymbol b t a)
      (insertSymbol b (t.map (rebaseSymbol tls k)) (rebaseArgs k a)) := by
  have hnew : newSymbol (rebaseArgs k a) = rebaseSymbol tls k (newSymbol a) := rfl
  have hins : (Tree.insert (t.map (rebaseSymbol tls k)) (newSymbol (rebaseArgs k a))).1 = (Tree.insert t (newSymbol a)).1.map (rebaseSymbol tls k) := by
    rw [hnew, insert_shift (symbol_shifts ha.address.lowT) (goodSyms_shift ht)]
  have hgood : ∀ s ∈ (Tree.insert t (newSymbol a)).1, GoodSym tls k s := by
    intro s hs
    rcases Tree.mem_insert.mp hs with hs | ⟨rfl, _⟩
    · exact ht s hs
    · exact newSymbol_good ha
  unfold insertSymbol
  refine Carries.assert (fun h => h) (Carries.assert (fun h => ?_) ?_)
  · rw [show (rebaseArgs k a).address = a.address + k from rfl, ha.address.lowT.is_tls]; exact h
  · rw [show (rebaseArgs k a).address = a.address + k from rfl, find_shift (fun _ _ => rfl)]
    cases hf : Tree.find t a.address with
    | none => exact Carries.ok hins hgood
    | some pos =>
      obtain ⟨hp, hk⟩ := Tree.find_mem hf
      refine Carries.ite Iff.rfl (fun _ => Carries.ok hins hgood) (fun _ => Carries.ite Iff.rfl (fun _ => ?_) (fun _ => Carries.ok rfl ht))
      refine Carries.bind (g := id) (P := fun _ => True) ?_ (fun _ _ => Carries.ok ?_ ?_)
      · intro u hu; exact ⟨hu, trivial⟩
      · exact modify_shift (fun _ _ => rfl) (fun y hy e => mergeSymbol_rebase ha (ht y hy) e)
      · intro s hs
        unfold Tree.modify at hs
        obtain ⟨y, hy, rfl⟩ := List.mem_map.mp hs
        split
        · exact mergeSymbol_good ha (ht y hy) (by assumption)
        · exact ht y hy

/-! ### State -/

/-- What is known about regions with flags. -/
structure GoodFlag (k : Addr) (f : SectionFlag) : Prop where
  start : Low k f.start
  size : f.size.toNat < 2 ^ 51

/-- What is known about the state while tables are read. -/
structure GoodState (m : Rebase) (elf : Elf) (rels : List ElfRel) (packed : List Addr) (st : AState) : Prop where
  symbols : ∀ s ∈ st.symbols, GoodSym m.tls m.dist s
  sections : ∀ sec ∈ st.sections, Loaded elf sec
  relocations : ∀ r ∈ st.relocations, r ∈ rels
  relative : ∀ o ∈ st.relative_relocations, o ∈ packed
  flags : ∀ f ∈ st.section_flags, GoodFlag m.dist f
  got : ZeroOr m.dist st.global_offset_table

variable {m : Rebase} {elf : Elf} {rels : List ElfRel} {packed : List Addr} {st : AState}

theorem GoodState.addFlag (h : GoodState m elf rels packed st) {f : BitVec 16} {a n : Addr} (ha : Low m.dist a) (hn : n.toNat < 2 ^ 51) :
    GoodState m elf rels packed (st.addFlag f a n) := by
  refine ⟨h.symbols, h.sections, h.relocations, h.relative, fun x hx => ?_, h.got⟩
  rcases List.mem_append.mp hx with hx | hx
  · exact h.flags x hx
  · rcases List.mem_singleton.mp hx with rfl
    exact ⟨ha, hn⟩

theorem addFlag_rebase (secs : List ElfSec) (st : AState) (f : BitVec 16) (a n : Addr) :
    rebaseState m secs (st.addFlag f a n) = (rebaseState m secs st).addFlag f (a + m.dist) n := by
  unfold AState.addFlag rebaseState
  simp only [List.map_append, List.map_cons, List.map_nil]

theorem stInsert_rebase {b : Build} {secs : List ElfSec} {a : InsertArgs} (h : GoodState m elf rels packed st)
    (ha : GoodArgs m.tls m.dist a) :
    Carries (rebaseState m secs) (fun st' => GoodState m elf rels packed st' ∧ st'.tls_segment = st.tls_segment) (st.insertSymbol b a)
      ((rebaseState m secs st).insertSymbol b (rebaseArgs m.dist a)) := by
  unfold AState.insertSymbol
  refine Carries.bind (insertSymbol_rebase h.symbols ha) (fun t ht => Carries.ok rfl ⟨⟨ht, h.sections, h.relocations, h.relative, h.flags, h.got⟩, rfl⟩)

/-! ### Segments -/

/-- The moved variables for the dynamic table. -/
def rebaseInfo (k : Addr) (i : DynInfo) : DynInfo :=
  { i with rel := rebaseZero k i.rel, relr := rebaseZero k i.relr, strtab := rebaseZero k i.strtab,
           preinitArray := rebaseZero k i.preinitArray, initArray := rebaseZero k i.initArray, finiArray := rebaseZero k i.finiArray }

structure GoodInfo (k : Addr) (i : DynInfo) : Prop where
  rel : ZeroOr k i.rel
  relr : ZeroOr k i.relr
  strtab : ZeroOr k i.strtab
  preinit : ZeroOr k i.preinitArray
  init : ZeroOr k i.initArray
  fini : ZeroOr k i.finiArray
  relsz : i.relsz.toNat < 2 ^ 51
  relrsz : i.relrsz.toNat < 2 ^ 51
  strsz : i.strsz.toNat < 2 ^ 51
  preinitsz : i.preinitArraySz.toNat < 2 ^ 51
  initsz : i.initArraySz.toNat < 2 ^ 51
  finisz : i.finiArraySz.toNat < 2 ^ 51

/-- Entries of the dynamic table that can be moved. -/
def GoodEntry (k : Addr) (e : DynTag × Addr) : Prop := if AddressTag e.1 then Addressed k e.2 else e.2.toNat < 2 ^ 51

theorem dynStep_rebase {k : Addr} {i : DynInfo} {e : DynTag × Addr} (hi : GoodInfo k i) (he : GoodEntry k e) :
    (rebaseInfo k i).step (rebaseDyn k e) = rebaseInfo k (i.step e) ∧ GoodInfo k (i.step e) := by
  obtain ⟨tag, v⟩ := e
  obtain ⟨h1, h2, h3, h4, h5, h6, h7, h8, h9, h10, h11, h12⟩ := hi
  unfold GoodEntry at he
  have addr : AddressTag tag → Addressed k v ∧ rebaseDyn k (tag, v) = (tag, rebaseZero k v) := by
    intro ht
    rw [if_pos ht] at he
    refine ⟨he, ?_⟩
    rw [he.zero]; unfold rebaseDyn; rw [if_pos ht]
  have other : ¬ AddressTag tag → v.toNat < 2 ^ 51 ∧ rebaseDyn k (tag, v) = (tag, v) := by
    intro ht
    rw [if_neg ht] at he
    refine ⟨he, ?_⟩
    unfold rebaseDyn; rw [if_neg ht]
  cases tag
  case other =>
    obtain ⟨_, e⟩ := other (by decide)
    rw [e]
    exact ⟨rfl, ⟨h1, h2, h3, h4, h5, h6, h7, h8, h9, h10, h11, h12⟩⟩
  all_goals first
    | (obtain ⟨ha, e⟩ := addr (by decide)
       rw [e]
       exact ⟨rfl, by constructor <;> first | exact Or.inr ha | assumption⟩)
    | (obtain ⟨ha, e⟩ := other (by decide)
       rw [e]
       exact ⟨rfl, by constructor <;> first | exact ha | assumption⟩)

theorem dynFold_rebase {k : Addr} {l : List (DynTag × Addr)} {i : DynInfo} (hi : GoodInfo k i) (hl : ∀ e ∈ l, GoodEntry k e) :
    (l.map (rebaseDyn k)).foldl DynInfo.step (rebaseInfo k i) = rebaseInfo k (l.foldl DynInfo.step i) ∧
      GoodInfo k (l.foldl DynInfo.step i) := by
  induction l generalizing i with
  | nil => exact ⟨rfl, hi⟩
  | cons e l ih =>
    obtain ⟨h1, h2⟩ := dynStep_rebase hi (hl e List.mem_cons_self)
    rw [List.map_cons, List.foldl_cons, List.foldl_cons, h1]
    exact ih h2 (fun x hx => hl x (List.mem_cons_of_mem _ hx))

theorem gotFold_rebase {secs : List ElfSec} {l : List (DynTag × Addr)} (h : GoodState m elf rels packed st)
    (hl : ∀ e ∈ l, GoodEntry m.dist e) :
    (l.map (rebaseDyn m.dist)).foldl (fun st e => if e.1 = .pltgot then { st with global_offset_table := e.2 } else st) (rebaseState m secs st) =
      rebaseState m secs (l.foldl (fun st e => if e.1 = .pltgot then { st with global_offset_table := e.2 } else st) st) ∧
    GoodState m elf rels packed (l.foldl (fun st e => if e.1 = .pltgot then { st with global_offset_table := e.2 } else st) st) ∧
    (l.foldl (fun st e => if e.1 = .pltgot then { st with global_offset_table := e.2 } else st) st).tls_segment = st.tls_segment := by
  induction l generalizing st with
  | nil => exact ⟨rfl, h, rfl⟩
  | cons e l ih =>
    rw [List.map_cons, List.foldl_cons, List.foldl_cons]
    by_cases hc : e.1 = .pltgot
    · have he : Addressed m.dist e.2 := by
        have := hl e List.mem_cons_self
        unfold GoodEntry at this
        rw [hc, if_pos (by decide)] at this
        exact this
      have e1 : (rebaseDyn m.dist e).1 = .pltgot := hc
      have e2 : (rebaseDyn m.dist e).2 = rebaseZero m.dist e.2 := by
        rw [he.zero]; unfold rebaseDyn; rw [hc, if_pos (show AddressTag .pltgot by decide)]
      rw [if_pos e1, if_pos hc, e2]
      have h' : GoodState m elf rels packed { st with global_offset_table := e.2 } :=
        ⟨h.symbols, h.sections, h.relocations, h.relative, h.flags, Or.inr he⟩
      have := ih h' (fun x hx => hl x (List.mem_cons_of_mem _ hx))
      exact ⟨this.1, this.2.1, this.2.2⟩
    · have e1 : ¬ (rebaseDyn m.dist e).1 = .pltgot := hc
      rw [if_neg e1, if_neg hc]
      exact ih h (fun x hx => hl x (List.mem_cons_of_mem _ hx))

theorem addFlagSized_rebase {secs : List ElfSec} (h : GoodState m elf rels packed st) {f : BitVec 16} {a n : Addr} (ha : ZeroOr m.dist a)
    (hn : n.toNat < 2 ^ 51) (hp : n ≠ 0 → a ≠ 0) :
    (rebaseState m secs st).addFlagSized f (rebaseZero m.dist a) n = rebaseState m secs (st.addFlagSized f a n) ∧
      GoodState m elf rels packed (st.addFlagSized f a n) ∧ (st.addFlagSized f a n).tls_segment = st.tls_segment := by
  unfold AState.addFlagSized
  by_cases hz : n ≠ 0
  · have ha' : Addressed m.dist a := by
      rcases ha with ha | ha
      · exact absurd ha (hp hz)
      · exact ha
    rw [if_pos hz, if_pos hz, ha'.zero, addFlag_rebase]
    exact ⟨rfl, h.addFlag ha'.2 hn, rfl⟩
  · rw [if_neg hz, if_neg hz]; exact ⟨rfl, h, rfl⟩

theorem readDynamic_rebase {env : Env} {secs : List ElfSec} {seg : ElfSeg} (h : GoodState m elf rels packed st) (hs : SegmentLow env m.dist seg)
    (ht : seg.type = .dynamic) :
    readDynamic (rebaseState m secs st) (rebaseSeg m.dist seg) = rebaseState m secs (readDynamic st seg) ∧
      GoodState m elf rels packed (readDynamic st seg) ∧ (readDynamic st seg).tls_segment = st.tls_segment := by
  have hl : ∀ e ∈ seg.dynamic, GoodEntry m.dist e := hs.tags ht
  have hp := hs.paired ht
  have z : ZeroOr m.dist 0 := Or.inl rfl
  have n0 : BitVec.toNat (0 : Addr) < 2 ^ 51 := by decide
  obtain ⟨hi1, hi2⟩ := dynFold_rebase (i := {}) ⟨z, z, z, z, z, z, n0, n0, n0, n0, n0, n0⟩ hl
  replace hi1 : (seg.dynamic.map (rebaseDyn m.dist)).foldl DynInfo.step {} = rebaseInfo m.dist (seg.dynamic.foldl DynInfo.step {}) := hi1
  unfold readDynamic
  simp only [show (rebaseSeg m.dist seg).dynamic = seg.dynamic.map (rebaseDyn m.dist) from rfl,
    show (rebaseSeg m.dist seg).virt_addr = seg.virt_addr + m.dist from rfl, show (rebaseSeg m.dist seg).virt_size = seg.virt_size from rfl, hi1]
  rw [← addFlag_rebase]
  have g0 := h.addFlag (f := SECTION_DYNAMIC) hs.memory.low hs.memory.size
  obtain ⟨e1, g1, t1⟩ := gotFold_rebase (secs := secs) g0 hl
  rw [e1]
  generalize hx : (seg.dynamic.foldl (fun st e => if e.1 = .pltgot then { st with global_offset_table := e.2 } else st) (st.addFlag SECTION_DYNAMIC seg.virt_addr seg.virt_size)) = x1 at g1 t1
  generalize seg.dynamic.foldl DynInfo.step {} = i at hi2 hp
  obtain ⟨e2, g2, t2⟩ := addFlagSized_rebase (secs := secs) (f := SECTION_RELOC) g1 hi2.rel hi2.relsz hp.rel
  rw [show (rebaseInfo m.dist i).rel = rebaseZero m.dist i.rel from rfl, show (rebaseInfo m.dist i).relsz = i.relsz from rfl, e2]
  obtain ⟨e3, g3, t3⟩ := addFlagSized_rebase (secs := secs) (f := SECTION_RELOC) g2 hi2.relr hi2.relrsz hp.relr
  rw [show (rebaseInfo m.dist i).relr = rebaseZero m.dist i.relr from rfl, show (rebaseInfo m.dist i).relrsz = i.relrsz from rfl, e3]
  obtain ⟨e4, g4, t4⟩ := addFlagSized_rebase (secs := secs) (f := SECTION_STRTAB) g3 hi2.strtab hi2.strsz hp.strtab
  rw [show (rebaseInfo m.dist i).strtab = rebaseZero m.dist i.strtab from rfl, show (rebaseInfo m.dist i).strsz = i.strsz from rfl, e4]
  obtain ⟨e5, g5, t5⟩ := addFlagSized_rebase (secs := secs) (f := SECTION_INIT) g4 hi2.preinit hi2.preinitsz hp.preinit
  rw [show (rebaseInfo m.dist i).preinitArray = rebaseZero m.dist i.preinitArray from rfl, show (rebaseInfo m.dist i).preinitArraySz = i.preinitArraySz from rfl, e5]
  obtain ⟨e6, g6, t6⟩ := addFlagSized_rebase (secs := secs) (f := SECTION_INIT) g5 hi2.init hi2.initsz hp.init
  rw [show (rebaseInfo m.dist i).initArray = rebaseZero m.dist i.initArray from rfl, show (rebaseInfo m.dist i).initArraySz = i.initArraySz from rfl, e6]
  obtain ⟨e7, g7, t7⟩ := addFlagSized_rebase (secs := secs) (f := SECTION_FINI) g6 hi2.fini hi2.finisz hp.fini
  rw [show (rebaseInfo m.dist i).finiArray = rebaseZero m.dist i.finiArray from rfl, show (rebaseInfo m.dist i).finiArraySz = i.finiArraySz from rfl, e7]
  refine ⟨rfl, g7, ?_⟩
  rw [t7, t6, t5, t4, t3, t2, t1]
  rfl

theorem sub_toNat_lt {a b : Addr} {n : Nat} (ha : a.toNat < n) (h : b < a) : (a - b).toNat < n := by
  rw [BitVec.lt_def] at h
  rw [BitVec.toNat_sub]; omega

theorem readSegment_rebase {env : Env} {secs : List ElfSec} {seg : ElfSeg} (h : GoodState m elf rels packed st)
    (hs : seg.type ≠ .other → SegmentLow env m.dist seg) :
    Carries (rebaseState m secs) (GoodState m elf rels packed) (readSegment env.build st seg)
      (readSegment env.build (rebaseState m secs st) (rebaseSeg m.dist seg)) := by
  unfold readSegment
  rw [show (rebaseSeg m.dist seg).type = seg.type from rfl]
  cases ht : seg.type with
  | tls =>
    refine Carries.assert (fun hc => ?_) (Carries.ok rfl ⟨h.symbols, h.sections, h.relocations, h.relative, h.flags, h.got⟩)
    show ((st.tls_segment.map _).isNone) = true
    rw [Option.isNone_map]; exact hc
  | load =>
    replace hs := hs (by rw [ht]; simp)
    dsimp only
    have hseg : (Tree.insert (rebaseState m secs st).segments (rebaseSeg m.dist seg)).1 = (Tree.insert st.segments seg).1.map (rebaseSeg m.dist) := by
      have main : ∀ t : List ElfSeg, Tree.insert (t.map (rebaseSeg m.dist)) (rebaseSeg m.dist seg) =
          ((Tree.insert t seg).1.map (rebaseSeg m.dist), (Tree.insert t seg).2) := by
        intro t
        induction t with
        | nil => rfl
        | cons y ys ih =>
          have e : ∀ s, key (rebaseSeg m.dist s) = key s := fun _ => rfl
          simp only [List.map_cons, Tree.insert, e]
          split
          · rfl
          · split
            · rfl
            · rw [ih]; rfl
      show (Tree.insert (st.segments.map (rebaseSeg m.dist)) _).1 = _
      rw [main]
    have h' : GoodState m elf rels packed { st with segments := (Tree.insert st.segments seg).1 } :=
      ⟨h.symbols, h.sections, h.relocations, h.relative, h.flags, h.got⟩
    have e' : ({ rebaseState m secs st with segments := (Tree.insert (rebaseState m secs st).segments (rebaseSeg m.dist seg)).1 } : AState) =
        rebaseState m secs { st with segments := (Tree.insert st.segments seg).1 } := by
      rw [hseg]; rfl
    rw [e']
    refine Carries.ite Iff.rfl (fun hlt => ?_) (fun _ => Carries.ok rfl h')
    have hz := hs.start (Or.inl ⟨ht, hlt⟩)
    refine Carries.bind (g := rebaseState m secs) (P := fun st' => GoodState m elf rels packed st' ∧ st'.tls_segment = st.tls_segment) ?_
      (fun st' hst => Carries.ok ?_ ?_)
    · have := stInsert_rebase (b := env.build) (secs := secs) h' (a := { address := seg.virt_addr + seg.size, section_address := seg.virt_addr, writeable := seg.writeable, executable := seg.executable }) ⟨(hs.file.endAddr hz).addressedT, (by show BitVec.toNat (0 : Addr) < 2 ^ 51; decide), Or.inr ⟨hz, hs.file.low⟩⟩
      unfold rebaseArgs at this
      dsimp only at this
      rw [Addressed.zero ⟨hz, hs.file.low⟩] at this
      show Carries _ _ _ (AState.insertSymbol env.build _ { address := seg.virt_addr + m.dist + seg.size, section_address := seg.virt_addr + m.dist, writeable := seg.writeable, executable := seg.executable })
      rw [add_swap]
      exact this
    · rw [addFlag_rebase]
      show AState.addFlag _ _ (seg.virt_addr + m.dist + seg.size) (seg.virt_size - seg.size) = _
      rw [add_swap]
    · exact hst.1.addFlag hs.file.end_ (sub_toNat_lt hs.memory.size hlt)
  | dynamic =>
    replace hs := hs (by rw [ht]; simp)
    obtain ⟨e, g, _⟩ := readDynamic_rebase (secs := secs) h hs ht
    exact Carries.ok e g
  | note =>
    replace hs := hs (by rw [ht]; simp)
    exact Carries.ok (addFlag_rebase ..).symm (h.addFlag hs.memory.low hs.memory.size)
  | gnuRelro =>
    replace hs := hs (by rw [ht]; simp)
    have hz := hs.start (Or.inr ht)
    dsimp only
    rw [show (rebaseSeg m.dist seg).virt_addr = seg.virt_addr + m.dist from rfl, ← addFlag_rebase]
    have := stInsert_rebase (b := env.build) (secs := secs) (h.addFlag (f := SECTION_RELRO) hs.memory.low hs.memory.size) (a := { address := seg.virt_addr + seg.size, writeable := true }) ⟨(hs.file.endAddr hz).addressedT, (by show BitVec.toNat (0 : Addr) < 2 ^ 51; decide), Or.inl rfl⟩
    unfold rebaseArgs at this
    dsimp only at this
    rw [show (rebaseSeg m.dist seg).size = seg.size from rfl, show (rebaseSeg m.dist seg).virt_size = seg.virt_size from rfl, add_swap]
    exact this.mono (fun _ h => h.1)
  | gnuEhFrame =>
    replace hs := hs (by rw [ht]; simp)
    exact Carries.ok (addFlag_rebase ..).symm (h.addFlag hs.memory.low hs.memory.size)
  | other => exact Carries.ok rfl h

theorem readSegments_rebase {env : Env} {secs : List ElfSec} {segs : List ElfSeg} (h : GoodState m elf rels packed st)
    (hs : ∀ seg ∈ segs, seg.type ≠ .other → SegmentLow env m.dist seg) :
    Carries (rebaseState m secs) (GoodState m elf rels packed) (readSegments env.build st segs)
      (readSegments env.build (rebaseState m secs st) (segs.map (rebaseSeg m.dist))) :=
  Carries.foldlM (f := readSegment env.build) (k := rebaseSeg m.dist) (fun x hx _ hst => readSegment_rebase hst (hs x hx)) h

/-! ### Sections -/

/-- What is known while sections are read. -/
def GoodRead (m : Rebase) (elf : Elf) (rels : List ElfRel) (packed : List Addr) (st : AState) : Prop :=
  GoodState m elf rels packed st ∧ st.tls_segment = tlsSegment elf

theorem sec_key {env : Env} {sec : ElfSec} (secs : List ElfSec) (ha : sec.allocate = true) (h : SectionLow env m sec) :
    Shifts (rebaseSec m secs) m.dist sec := by
  refine ⟨?_, (h.start.trans h.tls).lowT.noWrap⟩
  show TLS.trans_addr (if sec.allocate then sec.virt_addr + m.dist else sec.virt_addr) sec.tls = TLS.trans_addr sec.virt_addr sec.tls + m.dist
  rw [if_pos ha, h.start.2.trans]

theorem sec_virt (secs : List ElfSec) {sec : ElfSec} (ha : sec.allocate = true) : (rebaseSec m secs sec).virt_addr = sec.virt_addr + m.dist :=
  if_pos ha

theorem table_value {secs : List ElfSec} {sym : ElfSym} {sec : ElfSec} (h : InSection secs sym sec) :
    (rebaseTableSym secs m.dist sym).value = if sym.type ≠ .tls ∧ sec.allocate = true then sym.value + m.dist else sym.value := by
  obtain ⟨n, h1, h2⟩ := h
  have e : tableSection secs sym = some sec := by unfold tableSection; rw [h1]; exact h2
  unfold rebaseTableSym
  simp only [e, Option.any_some]

theorem readSymbol_rebase {b : Build} {secs dsecs : List ElfSec} {sym : ElfSym} (h : GoodRead m elf rels packed st)
    (htls : m.tls = (tlsSegment elf).isSome)
    (hsec : ∀ sec ∈ dsecs, sec.allocate = true → Addressed m.dist sec.virt_addr ∧ (sec.tls = true → m.tls = true))
    (hsym : ∀ sec, InSection dsecs sym sec → SymbolLow m elf sym sec) :
    Carries (rebaseState m secs) (GoodRead m elf rels packed) (readSymbol b dsecs st sym)
      (readSymbol b (dsecs.map (rebaseSec m dsecs)) (rebaseState m secs st) (rebaseTableSym dsecs m.dist sym)) := by
  unfold readSymbol
  rw [show (rebaseTableSym dsecs m.dist sym).shndx = sym.shndx from rfl]
  cases hx : sym.shndx with
  | undef => exact Carries.ok rfl h
  | abs => exact Carries.ok rfl h
  | common => exact Carries.ok rfl h
  | xindex => exact Carries.ok rfl h
  | index n =>
    dsimp only
    rw [List.getElem?_map]
    cases hn : dsecs[n]? with
    | none => exact Carries.error
    | some sec =>
      dsimp only [Option.map_some]
      have hin : InSection dsecs sym sec := ⟨n, hx, hn⟩
      have hv := table_value (m := m) hin
      have hs := hsym sec hin
      have hmem := List.mem_of_getElem? hn
      refine Carries.ite Iff.rfl (fun ht => ?_) (fun ht => ?_)
      · obtain ⟨hal, hsz, hadr⟩ := hs.tls ht
        refine Carries.assert (fun hc => hc) (Carries.bind (Carries.deref (g := rebaseSeg m.dist) rfl) (fun seg hseg => ?_))
        rw [h.2] at hseg
        have hadr' := hadr seg hseg
        have hmt : m.tls = true := by rw [htls, hseg]; rfl
        have := stInsert_rebase (b := b) (secs := secs) h.1 (a := symbolArgs sec sym (TLS.trans_addr (seg.virt_addr + sym.value) true))
          ⟨hadr'.trans (fun _ => hmt), hsz, Or.inr (hsec sec hmem hal).1⟩
        have e : rebaseArgs m.dist (symbolArgs sec sym (TLS.trans_addr (seg.virt_addr + sym.value) true)) =
            symbolArgs (rebaseSec m dsecs sec) (rebaseTableSym dsecs m.dist sym)
              (TLS.trans_addr ((rebaseSeg m.dist seg).virt_addr + (rebaseTableSym dsecs m.dist sym).value) true) := by
          unfold rebaseArgs symbolArgs
          dsimp only
          rw [(hsec sec hmem hal).1.zero, sec_virt dsecs hal, hv, if_neg (fun hc => hc.1 ht)]
          show _ = InsertArgs.mk (TLS.trans_addr (seg.virt_addr + m.dist + sym.value) true) _ _ _ _ _ _ _ _
          rw [add_swap, hadr'.2.trans]
          rfl
        rw [e] at this
        exact this.mono (fun st' hst => ⟨hst.1, hst.2.trans h.2⟩)
      · cases hal : sec.allocate with
        | false =>
          have hv' : (rebaseTableSym dsecs m.dist sym).value = sym.value := by
            rw [hv, if_neg (fun hc => by rw [hal] at hc; cases hc.2)]
          have hva : (rebaseSec m dsecs sec).virt_addr = sec.virt_addr := by
            show (if sec.allocate then sec.virt_addr + m.dist else sec.virt_addr) = _
            rw [hal]; rfl
          rw [hv', hva, show (rebaseSec m dsecs sec).allocate = sec.allocate from rfl, hal]
          refine Carries.assert (fun hc => hc) ?_
          refine Carries.ite Iff.rfl (fun _ => Carries.assert (fun hc => hc) ?_) (fun _ => Carries.bind (g := id) (P := fun _ => True) (Carries.ok rfl trivial) (fun _ _ => ?_))
          · exact Carries.ite Iff.rfl (fun hc => by cases hc.2) (fun _ => Carries.ok rfl h)
          · exact Carries.ite Iff.rfl (fun hc => by cases hc.2) (fun _ => Carries.ok rfl h)
        | true =>
          have hv' : (rebaseTableSym dsecs m.dist sym).value = sym.value + m.dist := by rw [hv, if_pos ⟨ht, hal⟩]
          rw [hv', sec_virt dsecs hal, show (rebaseSec m dsecs sec).allocate = sec.allocate from rfl, hal]
          obtain ⟨hadr, hrng⟩ := hs.other ht hal
          obtain ⟨hsa, hst⟩ := hsec sec hmem hal
          refine Carries.assert (fun _ => by rw [hadr.2.regular_add]; rfl) ?_
          have hrest : Carries (rebaseState m secs) (GoodRead m elf rels packed)
              (if sym.value ≠ 0 ∧ true = true then (do
                let st ← AState.insertSymbol b st (symbolArgs sec sym (TLS.trans_addr sym.value sec.tls))
                if sym.size > 0 then AState.insertSymbol b st { address := TLS.trans_addr (sym.value + sym.size) sec.tls } else pure st)
                else pure st)
              (if sym.value + m.dist ≠ 0 ∧ true = true then (do
                let st ← AState.insertSymbol b (rebaseState m secs st) (symbolArgs (rebaseSec m dsecs sec) (rebaseTableSym dsecs m.dist sym) (TLS.trans_addr (sym.value + m.dist) (rebaseSec m dsecs sec).tls))
                if (rebaseTableSym dsecs m.dist sym).size > 0 then AState.insertSymbol b st { address := TLS.trans_addr (sym.value + m.dist + (rebaseTableSym dsecs m.dist sym).size) (rebaseSec m dsecs sec).tls } else pure st)
                else pure (rebaseState m secs st)) := by
            refine Carries.ite ⟨fun _ => ⟨hadr.1, rfl⟩, fun _ => ⟨hadr.add_ne, rfl⟩⟩ (fun _ => ?_) (fun hc => absurd ⟨hadr.1, rfl⟩ hc)
            refine Carries.bind (g := rebaseState m secs) (P := GoodRead m elf rels packed) ?_ (fun st' hst' => ?_)
            · have := stInsert_rebase (b := b) (secs := secs) h.1 (a := symbolArgs sec sym (TLS.trans_addr sym.value sec.tls))
                ⟨hadr.trans hst, hrng.size, Or.inr hsa⟩
              have e : rebaseArgs m.dist (symbolArgs sec sym (TLS.trans_addr sym.value sec.tls)) =
                  symbolArgs (rebaseSec m dsecs sec) (rebaseTableSym dsecs m.dist sym)
                    (TLS.trans_addr (sym.value + m.dist) (rebaseSec m dsecs sec).tls) := by
                unfold rebaseArgs symbolArgs
                dsimp only
                rw [hsa.zero, sec_virt dsecs hal, show (rebaseSec m dsecs sec).tls = sec.tls from rfl, hadr.2.trans]
                rfl
              rw [e] at this
              exact this.mono (fun st' hst => ⟨hst.1, hst.2.trans h.2⟩)
            · refine Carries.ite Iff.rfl (fun _ => ?_) (fun _ => Carries.ok rfl hst')
              have hend := hrng.endAddr hadr.1
              have := stInsert_rebase (b := b) (secs := secs) hst'.1 (a := { address := TLS.trans_addr (sym.value + sym.size) sec.tls })
                ⟨hend.trans hst, (by show BitVec.toNat (0 : Addr) < 2 ^ 51; decide), Or.inl rfl⟩
              have e : rebaseArgs m.dist { address := TLS.trans_addr (sym.value + sym.size) sec.tls } =
                  { address := TLS.trans_addr (sym.value + m.dist + (rebaseTableSym dsecs m.dist sym).size) (rebaseSec m dsecs sec).tls } := by
                unfold rebaseArgs
                dsimp only
                rw [show (rebaseTableSym dsecs m.dist sym).size = sym.size from rfl, show (rebaseSec m dsecs sec).tls = sec.tls from rfl,
                  add_swap, hend.2.trans]
                rfl
              rw [e] at this
              exact this.mono (fun st'' hs'' => ⟨hs''.1, hs''.2.trans hst'.2⟩)
          refine Carries.ite Iff.rfl (fun _ => Carries.assert (fun hc => ?_) hrest) (fun _ => Carries.bind (g := id) (P := fun _ => True) (Carries.ok rfl trivial) (fun _ _ => hrest))
          simp only [ge_iff_le, decide_eq_true_eq] at hc ⊢
          exact (add_le_iff hsa.2.noWrap hadr.2.noWrap).mpr hc

theorem registered_rebase {env : Env} {add : Bool} {dsecs : List ElfSec} {sec : ElfSec} (h : GoodRead m elf rels packed st)
    (hz : sec.size ≠ 0)
    (hadd : add = true → dsecs = elf.sections ∧ sec ∈ elf.sections ∧
      ∀ sec ∈ elf.sections, sec.allocate = true → SectionLow env m sec) :
    registered add (rebaseState m elf.sections st) (rebaseSec m dsecs sec) = rebaseState m elf.sections (registered add st sec) ∧
      GoodRead m elf rels packed (registered add st sec) := by
  unfold registered
  rw [show (rebaseSec m dsecs sec).allocate = sec.allocate from rfl]
  cases hc : sec.allocate && add with
  | false => exact ⟨rfl, h⟩
  | true =>
    simp only [if_true]
    simp only [Bool.and_eq_true] at hc
    obtain ⟨rfl, hmem, hlow⟩ := hadd hc.2
    have hl := hlow sec hmem hc.1
    have hshift : ∀ y ∈ st.sections, Shifts (rebaseSec m elf.sections) m.dist y :=
      fun y hy => sec_key _ (h.1.sections y hy).2.1 (hlow y (h.1.sections y hy).1 (h.1.sections y hy).2.1)
    have flag : ∀ (x : AState) (f : BitVec 16), GoodRead m elf rels packed x →
        (rebaseState m elf.sections x).addFlag f (rebaseSec m elf.sections sec).virt_addr (rebaseSec m elf.sections sec).size =
          rebaseState m elf.sections (x.addFlag f sec.virt_addr sec.size) ∧
        GoodRead m elf rels packed (x.addFlag f sec.virt_addr sec.size) := by
      intro x f hx
      rw [sec_virt _ hc.1, addFlag_rebase]
      exact ⟨rfl, hx.1.addFlag hl.range.low hl.range.size, hx.2⟩
    have hadd' : addSection (rebaseState m elf.sections st) (rebaseSec m elf.sections sec) = rebaseState m elf.sections (addSection st sec) ∧
        GoodRead m elf rels packed (addSection st sec) := by
      unfold addSection
      have e : ({ rebaseState m elf.sections st with sections := (Tree.insert (rebaseState m elf.sections st).sections (rebaseSec m elf.sections sec)).1 } : AState) =
          rebaseState m elf.sections { st with sections := (Tree.insert st.sections sec).1 } := by
        show ({ rebaseState m elf.sections st with sections := (Tree.insert (st.sections.map (rebaseSec m elf.sections)) (rebaseSec m elf.sections sec)).1 } : AState) = _
        rw [insert_shift (sec_key _ hc.1 hl) hshift]
        rfl
      have hg : GoodRead m elf rels packed { st with sections := (Tree.insert st.sections sec).1 } := by
        refine ⟨⟨h.1.symbols, fun y hy => ?_, h.1.relocations, h.1.relative, h.1.flags, h.1.got⟩, h.2⟩
        rcases Tree.mem_insert.mp hy with hy | ⟨rfl, _⟩
        · exact h.1.sections y hy
        · exact ⟨hmem, hc.1, hz⟩
      dsimp only
      rw [e, show (rebaseSec m elf.sections sec).name = sec.name from rfl]
      split
      · exact flag _ _ hg
      · split
        · exact flag _ _ hg
        · exact ⟨rfl, hg⟩
    rw [hadd'.1, show (rebaseSec m elf.sections sec).type = sec.type from rfl]
    cases secFlag sec.type with
    | none => exact ⟨rfl, hadd'.2⟩
    | some f => exact flag _ _ hadd'.2

theorem readSection_rebase {env : Env} {add : Bool} {dsecs : List ElfSec} {sec : ElfSec} (h : GoodRead m elf rels packed st)
    (htls : m.tls = (tlsSegment elf).isSome) (hmem : sec ∈ dsecs)
    (hadd : add = true → dsecs = elf.sections ∧ ∀ sec ∈ elf.sections, sec.allocate = true → SectionLow env m sec)
    (hsec : ∀ sec ∈ dsecs, sec.allocate = true → Addressed m.dist sec.virt_addr ∧ (sec.tls = true → m.tls = true))
    (hsym : ∀ sym, TableEntry ⟨elf.entry, elf.segments, dsecs⟩ sym → ∀ sec, InSection dsecs sym sec → SymbolLow m elf sym sec)
    (hrel : ∀ r, sec.size ≠ 0 → (sec.type = .rel ∨ sec.type = .rela) → r ∈ sec.relocations → r ∈ rels)
    (hpack : ∀ r, sec.size ≠ 0 → sec.type = .relr → r ∈ sec.relative → r ∈ packed)
    (hlowr : ∀ r ∈ rels, Low m.dist r.offset) (hlowp : ∀ o ∈ packed, Low m.dist o) :
    Carries (rebaseState m elf.sections) (GoodRead m elf rels packed) (readSection env.build dsecs add st sec)
      (readSection env.build (dsecs.map (rebaseSec m dsecs)) add (rebaseState m elf.sections st) (rebaseSec m dsecs sec)) := by
  unfold readSection
  refine Carries.ite Iff.rfl (fun _ => Carries.ok rfl h) (fun hz => ?_)
  obtain ⟨e, hg⟩ := registered_rebase (env := env) (add := add) (dsecs := dsecs) h hz
    (fun ha => ⟨(hadd ha).1, (hadd ha).1 ▸ hmem, (hadd ha).2⟩)
  have hshr : ∀ {t : List ElfRel}, (∀ r ∈ t, r ∈ rels) → ∀ r ∈ t, Shifts (rebaseElfRel m.dist) m.dist r :=
    fun ht r hr => ⟨rfl, (hlowr r (ht r hr)).noWrap⟩
  have hshp : ∀ {t : List Addr}, (∀ r ∈ t, r ∈ packed) → ∀ r ∈ t, Shifts (fun x : Addr => x + m.dist) m.dist r :=
    fun ht r hr => ⟨rfl, (hlowp r (ht r hr)).noWrap⟩
  have hkeep : ∀ {α : Type} [Keyed α] {l t : List α} {P : α → Prop}, (∀ x ∈ l, P x) → (∀ x ∈ t, P x) →
      ∀ x ∈ l.foldl (fun t r => (Tree.insert t r).1) t, P x := by
    intro α _ l
    induction l with
    | nil => intro t P _ ht; exact ht
    | cons x l ih =>
      intro t P hl ht
      refine ih (fun y hy => hl y (List.mem_cons_of_mem _ hy)) (fun y hy => ?_)
      rcases Tree.mem_insert.mp hy with hy | ⟨rfl, _⟩
      · exact ht y hy
      · exact hl _ List.mem_cons_self
  have key : Carries (rebaseState m elf.sections) (GoodRead m elf rels packed)
      (match sec.type with
        | .rel => Except.ok { registered add st sec with relocations := sec.relocations.foldl (fun t r => (Tree.insert t r).1) (registered add st sec).relocations }
        | .rela => .ok { registered add st sec with relocations := sec.relocations.foldl (fun t r => (Tree.insert t r).1) (registered add st sec).relocations }
        | .relr => .ok { registered add st sec with
            relative_relocations := sec.relative.foldl (fun t r => (Tree.insert t r).1) (registered add st sec).relative_relocations }
        | .symtab => sec.symbols.foldlM (readSymbol env.build dsecs) (registered add st sec)
        | .dynsym => sec.symbols.foldlM (readSymbol env.build dsecs) (registered add st sec)
        | _ => .ok (registered add st sec) : M AState)
      (match sec.type with
        | .rel => Except.ok { registered add (rebaseState m elf.sections st) (rebaseSec m dsecs sec) with relocations := (sec.relocations.map (rebaseElfRel m.dist)).foldl (fun t r => (Tree.insert t r).1) (registered add (rebaseState m elf.sections st) (rebaseSec m dsecs sec)).relocations }
        | .rela => .ok { registered add (rebaseState m elf.sections st) (rebaseSec m dsecs sec) with relocations := (sec.relocations.map (rebaseElfRel m.dist)).foldl (fun t r => (Tree.insert t r).1) (registered add (rebaseState m elf.sections st) (rebaseSec m dsecs sec)).relocations }
        | .relr => .ok { registered add (rebaseState m elf.sections st) (rebaseSec m dsecs sec) with
            relative_relocations := (sec.relative.map (· + m.dist)).foldl (fun t r => (Tree.insert t r).1) (registered add (rebaseState m elf.sections st) (rebaseSec m dsecs sec)).relative_relocations }
        | .symtab => (sec.symbols.map (rebaseTableSym dsecs m.dist)).foldlM (readSymbol env.build (dsecs.map (rebaseSec m dsecs))) (registered add (rebaseState m elf.sections st) (rebaseSec m dsecs sec))
        | .dynsym => (sec.symbols.map (rebaseTableSym dsecs m.dist)).foldlM (readSymbol env.build (dsecs.map (rebaseSec m dsecs))) (registered add (rebaseState m elf.sections st) (rebaseSec m dsecs sec))
        | _ => .ok (registered add (rebaseState m elf.sections st) (rebaseSec m dsecs sec)) : M AState) := by
    rw [e]
    generalize registered add st sec = x at hg
    have hrels : ∀ (hrt : sec.type = .rel ∨ sec.type = .rela), Carries (rebaseState m elf.sections) (GoodRead m elf rels packed)
        (.ok { x with relocations := sec.relocations.foldl (fun t r => (Tree.insert t r).1) x.relocations })
        (.ok { rebaseState m elf.sections x with relocations := (sec.relocations.map (rebaseElfRel m.dist)).foldl (fun t r => (Tree.insert t r).1) (rebaseState m elf.sections x).relocations }) := by
      intro hrt
      refine Carries.ok ?_ ⟨⟨hg.1.symbols, hg.1.sections, hkeep (fun r hr => hrel r hz hrt hr) hg.1.relocations, hg.1.relative, hg.1.flags, hg.1.got⟩, hg.2⟩
      show ({ rebaseState m elf.sections x with relocations := (sec.relocations.map (rebaseElfRel m.dist)).foldl (fun t r => (Tree.insert t r).1) (x.relocations.map (rebaseElfRel m.dist)) } : AState) = _
      rw [foldl_insert_shift (hshr (fun r hr => hrel r hz hrt hr)) (hshr hg.1.relocations)]
      rfl
    have hsyms : ∀ (hst : sec.type = .symtab ∨ sec.type = .dynsym), Carries (rebaseState m elf.sections) (GoodRead m elf rels packed)
        (sec.symbols.foldlM (readSymbol env.build dsecs) x)
        ((sec.symbols.map (rebaseTableSym dsecs m.dist)).foldlM (readSymbol env.build (dsecs.map (rebaseSec m dsecs))) (rebaseState m elf.sections x)) := by
      intro hst
      refine Carries.foldlM (f := readSymbol env.build dsecs) (k := rebaseTableSym dsecs m.dist) (fun sym hsm s hs => readSymbol_rebase hs htls hsec (hsym sym ⟨sec, hmem, hst, hz, hsm⟩)) hg
    cases ht : sec.type with
    | rel => exact hrels (Or.inl ht)
    | rela => exact hrels (Or.inr ht)
    | relr =>
      refine Carries.ok ?_ ⟨⟨hg.1.symbols, hg.1.sections, hg.1.relocations, hkeep (fun r hr => hpack r hz ht hr) hg.1.relative, hg.1.flags, hg.1.got⟩, hg.2⟩
      show ({ rebaseState m elf.sections x with relative_relocations := (sec.relative.map (· + m.dist)).foldl (fun t r => (Tree.insert t r).1) (x.relative_relocations.map (· + m.dist)) } : AState) = _
      rw [foldl_insert_shift (hshp (fun r hr => hpack r hz ht hr)) (hshp hg.1.relative)]
      rfl
    | symtab => exact hsyms (Or.inl ht)
    | dynsym => exact hsyms (Or.inr ht)
    | _ => exact Carries.ok rfl hg
  exact key

end Bean

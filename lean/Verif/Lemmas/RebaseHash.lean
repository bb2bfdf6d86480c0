import Verif.Lemmas.RebaseGather
import Verif.Lemmas.TotalRun
import Verif.Props.Boundary
/-
Internal identifiers of a moved file (C100).
-/
namespace Bean
open Bean.Spec

/-- The target of a relocation that can be moved. -/
def GoodTarget (tls : Bool) (k a : Addr) : Prop := a = 0 ∨ AddressedT tls k a ∨ (tls = false ∧ TLS.is_tls a = true)

theorem AddressedT.ne_zero {tls : Bool} {k a : Addr} (ha : AddressedT tls k a) : a.toNat ≠ 0 := by
  obtain ⟨v, t, hv, _, rfl⟩ := ha
  have h1 := hv.2
  unfold Low at h1
  have h2 : v.toNat ≠ 0 := fun e => hv.1 (BitVec.eq_of_toNat_eq e)
  rw [trans_toNat t (by omega)]
  omega

theorem GoodTarget.ref {tls : Bool} {k a : Addr} (h : GoodTarget tls k a) (hz : a ≠ 0) : GoodRef tls k a := by
  rcases h with h | h | h
  · exact absurd h hz
  · exact Or.inl h.lowT
  · exact Or.inr h

theorem GoodTarget.eq_zero {tls : Bool} {k a : Addr} (h : GoodTarget tls k a) : rebaseTarget tls k a = 0 ↔ a = 0 := by
  unfold rebaseTarget
  by_cases hz : a = 0
  · rw [if_pos hz]; simp [hz]
  · rw [if_neg hz]
    rcases h with h | h | h
    · exact absurd h hz
    · rw [h.lowT.ref]
      refine ⟨fun e => ?_, fun e => absurd e hz⟩
      have := congrArg BitVec.toNat e
      rw [add_toNat h.lowT.noWrap, show BitVec.toNat (0 : Addr) = 0 from rfl] at this
      have := AddressedT.ne_zero h
      omega
    · rw [rebaseRef_fixed h]

theorem rebaseTarget_ref {tls : Bool} {k a : Addr} (hz : a ≠ 0) : rebaseTarget tls k a = rebaseRef tls k a := if_neg hz

theorem Spec.Addressed.target {tls : Bool} {k a : Addr} (h : Addressed k a) : rebaseTarget tls k a = a + k := by
  rw [rebaseTarget_ref h.1, (h.2.lowT (tls := tls)).ref]

theorem Spec.Addressed.good {tls : Bool} {k a : Addr} (h : Addressed k a) : GoodTarget tls k a := Or.inr (Or.inl h.addressedT)

/-- A relocation of a symbol that can be moved. -/
structure GoodRel (tls : Bool) (k : Addr) (r : Rel) : Prop where
  offset : Low k r.offset
  target : GoodTarget tls k r.target
  relative : RelativeType r.type → r.target ≠ 0 ∧ r.undefined = false

/-- What is known about a symbol while it gets its identifiers. -/
structure GoodOut (tls : Bool) (k : Addr) (s : Symbol) : Prop where
  address : AddressedT tls k s.address
  refs : ∀ a ∈ s.refs, GoodRef tls k a
  rels : ∀ r ∈ s.rels, GoodRel tls k r

theorem GoodSym.out {tls : Bool} {k : Addr} {s : Symbol} (h : GoodSym tls k s) : GoodOut tls k s :=
  ⟨h.address, fun a ha => (by rw [h.refs] at ha; cases ha), fun r hr => (by rw [h.rels] at hr; cases hr)⟩

/-- What is known about the state before the symbols get their identifiers. -/
structure Ready (env : Env) (m : Rebase) (elf : Elf) (dbg : Option Elf) (st : AState) : Prop where
  symbols : ∀ s ∈ st.symbols, GoodOut m.tls m.dist s ∧ Tree.Sorted s.rels
  data : ∀ s ∈ st.symbols, ∀ sec, Tree.floor st.sections s.address = some sec → ¬ IsCode sec s → s.rels = []
  sections : ∀ sec ∈ st.sections, Loaded elf sec
  known : ∀ r ∈ st.relocations, r ∈ allRelocations elf dbg
  packed : ∀ o ∈ st.relative_relocations, o ∈ allRelative elf dbg
  table : ZeroOr m.dist st.global_offset_table
  got : st.global_offset_table = gotAddress elf
  segments : ∀ seg ∈ st.segments, SegmentLow env m.dist seg
  thread : st.tls_segment = tlsSegment elf
  tls : ∀ seg, st.tls_segment = some seg → SegmentLow env m.dist seg
  sorted : Tree.Sorted st.symbols
  relocations : Tree.Sorted st.relocations
  relative : Tree.Sorted st.relative_relocations

theorem Ready.low {env : Env} {m : Rebase} {elf : Elf} {dbg : Option Elf} {st : AState} (h : Ready env m elf dbg st) :
    ∀ s ∈ st.symbols, LowT m.tls m.dist s.address := fun s hs => (h.symbols s hs).1.address.lowT

theorem Ready.shifts {env : Env} {fl : AnalyzeFlags} {m : Rebase} {elf : Elf} {dbg : Option Elf} {st : AState} (h : Ready env m elf dbg st)
    (hr : Rebasable env fl m elf dbg) : ∀ y ∈ st.sections, Shifts (rebaseSec m elf.sections) m.dist y :=
  fun y hy => sec_key _ (h.sections y hy).2.1 (hr.sections y (h.sections y hy).1 (h.sections y hy).2.1)

theorem GoodRel.shift {tls : Bool} {k : Addr} {r : Rel} (h : GoodRel tls k r) : Shifts (rebaseRel tls k) k r := ⟨rfl, h.offset.noWrap⟩

variable {m : Rebase} {elf : Elf} {dbg : Option Elf} {st : AState} {env : Env} {fl : AnalyzeFlags}

/-! ### Relocations -/

theorem addRel_rebase {tls res : Bool} {k : Addr} {s : Symbol} {r : Rel} (hs : GoodOut tls k s) (hr : GoodRel tls k r)
    (ht : res = true → r.undefined = false → Addressed k r.target) :
    addRel res (rebaseSymbol tls k s) (rebaseRel tls k r) = rebaseSymbol tls k (addRel res s r) ∧ GoodOut tls k (addRel res s r) := by
  have hi := insert_shift hr.shift (fun y hy => (hs.rels y hy).shift)
  have hc : (res = true ∧ r.undefined = false) → GoodRef tls k r.target ∧ rebaseTarget tls k r.target = rebaseRef tls k r.target := by
    rintro ⟨h1, h2⟩
    have h3 := ht h1 h2
    exact ⟨Or.inl h3.2.lowT, rebaseTarget_ref h3.1⟩
  constructor
  · unfold addRel
    show ({ rebaseSymbol tls k s with
      rels := (Tree.insert (s.rels.map (rebaseRel tls k)) (rebaseRel tls k r)).1
      refs := if (Tree.insert (s.rels.map (rebaseRel tls k)) (rebaseRel tls k r)).2 && res && !r.undefined then
        HSet.add (s.refs.map (rebaseRef tls k)) (rebaseTarget tls k r.target) else s.refs.map (rebaseRef tls k) } : Symbol) = _
    rw [hi]
    unfold rebaseSymbol
    congr 1
    dsimp only
    by_cases hb : ((Tree.insert s.rels r).2 && res && !r.undefined) = true
    · rw [if_pos hb, if_pos hb]
      have h2 : res = true ∧ r.undefined = false := by
        cases res <;> cases hu : r.undefined <;> simp_all
      obtain ⟨h3, h4⟩ := hc h2
      rw [h4, refs_add hs.refs h3]
    · rw [if_neg hb, if_neg hb]
  · refine ⟨hs.address, fun a ha => ?_, fun q hq => ?_⟩
    · change a ∈ (if (Tree.insert s.rels r).2 && res && !r.undefined then HSet.add s.refs r.target else s.refs) at ha
      split at ha
      · next hb =>
        have h2 : res = true ∧ r.undefined = false := by
          cases res <;> cases hu : r.undefined <;> simp_all
        rcases mem_hset_add.mp ha with ha | rfl
        · exact hs.refs a ha
        · exact (hc h2).1
      · exact hs.refs a ha
    · rcases Tree.mem_insert.mp hq with hq | ⟨rfl, _⟩
      · exact hs.rels q hq
      · exact hr

/-- Does the relocation refer to a symbol of another file? -/
def importedBy (r : ElfRel) : Bool :=
  match r.symbol with
  | some s => s.shndx == .undef
  | none => false

theorem imports_iff {r : ElfRel} : importedBy r = true ↔ Imports r := by
  unfold Imports importedBy
  cases r.symbol with
  | none => simp
  | some s => simp

theorem relOfElf_rebase {got a : Addr} {r : ElfRel} (h : RelocationLow env fl m.dist got r) :
    relOfElf (rebaseEnv m.dist env) (a + m.dist) fl.resolve_internal (rebaseZero m.dist got) (rebaseElfRel m.dist r) =
      rebaseRel m.tls m.dist (relOfElf env a fl.resolve_internal got r) ∧
    GoodRel m.tls m.dist (relOfElf env a fl.resolve_internal got r) ∧
    (fl.resolve_internal = true → (relOfElf env a fl.resolve_internal got r).undefined = false →
      Addressed m.dist (relOfElf env a fl.resolve_internal got r).target) := by
  have hu : importedBy (rebaseElfRel m.dist r) = importedBy r := by
    show (match r.symbol.map (rebaseRelSym m.dist) with
      | some s => s.shndx == SecIndex.undef
      | none => false) = _
    unfold importedBy
    cases r.symbol <;> rfl
  have hn : (rebaseElfRel m.dist r).symbol.bind (·.name) = r.symbol.bind (·.name) := by
    show (r.symbol.map (rebaseRelSym m.dist)).bind (·.name) = _
    cases r.symbol <;> rfl
  have hj : (rebaseEnv m.dist env).junk (a + m.dist) (r.offset + m.dist) = env.junk a r.offset := by
    show env.junk (a + m.dist - m.dist) (r.offset + m.dist - m.dist) = _
    rw [show a + m.dist - m.dist = a by bv_omega, show r.offset + m.dist - m.dist = r.offset by bv_omega]
  have hI := imports_iff (r := r)
  generalize hub : importedBy r = ub at hu hI
  have e : relOfElf env a fl.resolve_internal got r =
      { offset := r.offset, type := r.type, name := r.symbol.bind (·.name), addend := r.addend
        target :=
          if ub then 0
          else if env.arch.relative r.type then r.addend
          else if fl.resolve_internal then env.reloc_value r got
          else 0
        undefined := ub, reconstructed := false
        instruction_offset := (env.junk a r.offset).1, instruction_access := (env.junk a r.offset).2 } := by
    rw [← hub]; rfl
  have e' : relOfElf (rebaseEnv m.dist env) (a + m.dist) fl.resolve_internal (rebaseZero m.dist got) (rebaseElfRel m.dist r) =
      { offset := r.offset + m.dist, type := r.type, name := r.symbol.bind (·.name)
        addend := if RelativeType r.type then r.addend + m.dist else r.addend
        target :=
          if ub then 0
          else if env.arch.relative r.type then
            (if RelativeType r.type then r.addend + m.dist else r.addend)
          else if fl.resolve_internal then env.reloc_value (rebaseElfRel m.dist r) (rebaseZero m.dist got)
          else 0
        undefined := ub, reconstructed := false
        instruction_offset := (env.junk a r.offset).1, instruction_access := (env.junk a r.offset).2 } := by
    rw [← hu, ← hn, ← hj]; rfl
  have hrel : env.arch.relative r.type = true → RelativeType r.type := by
    unfold RelativeType Arch.relative
    intro h
    split at h <;> simp at h <;> grind
  rw [e, e']
  cases ub with
  | true =>
    have hi : Imports r := hI.mp rfl
    refine ⟨rfl, ⟨h.offset, Or.inl rfl, fun ht => absurd hi (h.relative ht).2⟩, fun _ h => (by cases h)⟩
  | false =>
    have hi : ¬ Imports r := fun h => (by cases hI.mpr h)
    by_cases h1 : env.arch.relative r.type = true
    · have h2 := hrel h1
      have h3 := (h.relative h2).1
      simp only [Bool.false_eq_true, if_false, if_pos h1, if_pos h2]
      refine ⟨?_, ⟨h.offset, h3.good, fun _ => ⟨h3.1, rfl⟩⟩, fun _ _ => h3⟩
      unfold rebaseRel
      simp only [if_pos h2, h3.target]
    · simp only [Bool.false_eq_true, if_false, if_neg h1]
      cases hres : fl.resolve_internal with
      | true =>
        obtain ⟨h3, h4⟩ := h.value hres hi (Bool.eq_false_iff.mpr h1)
        simp only [if_true]
        refine ⟨?_, ⟨h.offset, h3.good, fun _ => ⟨h3.1, rfl⟩⟩, fun _ _ => h3⟩
        unfold rebaseRel
        simp only [h4, h3.target]
      | false =>
        simp only [Bool.false_eq_true, if_false]
        refine ⟨rfl, ⟨h.offset, Or.inl rfl, fun ht => ?_⟩, fun h => (by cases h)⟩
        have := h.indirect ht (Bool.eq_false_iff.mpr h1)
        rw [hres] at this
        cases this

/-- The part of the section that is taken by `n` bytes of the symbol. -/
structure Span (m : Rebase) (sec : ElfSec) (s : Symbol) (n : Addr) : Prop where
  tls : TLS.is_tls s.address = sec.tls
  range : LowRange m.dist (TLS.virt_addr s.address) n
  sum : (s.address + n).toNat = s.address.toNat + n.toNat
  wrap : NoOver m.dist (s.address + n)
  place : s.address.toNat = (TLS.virt_addr s.address).toNat + if sec.tls then 0xf0000000000000 else 0

theorem secEnd_rebase {sec : ElfSec} (secs : List ElfSec) (hl : sec.allocate = true) (h : SectionLow env m sec) :
    secEnd (rebaseEnv m.dist env) (rebaseSec m secs sec) = secEnd env sec + m.dist ∧
    LowT m.tls m.dist (secEnd env sec) := by
  unfold secEnd
  refine ⟨?_, ⟨_, _, h.align.2, h.tls, rfl⟩⟩
  show TLS.trans_addr (env.align_up ((rebaseSec m secs sec).virt_addr + sec.size) sec.alignment) sec.tls = _
  rw [sec_virt secs hl, add_swap, h.align.1, h.align.2.trans]

theorem span_of {sec : ElfSec} {s : Symbol} {n : Addr} (h : SectionLow env m sec) (ha : AddressedT m.tls m.dist s.address)
    (hs : secStart sec ≤ s.address) (he : s.address.toNat + n.toNat ≤ (secEnd env sec).toNat) : Span m sec s n := by
  obtain ⟨v, t, hv, ht, e⟩ := ha
  have hv2 := hv.2
  have hva : TLS.virt_addr s.address = v := by rw [e]; exact TLS.virt_trans v t hv.2.regular
  have hst : TLS.is_tls s.address = t := by rw [e]; exact TLS.is_tls_trans v t hv.2.regular
  have hs1 := h.start.2
  have he1 := h.align.2
  unfold Low at hv2 hs1 he1
  have e1 : s.address.toNat = v.toNat + if t then 0xf0000000000000 else 0 := by rw [e]; exact trans_toNat t (by omega)
  have e2 : (secStart sec).toNat = sec.virt_addr.toNat + if sec.tls then 0xf0000000000000 else 0 := trans_toNat sec.tls (by omega)
  have e3 : (secEnd env sec).toNat = (env.align_up (sec.virt_addr + sec.size) sec.alignment).toNat + if sec.tls then 0xf0000000000000 else 0 :=
    trans_toNat sec.tls (by omega)
  rw [BitVec.le_def] at hs
  have htt : t = sec.tls := by
    cases t <;> cases hc : sec.tls <;> simp only [hc, if_true, Bool.false_eq_true, if_false] at e1 e2 e3 <;> first | rfl | omega
  subst htt
  have hr : LowRange m.dist v n := by
    unfold LowRange
    cases hc : sec.tls <;> simp only [hc, if_true, Bool.false_eq_true, if_false] at e1 e3 <;> omega
  have hsum : (s.address + n).toNat = s.address.toNat + n.toNat := by
    rw [BitVec.toNat_add]; have := (secEnd env sec).isLt; omega
  have hb : (secEnd env sec).toNat + m.dist.toNat < 2 ^ 64 := by
    rw [e3]
    cases hc : sec.tls <;> simp only [if_true, Bool.false_eq_true, if_false] <;> omega
  exact ⟨hst, by rw [hva]; exact hr, hsum, by unfold NoOver; omega, by rw [hva]; exact e1⟩

theorem addRelative_rebase {sec : ElfSec} {s : Symbol} {o : Addr} (hr : Rebasable env fl m elf dbg) (hl : Loaded elf sec)
    (ho : o ∈ allRelative elf dbg) (h1 : (secStart sec).toNat ≤ o.toNat) (h2 : o.toNat < (secEnd env sec).toNat)
    (hs : GoodOut m.tls m.dist s) (res : Bool) :
    Carries (rebaseSymbol m.tls m.dist) (GoodOut m.tls m.dist) (addRelative res sec s o)
      (addRelative res (rebaseSec m elf.sections sec) (rebaseSymbol m.tls m.dist s) (o + m.dist)) := by
  unfold addRelative
  intro s' hs'
  rw [sec_virt _ hl.2.1, sub_shift]
  show readBytes (m.data sec) (o - sec.virt_addr) 8 >>= _ = _ ∧ _
  cases hb : readBytes sec.data (o - sec.virt_addr) 8 with
  | error e => rw [hb] at hs'; cases hs'
  | ok bytes =>
    rw [hb] at hs'
    obtain ⟨h3, h4⟩ := readBytes_slice hb
    have h8 : BitVec.toNat (8 : Addr) = 8 := rfl
    rw [h8] at h3 h4
    obtain ⟨h5, h6⟩ := hr.pointers o ho sec hl h1 h2 h3
    rw [readBytes_of (by rw [hr.length sec hl, h8]; exact h3) rfl, h8]
    rw [← h4] at h5 h6
    have hg : GoodRel m.tls m.dist { offset := o, type := R_X86_64_RELATIVE, addend := leValue bytes, target := leValue bytes } :=
      ⟨hr.packed o ho, h5.good, fun _ => ⟨h5.1, rfl⟩⟩
    obtain ⟨h7, h9⟩ := addRel_rebase (res := res) hs hg (fun _ _ => h5)
    have he : rebaseRel m.tls m.dist { offset := o, type := R_X86_64_RELATIVE, addend := leValue bytes, target := leValue bytes } =
        { offset := o + m.dist, type := R_X86_64_RELATIVE, addend := leValue bytes + m.dist, target := leValue bytes + m.dist } := by
      unfold rebaseRel
      simp only [h5.target]
      rw [if_pos (by unfold RelativeType; simp)]
    have hok : addRel res s { offset := o, type := R_X86_64_RELATIVE, addend := leValue bytes, target := leValue bytes } = s' :=
      Except.ok.inj hs'
    rw [hok] at h7 h9
    refine ⟨?_, h9⟩
    rw [← h7, he, ← h6]
    rfl

theorem addRelocations_rebase {sec : ElfSec} {s : Symbol} (hr : Rebasable env fl m elf dbg) (hst : Ready env m elf dbg st) (hl : Loaded elf sec)
    (hs : GoodOut m.tls m.dist s) (h1 : secStart sec ≤ s.address) (h2 : s.address.toNat + s.size.toNat ≤ (secEnd env sec).toNat) :
    Carries (rebaseSymbol m.tls m.dist) (GoodOut m.tls m.dist) (addRelocations env fl st sec (TLS.virt_addr s.address) s)
      (addRelocations (rebaseEnv m.dist env) fl (rebaseState m elf.sections st) (rebaseSec m elf.sections sec)
        (TLS.virt_addr s.address + m.dist) (rebaseSymbol m.tls m.dist s)) := by
  have sp := span_of (hr.sections sec hl.1 hl.2.1) hs.address h1 h2
  have hrels : ∀ r ∈ st.relocations, RelocationLow env fl m.dist st.global_offset_table r := by
    intro r hr'
    rw [hst.got]
    exact hr.relocations r (hst.known r hr')
  have hfold : ∀ (l : List ElfRel), (∀ r ∈ l, r ∈ st.relocations) → ∀ s1 : Symbol, GoodOut m.tls m.dist s1 → ∀ a : Addr,
      (l.map (rebaseElfRel m.dist)).foldl (fun s r => addRel fl.resolve_internal s
        (relOfElf (rebaseEnv m.dist env) (a + m.dist) fl.resolve_internal (rebaseZero m.dist st.global_offset_table) r))
        (rebaseSymbol m.tls m.dist s1) =
      rebaseSymbol m.tls m.dist (l.foldl (fun s r => addRel fl.resolve_internal s
        (relOfElf env a fl.resolve_internal st.global_offset_table r)) s1) ∧
      GoodOut m.tls m.dist (l.foldl (fun s r => addRel fl.resolve_internal s
        (relOfElf env a fl.resolve_internal st.global_offset_table r)) s1) ∧
      (l.foldl (fun s r => addRel fl.resolve_internal s
        (relOfElf env a fl.resolve_internal st.global_offset_table r)) s1).address = s1.address ∧
      (l.foldl (fun s r => addRel fl.resolve_internal s
        (relOfElf env a fl.resolve_internal st.global_offset_table r)) s1).size = s1.size := by
    intro l hl' s1 hs1 a
    induction l generalizing s1 with
    | nil => exact ⟨rfl, hs1, rfl, rfl⟩
    | cons r l ih =>
      obtain ⟨h3, h4, h5⟩ := relOfElf_rebase (a := a) (hrels r (hl' r List.mem_cons_self))
      obtain ⟨h6, h7⟩ := addRel_rebase hs1 h4 h5
      rw [List.map_cons, List.foldl_cons, List.foldl_cons, h3, h6]
      exact ih (fun r hr => hl' r (List.mem_cons_of_mem _ hr)) _ h7
  have hrange : ∀ {a b : Addr}, NoOver m.dist a → NoOver m.dist b →
      treeRange (st.relocations.map (rebaseElfRel m.dist)) (a + m.dist) (b + m.dist) = (treeRange st.relocations a b).map (rebaseElfRel m.dist) := by
    intro a b ha hb
    exact range_shift (fun y hy => ⟨rfl, (hrels y hy).offset.noWrap⟩) ha hb
  have hrange2 : ∀ {a b : Addr}, NoOver m.dist a → NoOver m.dist b →
      treeRange (st.relative_relocations.map (· + m.dist)) (a + m.dist) (b + m.dist) = (treeRange st.relative_relocations a b).map (· + m.dist) := by
    intro a b ha hb
    exact range_shift (g := (· + m.dist)) (fun y hy => ⟨rfl, (hr.packed y (hst.packed y hy)).noWrap⟩) ha hb
  unfold addRelocations
  dsimp only
  show Carries _ _ _ (List.foldlM (addRelative fl.resolve_internal (rebaseSec m elf.sections sec)) _
    (treeRange (st.relative_relocations.map (· + m.dist)) _ _))
  rw [show (rebaseState m elf.sections st).relocations = st.relocations.map (rebaseElfRel m.dist) from rfl,
    show (rebaseState m elf.sections st).global_offset_table = rebaseZero m.dist st.global_offset_table from rfl,
    show (rebaseSymbol m.tls m.dist s).address = s.address + m.dist from rfl,
    show (rebaseSymbol m.tls m.dist s).size = s.size from rfl, hs.address.lowT.virt, add_swap m.dist,
    hrange sp.range.low.noWrap sp.range.end_.noWrap]
  obtain ⟨h3, h4, h5, h6⟩ := hfold (treeRange st.relocations (TLS.virt_addr s.address) (TLS.virt_addr s.address + s.size))
    (fun r hr => (range_mem hr).1) s hs s.address
  rw [h3]
  generalize List.foldl (fun s_1 r => addRel fl.resolve_internal s_1
    (relOfElf env s.address fl.resolve_internal st.global_offset_table r)) s
    (treeRange st.relocations (TLS.virt_addr s.address) (TLS.virt_addr s.address + s.size)) = s2 at h4 h5 h6
  rw [show (rebaseSymbol m.tls m.dist s2).address = s2.address + m.dist from rfl,
    show (rebaseSymbol m.tls m.dist s2).size = s2.size from rfl, h5, h6]
  rw [add_swap m.dist, hrange2 hs.address.lowT.noWrap sp.range.end_.noWrap]
  refine Carries.foldlM (f := addRelative fl.resolve_internal sec) (k := (· + m.dist)) (fun o ho s3 hs3 => ?_) h4
  obtain ⟨h7, h8, h9⟩ := range_mem ho
  have h8' : s.address.toNat ≤ o.toNat := h8
  have h9' : o.toNat < (TLS.virt_addr s.address).toNat + s.size.toNat := by
    have := BitVec.lt_def.mp h9
    rw [sp.range.end_toNat] at this
    exact this
  have h10 := BitVec.le_def.mp h1
  refine addRelative_rebase hr hl (hst.packed o h7) (by omega) ?_ hs3 _
  have := sp.place
  cases hc : sec.tls <;> simp only [hc, if_true, Bool.false_eq_true, if_false] at this <;> omega

end Bean

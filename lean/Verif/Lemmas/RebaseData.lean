import Verif.Lemmas.RebaseExec
import Verif.Lemmas.HashExternal
/-
Internal identifiers of the data of a moved file (C100).
-/
namespace Bean
open Bean.Spec

variable {m : Rebase} {elf : Elf} {dbg : Option Elf} {st : AState} {env : Env} {fl : AnalyzeFlags}

/-! ### Content -/

theorem slice_congr {l l' : List (BitVec 8)} {o c : Addr} (h : ∀ j : Nat, j < c.toNat → l'[o.toNat + j]? = l[o.toNat + j]?) :
    slice l' o c = slice l o c := by
  unfold slice
  refine List.ext_getElem? fun j => ?_
  rw [List.getElem?_take, List.getElem?_take]
  by_cases hj : j < c.toNat
  · rw [if_pos hj, if_pos hj, List.getElem?_drop, List.getElem?_drop]; exact h j hj
  · rw [if_neg hj, if_neg hj]

/-- The byte at address `p` is covered by one of the relocations. -/
def CoveredBy (env : Env) (rels : List Rel) (p : Nat) : Prop :=
  ∃ r ∈ rels, r.offset.toNat ≤ p ∧ p < r.offset.toNat + (env.reloc_size r.type).toNat

/-- `p` does not wrap around. -/
theorem part_eq {k address : Addr} {bytes bytes' : List (BitVec 8)} {a b e : Addr} (ha : address.toNat ≤ a.toNat) (hab : a < b) (hbe : b.toNat ≤ e.toNat)
    (hb : ∀ p : Nat, a.toNat ≤ p → p < b.toNat → bytes'[p - address.toNat]? = bytes[p - address.toNat]?) :
    slice bytes' (a + k - (address + k)) (b + k - (a + k)) = slice bytes (a - address) (b - a) := by
  rw [sub_shift, sub_shift]
  refine slice_congr fun j hj => ?_
  have h1 := BitVec.lt_def.mp hab
  have e1 : (a - address).toNat = a.toNat - address.toNat := by
    rw [BitVec.toNat_sub]; have := address.isLt; have := a.isLt; omega
  have e2 : (b - a).toNat = b.toNat - a.toNat := by
    rw [BitVec.toNat_sub]; have := b.isLt; have := a.isLt; omega
  rw [e2] at hj
  rw [e1]
  have := hb (a.toNat + j) (by omega) (by omega)
  rw [show a.toNat + j - address.toNat = a.toNat - address.toNat + j by omega] at this
  exact this

def rebaseAcc (k : Addr) (acc : List (BitVec 8) × Addr) : List (BitVec 8) × Addr := (acc.1, acc.2 + k)

theorem dataFold_rebase {tls : Bool} {k address e : Addr} {bytes bytes' : List (BitVec 8)} (he : NoOver k e) (rels : List Rel)
    (hlow : ∀ r ∈ rels, Low k r.offset ∧ (env.reloc_size r.type).toNat < 2 ^ 51 ∧ address.toNat ≤ r.offset.toNat ∧ r.offset.toNat ≤ e.toNat)
    (hsep : rels.Pairwise (fun r r' => r.offset.toNat + (env.reloc_size r.type).toNat ≤ r'.offset.toNat))
    {acc : List (BitVec 8) × Addr} (hacc : NoOver k acc.2 ∧ address.toNat ≤ acc.2.toNat)
    (hbeg : ∀ r ∈ rels, env.reloc_size r.type ≠ 0 → acc.2.toNat ≤ r.offset.toNat + (env.reloc_size r.type).toNat)
    (hcov : ∀ p : Nat, acc.2.toNat ≤ p → p < e.toNat → CoveredBy env rels p ∨ bytes'[p - address.toNat]? = bytes[p - address.toNat]?) :
    Carries (rebaseAcc k) (fun acc' => (NoOver k acc'.2 ∧ address.toNat ≤ acc'.2.toNat) ∧
        ∀ p : Nat, acc'.2.toNat ≤ p → p < e.toNat → bytes'[p - address.toNat]? = bytes[p - address.toNat]?)
      (rels.foldlM (dataStep env address e bytes) acc)
      ((rels.map (rebaseRel tls k)).foldlM (dataStep (rebaseEnv k env) (address + k) (e + k) bytes') (rebaseAcc k acc)) := by
  induction rels generalizing acc with
  | nil =>
    refine Carries.ok rfl ⟨hacc, fun p h1 h2 => ?_⟩
    rcases hcov p h1 h2 with ⟨r, hr, _⟩ | h
    · cases hr
    · exact h
  | cons r rels ih =>
    obtain ⟨h1, h2, h3, h4⟩ := hlow r List.mem_cons_self
    have hrest := (List.pairwise_cons.mp hsep).1
    have ih' := fun {acc} h h' h'' => ih (fun r hr => hlow r (List.mem_cons_of_mem _ hr)) (List.pairwise_cons.mp hsep).2 (acc := acc) h h' h''
    rw [List.map_cons, List.foldlM_cons, List.foldlM_cons]
    have hlen : (rebaseEnv k env).reloc_size (rebaseRel tls k r).type = env.reloc_size r.type := rfl
    have hoff : (rebaseRel tls k r).offset = r.offset + k := rfl
    by_cases hz : env.reloc_size r.type = 0
    · have e1 : dataStep env address e bytes acc r = .ok acc := by unfold dataStep; exact if_pos hz
      have e2 : dataStep (rebaseEnv k env) (address + k) (e + k) bytes' (rebaseAcc k acc) (rebaseRel tls k r) = .ok (rebaseAcc k acc) := by
        unfold dataStep; exact if_pos hz
      rw [e1, e2]
      refine ih' hacc (fun r hr => hbeg r (List.mem_cons_of_mem _ hr)) fun p hp hp' => ?_
      rcases hcov p hp hp' with ⟨q, hq, hc1, hc2⟩ | h
      · rcases List.mem_cons.mp hq with rfl | hq
        · rw [hz] at hc2
          rw [show BitVec.toNat (0 : Addr) = 0 from rfl] at hc2
          omega
        · exact Or.inl ⟨q, hq, hc1, hc2⟩
      · exact Or.inr h
    · have hend : (r.offset + env.reloc_size r.type).toNat = r.offset.toNat + (env.reloc_size r.type).toNat := by
        unfold Low at h1; rw [BitVec.toNat_add]; omega
      have hno : NoOver k (r.offset + env.reloc_size r.type) := by
        unfold NoOver; rw [hend]; unfold Low at h1; omega
      refine Carries.bind (g := rebaseAcc k) (P := fun a => a.2 = r.offset + env.reloc_size r.type) ?_ (fun a ha => ?_)
      · unfold dataStep
        dsimp only
        rw [hlen, hoff, if_neg hz, if_neg hz]
        refine Carries.assert (fun h => ?_) (Carries.ok ?_ rfl)
        · rw [decide_eq_true_eq] at h ⊢
          rw [add_swap, add_le_iff hno he]; exact h
        · show _ = rebaseAcc k ((if acc.2 < r.offset then _ else _) ++ _, _)
          unfold rebaseAcc
          dsimp only
          simp only [add_lt_iff hacc.1 h1.noWrap]
          by_cases hc : acc.2 < r.offset
          · rw [if_pos hc, if_pos hc, add_swap]
            rw [part_eq hacc.2 hc h4 (fun p hp hp' => ?_)]
            rcases hcov p hp (by omega) with ⟨q, hq, hc1, hc2⟩ | h
            · rcases List.mem_cons.mp hq with rfl | hq
              · omega
              · have := hrest q hq; omega
            · exact h
          · rw [if_neg hc, if_neg hc, add_swap]
      · refine ih' (by rw [ha, hend]; exact ⟨hno, by omega⟩) (fun q hq _ => ?_) fun p hp hp' => ?_
        · rw [ha, hend]
          have := hrest q hq
          omega
        · rw [ha, hend] at hp
          have hb := hbeg r List.mem_cons_self hz
          rcases hcov p (by omega) hp' with ⟨q, hq, hc1, hc2⟩ | h
          · rcases List.mem_cons.mp hq with rfl | hq
            · omega
            · exact Or.inl ⟨q, hq, hc1, hc2⟩
          · exact Or.inr h

theorem dataContent_rebase {tls : Bool} {k got address size : Addr} {bytes bytes' : List (BitVec 8)} {rels : List Rel} (ha : Addressed k address)
    (hrange : LowRange k address size) (hgot : ZeroOr k got)
    (hlow : ∀ r ∈ rels, Low k r.offset ∧ (env.reloc_size r.type).toNat < 2 ^ 51 ∧ address.toNat ≤ r.offset.toNat ∧
      r.offset.toNat ≤ (address + size).toNat)
    (hsep : rels.Pairwise (fun r r' => r.offset.toNat + (env.reloc_size r.type).toNat ≤ r'.offset.toNat))
    (htab : address = got → ∀ r ∈ rels, env.reloc_size r.type ≠ 0 → address.toNat + 16 ≤ r.offset.toNat + (env.reloc_size r.type).toNat)
    (hcov : ∀ p : Nat, address.toNat ≤ p → p < address.toNat + size.toNat → CoveredBy env rels p ∨
      (address = got ∧ p < address.toNat + 16) ∨ bytes'[p - address.toNat]? = bytes[p - address.toNat]?) :
    Carries id (fun _ => True) (dataContent env got address size rels bytes)
      (dataContent (rebaseEnv k env) (rebaseZero k got) (address + k) size (rels.map (rebaseRel tls k)) bytes') := by
  have hno := hrange.end_.noWrap
  have h16 : (address + 16).toNat = address.toNat + 16 := by
    have := hrange; unfold LowRange at this
    rw [BitVec.toNat_add, show BitVec.toNat (16 : Addr) = 16 from rfl]; omega
  unfold dataContent
  have hs : (if address + k = rebaseZero k got then address + k + 16 else address + k) = (if address = got then address + 16 else address) + k := by
    simp only [ZeroOr.eq_iff ha hgot]
    split
    · rw [add_swap]
    · rfl
  rw [hs, add_swap]
  have hst : NoOver k (if address = got then address + 16 else address) ∧ address.toNat ≤ (if address = got then address + 16 else address).toNat := by
    split
    · unfold NoOver
      rw [h16]
      have := hrange; unfold LowRange at this
      omega
    · exact ⟨hrange.low.noWrap, Nat.le_refl _⟩
  refine Carries.bind (dataFold_rebase (acc := ([], if address = got then address + 16 else address)) hno rels hlow hsep hst ?_ ?_) (fun r hr => ?_)
  · intro r hr hz
    dsimp only
    split
    · rw [h16]; exact htab (by assumption) r hr hz
    · have := hlow r hr; omega
  · intro p hp hp'
    rw [hrange.end_toNat] at hp'
    dsimp only at hp
    rcases hcov p (by have := hst.2; omega) hp' with h | ⟨h1, h2⟩ | h
    · exact Or.inl h
    · rw [if_pos h1, h16] at hp; omega
    · exact Or.inr h
  · obtain ⟨h1, h2⟩ := hr
    refine Carries.ok ?_ trivial
    show (if r.2 + k < address + size + k then _ else _) = _
    simp only [add_lt_iff h1.1 hno]
    by_cases hc : r.2 < address + size
    · rw [if_pos hc]
      show r.1 ++ slice bytes' (r.2 + k - (address + k)) (address + size + k - (r.2 + k)) = id (if _ then _ else _)
      rw [part_eq h1.2 hc (Nat.le_refl _) h2, if_pos hc]; rfl
    · rw [if_neg hc]
      show r.1 = id (if _ then _ else _)
      rw [if_neg hc]; rfl

/-! ### Places -/

theorem filled_mem {thread : Bool} {p : Addr × Addr} (h : p ∈ filledPlaces env st thread) :
    (∃ r ∈ st.relocations, p = (r.offset, env.reloc_size r.type)) ∨
    (thread = false ∧ ∃ o ∈ st.relative_relocations, p = (o, env.reloc_size R_X86_64_RELATIVE)) ∨
    (st.global_offset_table ≠ 0 ∧ p = (st.global_offset_table, 16)) := by
  unfold filledPlaces at h
  rcases List.mem_append.mp h with h | h
  · rcases List.mem_append.mp h with h | h
    · obtain ⟨r, hr, rfl⟩ := List.mem_map.mp h
      exact Or.inl ⟨r, hr, rfl⟩
    · cases thread with
      | true => cases h
      | false =>
        obtain ⟨o, ho, rfl⟩ := List.mem_map.mp h
        exact Or.inr (Or.inl ⟨rfl, o, ho, rfl⟩)
  · split at h
    · cases h
    · rcases List.mem_singleton.mp h with rfl
      exact Or.inr (Or.inr ⟨by assumption, rfl⟩)

theorem filled_relocation {thread : Bool} {r : ElfRel} (h : r ∈ st.relocations) :
    (r.offset, env.reloc_size r.type) ∈ filledPlaces env st thread :=
  List.mem_append.mpr (Or.inl (List.mem_append.mpr (Or.inl (List.mem_map.mpr ⟨r, h, rfl⟩))))

theorem filled_packed {o : Addr} (h : o ∈ st.relative_relocations) :
    (o, env.reloc_size R_X86_64_RELATIVE) ∈ filledPlaces env st false :=
  List.mem_append.mpr (Or.inl (List.mem_append.mpr (Or.inr (List.mem_map.mpr ⟨o, h, rfl⟩))))

theorem filled_table {thread : Bool} (h : st.global_offset_table ≠ 0) :
    (st.global_offset_table, (16 : Addr)) ∈ filledPlaces env st thread :=
  List.mem_append.mpr (Or.inr (by rw [if_neg h]; exact List.mem_singleton_self _))

/-! ### Data -/

theorem pageOffset_rebase {s : Symbol} {a : Addr} (hp : m.dist.toNat % 0x1000 = 0) (ha : Low m.dist a) :
    pageOffset (rebaseSymbol m.tls m.dist s) (a + m.dist) = pageOffset s a := by
  have h1 : (a + m.dist) % PAGE_SIZE = a % PAGE_SIZE := by
    refine BitVec.eq_of_toNat_eq ?_
    rw [BitVec.toNat_umod, BitVec.toNat_umod, add_toNat ha.noWrap, show PAGE_SIZE.toNat = 0x1000 from rfl]
    omega
  unfold pageOffset
  rw [h1]
  rfl

theorem dataSegment_rebase {sec : ElfSec} {s : Symbol} {n : Addr} (hr : Rebasable env fl m elf dbg) (hst : Ready env m elf dbg st)
    (sp : Span m sec s n) (hd : DataSteady env m st s sec n) {seg : ElfSeg} (h : dataSegment st sec (TLS.virt_addr s.address) = .ok seg) :
    ∃ seg', dataSegment (rebaseState m elf.sections st) (rebaseSec m elf.sections sec) (TLS.virt_addr s.address + m.dist) = .ok (rebaseSeg m.dist seg') ∧
      isBss (rebaseSec m elf.sections sec) (rebaseSeg m.dist seg') (TLS.virt_addr s.address + m.dist) = isBss sec seg (TLS.virt_addr s.address) ∧
      (TLS.virt_addr s.address + n ≤ env.align_up (seg.virt_addr + seg.virt_size) seg.alignment →
        TLS.virt_addr s.address + n + m.dist ≤ env.align_up (seg'.virt_addr + m.dist + seg'.virt_size) seg'.alignment) := by
  have hva := sp.range.low
  have hle : ∀ seg' : ElfSeg, SegmentLow env m.dist seg' →
      TLS.virt_addr s.address + n ≤ env.align_up (seg'.virt_addr + seg'.virt_size) seg'.alignment →
      TLS.virt_addr s.address + n + m.dist ≤ env.align_up (seg'.virt_addr + m.dist + seg'.virt_size) seg'.alignment := by
    intro seg' hs h
    rw [add_swap m.dist seg'.virt_addr, hs.align.1, add_le_iff sp.range.end_.noWrap hs.align.2.noWrap]
    exact h
  have hbss : ∀ seg' : ElfSeg, SegmentLow env m.dist seg' →
      ((TLS.virt_addr s.address + m.dist ≥ seg'.virt_addr + m.dist + seg'.size) ↔ TLS.virt_addr s.address ≥ seg'.virt_addr + seg'.size) := by
    intro seg' hs
    rw [add_swap m.dist, ge_iff_le, ge_iff_le, add_le_iff hs.file.end_.noWrap hva.noWrap]
  have hb : ∀ seg' : ElfSeg, SegmentLow env m.dist seg' →
      (sec.type = .nobits ∨ (TLS.virt_addr s.address ≥ seg'.virt_addr + seg'.size ↔ TLS.virt_addr s.address ≥ seg.virt_addr + seg.size)) →
      isBss (rebaseSec m elf.sections sec) (rebaseSeg m.dist seg') (TLS.virt_addr s.address + m.dist) = isBss sec seg (TLS.virt_addr s.address) := by
    intro seg' hs hc
    unfold isBss
    show (sec.type == .nobits || decide (TLS.virt_addr s.address + m.dist ≥ seg'.virt_addr + m.dist + seg'.size)) = _
    rcases hc with hc | hc
    · rw [hc]; rfl
    · simp only [hbss seg' hs, hc]
  unfold dataSegment at h ⊢
  rw [show (rebaseSec m elf.sections sec).tls = sec.tls from rfl]
  cases ht : sec.tls with
  | true =>
    rw [ht] at h
    simp only [if_true] at h ⊢
    cases hs : st.tls_segment with
    | none => rw [hs] at h; cases h
    | some seg0 =>
      rw [hs] at h
      cases h
      refine ⟨seg, ?_, hb seg (hst.tls seg hs) (Or.inr Iff.rfl), hle seg (hst.tls seg hs)⟩
      show (match st.tls_segment.map (rebaseSeg m.dist) with
        | some seg => (.ok seg : M ElfSeg)
        | none => .error .ub) = _
      rw [hs]; rfl
  | false =>
    rw [ht] at h
    simp only [Bool.false_eq_true, if_false] at h ⊢
    have hreg : TLS.is_tls s.address = false := by rw [sp.tls, ht]
    have hv : TLS.virt_addr s.address = s.address := TLS.virt_of_regular hreg
    rw [hv] at h hb hle ⊢
    cases hs : Tree.floor st.segments s.address with
    | none => rw [hs] at h; cases h
    | some seg0 =>
      rw [hs] at h
      cases h
      obtain ⟨seg', h1, h2, h3⟩ := hd.segment ht seg hs
      have hl := hst.segments seg' (Tree.floor_mem h1)
      refine ⟨seg', ?_, hb seg' hl h2, fun h => hle seg' hl (h3 h)⟩
      rw [show (rebaseState m elf.sections st).segments = st.segments.map (rebaseSeg m.dist) from rfl,
        floor_map (f := rebaseSeg m.dist) (fun _ => rfl), h1]
      rfl

theorem hashData_rebase {sec : ElfSec} {s : Symbol} (hr : Rebasable env fl m elf dbg) (hst : Ready env m elf dbg st) (hy : Steady env m st)
    (hl : Loaded elf sec) (hs : GoodOut m.tls m.dist s) (h1 : secStart sec ≤ s.address)
    (h2 : s.address.toNat + s.size.toNat ≤ (secEnd env sec).toNat) (hrels : s.rels = []) (hd : DataSteady env m st s sec s.size) :
    Carries (rebaseHashed m) (fun h => GoodOut m.tls m.dist h.sym) (hashData env fl st sec s)
      (hashData (rebaseEnv m.dist env) fl (rebaseState m elf.sections st) (rebaseSec m elf.sections sec) (rebaseSymbol m.tls m.dist s)) := by
  have sp := span_of (hr.sections sec hl.1 hl.2.1) hs.address h1 h2
  have hsort : Tree.Sorted s.rels := by rw [hrels]; exact List.Pairwise.nil
  unfold hashData
  rw [show (rebaseSymbol m.tls m.dist s).address = s.address + m.dist from rfl, hs.address.lowT.virt]
  dsimp only
  cases hseg : dataSegment st sec (TLS.virt_addr s.address) with
  | error e => exact Carries.error
  | ok seg =>
    obtain ⟨seg', e1, e2, e3⟩ := dataSegment_rebase hr hst sp hd hseg
    rw [e1]
    refine Carries.assert (fun h => ?_) ?_
    · rw [decide_eq_true_eq] at h ⊢
      show TLS.virt_addr s.address + m.dist + s.size ≤ _
      rw [add_swap]; exact e3 h
    rw [e2]
    refine Carries.ite Iff.rfl (fun _ => Carries.ok ?_ hs) (fun _ => ?_)
    · rw [pageOffset_rebase hy.page sp.range.low]; rfl
    refine Carries.bind (P := fun s1 => GoodOut m.tls m.dist s1 ∧ addRelocations env fl st sec (TLS.virt_addr s.address) s = .ok s1)
      ((addRelocations_rebase hr hst hl hs h1 h2).also (fun _ h => h)) (fun s1 hs1 => ?_)
    obtain ⟨g1, hadd⟩ := hs1
    have had := addRelocations_added hsort hadd
    have ha : s1.address = s.address := had.base.address
    have hz : s1.size = s.size := had.base.size
    have hx := addRelocations_exact hsort hst.relocations hst.relative hadd
    rw [hrels] at hx
    have hlow : ∀ e ∈ st.relocations, RelocationLow env fl m.dist st.global_offset_table e := by
      intro r hr'
      rw [hst.got]
      exact hr.relocations r (hst.known r hr')
    have hpl : ∀ o ∈ st.relative_relocations, Low m.dist o := fun o ho => hr.packed o (hst.packed o ho)
    have hthread : ∀ o ∈ st.relative_relocations, s.address ≤ o → TLS.is_tls s.address = false := by
      intro o ho h
      rw [sp.tls]
      have h3 := hpl o ho
      have h4 := BitVec.le_def.mp h
      have h5 := sp.place
      unfold Low at h3
      cases hc : sec.tls with
      | false => rfl
      | true => rw [hc] at h5; simp only [if_true] at h5; omega
    have hoff : ∀ r ∈ s1.rels, Low m.dist r.offset ∧ (env.reloc_size r.type).toNat < 2 ^ 51 ∧
        (TLS.virt_addr s.address).toNat ≤ r.offset.toNat ∧ r.offset.toNat < (TLS.virt_addr s.address + s.size).toNat ∧
        (r.offset, env.reloc_size r.type) ∈ filledPlaces env st false := by
      intro r hr1
      rcases (hx r).mp hr1 with h | ⟨e, he, h3, h4, rfl, _⟩ | ⟨o, ho, h3, h4, ⟨bytes, hb, rfl⟩, _⟩
      · cases h
      · exact ⟨(hlow e he).offset, (hlow e he).size, BitVec.le_def.mp h3, BitVec.lt_def.mp h4, filled_relocation he⟩
      · have hv : TLS.virt_addr s.address = s.address := TLS.virt_of_regular (hthread o ho h3)
        refine ⟨hpl o ho, hy.width, ?_, BitVec.lt_def.mp h4, filled_packed ho⟩
        rw [hv]; exact BitVec.le_def.mp h3
    refine Carries.bind (g := fun _ => ((m.data sec).drop (TLS.virt_addr s.address - sec.virt_addr).toNat).take s.size.toNat)
      (P := fun bytes => bytes = (sec.data.drop (TLS.virt_addr s.address - sec.virt_addr).toNat).take s.size.toNat)
      ?_ (fun bytes hb => ?_)
    · intro bytes hb
      rw [hz] at hb
      obtain ⟨h3, h4⟩ := readBytes_slice hb
      refine ⟨?_, h4⟩
      rw [sec_virt _ hl.2.1, sub_shift]
      refine readBytes_of ?_ ?_
      · show _ ≤ (m.data sec).length
        rw [hr.length sec hl]
        show _ + s1.size.toNat ≤ _
        rw [hz]; exact h3
      · show _ = ((m.data sec).drop _).take s1.size.toNat
        rw [hz]
    · refine Carries.bind (g := id) (P := fun _ => True) ?_ (fun c _ => Carries.ok ?_ g1)
      · rw [show (rebaseState m elf.sections st).global_offset_table = rebaseZero m.dist st.global_offset_table from rfl,
          show (rebaseSymbol m.tls m.dist s1).size = s1.size from rfl,
          show (rebaseSymbol m.tls m.dist s1).rels = s1.rels.map (rebaseRel m.tls m.dist) from rfl, hz]
        have hadr : Addressed m.dist (TLS.virt_addr s.address) := hs.address.virt
        refine dataContent_rebase hadr sp.range hst.table (fun r hr1 => ?_) ?_ ?_ ?_
        · obtain ⟨h3, h4, h5, h6, _⟩ := hoff r hr1
          exact ⟨h3, h4, h5, by omega⟩
        · refine had.sorted.imp_of_mem ?_
          intro r r' hr1 hr2 hlt
          exact (hy.apart _ (hoff r hr1).2.2.2.2 _ (hoff r' hr2).2.2.2.2).1 (BitVec.lt_def.mp hlt)
        · intro hg r hr1 hnz
          have hg0 : st.global_offset_table ≠ 0 := by rw [← hg]; exact hadr.1
          obtain ⟨_, _, h5, _, h7⟩ := hoff r hr1
          obtain ⟨h8, h9⟩ := hy.apart _ (filled_table hg0) _ h7
          dsimp only at h8 h9
          rw [hg] at h5 ⊢
          rcases Nat.lt_or_ge st.global_offset_table.toNat r.offset.toNat with hc | hc
          · have := h8 hc
            rw [show BitVec.toNat (16 : Addr) = 16 from rfl] at this
            omega
          · have he : st.global_offset_table = r.offset := BitVec.eq_of_toNat_eq (by omega)
            rw [← h9 he, ← he, show BitVec.toNat (16 : Addr) = 16 from rfl]
            omega
        · intro p hp hp'
          have hi := hd.bytes (p - (TLS.virt_addr s.address).toNat) (by omega)
          rw [show (TLS.virt_addr s.address).toNat + (p - (TLS.virt_addr s.address).toNat) = p by omega] at hi
          rcases hi with ⟨q, hq, hq1, hq2⟩ | hi
          · have hge : (TLS.virt_addr s.address).toNat ≤ q.1.toNat := by
              rcases Nat.lt_or_ge q.1.toNat (TLS.virt_addr s.address).toNat with hc | hc
              · have := hd.start q hq hc; omega
              · exact hc
            have hend := sp.range.end_toNat
            rcases filled_mem hq with ⟨e, he, rfl⟩ | ⟨hth, o, ho, rfl⟩ | ⟨hg0, rfl⟩
            · refine Or.inl ⟨relOfElf env s.address fl.resolve_internal st.global_offset_table e, (hx _).mpr (Or.inr (Or.inl ⟨e, he, ?_, ?_, rfl, fun z hz => by cases hz⟩)), hq1, hq2⟩
              · exact BitVec.le_def.mpr hge
              · rw [BitVec.lt_def, hend]; dsimp only at hq1; omega
            · have hv : TLS.virt_addr s.address = s.address := TLS.virt_of_regular hth
              dsimp only at hq1 hq2 hge
              have ho1 : s.address ≤ o := by rw [BitVec.le_def, ← hv]; exact hge
              have ho2 : o < TLS.virt_addr s.address + s.size := by rw [BitVec.lt_def, hend]; omega
              by_cases hex : ∃ e ∈ st.relocations, TLS.virt_addr s.address ≤ e.offset ∧ e.offset < TLS.virt_addr s.address + s.size ∧ e.offset = o
              · obtain ⟨e, he, he1, he2, rfl⟩ := hex
                have hlen := (hy.apart _ (filled_relocation (env := env) he) _ (filled_packed ho)).2 rfl
                dsimp only at hlen
                refine Or.inl ⟨relOfElf env s.address fl.resolve_internal st.global_offset_table e, (hx _).mpr (Or.inr (Or.inl ⟨e, he, he1, he2, rfl, fun z hz => by cases hz⟩)), hq1, ?_⟩
                show p < e.offset.toNat + (env.reloc_size e.type).toNat
                rw [hlen]; exact hq2
              · obtain ⟨q, hqr⟩ := addRelocations_read hsort hst.relative hadd ho ho1 ho2
                have hm := (hx q).mpr (Or.inr (Or.inr ⟨o, ho, ho1, ho2, hqr, (fun z hz => by cases hz), fun e he h3 h4 h5 => hex ⟨e, he, h3, h4, h5⟩⟩))
                obtain ⟨bs, _, rfl⟩ := hqr
                exact Or.inl ⟨_, hm, hq1, hq2⟩
            · dsimp only at hq1 hq2 hge
              rw [show BitVec.toNat (16 : Addr) = 16 from rfl] at hq2
              rcases Nat.lt_or_ge (TLS.virt_addr s.address).toNat st.global_offset_table.toNat with hc | hc
              · have := hd.table hc; omega
              · have he : TLS.virt_addr s.address = st.global_offset_table := BitVec.eq_of_toNat_eq (by omega)
                exact Or.inr (Or.inl ⟨he, by omega⟩)
          · refine Or.inr (Or.inr ?_)
            rw [hb, List.getElem?_take, List.getElem?_take, if_pos (by omega), if_pos (by omega), List.getElem?_drop, List.getElem?_drop]
            exact hi
      · show (⟨rebaseSymbol m.tls m.dist s1, pageOffset (rebaseSymbol m.tls m.dist s1) (TLS.virt_addr s.address + m.dist) ++ c, true⟩ : Hashed) = _
        rw [pageOffset_rebase hy.page sp.range.low]; rfl

/-! ### All symbols -/

theorem adopt_rebase (secs : List ElfSec) (sec : ElfSec) (s : Symbol) :
    adoptSection (rebaseSec m secs sec) (rebaseSymbol m.tls m.dist s) = rebaseSymbol m.tls m.dist (adoptSection sec s) := by
  unfold adoptSection
  show (if s.sec.name.isNone = true then _ else _) = rebaseSymbol m.tls m.dist (if s.sec.name.isNone = true then _ else _)
  split <;> rfl

theorem sizeFor_end {t : SymTree} {sec : ElfSec} {s : Symbol} {n : Addr} (h : SizeFor env t sec s n)
    (hi : s.address.toNat + s.size.toNat ≤ (secEnd env sec).toNat) : s.address.toNat + n.toNat ≤ (secEnd env sec).toNat := by
  rcases h with rfl | rfl | ⟨z, _, h1, h2, rfl⟩
  · exact hi
  · rw [BitVec.toNat_sub]; have := s.address.isLt; have := (secEnd env sec).isLt; omega
  · have h1 := BitVec.lt_def.mp h1
    have h2 := BitVec.lt_def.mp h2
    rw [BitVec.toNat_sub]; have := s.address.isLt; have := z.address.isLt; omega

/-- The address where the space for symbols ends. -/
def rebaseLast (k a : Addr) : Addr := if a = BitVec.allOnes 64 then a else a + k

theorem sizeSymbol_rebase {sec : ElfSec} {s : Symbol} {last : Addr} (hr : Rebasable env fl m elf dbg) (hl : Loaded elf sec)
    (ha : AddressedT m.tls m.dist s.address) (hi : s.address.toNat + s.size.toNat ≤ (secEnd env sec).toNat) {t : SymTree}
    (ht : ∀ s ∈ t, LowT m.tls m.dist s.address)
    (hla : last = BitVec.allOnes 64 ∨ ∃ z ∈ t, s.address < z.address ∧ z.address = last) :
    Carries (rebaseSymbol m.tls m.dist) (fun s1 => ∃ n, s1 = { s with size := n } ∧ SizeFor env t sec s n) (sizeSymbol env sec last s)
      (sizeSymbol (rebaseEnv m.dist env) (rebaseSec m elf.sections sec) (rebaseLast m.dist last) (rebaseSymbol m.tls m.dist s)) := by
  have hsl := hr.sections sec hl.1 hl.2.1
  obtain ⟨e1, e2⟩ := secEnd_rebase (m := m) elf.sections hl.2.1 hsl
  obtain ⟨n, hn, hf⟩ := sizeSymbol_safe (env := env) (sec := sec) (last := last) (t := t) (s := s) (BitVec.le_def.mpr (by omega)) hla
  have key : Carries (rebaseSymbol m.tls m.dist) (fun _ => True) (sizeSymbol env sec last s)
      (sizeSymbol (rebaseEnv m.dist env) (rebaseSec m elf.sections sec) (rebaseLast m.dist last) (rebaseSymbol m.tls m.dist s)) := by
    unfold sizeSymbol
    dsimp only
    change Carries _ _ (massert env.build (decide ((if last < secEnd env sec then last else secEnd env sec) ≥ s.address)) >>= fun _ =>
      Except.ok (if (if last < secEnd env sec then last else secEnd env sec) - s.address > s.size then
        { s with size := (if last < secEnd env sec then last else secEnd env sec) - s.address } else s))
      (massert env.build (decide ((if rebaseLast m.dist last < secEnd (rebaseEnv m.dist env) (rebaseSec m elf.sections sec) then
          rebaseLast m.dist last else secEnd (rebaseEnv m.dist env) (rebaseSec m elf.sections sec)) ≥ s.address + m.dist)) >>= fun _ =>
        Except.ok (if (if rebaseLast m.dist last < secEnd (rebaseEnv m.dist env) (rebaseSec m elf.sections sec) then
          rebaseLast m.dist last else secEnd (rebaseEnv m.dist env) (rebaseSec m elf.sections sec)) - (s.address + m.dist) > s.size then
          { rebaseSymbol m.tls m.dist s with size := (if rebaseLast m.dist last < secEnd (rebaseEnv m.dist env) (rebaseSec m elf.sections sec) then
          rebaseLast m.dist last else secEnd (rebaseEnv m.dist env) (rebaseSec m elf.sections sec)) - (s.address + m.dist) } else rebaseSymbol m.tls m.dist s))
    have hmax : (if rebaseLast m.dist last < secEnd (rebaseEnv m.dist env) (rebaseSec m elf.sections sec) then
          rebaseLast m.dist last else secEnd (rebaseEnv m.dist env) (rebaseSec m elf.sections sec)) =
        (if last < secEnd env sec then last else secEnd env sec) + m.dist ∧
        NoOver m.dist (if last < secEnd env sec then last else secEnd env sec) := by
      rw [e1]
      have htop : ∀ a : Addr, ¬ BitVec.allOnes 64 < a := by
        intro a h
        have := BitVec.lt_def.mp h
        rw [BitVec.toNat_allOnes] at this
        have := a.isLt
        omega
      rcases hla with rfl | ⟨z, hz, _, rfl⟩
      · rw [rebaseLast, if_pos rfl, if_neg (htop _), if_neg (htop _)]
        exact ⟨rfl, e2.noWrap⟩
      · have hzl := ht z hz
        have hne : z.address ≠ BitVec.allOnes 64 := by
          intro e
          have := hzl.lt
          rw [e, BitVec.toNat_allOnes] at this
          omega
        rw [rebaseLast, if_neg hne]
        simp only [add_lt_iff hzl.noWrap e2.noWrap]
        split
        · exact ⟨rfl, hzl.noWrap⟩
        · exact ⟨rfl, e2.noWrap⟩
    rw [hmax.1]
    generalize (if last < secEnd env sec then last else secEnd env sec) = mx at hmax
    refine Carries.assert (fun h => ?_) (Carries.ok ?_ trivial)
    · rw [decide_eq_true_eq] at h ⊢
      exact (add_le_iff ha.lowT.noWrap hmax.2).mpr h
    · rw [sub_shift]
      split <;> rfl
  intro s1 hs1
  refine ⟨(key s1 hs1).1, n, ?_, hf⟩
  rw [hn] at hs1
  exact (Except.ok.inj hs1).symm

theorem DataSteady.congr {s s1 : Symbol} {sec : ElfSec} {n : Addr} (e : s1.address = s.address) (h : DataSteady env m st s sec n) :
    DataSteady env m st s1 sec n :=
  ⟨by rw [e]; exact h.segment, by rw [e]; exact h.bytes, by rw [e]; exact h.start, by rw [e]; exact h.table⟩

theorem hashSymbol_rebase {s : Symbol} {last : Addr} (hr : Rebasable env fl m elf dbg) (hst : Ready env m elf dbg st) (hy : Steady env m st)
    (hs : s ∈ st.symbols) (hla : last = BitVec.allOnes 64 ∨ ∃ z ∈ st.symbols, s.address < z.address ∧ z.address = last) :
    Carries (rebaseHashed m) (fun h => GoodOut m.tls m.dist h.sym) (hashSymbol env fl st last s)
      (hashSymbol (rebaseEnv m.dist env) fl (rebaseState m elf.sections st) (rebaseLast m.dist last) (rebaseSymbol m.tls m.dist s)) := by
  obtain ⟨hg, hgs⟩ := hst.symbols s hs
  unfold hashSymbol
  refine Carries.bind (g := rebaseSec m elf.sections) (P := fun sec => Tree.floor st.sections s.address = some sec)
    (Carries.deref (floor_shift (hst.shifts hr) hg.address.lowT.noWrap)) (fun sec hsec => ?_)
  have hl := hst.sections sec (Tree.floor_mem hsec)
  have hle : secStart sec ≤ s.address := Tree.floor_le hsec
  have hss := hy.symbols s hs sec hsec
  obtain ⟨a1, a2, a3, a4, a5⟩ := adoptSection_same sec s
  rw [adopt_rebase]
  have hadr := a1.address
  refine Carries.bind (sizeSymbol_rebase hr hl (by rw [hadr]; exact hg.address) (by rw [hadr, a2]; exact hss.inside) hst.low
    (by rw [hadr]; exact hla)) (fun s1 hs1 => ?_)
  obtain ⟨n, rfl, hn⟩ := hs1
  have hn' : SizeFor env st.symbols sec s n := by
    unfold SizeFor at hn ⊢
    rw [hadr, a2] at hn
    exact hn
  have hend := sizeFor_end hn' hss.inside
  have hout : GoodOut m.tls m.dist ({ adoptSection sec s with size := n } : Symbol) := by
    refine ⟨?_, ?_, ?_⟩
    · show AddressedT m.tls m.dist (adoptSection sec s).address
      rw [hadr]; exact hg.address
    · show ∀ a ∈ (adoptSection sec s).refs, _
      rw [a5.1]; exact hg.refs
    · show ∀ a ∈ (adoptSection sec s).rels, _
      rw [a4]; exact hg.rels
  have hrels : ({ adoptSection sec s with size := n } : Symbol).rels = s.rels := a4
  have hcode := adopt_code sec s
  refine Carries.ite Iff.rfl (fun hx => ?_) (fun hx => ?_)
  · have hc : IsCode sec s := by rw [← hcode]; exact hx
    obtain ⟨c1, c2, c3⟩ := hss.code hc
    have := (c3 n hn').operands
    refine hashExec_rebase hr hst hl hout (by show _ ≤ (adoptSection sec s).address; rw [hadr]; exact hle)
      (by show BitVec.toNat (adoptSection sec s).address + n.toNat ≤ _; rw [hadr]; exact hend) (by rw [hrels]; exact hgs) c1 c2 ?_
    show ∀ x ∈ disasm env (adoptSection sec s).address ((sec.data.drop ((adoptSection sec s).address - sec.virt_addr).toNat).take n.toNat), _
    rw [hadr]; exact this
  · have hc : ¬ IsCode sec s := by rw [← hcode]; exact hx
    exact hashData_rebase hr hst hy hl hout (by show _ ≤ (adoptSection sec s).address; rw [hadr]; exact hle)
      (by show BitVec.toNat (adoptSection sec s).address + n.toNat ≤ _; rw [hadr]; exact hend) (hrels.trans (hst.data s hs sec hsec hc))
      (DataSteady.congr (s := s) hadr (hss.data hc n hn'))

theorem unused_rebase (h : Hashed) : unusedSymbol fl (rebaseHashed m h) = unusedSymbol fl h := by
  unfold unusedSymbol rebaseHashed rebaseSymbol
  simp only [List.isEmpty_map]

theorem finish_rebase (h : Hashed) :
    finishSymbol (rebaseEnv m.dist env) fl (rebaseHashed m h) = rebaseSymbol m.tls m.dist (finishSymbol env fl h) := by
  unfold finishSymbol
  rw [unused_rebase]
  split <;> rfl

theorem finish_good {h : Hashed} (hg : GoodOut m.tls m.dist h.sym) : GoodOut m.tls m.dist (finishSymbol env fl h) := by
  unfold finishSymbol
  split
  · exact hg
  · exact ⟨hg.address, hg.refs, hg.rels⟩

def rebaseLoop (m : Rebase) (l : HashLoop) : HashLoop where
  done := l.done.map (rebaseSymbol m.tls m.dist)
  last_addr := rebaseLast m.dist l.last_addr
  unused := l.unused.map (· + m.dist)

theorem hashLoop_rebase (hr : Rebasable env fl m elf dbg) (hst : Ready env m elf dbg st) (hy : Steady env m st) (l : SymTree)
    (hl : ∀ s ∈ l, s ∈ st.symbols) (hsort : Tree.Sorted l) :
    Carries (rebaseLoop m) (fun L => (∀ s ∈ L.done, GoodOut m.tls m.dist s) ∧
        (L.last_addr = BitVec.allOnes 64 ∨ ∃ z ∈ l, z.address = L.last_addr))
      (l.reverse.foldlM (hashStep env fl st) {})
      ((l.map (rebaseSymbol m.tls m.dist)).reverse.foldlM (hashStep (rebaseEnv m.dist env) fl (rebaseState m elf.sections st)) {}) := by
  induction l with
  | nil =>
    refine Carries.ok ?_ ⟨(fun _ h => by cases h), Or.inl rfl⟩
    unfold rebaseLoop rebaseLast
    rfl
  | cons s l ih =>
    have hs := hl s List.mem_cons_self
    have hg := (hst.symbols s hs).1
    rw [List.map_cons, List.reverse_cons, List.reverse_cons, List.foldlM_append, List.foldlM_append]
    refine Carries.bind (ih (fun s hs => hl s (List.mem_cons_of_mem _ hs)) (List.Pairwise.of_cons hsort)) (fun L hL => ?_)
    rw [List.foldlM_cons, List.foldlM_cons]
    have hla : L.last_addr = BitVec.allOnes 64 ∨ ∃ z ∈ st.symbols, s.address < z.address ∧ z.address = L.last_addr := by
      rcases hL.2 with h | ⟨z, hz, h⟩
      · exact Or.inl h
      · exact Or.inr ⟨z, hl z (List.mem_cons_of_mem _ hz), (List.pairwise_cons.mp hsort).1 z hz, h⟩
    refine Carries.bind (g := rebaseLoop m) (P := fun L' => (∀ s ∈ L'.done, GoodOut m.tls m.dist s) ∧
        (L'.last_addr = BitVec.allOnes 64 ∨ ∃ z ∈ s :: l, z.address = L'.last_addr)) ?_ (fun L' hL' => Carries.ok rfl hL')
    unfold hashStep
    refine Carries.bind (hashSymbol_rebase hr hst hy hs hla) (fun h hh => Carries.ok ?_ ?_)
    · rw [unused_rebase, finish_rebase]
      have hne : s.address ≠ BitVec.allOnes 64 := by
        intro e
        have := hg.address.lowT.lt
        rw [e, BitVec.toNat_allOnes] at this
        omega
      unfold rebaseLoop
      dsimp only
      rw [rebaseLast, if_neg hne]
      congr 1
      split
      · rw [List.map_append]; rfl
      · rfl
    · refine ⟨fun x hx => ?_, Or.inr ⟨s, List.mem_cons_self, rfl⟩⟩
      rcases List.mem_cons.mp hx with rfl | hx
      · exact finish_good hh
      · exact hL.1 x hx

theorem erase_all_shift (l : List Addr) (t : SymTree) :
    (l.map (· + m.dist)).foldl Tree.erase (t.map (rebaseSymbol m.tls m.dist)) = (l.foldl Tree.erase t).map (rebaseSymbol m.tls m.dist) := by
  induction l generalizing t with
  | nil => rfl
  | cons a l ih =>
    rw [List.map_cons, List.foldl_cons, List.foldl_cons, erase_shift (g := rebaseSymbol m.tls m.dist) (fun _ _ => rfl)]
    exact ih _

/-- Everything but the symbols stays as it is. -/
theorem hashInternal_rebase (hr : Rebasable env fl m elf dbg) (hst : Ready env m elf dbg st) (hy : Steady env m st) :
    Carries (rebaseState m elf.sections) (fun r => (∀ s ∈ r.symbols, GoodOut m.tls m.dist s) ∧ r.global_offset_table = st.global_offset_table)
      (hashInternal env fl st) (hashInternal (rebaseEnv m.dist env) fl (rebaseState m elf.sections st)) := by
  unfold hashInternal
  refine Carries.bind (hashLoop_rebase hr hst hy st.symbols (fun _ h => h) hst.sorted) (fun L hL => Carries.ok ?_ ⟨?_, rfl⟩)
  · unfold rebaseState rebaseLoop
    dsimp only
    rw [erase_all_shift]
  · intro s hs
    exact hL.1 s (mem_foldl_erase.mp hs).1

end Bean

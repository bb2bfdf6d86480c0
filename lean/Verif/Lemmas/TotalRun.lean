import Verif.Lemmas.TotalRead
/-
Relocations and identifiers can be determined if the symbols lie in sections of the file.
-/
namespace Bean
open Tree Spec

/-- What the analysis knows about the file besides of the symbols. -/
structure Basis (elf : Elf) (dbgsym : Option Elf) (st : AState) : Prop where
  sections : st.sections = Tree.ofList (loadedSections elf.sections)
  segments : st.segments = Tree.ofList (loadSegments elf)
  tls : st.tls_segment = tlsSegment elf
  got : st.global_offset_table = gotAddress elf
  relocations : st.relocations = Tree.ofList (allRelocations elf dbgsym)
  relative : st.relative_relocations = Tree.ofList (allRelative elf dbgsym)

theorem Basis.symbols {elf : Elf} {dbgsym : Option Elf} {st : AState} (h : Basis elf dbgsym st) (t : SymTree) :
    Basis elf dbgsym { st with symbols := t } := ⟨h.sections, h.segments, h.tls, h.got, h.relocations, h.relative⟩

/-- A symbol `s1` during the analysis in comparison to the one gathered. -/
structure Ongoing (env : Env) (fl : AnalyzeFlags) (elf : Elf) (dbgsym : Option Elf) (t : SymTree) (s : Symbol) (sec : ElfSec)
    (s1 : Symbol) : Prop where
  address : s1.address = s.address
  name : s1.name = s.name
  size : SizeFor env t sec s s1.size
  place : s1.sec = s.sec ∨ s1.sec = (adoptSection sec s).sec
  behind : ∀ q ∈ s1.rels, TLS.virt_addr s1.address ≤ q.offset
  sorted : Sorted s1.rels
  pointed : ∀ q ∈ s1.rels, Pointed env fl elf dbgsym t q.target

theorem adopt_code (sec : ElfSec) (s : Symbol) : ((adoptSection sec s).sec.executable = true) = IsCode sec s := by
  unfold adoptSection IsCode
  cases hn : s.sec.name with
  | none => rw [if_pos (by rfl), if_pos rfl]
  | some n => rw [if_neg (by simp), if_neg (by simp)]

/-- Adopting the section twice makes no difference. -/
theorem adopt_place {sec : ElfSec} {s s1 : Symbol} (h : s1.sec = s.sec ∨ s1.sec = (adoptSection sec s).sec) :
    (adoptSection sec s1).sec = (adoptSection sec s).sec := by
  rcases h with h | h
  · unfold adoptSection
    rw [h]
    split <;> simp [h]
  · unfold adoptSection at h ⊢
    cases hn : s.sec.name with
    | none =>
      rw [hn] at h
      simp only [Option.isNone_none, if_true] at h ⊢
      rw [h]
      simp [h]
    | some n =>
      rw [hn] at h
      simp only [Option.isNone_some, Bool.false_eq_true, if_false] at h ⊢
      rw [h, hn]
      simp [h]

theorem sizeSymbol_safe {env : Env} {t : SymTree} {sec : ElfSec} {last : Addr} {s : Symbol}
    (he : s.address ≤ secEnd env sec) (hl : last = BitVec.allOnes 64 ∨ ∃ z ∈ t, s.address < z.address ∧ z.address = last) :
    ∃ n, sizeSymbol env sec last s = .ok { s with size := n } ∧ SizeFor env t sec s n := by
  unfold sizeSymbol
  simp only
  change ∃ n, ((do
    massert env.build (decide ((if last < secEnd env sec then last else secEnd env sec) ≥ s.address))
    return if (if last < secEnd env sec then last else secEnd env sec) - s.address > s.size then
      { s with size := (if last < secEnd env sec then last else secEnd env sec) - s.address } else s) : M Symbol) = _ ∧ _
  have hm : ∃ m, (if last < secEnd env sec then last else secEnd env sec) = m ∧ s.address ≤ m ∧ SizeFor env t sec s (m - s.address) := by
    by_cases hc : last < secEnd env sec
    · rw [if_pos hc]
      rcases hl with rfl | ⟨z, hz, h1, rfl⟩
      · exact absurd (BitVec.lt_def.mp hc) (by rw [BitVec.toNat_allOnes]; have := (secEnd env sec).isLt; omega)
      · exact ⟨_, rfl, by bv_omega, Or.inr (Or.inr ⟨z, hz, h1, hc, rfl⟩)⟩
    · rw [if_neg hc]
      exact ⟨_, rfl, he, Or.inr (Or.inl rfl)⟩
  obtain ⟨m, e, h1, h2⟩ := hm
  rw [e, massert_ok (by exact decide_eq_true h1)]
  by_cases hc : m - s.address > s.size
  · exact ⟨m - s.address, by show (Except.ok _ : M Symbol) = _; rw [if_pos hc], h2⟩
  · exact ⟨s.size, by show (Except.ok _ : M Symbol) = _; rw [if_neg hc], Or.inl rfl⟩

/-- Possible sizes of a symbol whose size has been determined already. -/
theorem sizeFor_again {env : Env} {t : SymTree} {sec : ElfSec} {s s1 : Symbol} (ha : s1.address = s.address)
    (hn : SizeFor env t sec s s1.size) {n : Addr} (h : SizeFor env t sec s1 n) : SizeFor env t sec s n := by
  rcases h with h | h | h
  · rw [h]; exact hn
  · rw [ha] at h; exact Or.inr (Or.inl h)
  · rw [ha] at h; exact Or.inr (Or.inr h)

/-! ### Reconstruction of relocations -/

theorem readBytes_stored {elf : Elf} {dbgsym : Option Elf} {sec : ElfSec} {s : Symbol} {n : Addr} (h : Stored elf dbgsym sec s n) :
    readBytes sec.data (TLS.virt_addr s.address - sec.virt_addr) n =
      .ok ((sec.data.drop (TLS.virt_addr s.address - sec.virt_addr).toNat).take n.toNat) := readBytes_of h.bytes rfl

/-- Section and size have been determined. -/
structure Settled (env : Env) (t : SymTree) (s : Symbol) (sec : ElfSec) (s1 : Symbol) : Prop where
  address : s1.address = s.address
  place : s1.sec = (adoptSection sec s).sec
  size : SizeFor env t sec s s1.size

theorem reconstructCode_safe {env : Env} (hd : SaneDecoder env) {fl : AnalyzeFlags} {elf : Elf} {dbgsym : Option Elf} {t : SymTree} {s s1 : Symbol}
    {sec : ElfSec} {st : AState} (hb : Basis elf dbgsym st) (hs : s ∈ t) (w : Within env elf dbgsym t s sec)
    (h : Settled env t s sec s1) (o : Ongoing env fl elf dbgsym t s sec s1) :
    ∃ s2, reconstructCode env st sec s1 = .ok s2 ∧ Ongoing env fl elf dbgsym t s sec s2 ∧ (¬ IsCode sec s → s2.rels = s1.rels) := by
  unfold reconstructCode
  by_cases hx : s1.sec.executable = true
  · have hx' : IsCode sec s := by rw [← adopt_code, ← h.place]; exact hx
    obtain ⟨h1, h2, h3⟩ := w.code hx'
    have hc := h3 _ h.size
    have hv : TLS.virt_addr s.address = s.address := TLS.virt_of_regular h2
    rw [if_pos hx, massert_ok (by rw [h1]; rfl)]
    have hr := readBytes_stored hc.stored
    refine ⟨_, by
      change (readBytes sec.data (TLS.virt_addr s1.address - sec.virt_addr) s1.size >>= _) = _
      rw [h.address, hr]; rfl, ?_⟩
    generalize hbytes : (sec.data.drop (TLS.virt_addr s.address - sec.virt_addr).toNat).take s1.size.toNat = bytes
    rw [hv] at hbytes
    have cr := created st (codeRels env (tlsEnd env st.tls_segment) (disasm env (TLS.virt_addr s.address) bytes)) o.sorted
    have hf := cr.form
    generalize hs2 : (codeRels env (tlsEnd env st.tls_segment) (disasm env (TLS.virt_addr s.address) bytes)).foldl
      (createRelocation st) s1 = s2 at cr hf
    have hlen : bytes.length ≤ s1.size.toNat := by rw [← hbytes, List.length_take]; omega
    have hlay := (disasmN_layout hd bytes.length s.address bytes (by have := hc.below; omega)).1
    have key : ∀ q ∈ s2.rels, TLS.virt_addr s1.address ≤ q.offset ∧ Pointed env fl elf dbgsym t q.target := by
      intro q hq
      rcases cr.origin q hq with ⟨r, hr, sm, _⟩ | ⟨a, ha, sm, _⟩
      · rw [show q.offset = r.offset from sm.offset, show q.target = r.target by rw [sm]]
        exact ⟨o.behind r hr, o.pointed r hr⟩
      · rw [show q.offset = a.loc from sm.offset, show q.target = a.target by rw [sm]; rfl]
        obtain ⟨x, hx, op, hop, ha⟩ := mem_codeRels.mp ha
        rw [hv] at hx
        have hp := hlay x hx
        obtain ⟨_, h5⟩ := operandRels_origin ha
        constructor
        · rw [h.address, hv]
          have := (loc_toNat hp hop ha).1
          have := hp.lower
          bv_omega
        · refine .code s sec s1.size x op a.offset a.size _ hs w.section_ h.size ?_ hop ?_
          · rw [hbytes]; exact hx
          · rw [hb.tls] at h5; exact h5
    refine ⟨?_, fun hn => absurd hx' hn⟩
    exact {
      address := by rw [hf]; exact o.address
      name := by rw [hf]; exact o.name
      size := by rw [hf]; exact o.size
      place := by rw [hf]; exact o.place
      behind := fun q hq => by rw [show s2.address = s1.address by rw [hf]]; exact (key q hq).1
      sorted := cr.sorted
      pointed := fun q hq => (key q hq).2 }
  · rw [if_neg hx]
    exact ⟨s1, rfl, o, fun _ => rfl⟩

/-- All symbols of a tree are related to those gathered. -/
def OngoingAll (env : Env) (fl : AnalyzeFlags) (elf : Elf) (dbgsym : Option Elf) (t t1 : SymTree) : Prop :=
  ∀ s1 ∈ t1, ∃ s ∈ t, ∃ sec, Within env elf dbgsym t s sec ∧ Ongoing env fl elf dbgsym t s sec s1 ∧
    (¬ IsCode sec s → s1.rels = [])

theorem reconstruct_safe {env : Env} (hd : SaneDecoder env) {fl : AnalyzeFlags} {elf : Elf} {dbgsym : Option Elf} {st : AState}
    (hb : Basis elf dbgsym st) (hs : Sorted st.symbols)
    (hw : OngoingAll env fl elf dbgsym st.symbols st.symbols) :
    ∃ t1, reconstruct env st = .ok { st with symbols := t1 } ∧ OngoingAll env fl elf dbgsym st.symbols t1 := by
  have main : ∀ l : SymTree, (∀ s ∈ l, s ∈ st.symbols) → Sorted l →
      ∃ L, l.reverse.foldlM (reconstructStep env st) {} = .ok L ∧ OngoingAll env fl elf dbgsym st.symbols L.done ∧
        (L.last_addr = BitVec.allOnes 64 ∨ ∃ z ∈ l, z.address = L.last_addr) := by
    intro l hl hsl
    induction l with
    | nil => exact ⟨{}, rfl, fun _ h => (by cases h), Or.inl rfl⟩
    | cons s0 l ih =>
      obtain ⟨L, e, h1, h2⟩ := ih (fun s hs => hl s (List.mem_cons_of_mem _ hs)) (List.Pairwise.of_cons hsl)
      rw [List.reverse_cons, List.foldlM_append, e]
      show ∃ L', ([s0].foldlM (reconstructStep env st) L) = _ ∧ _
      rw [List.foldlM_cons]
      obtain ⟨s, hs, sec, w, o, hdata⟩ := hw s0 (hl s0 (by simp))
      have hf : Tree.floor st.sections s0.address = some sec := by
        rw [hb.sections, o.address]; exact section_floor w.section_
      have hlast : L.last_addr = BitVec.allOnes 64 ∨ ∃ z ∈ st.symbols, (adoptSection sec s0).address < z.address ∧ z.address = L.last_addr := by
        rcases h2 with h2 | ⟨z, hz, h2⟩
        · exact Or.inl h2
        · refine Or.inr ⟨z, hl z (List.mem_cons_of_mem _ hz), ?_, h2⟩
          rw [(adoptSection_same sec s0).1.address]
          exact (List.pairwise_cons.mp hsl).1 z hz
      have oa : Ongoing env fl elf dbgsym st.symbols s sec (adoptSection sec s0) := by
        have a := adoptSection_same sec s0
        exact {
          address := by rw [a.1.address]; exact o.address
          name := by rw [a.1.name]; exact o.name
          size := by rw [a.2.1]; exact o.size
          place := Or.inr (adopt_place o.place)
          behind := by rw [a.2.2.2.1, a.1.address]; exact o.behind
          sorted := by rw [a.2.2.2.1]; exact o.sorted
          pointed := by rw [a.2.2.2.1]; exact o.pointed }
      have step : ∃ s2 la, reconstructStep env st L s0 = .ok { done := s2 :: L.done, last_addr := la } ∧
          Ongoing env fl elf dbgsym st.symbols s sec s2 ∧ (¬ IsCode sec s → s2.rels = []) ∧ (la = L.last_addr ∨ la = s0.address) := by
        unfold reconstructStep
        rw [hf]
        by_cases hp : hasPrefix ".plt" (adoptSection sec s0).sec.name = true
        · refine ⟨adoptSection sec s0, L.last_addr, ?_, oa,
            fun h => by rw [(adoptSection_same sec s0).2.2.2.1]; exact hdata h, Or.inl rfl⟩
          show (if hasPrefix ".plt" (adoptSection sec s0).sec.name = true then _ else _) = _
          rw [if_pos hp]; rfl
        · obtain ⟨n, e1, e2⟩ := sizeSymbol_safe (env := env) (t := st.symbols) (sec := sec) (last := L.last_addr)
            (s := adoptSection sec s0) (by rw [oa.address]; exact w.end_) hlast
          have hn : SizeFor env st.symbols sec s n := sizeFor_again oa.address oa.size e2
          have o1 : Ongoing env fl elf dbgsym st.symbols s sec { adoptSection sec s0 with size := n } :=
            { oa with size := hn }
          obtain ⟨s2, e3, o2, o3⟩ := reconstructCode_safe (st := st) hd hb hs w
            (s1 := { adoptSection sec s0 with size := n }) ⟨oa.address, adopt_place o.place, hn⟩ o1
          refine ⟨s2, s2.address, ?_, o2, fun h => by
            rw [o3 h]
            show (adoptSection sec s0).rels = []
            rw [(adoptSection_same sec s0).2.2.2.1]; exact hdata h, Or.inr (by rw [o2.address, o.address])⟩
          show (if hasPrefix ".plt" (adoptSection sec s0).sec.name = true then _ else _) = _
          rw [if_neg hp, e1]
          show (reconstructCode env st sec { adoptSection sec s0 with size := n } >>= _) = _
          rw [e3]; rfl
      obtain ⟨s2, la, e1, o2, o3, h3⟩ := step
      refine ⟨_, by rw [e1]; rfl, ?_, ?_⟩
      · intro y hy
        rcases List.mem_cons.mp hy with rfl | hy
        · exact ⟨s, hs, sec, w, o2, o3⟩
        · exact h1 y hy
      · rcases h3 with h3 | h3
        · rcases h2 with h2 | ⟨z, hz, h2⟩
          · exact Or.inl (h3.trans h2)
          · exact Or.inr ⟨z, List.mem_cons_of_mem _ hz, h2.trans h3.symm⟩
        · exact Or.inr ⟨s0, by simp, h3.symm⟩
  obtain ⟨L, e, h1, _⟩ := main st.symbols (fun _ h => h) hs
  refine ⟨L.done, ?_, h1⟩
  unfold reconstruct
  rw [e]; rfl

/-! ### Internal identifiers -/

theorem addRelocations_safe {env : Env} {fl : AnalyzeFlags} {st : AState} {sec : ElfSec} {a : Addr} {s : Symbol}
    (hs : Sorted s.rels) (hrel : Sorted st.relative_relocations)
    (h : ∀ o ∈ st.relative_relocations, s.address ≤ o → o < a + s.size → (o - sec.virt_addr).toNat + 8 ≤ sec.data.length) :
    ∃ s', addRelocations env fl st sec a s = .ok s' := by
  have hb := (foldRels_added fl.resolve_internal
    (relOfElf env s.address fl.resolve_internal st.global_offset_table)
    (treeRange st.relocations (TLS.virt_addr s.address) (a + s.size)) hs).base
  unfold addRelocations
  obtain ⟨s', e, _⟩ := foldlM_safe (f := addRelative fl.resolve_internal sec) (fun _ => True)
    (treeRange st.relative_relocations
      ((treeRange st.relocations (TLS.virt_addr s.address) (a + s.size)).foldl
        (fun s' r => addRel fl.resolve_internal s' (relOfElf env s.address fl.resolve_internal st.global_offset_table r)) s).address
      (a + ((treeRange st.relocations (TLS.virt_addr s.address) (a + s.size)).foldl
        (fun s' r => addRel fl.resolve_internal s' (relOfElf env s.address fl.resolve_internal st.global_offset_table r)) s).size))
    _ trivial (fun o ho s' _ => by
      obtain ⟨h1, h2, h3⟩ := (mem_treeRange hrel _ _ _).mp ho
      rw [hb.address] at h2
      rw [hb.size] at h3
      unfold addRelative
      rw [readBytes_of (h o h1 h2 h3) rfl]
      exact ⟨_, rfl, trivial⟩)
  exact ⟨s', e⟩

theorem virt_le (a : Addr) : TLS.virt_addr a ≤ a := by
  unfold TLS.virt_addr
  rw [BitVec.le_def, BitVec.toNat_and]
  exact Nat.and_le_left

/-- Relocations added to a symbol. -/
theorem addRelocations_ongoing {env : Env} {fl : AnalyzeFlags} {elf : Elf} {dbgsym : Option Elf} {t : SymTree} {s s1 s2 : Symbol}
    {sec : ElfSec} {st : AState} (hb : Basis elf dbgsym st) (hl : Loaded elf sec)
    (o : Ongoing env fl elf dbgsym t s sec s1) (h : addRelocations env fl st sec (TLS.virt_addr s1.address) s1 = .ok s2) :
    Ongoing env fl elf dbgsym t s sec s2 ∧ s2.sec = s1.sec := by
  have ha := addRelocations_added o.sorted h
  have hs1 : Sorted st.relocations := by rw [hb.relocations]; exact sorted_ofList _
  have hs2 : Sorted st.relative_relocations := by rw [hb.relative]; exact sorted_ofList _
  have hx := addRelocations_exact o.sorted hs1 hs2 h
  have key : ∀ q ∈ s2.rels, TLS.virt_addr s1.address ≤ q.offset ∧ Pointed env fl elf dbgsym t q.target := by
    intro q hq
    rcases (hx q).mp hq with hq | ⟨e, he, h1, _, rfl, _⟩ | ⟨p, hp, h1, _, ⟨bytes, hr, rfl⟩, _⟩
    · exact ⟨o.behind q hq, o.pointed q hq⟩
    · rw [hb.relocations] at he
      refine ⟨h1, ?_⟩
      rw [hb.got]
      exact .relocation e _ (mem_ofList he)
    · rw [hb.relative] at hp
      refine ⟨?_, ?_⟩
      · show TLS.virt_addr s1.address ≤ p
        exact BitVec.le_trans (virt_le _) h1
      · unfold readBytes at hr
        split at hr
        · cases hr
          exact .packed p sec (mem_ofList hp) hl.1
        · cases hr
  refine ⟨?_, ha.base.sec⟩
  exact {
    address := ha.base.address.trans o.address
    name := ha.base.name.trans o.name
    size := by rw [ha.base.size]; exact o.size
    place := by rw [ha.base.sec]; exact o.place
    behind := fun q hq => by rw [ha.base.address]; exact (key q hq).1
    sorted := ha.sorted
    pointed := fun q hq => (key q hq).2 }

theorem ceil_some {t : SymTree} {a : Addr} (h : ∃ z ∈ t, a ≤ z.address) : ∃ z, Tree.ceil t a = some z := by
  obtain ⟨z, hz, h⟩ := h
  unfold Tree.ceil
  cases hf : t.find? (fun x => decide (a ≤ key x)) with
  | some y => exact ⟨y, rfl⟩
  | none => exact absurd (decide_eq_true h) (List.find?_eq_none.mp hf z hz)

theorem hashExec_safe {env : Env} {fl : AnalyzeFlags} {elf : Elf} {dbgsym : Option Elf} {t : SymTree} {s s1 : Symbol}
    {sec : ElfSec} {st : AState} (hb : Basis elf dbgsym st) (ht : ∀ z ∈ t, ∃ z' ∈ st.symbols, z'.address = z.address)
    (w : Within env elf dbgsym t s sec) (hx : IsCode sec s) (o : Ongoing env fl elf dbgsym t s sec s1) :
    ∃ x, hashExec env fl st sec s1 = .ok x ∧ Ongoing env fl elf dbgsym t s sec x.sym := by
  obtain ⟨h1, h2, h3⟩ := w.code hx
  have hc := h3 _ o.size
  have hs2 : Sorted st.relative_relocations := by rw [hb.relative]; exact sorted_ofList _
  have hv : TLS.virt_addr s.address = s.address := TLS.virt_of_regular h2
  have hbelow := hc.below
  obtain ⟨s2, e2⟩ := addRelocations_safe (env := env) (fl := fl) (st := st) (sec := sec) (a := TLS.virt_addr s1.address) o.sorted hs2
    (fun p hp ha hq => by
      rw [hb.relative] at hp
      rw [o.address] at ha hq
      refine hc.stored.pointers p (mem_ofList hp) ha ?_
      rw [hv] at hq ⊢
      have := BitVec.lt_def.mp hq
      rw [BitVec.toNat_add, Nat.mod_eq_of_lt hbelow] at this
      exact this)
  obtain ⟨o2, e3⟩ := addRelocations_ongoing hb w.section_.loaded o e2
  have hsz : s2.size = s1.size := (addRelocations_added o.sorted e2).base.size
  have hr := readBytes_stored hc.stored
  rw [← hsz] at hr
  unfold hashExec
  simp only
  rw [massert_ok (by rw [h1]; rfl)]
  generalize hbytes : (sec.data.drop (TLS.virt_addr s.address - sec.virt_addr).toNat).take s2.size.toNat = bytes at hr
  rw [← o.address] at hr
  change ∃ x, (addRelocations env fl st sec (TLS.virt_addr s1.address) s1 >>= _) = _ ∧ _
  rw [e2]
  change ∃ x, (readBytes sec.data (TLS.virt_addr s1.address - sec.virt_addr) s2.size >>= _) = _ ∧ _
  rw [hr]
  generalize he : execLoop env (symCtx env st s2) (disasm env (TLS.virt_addr s1.address) bytes) (execStart s2) = e
  have hft : ∃ s3, fallThrough env.build st.symbols e (applyExec s2 e) = .ok s3 ∧ ∃ r, s3 = { applyExec s2 e with refs := r } := by
    unfold fallThrough
    by_cases hcond : (e.leave && !decide (e.max_branch > e.last_instruction)) = true
    · rw [if_pos hcond]; exact ⟨_, rfl, _, rfl⟩
    · rw [if_neg hcond]
      obtain ⟨z, hz, hle⟩ := hc.next
      obtain ⟨z', hz', hza⟩ := ht z hz
      obtain ⟨y, hy⟩ := ceil_some (t := st.symbols) (a := (applyExec s2 e).address + (applyExec s2 e).size) ⟨z', hz', by
        show s2.address + s2.size ≤ z'.address
        rw [hza, o2.address, hsz]; exact hle⟩
      rw [hy]
      exact ⟨_, rfl, _, rfl⟩
  obtain ⟨s3, e4, r, e5⟩ := hft
  refine ⟨⟨s3, e.hashed, e.content⟩, ?_, ?_⟩
  · subst he
    change (fallThrough env.build st.symbols _ _ >>= _) = _
    rw [e4]; rfl
  · rw [e5]
    exact {
      address := o2.address
      name := o2.name
      size := o2.size
      place := o2.place
      behind := o2.behind
      sorted := o2.sorted
      pointed := o2.pointed }

theorem segmentFor_ok {elf : Elf} {sec : ElfSec} {a : Addr} {seg : ElfSeg} {dbgsym : Option Elf} {st : AState}
    (hb : Basis elf dbgsym st) (h : SegmentFor elf sec a seg) : dataSegment st sec a = .ok seg := by
  unfold dataSegment
  rcases h with ⟨h1, h2⟩ | ⟨h1, h2, h3, h4⟩
  · rw [h1, hb.tls, h2]; rfl
  · have hf : Tree.floor (Tree.ofList (loadSegments elf)) a = some seg := by
      have hmem : seg ∈ Tree.ofList (loadSegments elf) := by
        obtain ⟨y, hy, hyk⟩ := ofList_key h2
        have hl := mem_ofList hy
        have hyk' : y.offset = seg.offset := hyk
        rcases h4 y hl (by rw [hyk']; exact h3) with rfl | hlt
        · exact hy
        · rw [hyk'] at hlt; omega
      refine (floor_eq_some_iff (sorted_ofList _)).mpr ⟨hmem, BitVec.le_def.mpr h3, fun seg' hseg' hle => ?_⟩
      rcases h4 seg' (mem_ofList hseg') (BitVec.le_def.mp hle) with rfl | hlt
      · exact bv_le_refl _
      · exact BitVec.le_def.mpr (Nat.le_of_lt hlt)
    rw [h1, hb.segments, hf]; rfl

theorem hashData_safe {env : Env} {fl : AnalyzeFlags} {elf : Elf} {dbgsym : Option Elf} {t : SymTree} {s s1 : Symbol}
    {sec : ElfSec} {st : AState} (hb : Basis elf dbgsym st)
    (w : Within env elf dbgsym t s sec) (hx : ¬ IsCode sec s) (hr0 : s1.rels = []) (o : Ongoing env fl elf dbgsym t s sec s1) :
    ∃ x, hashData env fl st sec s1 = .ok x ∧ Ongoing env fl elf dbgsym t s sec x.sym := by
  obtain ⟨seg, h1, h2⟩ := w.data hx
  have hc := h2 _ o.size
  have hs1 : Sorted st.relocations := by rw [hb.relocations]; exact sorted_ofList _
  have hs2 : Sorted st.relative_relocations := by rw [hb.relative]; exact sorted_ofList _
  have hseg := hc.segment
  have hlim := (env.align_up (seg.virt_addr + seg.virt_size) seg.alignment).isLt
  have hsum : (TLS.virt_addr s.address + s1.size).toNat = (TLS.virt_addr s.address).toNat + s1.size.toNat := by
    rw [BitVec.toNat_add, Nat.mod_eq_of_lt]; omega
  unfold hashData
  simp only
  rw [segmentFor_ok hb (by rw [o.address]; exact h1)]
  change ∃ x, (massert env.build (decide (TLS.virt_addr s1.address + s1.size ≤
    env.align_up (seg.virt_addr + seg.virt_size) seg.alignment)) >>= _) = _ ∧ _
  rw [massert_ok (by
    refine decide_eq_true (BitVec.le_def.mpr ?_)
    rw [o.address, hsum]; exact hseg)]
  cases hbss : isBss sec seg (TLS.virt_addr s1.address) with
  | true => exact ⟨⟨s1, _, true⟩, rfl, o⟩
  | false =>
    have hn : ¬ NoContent sec seg (TLS.virt_addr s.address) := by
      rw [o.address] at hbss
      unfold isBss at hbss
      rw [Bool.or_eq_false_iff, decide_eq_false_iff_not] at hbss
      rintro (hn | hn)
      · rw [hn] at hbss; exact absurd hbss.1 (by decide)
      · exact hbss.2 hn
    have hst := hc.stored hn
    have hrange : ∀ p : Addr, p < TLS.virt_addr s1.address + s1.size → p.toNat < (TLS.virt_addr s.address).toNat + s1.size.toNat := by
      intro p hp
      rw [o.address] at hp
      have := BitVec.lt_def.mp hp
      rw [hsum] at this
      exact this
    obtain ⟨s2, e2⟩ := addRelocations_safe (env := env) (fl := fl) (st := st) (sec := sec) (a := TLS.virt_addr s1.address) o.sorted hs2
      (fun p hp ha hq => by
        rw [hb.relative] at hp
        rw [o.address] at ha
        exact hst.pointers p (mem_ofList hp) ha (hrange p hq))
    obtain ⟨o2, e3⟩ := addRelocations_ongoing hb w.section_.loaded o e2
    have hsz : s2.size = s1.size := (addRelocations_added o.sorted e2).base.size
    have hr := readBytes_stored hst
    rw [← hsz] at hr
    generalize hbytes : (sec.data.drop (TLS.virt_addr s.address - sec.virt_addr).toNat).take s2.size.toNat = bytes at hr
    rw [← o.address] at hr
    have hexact := addRelocations_exact o.sorted hs1 hs2 e2
    have hdc : ∃ c, dataContent env st.global_offset_table (TLS.virt_addr s1.address) s2.size s2.rels bytes = .ok c := by
      unfold dataContent
      simp only
      obtain ⟨r, er, _⟩ := foldlM_safe
        (f := dataStep env (TLS.virt_addr s1.address) (TLS.virt_addr s1.address + s2.size) bytes) (fun _ => True)
        s2.rels ([], if TLS.virt_addr s1.address = st.global_offset_table then TLS.virt_addr s1.address + 16
          else TLS.virt_addr s1.address) trivial (fun q hq acc _ => by
            unfold dataStep
            simp only
            by_cases h0 : env.reloc_size q.type = 0
            · rw [if_pos h0]; exact ⟨_, rfl, trivial⟩
            · rw [if_neg h0]
              have hend : q.offset.toNat + (env.reloc_size q.type).toNat ≤ (TLS.virt_addr s.address).toNat + s1.size.toNat := by
                rcases (hexact q).mp hq with hq | ⟨e, he, ha, hlt, rfl, _⟩ | ⟨p, hp, ha, hlt, ⟨b, _, rfl⟩, _⟩
                · rw [hr0] at hq; cases hq
                · rw [hb.relocations] at he
                  rw [o.address] at ha
                  exact hc.whole hn e (mem_ofList he) (BitVec.le_def.mp ha) (hrange _ hlt)
                · rw [hb.relative] at hp
                  rw [o.address] at ha
                  exact hc.wholePacked hn p (mem_ofList hp) ha (hrange _ hlt)
              rw [massert_ok (by
                refine decide_eq_true (BitVec.le_def.mpr ?_)
                rw [hsz, o.address, hsum, BitVec.toNat_add, Nat.mod_eq_of_lt (by omega)]
                exact hend)]
              exact ⟨_, rfl, trivial⟩)
      rw [er]
      exact ⟨_, rfl⟩
    obtain ⟨c, hdc⟩ := hdc
    refine ⟨⟨s2, pageOffset s2 (TLS.virt_addr s1.address) ++ c, true⟩, ?_, o2⟩
    change (addRelocations env fl st sec (TLS.virt_addr s1.address) s1 >>= _) = _
    rw [e2]
    change (readBytes sec.data (TLS.virt_addr s1.address - sec.virt_addr) s2.size >>= _) = _
    rw [hr]
    change (dataContent env st.global_offset_table (TLS.virt_addr s1.address) s2.size s2.rels bytes >>= _) = _
    rw [hdc]; rfl

theorem hashSymbol_safe {env : Env} {fl : AnalyzeFlags} {elf : Elf} {dbgsym : Option Elf} {t : SymTree} {s s1 : Symbol}
    {sec : ElfSec} {st : AState} {last : Addr} (hb : Basis elf dbgsym st)
    (ht : ∀ z ∈ t, ∃ z' ∈ st.symbols, z'.address = z.address)
    (hl : last = BitVec.allOnes 64 ∨ ∃ z ∈ t, s1.address < z.address ∧ z.address = last)
    (w : Within env elf dbgsym t s sec) (o : Ongoing env fl elf dbgsym t s sec s1) (hr0 : ¬ IsCode sec s → s1.rels = []) :
    ∃ x, hashSymbol env fl st last s1 = .ok x ∧ Ongoing env fl elf dbgsym t s sec x.sym ∧
      x.sym.sec = (adoptSection sec s).sec := by
  have hf : Tree.floor st.sections s1.address = some sec := by rw [hb.sections, o.address]; exact section_floor w.section_
  suffices h : ∃ x, hashSymbol env fl st last s1 = .ok x ∧ Ongoing env fl elf dbgsym t s sec x.sym by
    obtain ⟨x, e, o1⟩ := h
    refine ⟨x, e, o1, ?_⟩
    obtain ⟨_, _, sec', s2, h1, h2, h3, _⟩ := hashSymbol_same o.sorted e
    rw [hf] at h1
    cases h1
    rw [h3, h2]
    exact adopt_place o.place
  have a := adoptSection_same sec s1
  obtain ⟨n, e1, e2⟩ := sizeSymbol_safe (env := env) (t := t) (sec := sec) (last := last)
    (s := adoptSection sec s1) (by rw [a.1.address, o.address]; exact w.end_) (by rw [a.1.address]; exact hl)
  have hn : SizeFor env t sec s n := sizeFor_again (by rw [a.1.address]; exact o.address) (by rw [a.2.1]; exact o.size) e2
  have hplace : (adoptSection sec s1).sec = (adoptSection sec s).sec := adopt_place o.place
  have o1 : Ongoing env fl elf dbgsym t s sec { adoptSection sec s1 with size := n } := {
    address := a.1.address.trans o.address
    name := a.1.name.trans o.name
    size := hn
    place := Or.inr hplace
    behind := by
      show ∀ q ∈ (adoptSection sec s1).rels, TLS.virt_addr (adoptSection sec s1).address ≤ q.offset
      rw [a.2.2.2.1, a.1.address]; exact o.behind
    sorted := by
      show Sorted (adoptSection sec s1).rels
      rw [a.2.2.2.1]; exact o.sorted
    pointed := by
      show ∀ q ∈ (adoptSection sec s1).rels, _
      rw [a.2.2.2.1]; exact o.pointed }
  unfold hashSymbol
  rw [hf]
  change ∃ x, (sizeSymbol env sec last (adoptSection sec s1) >>= _) = _ ∧ _
  rw [e1]
  change ∃ x, (if (adoptSection sec s1).sec.executable = true then _ else _) = _ ∧ _
  by_cases hx : IsCode sec s
  · have hx' : (adoptSection sec s1).sec.executable = true := by rw [hplace, adopt_code]; exact hx
    simp only [if_pos hx']
    exact hashExec_safe hb ht w hx o1
  · have hx' : ¬ (adoptSection sec s1).sec.executable = true := by rw [hplace, adopt_code]; exact hx
    simp only [if_neg hx']
    exact hashData_safe hb w hx (by
      show (adoptSection sec s1).rels = []
      rw [a.2.2.2.1]; exact hr0 hx) o1

/-- Symbols after their internal identifier has been determined. -/
def HashedAll (env : Env) (fl : AnalyzeFlags) (elf : Elf) (dbgsym : Option Elf) (t t1 : SymTree) : Prop :=
  ∀ s1 ∈ t1, ∃ s ∈ t, ∃ sec, Within env elf dbgsym t s sec ∧ Ongoing env fl elf dbgsym t s sec s1 ∧
    s1.sec = (adoptSection sec s).sec

theorem hashInternal_safe {env : Env} {fl : AnalyzeFlags} {elf : Elf} {dbgsym : Option Elf} {t : SymTree} {st : AState}
    (hb : Basis elf dbgsym st) (hs : SymsOK st.symbols) (ht : ∀ z ∈ t, ∃ z' ∈ st.symbols, z'.address = z.address)
    (hw : OngoingAll env fl elf dbgsym t st.symbols) :
    ∃ t1, hashInternal env fl st = .ok { st with symbols := t1 } ∧ HashedAll env fl elf dbgsym t t1 := by
  have ht' : ∀ z ∈ st.symbols, ∃ z' ∈ t, z'.address = z.address := by
    intro z hz
    obtain ⟨s, hs, _, _, o, _⟩ := hw z hz
    exact ⟨s, hs, o.address.symm⟩
  have main : ∀ l : SymTree, (∀ s ∈ l, s ∈ st.symbols) → Sorted l →
      ∃ L, l.reverse.foldlM (hashStep env fl st) {} = .ok L ∧ HashedAll env fl elf dbgsym t L.done ∧
        L.last_addr = lastAddr l := by
    intro l hl hsl
    induction l with
    | nil => exact ⟨{}, rfl, fun _ h => (by cases h), rfl⟩
    | cons s0 l ih =>
      obtain ⟨L, e, h1, h2⟩ := ih (fun s hs => hl s (List.mem_cons_of_mem _ hs)) (List.Pairwise.of_cons hsl)
      rw [List.reverse_cons, List.foldlM_append, e]
      show ∃ L', ([s0].foldlM (hashStep env fl st) L) = _ ∧ _
      rw [List.foldlM_cons]
      obtain ⟨s, hs, sec, w, o, hdata⟩ := hw s0 (hl s0 (by simp))
      obtain ⟨x, e1, o1, e2⟩ := hashSymbol_safe (last := L.last_addr) hb ht (by
        rw [h2]
        cases l with
        | nil => exact Or.inl rfl
        | cons y l =>
          obtain ⟨z, hz, hza⟩ := ht' y (hl y (by simp))
          refine Or.inr ⟨z, hz, ?_, hza⟩
          rw [hza]
          exact (List.pairwise_cons.mp hsl).1 y (by simp)) w o hdata
      refine ⟨_, by unfold hashStep; rw [e1]; rfl, ?_, rfl⟩
      intro y hy
      rcases List.mem_cons.mp hy with rfl | hy
      · refine ⟨s, hs, sec, w, ?_⟩
        unfold finishSymbol
        split
        · exact ⟨o1, e2⟩
        · exact ⟨⟨o1.address, o1.name, o1.size, o1.place, o1.behind, o1.sorted, o1.pointed⟩, e2⟩
      · exact h1 y hy
  obtain ⟨L, e, h1, _⟩ := main st.symbols (fun _ h => h) hs.sorted
  refine ⟨L.unused.foldl Tree.erase L.done, ?_, fun y hy => h1 y ?_⟩
  · unfold hashInternal
    rw [e]; rfl
  · have hsub : ∀ (u : List Addr) (d : SymTree), y ∈ u.foldl Tree.erase d → y ∈ d := by
      intro u
      induction u with
      | nil => exact fun d h => h
      | cons a u ih => exact fun d h => (List.mem_filter.mp (ih _ h)).1
    exact hsub _ _ hy

/-! ### External identifiers -/

/-- What does not change any more. -/
def fixedPart (s : Symbol) : Addr × Addr × Option String × Section × List Rel := (s.address, s.size, s.name, s.sec, s.rels)

theorem fixed_modify (t : SymTree) (a : Addr) (f : Symbol → Symbol) (h : ∀ s, fixedPart (f s) = fixedPart s) :
    (Tree.modify t a f).map fixedPart = t.map fixedPart := by
  unfold Tree.modify
  rw [List.map_map]
  refine List.map_congr_left (fun s _ => ?_)
  show fixedPart (if key s = a then f s else s) = fixedPart s
  split
  · exact h s
  · rfl

theorem fixed_extRef (env : Env) (got address : Addr) (refs : List Addr) (acc : SymTree × List (BitVec 8)) :
    ((refs.foldl (extRefStep env got address) acc).1).map fixedPart = acc.1.map fixedPart := by
  induction refs generalizing acc with
  | nil => rfl
  | cons r refs ih =>
    rw [List.foldl_cons, ih]
    unfold extRefStep
    split
    · split
      · split
        · rfl
        · split
          · rfl
          · split
            · rfl
            · exact fixed_modify _ _ _ (fun _ => rfl)
      · rfl
    · rfl

theorem mem_fixed {t t' : SymTree} (h : t'.map fixedPart = t.map fixedPart) {s : Symbol} (hs : s ∈ t') :
    ∃ s0 ∈ t, fixedPart s0 = fixedPart s := by
  have : fixedPart s ∈ t'.map fixedPart := List.mem_map.mpr ⟨s, hs, rfl⟩
  rw [h] at this
  obtain ⟨s0, h1, h2⟩ := List.mem_map.mp this
  exact ⟨s0, h1, h2⟩

theorem find_some {t : SymTree} {a : Addr} (h : ∃ s ∈ t, s.address = a) : ∃ s, Tree.find t a = some s := by
  obtain ⟨z, hz, h⟩ := h
  unfold Tree.find
  cases hf : t.find? (fun x => key x == a) with
  | some y => exact ⟨y, rfl⟩
  | none => exact absurd (beq_iff_eq.mpr h) (List.find?_eq_none.mp hf z hz)

theorem hashExternal_safe {env : Env} {st : AState}
    (h : ∀ s ∈ st.symbols, ∀ q ∈ s.rels, TLS.virt_addr s.address ≤ q.offset) :
    ∃ t, hashExternal env st = .ok { st with symbols := t } ∧ t.map fixedPart = st.symbols.map fixedPart := by
  unfold hashExternal
  obtain ⟨t, e, ht⟩ := foldlM_safe (f := extStep env st.global_offset_table)
    (fun t => t.map fixedPart = st.symbols.map fixedPart) (st.symbols.map (·.address)) st.symbols rfl (fun a ha t ht => by
      obtain ⟨s0, hs0, rfl⟩ := List.mem_map.mp ha
      obtain ⟨s1, hs1, hs2⟩ := mem_fixed ht.symm hs0
      obtain ⟨s, hs⟩ := find_some ⟨s1, hs1, (congrArg (·.1) hs2 : s1.address = s0.address)⟩
      obtain ⟨s2, hs3, hs4⟩ := mem_fixed ht (find_mem hs).1
      unfold extStep
      rw [hs]
      simp only
      by_cases hc : (s.rels.isEmpty && s.refs.isEmpty) = true
      · rw [if_pos hc]; exact ⟨t, rfl, ht⟩
      · rw [if_neg hc]
        obtain ⟨acc, ea, _⟩ := foldlM_safe (f := extRelStep env.build s.address) (fun _ => True) s.rels ([], s.refs) trivial
          (fun q hq acc _ => by
            unfold extRelStep
            have hr : s2.rels = s.rels := congrArg (·.2.2.2.2) hs4
            have had : s2.address = s.address := congrArg (·.1) hs4
            rw [massert_ok (decide_eq_true (by
              rw [← had]
              exact h s2 hs3 q (by rw [hr]; exact hq)))]
            exact ⟨_, rfl, trivial⟩)
        rw [ea]
        refine ⟨_, rfl, ?_⟩
        rw [fixed_modify _ _ _ (fun _ => by rfl), fixed_extRef]
        rw [← ht]
        exact fixed_modify _ _ _ (fun _ => rfl))
  rw [e]
  exact ⟨t, rfl, ht⟩

/-! ### Identifiers of positions -/

theorem offsetRel_safe {env : Env} {symbols : SymTree} {s : Symbol} {q : Rel}
    (h : q.target = 0 ∨ ∃ z ∈ symbols, z.address ≤ q.target) : ∃ b, offsetRel env symbols s q = .ok b := by
  unfold offsetRel
  by_cases h0 : q.target = 0
  · rw [if_pos h0]; exact ⟨_, rfl⟩
  · rw [if_neg h0]
    split
    · exact ⟨_, rfl⟩
    · obtain ⟨z, hz, hle⟩ := h.resolve_left h0
      cases hf : Tree.floor symbols q.target with
      | some y => exact ⟨_, rfl⟩
      | none => exact absurd hle (bv_not_le.mpr (floor_eq_none_iff.mp hf z hz))

theorem mapM_safe {α β : Type} {f : α → M β} (l : List α) (h : ∀ x ∈ l, ∃ y, f x = .ok y) : ∃ ys, l.mapM f = .ok ys := by
  induction l with
  | nil => exact ⟨[], rfl⟩
  | cons x l ih =>
    obtain ⟨y, hy⟩ := h x (by simp)
    obtain ⟨ys, hys⟩ := ih (fun z hz => h z (List.mem_cons_of_mem _ hz))
    rw [List.mapM_cons, hy]
    show ∃ ys, (l.mapM f >>= fun r => pure (y :: r)) = _
    rw [hys]
    exact ⟨_, rfl⟩

theorem offsetInsns_safe {env : Env} {symbols : SymTree} {s : Symbol} (steps : List Step) (l : OffLoop)
    (h : ∀ q ∈ l.rels, q.target = 0 ∨ ∃ z ∈ symbols, z.address ≤ q.target) :
    ∃ l', offsetInsns env symbols s steps l = .ok l' := by
  induction steps generalizing l with
  | nil => exact ⟨l, rfl⟩
  | cons x steps ih =>
    unfold offsetInsns
    by_cases hk : env.kind x.insn.id = .nop
    · rw [if_pos hk]; exact ih l h
    · rw [if_neg hk]
      have h1 : ∃ l1, offsetInsn env symbols s l x = .ok l1 ∧ ∀ q ∈ l1.rels, q ∈ l.rels := by
        unfold offsetInsn
        obtain ⟨ys, hys⟩ := mapM_safe (f := offsetRel env symbols s) (l.rels.takeWhile (fun r => decide (r.offset < x.address)))
          (fun q hq => offsetRel_safe (h q ((List.takeWhile_sublist _).mem hq)))
        simp only
        rw [hys]
        exact ⟨_, rfl, fun q hq => (List.dropWhile_sublist _).mem hq⟩
      obtain ⟨l1, e1, h1⟩ := h1
      rw [e1]
      show ∃ l', (if l1.todo.isEmpty = true then _ else _) = _
      split
      · exact ⟨l1, rfl⟩
      · exact ih l1 (fun q hq => h q (h1 q hq))

theorem functionOffsets_safe {env : Env} {st : AState}
    (hsec : ∀ s ∈ st.symbols, s.sec.executable = true → ∃ sec bytes, Tree.floor st.sections s.address = some sec ∧
      readBytes sec.data (s.address - sec.virt_addr) s.size = .ok bytes)
    (hlow : ∀ s ∈ st.symbols, ∀ q ∈ s.rels, q.target = 0 ∨ ∃ z ∈ st.symbols, z.address ≤ q.target) :
    ∃ r, functionOffsets env st = .ok r := by
  have main : ∀ fuel (symbols : SymTree) (todo : List Addr), symbols.map fixedPart = st.symbols.map fixedPart →
      ∃ r, offsetLoop env st fuel symbols todo = .ok r := by
    intro fuel
    induction fuel with
    | zero =>
      intro symbols todo _
      cases todo with
      | nil => exact ⟨_, rfl⟩
      | cons t rest => exact ⟨_, rfl⟩
    | succ fuel ih =>
      intro symbols todo hf
      cases todo with
      | nil => exact ⟨_, rfl⟩
      | cons t rest =>
        unfold offsetLoop
        have hbody : ∃ r, offsetBody env st symbols t rest = .ok r ∧ r.1.map fixedPart = st.symbols.map fixedPart := by
          unfold offsetBody
          cases hfl : Tree.floor symbols t with
          | none => exact ⟨_, rfl, hf⟩
          | some s =>
            simp only
            generalize (if t = s.address then rest else t :: rest) = todo
            cases todo with
            | nil => exact ⟨_, rfl, hf⟩
            | cons n later =>
              simp only
              split
              · exact ⟨_, rfl, hf⟩
              · by_cases hx : s.sec.executable = true
                · rw [if_neg (by rw [hx]; decide)]
                  obtain ⟨s0, hs0, he⟩ := mem_fixed hf (floor_mem hfl)
                  have e1 : s0.address = s.address := congrArg (·.1) he
                  have e2 : s0.size = s.size := congrArg (·.2.1) he
                  have e3 : s0.sec = s.sec := congrArg (·.2.2.2.1) he
                  have e4 : s0.rels = s.rels := congrArg (·.2.2.2.2) he
                  obtain ⟨sec, bytes, h1, h2⟩ := hsec s0 hs0 (by rw [e3]; exact hx)
                  have hol : ∃ l, offsetSymbol env st symbols s (n :: later) = .ok l := by
                    unfold offsetSymbol
                    rw [e1] at h1 h2
                    rw [e2] at h2
                    rw [h1]
                    change ∃ l, (readBytes sec.data (s.address - sec.virt_addr) s.size >>= _) = _
                    rw [h2]
                    refine offsetInsns_safe _ _ (fun q hq => ?_)
                    rcases hlow s0 hs0 q (by rw [e4]; exact hq) with h | ⟨z, hz, h⟩
                    · exact Or.inl h
                    · obtain ⟨z', hz', he'⟩ := mem_fixed hf.symm hz
                      exact Or.inr ⟨z', hz', by rw [show z'.address = z.address from congrArg (·.1) he']; exact h⟩
                  obtain ⟨l, hl⟩ := hol
                  rw [hl]
                  refine ⟨_, rfl, ?_⟩
                  rw [← hf]
                  exact fixed_modify _ _ _ (fun _ => rfl)
                · rw [if_pos (by rw [Bool.not_eq_true] at hx; rw [hx]; rfl)]
                  exact ⟨_, rfl, hf⟩
        obtain ⟨r, e, hr⟩ := hbody
        rw [e]
        exact ih r.1 r.2 hr
  obtain ⟨r, e⟩ := main (relTargets st.symbols).length st.symbols (relTargets st.symbols) rfl
  unfold functionOffsets
  simp only
  rw [e]
  exact ⟨_, rfl⟩

/-! ### The complete analysis -/

theorem basis_gather {env : Env} {fl : AnalyzeFlags} {elf : Elf} {dbgsym : Option Elf} {st : AState}
    (h : gather env fl elf dbgsym = .ok st) : Basis elf dbgsym st := by
  obtain ⟨st1, t, g⟩ := gather_ok h
  have hp := gather_part h
  refine ⟨g.sections, ?_, ?_, ?_, ?_, ?_⟩
  · exact congrArg FilePart.segments hp
  · exact congrArg FilePart.tls hp
  · exact congrArg FilePart.got hp
  · exact congrArg FilePart.relocations hp
  · exact congrArg FilePart.relative hp

theorem identify_safe {env : Env} {fl : AnalyzeFlags} {elf : Elf} {dbgsym : Option Elf} {st : AState}
    (hd : fl.reconstruct = true → SaneDecoder env) (hb : Basis elf dbgsym st) (hok : SymsOK st.symbols)
    (hnew : ∀ s ∈ st.symbols, Fresh s) (hc : Contained env fl elf dbgsym st.symbols) :
    ∃ r, identify env fl st = .ok r := by
  have hw0 : OngoingAll env fl elf dbgsym st.symbols st.symbols := by
    intro s hs
    obtain ⟨sec, w⟩ := hc.within s hs
    have hr := (hnew s hs).rels
    refine ⟨s, hs, sec, w, ?_, fun _ => hr⟩
    exact {
      address := rfl
      name := rfl
      size := Or.inl rfl
      place := Or.inl rfl
      behind := by rw [hr]; exact fun _ h => (by cases h)
      sorted := by rw [hr]; exact sorted_nil
      pointed := by rw [hr]; exact fun _ h => (by cases h) }
  -- relocations
  obtain ⟨t1, e1, hok1, hw1, ha1⟩ : ∃ t1, (if fl.reconstruct then reconstruct env st else .ok st) = .ok { st with symbols := t1 } ∧
      SymsOK t1 ∧ OngoingAll env fl elf dbgsym st.symbols t1 ∧
      ∀ z ∈ st.symbols, ∃ z' ∈ t1, z'.address = z.address ∧ z'.name = z.name := by
    cases hr : fl.reconstruct with
    | false => exact ⟨st.symbols, rfl, hok, hw0, fun z hz => ⟨z, hz, rfl, rfl⟩⟩
    | true =>
      obtain ⟨t1, e, hw⟩ := reconstruct_safe (hd hr) hb hok.sorted hw0
      refine ⟨t1, e, reconstruct_symsOK hok e, hw, fun z hz => ?_⟩
      obtain ⟨z', hz', h⟩ := zip_mem_left (reconstruct_ok e).2 hz
      exact ⟨z', hz', (recon_enlarged h).1.address, (recon_enlarged h).1.name⟩
  -- identifiers
  have hb1 : Basis elf dbgsym { st with symbols := t1 } := hb.symbols t1
  obtain ⟨t2, e2, hw2⟩ := hashInternal_safe (st := { st with symbols := t1 }) hb1 hok1
    (fun z hz => by obtain ⟨z', h1, h2, _⟩ := ha1 z hz; exact ⟨z', h1, h2⟩) hw1
  obtain ⟨t3, e3, hf⟩ := hashExternal_safe (env := env) (st := { { st with symbols := t1 } with symbols := t2 })
    (fun s hs => by obtain ⟨_, _, _, _, o, _⟩ := hw2 s hs; exact o.behind)
  -- positions
  have e4 : ∃ r, (if fl.reconstruct then functionOffsets env { { { st with symbols := t1 } with symbols := t2 } with symbols := t3 }
      else .ok { { { st with symbols := t1 } with symbols := t2 } with symbols := t3 }) = .ok r := by
    cases hr : fl.reconstruct with
    | false => exact ⟨_, rfl⟩
    | true =>
      refine functionOffsets_safe ?_ ?_
      · intro s hs hx
        obtain ⟨s2, hs2, he⟩ := mem_fixed hf hs
        obtain ⟨s0, hs0, sec, w, o, hpl⟩ := hw2 s2 hs2
        have e1 : s2.address = s.address := congrArg (·.1) he
        have e2 : s2.size = s.size := congrArg (·.2.1) he
        have e3 : s2.sec = s.sec := congrArg (·.2.2.2.1) he
        have hxc : IsCode sec s0 := by rw [← adopt_code, ← hpl, e3]; exact hx
        obtain ⟨_, h2, h3⟩ := w.code hxc
        have hrb := readBytes_stored (h3 _ o.size).stored
        rw [TLS.virt_of_regular h2, e2, ← o.address, e1] at hrb
        refine ⟨sec, _, ?_, hrb⟩
        show Tree.floor st.sections s.address = some sec
        rw [hb.sections, ← e1, o.address]
        exact section_floor w.section_
      · intro s hs q hq
        obtain ⟨s2, hs2, he⟩ := mem_fixed hf hs
        obtain ⟨s0, hs0, sec, w, o, _⟩ := hw2 s2 hs2
        have e4 : s2.rels = s.rels := congrArg (·.2.2.2.2) he
        obtain ⟨z, hz, hname, hlow⟩ := hc.low hr
        rcases hlow _ (o.pointed q (by rw [e4]; exact hq)) with h | h
        · exact Or.inl h
        · right
          obtain ⟨z1, hz1, hza, hzn⟩ := ha1 z hz
          obtain ⟨i, hi⟩ := List.getElem?_of_mem hz1
          obtain ⟨_, hin, hall⟩ := hashInternal_ok (r := { { st with symbols := t1 } with symbols := t2 }) hok1 e2
          obtain ⟨x, hx⟩ := hall i z1 hi
          have hsame := (hashSymbol_same (hok1.rels z1 hz1) hx).1
          have hunused : unusedSymbol fl x = false := by
            unfold unusedSymbol
            have : x.sym.name.isNone = false := by
              rw [hsame.name, hzn]
              cases hzz : z.name with
              | none => exact absurd hzz hname
              | some n => rfl
            simp [this]
          have hm := (hin (finishSymbol env fl x)).mpr ⟨i, z1, x, hi, hx, hunused, rfl⟩
          obtain ⟨z3, hz3, he3⟩ := mem_fixed hf.symm hm
          refine ⟨z3, hz3, ?_⟩
          rw [show z3.address = (finishSymbol env fl x).address from congrArg (·.1) he3]
          have : (finishSymbol env fl x).address = z.address := by
            unfold finishSymbol
            split
            · exact hsame.address.trans hza
            · exact hsame.address.trans hza
          rw [this]; exact h
  obtain ⟨r, e4⟩ := e4
  refine ⟨r, ?_⟩
  unfold identify
  cases hr : fl.reconstruct with
  | false =>
    rw [hr] at e1 e4
    simp only [Bool.false_eq_true, if_false, bind, Except.bind] at e1 e4 ⊢
    rw [Except.ok.inj e1]
    rw [e2]
    simp only
    rw [e3]
    exact e4
  | true =>
    rw [hr] at e1 e4
    simp only [if_true, bind, Except.bind] at e1 e4 ⊢
    rw [e1]
    simp only
    rw [e2]
    simp only
    rw [e3]
    exact e4

theorem analyze_safe {env : Env} {fl : AnalyzeFlags} {elf : Elf} {dbgsym : Option Elf} (hl : Legible elf dbgsym)
    (hp : Spec.PlainCode env fl { sections := Tree.ofList (loadedSections elf.sections), relocations := Tree.ofList (allRelocations elf dbgsym) })
    (hd : fl.reconstruct = true → SaneDecoder env)
    (hc : ∀ st, gather env fl elf dbgsym = .ok st → Contained env fl elf dbgsym st.symbols) :
    ∃ r, analyze env fl elf dbgsym = .ok r := by
  obtain ⟨st, h⟩ := gather_safe hl hp
  obtain ⟨st1, t, g⟩ := gather_ok h
  have hf := gathered_facts g
  obtain ⟨r, hr⟩ := identify_safe hd (basis_gather h) hf.2.2.1 hf.2.2.2 (hc st h)
  exact ⟨r, by unfold analyze; rw [h]; exact hr⟩

end Bean

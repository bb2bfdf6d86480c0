import Verif.Lemmas.RebaseRecon
/-
Reconstruction of the relocations of all symbols of a moved file (C100).
-/
namespace Bean
open Bean.Spec

variable {m : Rebase} {elf : Elf} {dbg : Option Elf} {st : AState} {env : Env} {fl : AnalyzeFlags}

/-- The code of a symbol is the same in the moved file. -/
theorem codeBytes_rebase {sec : ElfSec} {s : Symbol} {n : Addr} (hr : Rebasable env fl m elf dbg) (hl : Loaded elf sec)
    (h1 : secStart sec ≤ s.address) (h2 : s.address.toNat + n.toNat ≤ (secEnd env sec).toNat)
    (hx : sec.executable = true) (ht : sec.tls = false) :
    Carries id (fun bytes => bytes = (sec.data.drop (s.address - sec.virt_addr).toNat).take n.toNat)
      (readBytes sec.data (s.address - sec.virt_addr) n)
      (readBytes (rebaseSec m elf.sections sec).data (s.address + m.dist - (rebaseSec m elf.sections sec).virt_addr) n) := by
  have hss : secStart sec = sec.virt_addr := by unfold secStart; rw [ht, TLS.trans_false]
  intro bytes hb
  obtain ⟨h3, h4⟩ := readBytes_slice hb
  refine ⟨?_, h4⟩
  rw [sec_virt _ hl.2.1, sub_shift]
  refine readBytes_of ?_ ?_
  · show _ ≤ (m.data sec).length
    rw [hr.length sec hl]; exact h3
  · show id bytes = ((m.data sec).drop _).take n.toNat
    rw [h4]
    refine (take_drop_congr (hr.code sec hl hx).1 ?_).symm
    have := BitVec.le_def.mp h1
    rw [hss] at this ⊢
    have h5 := (secEnd env sec).isLt
    rw [BitVec.toNat_sub, BitVec.toNat_sub]
    omega

theorem reconCode_rebase {sec : ElfSec} {s : Symbol} (hr : Rebasable env fl m elf dbg) (hd : SaneDecoder env) (hst : Ready env m elf dbg st)
    (hl : Loaded elf sec) (hs : GoodOut m.tls m.dist s) (h1 : secStart sec ≤ s.address)
    (h2 : s.address.toNat + s.size.toNat ≤ (secEnd env sec).toNat)
    (hc : s.sec.executable = true → sec.executable = true ∧ sec.tls = false ∧
      ∀ x ∈ disasm env s.address ((sec.data.drop (s.address - sec.virt_addr).toNat).take s.size.toNat), ∀ op ∈ x.insn.ops,
        OperandAnchored env m st.symbols (tlsEnd env st.tls_segment) x.insn op) :
    Carries (rebaseSymbol m.tls m.dist) (GoodOut m.tls m.dist) (reconstructCode env st sec s)
      (reconstructCode (rebaseEnv m.dist env) (rebaseState m elf.sections st) (rebaseSec m elf.sections sec) (rebaseSymbol m.tls m.dist s)) := by
  have sp := span_of (hr.sections sec hl.1 hl.2.1) hs.address h1 h2
  unfold reconstructCode
  refine Carries.ite Iff.rfl (fun hx => ?_) (fun _ => Carries.ok rfl hs)
  obtain ⟨c1, c2, c3⟩ := hc hx
  have hreg : TLS.is_tls s.address = false := by rw [sp.tls, c2]
  have hv : TLS.virt_addr s.address = s.address := TLS.virt_of_regular hreg
  have hrange := sp.range
  rw [hv] at hrange
  refine Carries.assert (fun h => h) ?_
  dsimp only
  rw [show (rebaseSymbol m.tls m.dist s).address = s.address + m.dist from rfl, hs.address.lowT.virt, hv,
    show (rebaseSymbol m.tls m.dist s).size = s.size from rfl]
  refine Carries.bind (codeBytes_rebase hr hl h1 h2 c1 c2) (fun bytes hb => ?_)
  rw [← hb] at c3
  have hlen : bytes.length ≤ s.size.toNat := by rw [hb, List.length_take]; omega
  unfold LowRange at hrange
  have hlay := (disasmN_layout hd bytes.length s.address bytes (by omega)).1
  have hsteps : disasm (rebaseEnv m.dist env) (s.address + m.dist) bytes = (disasm env s.address bytes).map (moveStep env m.dist) := by
    rw [disasm_rebase]
    exact disasmN_move hr.decode _ _ _
  have hargs : ∀ a ∈ codeRels env (tlsEnd env st.tls_segment) (disasm env s.address bytes), GoodRelArgs m st.symbols a := by
    intro a ha
    obtain ⟨x, hx, op, hop, ha⟩ := mem_codeRels.mp ha
    obtain ⟨k1, k2⟩ := (operandRels_rebase (tlsEnd_rebase hr hst) (c3 x hx op hop)).2 a ha
    refine ⟨k1, k2, ?_⟩
    have hp := hlay x hx
    obtain ⟨l1, l2⟩ := loc_toNat hp hop ha
    have := hp.upper
    have := hp.end_
    unfold Low
    rw [l1]
    omega
  obtain ⟨e1, e2⟩ := createAll_rebase hr hst _ hargs hs hrange
  refine Carries.ok ?_ e2
  rw [id, hsteps, codeRels_rebase (tlsEnd_rebase hr hst) _ c3, e1]

/-- The symbol after the reconstruction. -/
structure Reconed (env : Env) (m : Rebase) (st : AState) (s s' : Symbol) : Prop where
  address : s'.address = s.address
  part : ∃ sec, Tree.floor st.sections s.address = some sec ∧ SizeFor env st.symbols sec s s'.size ∧ s'.sec = (adoptSection sec s).sec ∧
    (¬ IsCode sec s → s'.rels = s.rels)
  sorted : Tree.Sorted s'.rels
  good : GoodOut m.tls m.dist s'

def rebaseRecon (m : Rebase) (l : ReconLoop) : ReconLoop where
  done := l.done.map (rebaseSymbol m.tls m.dist)
  last_addr := rebaseLast m.dist l.last_addr

theorem reconCode_same {sec : ElfSec} {s s' : Symbol} (hs : Tree.Sorted s.rels) (h : reconstructCode env st sec s = .ok s') :
    Tree.Sorted s'.rels ∧ (¬ s.sec.executable = true → s'.rels = s.rels) := by
  unfold reconstructCode at h
  split at h
  · next hx =>
    replace h := (massert_bind_ok h).2
    simp only at h
    cases hb : readBytes sec.data (TLS.virt_addr s.address - sec.virt_addr) s.size with
    | error e => rw [hb] at h; cases h
    | ok bytes =>
      rw [hb] at h
      cases h
      exact ⟨(created st _ hs).sorted, fun h => absurd hx h⟩
  · cases h; exact ⟨hs, fun _ => rfl⟩

theorem reconStep_rebase {s : Symbol} {l : ReconLoop} (hr : Rebasable env fl m elf dbg) (hd : SaneDecoder env) (hst : Ready env m elf dbg st)
    (hy : Steady env m st) (ha : CodeAnchored env m st) (hs : s ∈ st.symbols)
    (hla : l.last_addr = BitVec.allOnes 64 ∨ ∃ z ∈ st.symbols, s.address < z.address ∧ z.address = l.last_addr) :
    Carries (rebaseRecon m) (fun l' => ∃ s', l'.done = s' :: l.done ∧ Reconed env m st s s' ∧ (l'.last_addr = l.last_addr ∨ l'.last_addr = s.address))
      (reconstructStep env st l s)
      (reconstructStep (rebaseEnv m.dist env) (rebaseState m elf.sections st) (rebaseRecon m l) (rebaseSymbol m.tls m.dist s)) := by
  obtain ⟨hg, hgs⟩ := hst.symbols s hs
  unfold reconstructStep
  refine Carries.bind (g := rebaseSec m elf.sections) (P := fun sec => Tree.floor st.sections s.address = some sec)
    (Carries.deref (floor_shift (hst.shifts hr) hg.address.lowT.noWrap)) (fun sec hsec => ?_)
  have hl := hst.sections sec (Tree.floor_mem hsec)
  have hle : secStart sec ≤ s.address := Tree.floor_le hsec
  have hss := hy.symbols s hs sec hsec
  obtain ⟨a1, a2, a3, a4, a5⟩ := adoptSection_same sec s
  have hadr := a1.address
  have hgood : ∀ n, GoodOut m.tls m.dist ({ adoptSection sec s with size := n } : Symbol) := by
    intro n
    refine ⟨?_, ?_, ?_⟩
    · show AddressedT m.tls m.dist (adoptSection sec s).address
      rw [hadr]; exact hg.address
    · show ∀ a ∈ (adoptSection sec s).refs, _
      rw [a5.1]; exact hg.refs
    · show ∀ a ∈ (adoptSection sec s).rels, _
      rw [a4]; exact hg.rels
  dsimp only
  rw [adopt_rebase]
  refine Carries.ite Iff.rfl (fun _ => Carries.ok rfl ⟨_, rfl, ?_, Or.inl rfl⟩) (fun _ => ?_)
  · exact ⟨hadr, ⟨sec, hsec, Or.inl a2, rfl, fun _ => a4⟩, by rw [a4]; exact hgs, hgood (adoptSection sec s).size⟩
  · refine Carries.bind (sizeSymbol_rebase hr hl (by rw [hadr]; exact hg.address) (by rw [hadr, a2]; exact hss.inside) hst.low
      (by rw [hadr]; exact hla)) (fun s1 hs1 => ?_)
    obtain ⟨n, rfl, hn⟩ := hs1
    have hn' : SizeFor env st.symbols sec s n := by
      unfold SizeFor at hn ⊢
      rw [hadr, a2] at hn
      exact hn
    have hend := sizeFor_end hn' hss.inside
    have hcode := adopt_code sec s
    refine Carries.bind (P := fun s2 => GoodOut m.tls m.dist s2 ∧ s2 = { ({ adoptSection sec s with size := n } : Symbol) with rels := s2.rels } ∧
        Tree.Sorted s2.rels ∧ (¬ IsCode sec s → s2.rels = s.rels))
      ((reconCode_rebase hr hd hst hl (hgood n) (by show _ ≤ (adoptSection sec s).address; rw [hadr]; exact hle)
        (by show BitVec.toNat (adoptSection sec s).address + n.toNat ≤ _; rw [hadr]; exact hend) (fun hx => ?_)).also (fun s2 h2 => ?_)) (fun s2 hs2 => ?_)
    · have hc : IsCode sec s := by rw [← hcode]; exact hx
      obtain ⟨c1, c2, _⟩ := hss.code hc
      refine ⟨c1, c2, ?_⟩
      show ∀ x ∈ disasm env (adoptSection sec s).address ((sec.data.drop ((adoptSection sec s).address - sec.virt_addr).toNat).take n.toNat), _
      rw [hadr]
      exact ha s hs sec hsec hc n hn'
    · obtain ⟨b1, b2⟩ := reconCode_same (by show Tree.Sorted (adoptSection sec s).rels; rw [a4]; exact hgs) h2
      refine ⟨reconstructCode_form h2, b1, fun hc => ?_⟩
      rw [b2 (fun hx => hc (by rw [← hcode]; exact hx))]
      exact a4
    · obtain ⟨g2, f2, o2, d2⟩ := hs2
      have hadr2 : s2.address = s.address := by rw [f2]; exact hadr
      refine Carries.ok ?_ ⟨s2, rfl, ⟨hadr2, ⟨sec, hsec, ?_, ?_, d2⟩, o2, g2⟩, Or.inr hadr2⟩
      · unfold rebaseRecon
        have hne : s2.address ≠ BitVec.allOnes 64 := by
          intro e
          have := g2.address.lowT.lt
          rw [e, BitVec.toNat_allOnes] at this
          omega
        simp only [rebaseLast, if_neg hne]
        rfl
      · rw [f2]; exact hn'
      · rw [f2]

theorem reconLoop_rebase (hr : Rebasable env fl m elf dbg) (hd : SaneDecoder env) (hst : Ready env m elf dbg st)
    (hy : Steady env m st) (ha : CodeAnchored env m st) (l : SymTree) (hl : ∀ s ∈ l, s ∈ st.symbols) (hsort : Tree.Sorted l) :
    Carries (rebaseRecon m) (fun L => (∀ s' ∈ L.done, ∃ s ∈ l, Reconed env m st s s') ∧ L.done.map (·.address) = l.map (·.address) ∧
        (L.last_addr = BitVec.allOnes 64 ∨ ∃ z ∈ l, z.address = L.last_addr))
      (l.reverse.foldlM (reconstructStep env st) {})
      ((l.map (rebaseSymbol m.tls m.dist)).reverse.foldlM (reconstructStep (rebaseEnv m.dist env) (rebaseState m elf.sections st)) {}) := by
  induction l with
  | nil =>
    refine Carries.ok ?_ ⟨(fun _ h => by cases h), rfl, Or.inl rfl⟩
    unfold rebaseRecon rebaseLast
    rfl
  | cons s l ih =>
    have hs := hl s List.mem_cons_self
    rw [show (s :: l).map (rebaseSymbol m.tls m.dist) = rebaseSymbol m.tls m.dist s :: l.map (rebaseSymbol m.tls m.dist) from rfl,
      List.reverse_cons, List.reverse_cons, List.foldlM_append, List.foldlM_append]
    refine Carries.bind (ih (fun s hs => hl s (List.mem_cons_of_mem _ hs)) (List.Pairwise.of_cons hsort)) (fun L hL => ?_)
    rw [List.foldlM_cons, List.foldlM_cons]
    obtain ⟨h1, h2, h3⟩ := hL
    have hla : L.last_addr = BitVec.allOnes 64 ∨ ∃ z ∈ st.symbols, s.address < z.address ∧ z.address = L.last_addr := by
      rcases h3 with h | ⟨z, hz, h⟩
      · exact Or.inl h
      · exact Or.inr ⟨z, hl z (List.mem_cons_of_mem _ hz), (List.pairwise_cons.mp hsort).1 z hz, h⟩
    refine Carries.bind (reconStep_rebase hr hd hst hy ha hs hla) (fun L' hL' => Carries.ok rfl ?_)
    obtain ⟨s', e1, e2, e3⟩ := hL'
    refine ⟨fun x hx => ?_, ?_, ?_⟩
    · rw [e1] at hx
      rcases List.mem_cons.mp hx with rfl | hx
      · exact ⟨s, List.mem_cons_self, e2⟩
      · obtain ⟨y, hy1, hy2⟩ := h1 x hx
        exact ⟨y, List.mem_cons_of_mem _ hy1, hy2⟩
    · rw [e1, List.map_cons, List.map_cons, h2, e2.address]
    · rcases e3 with e3 | e3
      · rcases h3 with h3 | ⟨z, hz, h3⟩
        · exact Or.inl (e3.trans h3)
        · exact Or.inr ⟨z, List.mem_cons_of_mem _ hz, h3.trans e3.symm⟩
      · exact Or.inr ⟨s, List.mem_cons_self, e3.symm⟩

/-- The reconstruction of the moved file. -/
structure ReconAll (env : Env) (m : Rebase) (st st1 : AState) : Prop where
  same : st1 = { st with symbols := st1.symbols }
  symbols : ∀ s' ∈ st1.symbols, ∃ s ∈ st.symbols, Reconed env m st s s'
  addresses : st1.symbols.map (·.address) = st.symbols.map (·.address)

theorem reconstruct_rebase (hr : Rebasable env fl m elf dbg) (hd : SaneDecoder env) (hst : Ready env m elf dbg st)
    (hy : Steady env m st) (ha : CodeAnchored env m st) :
    Carries (rebaseState m elf.sections) (ReconAll env m st) (reconstruct env st)
      (reconstruct (rebaseEnv m.dist env) (rebaseState m elf.sections st)) := by
  unfold reconstruct
  exact Carries.bind (reconLoop_rebase hr hd hst hy ha st.symbols (fun _ h => h) hst.sorted)
    (fun L hL => Carries.ok rfl ⟨rfl, hL.1, hL.2.1⟩)

/-! ### The state afterwards -/

theorem sorted_addresses {t t' : SymTree} (h : t'.map (·.address) = t.map (·.address)) (hs : Tree.Sorted t) : Tree.Sorted t' := by
  have e : ∀ t : SymTree, Tree.Sorted t ↔ (t.map (·.address)).Pairwise (fun a b => a < b) := by
    intro t
    unfold Tree.Sorted
    rw [List.pairwise_map]
    rfl
  rw [e, h, ← e]
  exact hs

theorem recon_code {s s' : Symbol} {sec : ElfSec} (h : s'.sec = (adoptSection sec s).sec) : IsCode sec s' ↔ IsCode sec s := by
  rw [← adopt_code sec s', ← adopt_code sec s, adopt_place (s1 := s') (Or.inr h)]

theorem ReconAll.ready {st1 : AState} (h : ReconAll env m st st1) (hst : Ready env m elf dbg st) : Ready env m elf dbg st1 := by
  have hsame := h.same
  generalize ht : st1.symbols = t1 at hsame
  have hsy := h.symbols
  have had := h.addresses
  rw [ht] at hsy had
  subst hsame
  refine ⟨fun s' hs' => ?_, fun s' hs' sec hsec hc => ?_, hst.sections, hst.known, hst.packed, hst.table, hst.got, hst.segments, hst.thread,
    hst.tls, sorted_addresses had hst.sorted, hst.relocations, hst.relative⟩
  · obtain ⟨s, _, hre⟩ := hsy s' hs'
    exact ⟨hre.good, hre.sorted⟩
  · obtain ⟨s, hs, hre⟩ := hsy s' hs'
    obtain ⟨sec', h1, h2, h3, h4⟩ := hre.part
    rw [hre.address] at hsec
    cases h1.symm.trans hsec
    have hc' : ¬ IsCode sec s := fun hx => hc ((recon_code h3).mpr hx)
    rw [h4 hc']
    exact hst.data s hs sec h1 hc'

theorem ReconAll.steady {st1 : AState} (h : ReconAll env m st st1) (hy : Steady env m st) : Steady env m st1 := by
  have hsame := h.same
  generalize ht : st1.symbols = t1 at hsame
  have hsy := h.symbols
  have had := h.addresses
  rw [ht] at hsy had
  subst hsame
  refine ⟨hy.page, hy.width, hy.apart, fun s' hs' sec hsec => ?_⟩
  obtain ⟨s, hs, hre⟩ := hsy s' hs'
  obtain ⟨sec', h1, h2, h3, h4⟩ := hre.part
  have hsec' := hsec
  rw [hre.address] at hsec'
  cases h1.symm.trans hsec'
  have hss := hy.symbols s hs sec h1
  have hsize : ∀ n, SizeFor env t1 sec s' n → SizeFor env st.symbols sec s n := by
    intro n hn
    rcases hn with rfl | hn | ⟨z, hz, z1, z2, z3⟩
    · exact h2
    · rw [hre.address] at hn; exact Or.inr (Or.inl hn)
    · have : z.address ∈ st.symbols.map (·.address) := by rw [← had]; exact List.mem_map_of_mem hz
      obtain ⟨w, hw, he⟩ := List.mem_map.mp this
      rw [hre.address] at z1 z3
      rw [← he] at z1 z2 z3
      exact Or.inr (Or.inr ⟨w, hw, z1, z2, z3⟩)
  refine ⟨?_, fun hc => ?_, fun hc n hn => ?_⟩
  · rw [hre.address]; exact sizeFor_end h2 hss.inside
  · obtain ⟨c1, c2, c3⟩ := hss.code ((recon_code h3).mp hc)
    refine ⟨c1, c2, fun n hn => ?_⟩
    have := (c3 n (hsize n hn)).operands
    refine ⟨?_⟩
    rw [hre.address]
    exact this
  · have := hss.data (fun hx => hc ((recon_code h3).mpr hx)) n (hsize n hn)
    exact ⟨by rw [hre.address]; exact this.segment, by rw [hre.address]; exact this.bytes, by rw [hre.address]; exact this.start,
      by rw [hre.address]; exact this.table⟩

end Bean

import Verif.Props.HashCode
import Verif.Lemmas.HashRels
/-
C36: what distinguishes functions; C42: symbols that are dropped.
-/
namespace Bean
open Tree Spec

/-! C36: instructions. -/

/-- C36: the internal identifier of a function is the hash of the bytes contributed by its instructions, in their
order. -/
theorem C36_input (env : Env) (fl : AnalyzeFlags) (st r : AState) (hok : SymsOK st.symbols)
    (h : hashInternal env fl st = .ok r) (s : Symbol) (hs : s ∈ r.symbols) (hx : s.sec.executable = true)
    (hf : SymFits (symCtx env st s)) (steps : List Step) (hc : CodeOf env st s steps) :
    s.id.internal = env.xxhash (codeInput env (symCtx env st s) steps ++ attributeBytes env fl s) := by
  obtain ⟨s0, s1, l, f⟩ := exec_facts hok h hs hx
  have := codeOf_unique f.code hc
  subst this
  rw [f.input, execLoop_hashed hf]
  rfl

example (r : AState) (h : hashInternal exEnv {} exA = .ok r) (s : Symbol) (hs : s ∈ r.symbols)
    (ha : s.address = 0x1006) : s.id.internal = exEnv.xxhash [2, 0, 0, 0, 0xc3] := by
  cases exA_hash.symm.trans h
  have : s = exHashed 0x1006 1 0xc1cabdf [] := by
    rcases List.mem_cons.mp hs with h | h
    · subst h; exact absurd ha (by decide)
    · exact List.mem_singleton.mp h
  subst this
  exact C36_input exEnv {} exA _ exA_ok exA_hash _ hs rfl (by unfold SymFits; decide) _ ⟨_, _, rfl, rfl, rfl⟩

/-- C36: two functions that differ in one instruction have the same input for the hash iff these two instructions
contribute the same bytes. -/
theorem C36_one_instruction (env : Env) (cx cx' : SymCtx) (hf : SymFits cx) (hf' : SymFits cx')
    (steps steps' pre pre' post post' : List Step) (s s' : Step)
    (hr : relevant env steps = pre ++ s :: post) (hr' : relevant env steps' = pre' ++ s' :: post')
    (hpre : Zip (StepSim env cx cx') pre pre') (hpost : Zip (StepSim env cx cx') post post') :
    codeInput env cx steps = codeInput env cx' steps' ↔ insnBytes env cx s.insn = insnBytes env cx' s'.insn := by
  have key : ∀ {l l' : List Step}, Zip (StepSim env cx cx') l l' →
      l.flatMap (fun s => insnBytes env cx s.insn) = l'.flatMap (fun s => insnBytes env cx' s.insn) := by
    intro l l' h
    induction h with
    | nil => rfl
    | cons hxy _ ih =>
      rw [List.flatMap_cons, List.flatMap_cons, ih]
      congr 1
      unfold insnBytes
      rw [sim_ops_bytes hf hf' hxy.ops, hxy.id, hxy.prefix, hxy.opcode]
  unfold codeInput
  rw [hr, hr', List.flatMap_append, List.flatMap_append, List.flatMap_cons, List.flatMap_cons, key hpre, key hpost,
    List.append_cancel_left_eq, List.append_cancel_right_eq]

/-- C36: instructions with different numbers contribute different bytes. Instructions with the same number, the same
opcode bytes and operands of the same form contribute different bytes if the prefix bytes in front of the first zero
differ or the operands are not the same up to the location. Missing for the full property: prefix bytes behind a zero
(see `C36_counterexample`), and operands of different form. -/
theorem C36_instruction_partial (env : Env) (cx cx' : SymCtx) (hf : SymFits cx) (hf' : SymFits cx') (i i' : Insn) :
    (i.id ≠ i'.id → insnBytes env cx i ≠ insnBytes env cx' i') ∧
    (i.id = i'.id → i.opcode = i'.opcode →
      i.ops.map (form cx (env.kind i.id) (nextAddress i)) = i'.ops.map (form cx' (env.kind i'.id) (nextAddress i')) →
      (insnBytes env cx i = insnBytes env cx' i' ↔ leading i.prefix = leading i'.prefix ∧
        Zip (OpSim cx cx' (env.kind i.id) (nextAddress i) (nextAddress i')) i.ops i'.ops)) := by
  have hlen : (le32 i.id).length = (le32 i'.id).length := by rw [le32_length, le32_length]
  constructor
  · intro hne h
    unfold insnBytes at h
    simp only [List.append_assoc] at h
    exact hne (le32_inj (List.append_inj_left h hlen))
  · intro hid hop hform
    rw [← hid] at hform
    obtain ⟨h1, h2⟩ := ops_of_bytes hform
    unfold insnBytes
    rw [← hid, ← hop]
    constructor
    · intro h
      obtain ⟨h3, h4⟩ := List.append_inj' h h1
      have h5 := List.append_cancel_right h3
      exact ⟨List.append_cancel_left h5, h2 h4⟩
    · rintro ⟨h3, h4⟩
      rw [h3, sim_ops_bytes hf hf' h4]

/-- The hypotheses are met by two instructions that differ in a prefix of the first group (`rep`), which is
distinguished. -/
example (cx : SymCtx) (hf : SymFits cx) :
    insnBytes exEnv cx { address := 0x1000, size := 2, id := 3, «prefix» := [0xf3, 0, 0, 0], opcode := [0xa4] } ≠
    insnBytes exEnv cx { address := 0x1000, size := 2, id := 3, «prefix» := [0, 0, 0, 0], opcode := [0xa4] } := by
  intro h
  have := ((C36_instruction_partial exEnv cx cx hf hf
    { address := 0x1000, size := 2, id := 3, «prefix» := [0xf3, 0, 0, 0], opcode := [0xa4] }
    { address := 0x1000, size := 2, id := 3, «prefix» := [0, 0, 0, 0], opcode := [0xa4] }).2 rfl rfl rfl).mp h
  exact absurd this.1 (by decide)

/-- C36: prefix bytes behind a zero do not contribute, whatever the instructions: this concerns the prefixes for
segment, operand size and address size if there is none of the first group. -/
theorem C36_prefix_ignored (env : Env) (fl : AnalyzeFlags) (st st' r r' : AState)
    (hok : SymsOK st.symbols) (hok' : SymsOK st'.symbols) (h : hashInternal env fl st = .ok r)
    (h' : hashInternal env fl st' = .ok r') (s s' : Symbol) (hs : s ∈ r.symbols) (hs' : s' ∈ r'.symbols)
    (hx : s.sec.executable = true) (hx' : s'.sec.executable = true)
    (hf : SymFits (symCtx env st s)) (hf' : SymFits (symCtx env st' s'))
    (steps steps' : List Step) (hc : CodeOf env st s steps) (hc' : CodeOf env st' s' steps')
    (hsim : Zip (fun x x' => x.insn.id = x'.insn.id ∧ x.insn.opcode = x'.insn.opcode ∧
        leading x.insn.prefix = leading x'.insn.prefix ∧
        Zip (OpSim (symCtx env st s) (symCtx env st' s') (env.kind x.insn.id) (nextAddress x.insn)
          (nextAddress x'.insn)) x.insn.ops x'.insn.ops)
      (relevant env steps) (relevant env steps'))
    (hattr : fl.hash_attributes = true → SameAttributes s s') : s.id.internal = s'.id.internal := by
  rw [C36_input env fl st r hok h s hs hx hf steps hc, C36_input env fl st' r' hok' h' s' hs' hx' hf' steps' hc',
    attributeBytes_eq hattr]
  congr 2
  unfold codeInput
  generalize relevant env steps = l at hsim
  generalize relevant env steps' = l' at hsim
  induction hsim with
  | nil => rfl
  | cons hxy _ ih =>
    rw [List.flatMap_cons, List.flatMap_cons, ih]
    congr 1
    obtain ⟨h1, h2, h3, h4⟩ := hxy
    unfold insnBytes
    rw [sim_ops_bytes hf hf' h4, h1, h2, h3]

/-- A store of a double word. -/
def exLong : AState := exCode 0x1000 [0xc7, 0x05, 0xc3] [exSym 0x1000]

/-- A store of a word: the operand size is selected by a prefix. -/
def exWord : AState := exCode 0x1000 [0x66, 0xc7, 0x05, 0xc3] [exSym 0x1000]

set_option maxRecDepth 8000 in
/-- C36: two functions whose instructions differ in the prefix for the operand size have the same identifier. -/
theorem C36_counterexample : ∃ (env : Env) (st st' r r' : AState) (s s' : Symbol), SymsOK st.symbols ∧
    SymsOK st'.symbols ∧ hashInternal env {} st = .ok r ∧ hashInternal env {} st' = .ok r' ∧ s ∈ r.symbols ∧
    s' ∈ r'.symbols ∧ s.sec.executable = true ∧ s'.sec.executable = true ∧
    (∃ x x' rest rest', CodeOf env st s (x :: rest) ∧ CodeOf env st' s' (x' :: rest') ∧
      0x66 ∈ x'.insn.prefix ∧ 0x66 ∉ x.insn.prefix) ∧ s.id.internal = s'.id.internal := by
  refine ⟨exEnv, exLong, exWord,
    { exLong with symbols := [exHashed 0x1000 3 0x9158bb99744006a5 []] },
    { exWord with symbols := [exHashed 0x1000 4 0x9158bb99744006a5 []] },
    exHashed 0x1000 3 0x9158bb99744006a5 [], exHashed 0x1000 4 0x9158bb99744006a5 [], by decide, by decide, by rfl, by rfl,
    List.mem_cons_self, List.mem_cons_self, rfl, rfl,
    ⟨_, _, _, _, ⟨_, _, rfl, rfl, rfl⟩, ⟨_, _, rfl, rfl, rfl⟩, by decide, by decide⟩, rfl⟩

/-! C42: symbols that are dropped. -/

/-- Is a symbol (with the attributes known before) executable? Symbols without section name adopt the attributes of the
section they are in. -/
def InCode (sec : ElfSec) (s : Symbol) : Prop :=
  (s.sec.name = none ∧ sec.executable = true) ∨ (s.sec.name ≠ none ∧ s.sec.executable = true)

theorem adopt_inCode {sec : ElfSec} {s : Symbol} (h : (adoptSection sec s).sec.executable = true) : InCode sec s := by
  unfold adoptSection at h
  cases hn : s.sec.name with
  | none => rw [hn] at h; exact Or.inl ⟨hn, h⟩
  | some n => rw [hn] at h; exact Or.inr ⟨by simp [hn], h⟩

/-- C42: a symbol only disappears without the flag `FLAG_KEEP_UNUSED_SYMBOLS`, if it has no name, is in an executable
section with nothing but NOPs in its range, and has neither relocations (known before or in its range) nor references
nor dependent symbols. The range extends up to the next symbol or the end of the section. -/
theorem C42_removed (env : Env) (fl : AnalyzeFlags) (st r : AState) (hok : SymsOK st.symbols)
    (hr : Sorted st.relocations) (hrel : Sorted st.relative_relocations)
    (h : hashInternal env fl st = .ok r) (s0 : Symbol) (hs : s0 ∈ st.symbols)
    (hgone : ∀ s ∈ r.symbols, s.address ≠ s0.address) :
    fl.keep_unused = false ∧ s0.name = none ∧ s0.deps = [] ∧ s0.refs = [] ∧ s0.rels = [] ∧
    ∃ sec size steps, Tree.floor st.sections s0.address = some sec ∧ InCode sec s0 ∧ s0.size.toNat ≤ size.toNat ∧
      CodeOf env st { s0 with size := size } steps ∧ (∀ x ∈ steps, env.kind x.insn.id = .nop) ∧
      (∀ e ∈ st.relocations, TLS.virt_addr s0.address ≤ e.offset → ¬ e.offset < TLS.virt_addr s0.address + size) ∧
      (∀ o ∈ st.relative_relocations, s0.address ≤ o → ¬ o < TLS.virt_addr s0.address + size) ∧
      (∀ a : Addr, a.toNat < (sectionEnd env sec).toNat →
        (∀ y ∈ st.symbols, s0.address.toNat < y.address.toNat → a.toNat < y.address.toNat) →
        a.toNat < s0.address.toNat + size.toNat) := by
  obtain ⟨_, hmem, hall⟩ := hashInternal_ok hok h
  obtain ⟨i, hi⟩ := List.getElem?_of_mem hs
  obtain ⟨x, hx⟩ := hall i s0 hi
  obtain ⟨hsame, hsort, sec, sz, h5, h6, h7, h8, h9⟩ := hashSymbol_same (hok.rels s0 hs) hx
  have hu : unusedSymbol fl x = true := by
    cases hu : unusedSymbol fl x with
    | true => rfl
    | false =>
      refine absurd ?_ (hgone _ ((hmem _).mpr ⟨i, s0, x, hi, hx, hu, rfl⟩))
      rw [finishSymbol_address]
      exact hsame.address
  unfold unusedSymbol at hu
  simp only [Bool.and_eq_true, Bool.not_eq_true', Option.isNone_iff_eq_none, List.isEmpty_iff] at hu
  obtain ⟨⟨⟨⟨⟨hcont, hkeep⟩, hname⟩, hdeps⟩, hrefs⟩, hrels⟩ := hu
  have had := adoptSection_same sec s0
  refine ⟨hkeep, ?_, ?_, ?_, ?_, sec, x.sym.size, ?_⟩
  · rw [← hsame.name]; exact hname
  · rw [← hsame.deps]; exact hdeps
  · have := hsame.refs
    rw [hrefs] at this
    exact List.eq_nil_iff_forall_not_mem.mpr (fun t ht => by cases this t ht)
  · have := hsame.rels
    rw [hrels] at this
    exact List.eq_nil_iff_forall_not_mem.mpr (fun t ht => by cases this t ht)
  rcases h9 with ⟨hex, h9⟩ | ⟨_, h9⟩
  · obtain ⟨s1, bytes, e1, e2, e3, e4, e5⟩ := hashExec_ok h9
    have hsz : Sorted sz.rels := by
      rw [h6]
      show Sorted (adoptSection sec s0).rels
      rw [had.2.2.2.1]
      exact hok.rels s0 hs
    have hadd := addRelocations_added hsz e1
    have haddr : sz.address = s0.address := by rw [h6]; exact had.1.address
    have hsize : sz.size = x.sym.size := by rw [h6]
    have hform := fallThrough_form e3
    have hrels1 : s1.rels = [] := by
      have : x.sym.rels = s1.rels := by rw [hform]; rfl
      rw [← this]; exact hrels
    have hexact := addRelocations_exact hsz hr hrel e1
    rw [hrels1] at hexact
    have hszr : sz.rels = [] := by
      refine List.eq_nil_iff_forall_not_mem.mpr (fun q hq => ?_)
      cases (hexact q).mpr (Or.inl hq)
    have hnorel : ∀ e ∈ st.relocations, TLS.virt_addr s0.address ≤ e.offset →
        ¬ e.offset < TLS.virt_addr s0.address + x.sym.size := by
      intro e he h1 h2
      have hm := (hexact (relOfElf env sz.address fl.resolve_internal st.global_offset_table e)).mpr
        (Or.inr (Or.inl ⟨e, he, by rw [haddr]; exact h1, by rw [haddr, hsize]; exact h2, rfl, by rw [hszr]; simp⟩))
      cases hm
    refine ⟨disasm env (TLS.virt_addr s0.address) bytes, h5, ?_, ?_, ⟨sec, bytes, h5, ?_, rfl⟩, ?_, ?_, ?_, ?_⟩
    · refine adopt_inCode ?_
      rw [h6] at hex
      exact hex
    · obtain ⟨n, hn, hle, _⟩ := sizeSymbol_ok h8
      rw [had.2.1] at hle
      have : x.sym.size = n := by rw [← hsize, hn]
      rw [this]
      exact hle
    · show readBytes sec.data (TLS.virt_addr s0.address - sec.virt_addr) x.sym.size = _
      rw [← haddr, ← hsize, ← hadd.base.size]
      exact e2
    · rw [e5] at hcont
      rw [haddr] at hcont
      intro y hy
      refine Classical.byContradiction (fun hn => ?_)
      have := (execLoop_content (env := env) (cx := symCtx env st s1) (disasm env (TLS.virt_addr s0.address) bytes)
        (execStart s1)).mpr (Or.inr ⟨y, hy, hn⟩)
      rw [this] at hcont
      cases hcont
    · intro e he h1 h2
      exact hnorel e he h1 h2
    · intro o ho h1 h2
      obtain ⟨q, hq⟩ := addRelocations_read hsz hrel e1 ho (by rw [haddr]; exact h1) (by rw [haddr, hsize]; exact h2)
      have hm := (hexact q).mpr (Or.inr (Or.inr ⟨o, ho, by rw [haddr]; exact h1, by rw [haddr, hsize]; exact h2, hq,
        by rw [hszr]; simp, fun e he h3 h4 _ => hnorel e he (by rw [← haddr]; exact h3)
          (by rw [← haddr, ← hsize]; exact h4)⟩))
      cases hm
    · intro a h1 h2
      obtain ⟨n, hn, _, hcov, _⟩ := sizeSymbol_ok h8
      have e : x.sym.size = n := by rw [← hsize, hn]
      have := hcov a ?_ h1
      · rw [had.1.address, ← e] at this
        exact this
      · rcases lastAddr_next hok.sorted hi with ⟨_, e⟩ | ⟨y, hy, hlt, _, e⟩
        · rw [e]
          have := (sectionEnd env sec).isLt
          have h4 : (BitVec.allOnes 64).toNat = 2 ^ 64 - 1 := by decide
          omega
        · rw [e]
          exact h2 y hy (BitVec.lt_def.mp hlt)
  · have := (hashData_ok h9).choose_spec.2.1
    rw [hcont] at this
    cases this

/-- A function and NOPs behind it. -/
def exUnused : AState := exCode 0x1000 [0x66, 0xc7, 0x05, 0xc3, 0x90, 0x90] [exSym 0x1000, exSym 0x1004]

set_option maxRecDepth 8000 in
theorem exUnused_hash : hashInternal exEnv {} exUnused =
    .ok { exUnused with symbols := [exHashed 0x1000 4 0x9158bb99744006a5 []] } := by
  rfl

example : ∃ sec size steps, Tree.floor exUnused.sections 0x1004 = some sec ∧ InCode sec (exSym 0x1004) ∧
    CodeOf exEnv exUnused { exSym 0x1004 with size := size } steps ∧
    ∀ x ∈ steps, exEnv.kind x.insn.id = .nop := by
  have := C42_removed exEnv {} exUnused _ (by decide) (by decide) (by decide) exUnused_hash (exSym 0x1004) (by decide)
    (by intro s hs; cases List.mem_singleton.mp hs; decide)
  obtain ⟨_, _, _, _, _, sec, size, steps, h1, h2, _, h3, h4, _⟩ := this
  exact ⟨sec, size, steps, h1, h2, h3, h4⟩

/-- C42: with the flag `FLAG_KEEP_UNUSED_SYMBOLS` all symbols remain. -/
theorem C42_keep (env : Env) (fl : AnalyzeFlags) (st r : AState) (hok : SymsOK st.symbols)
    (h : hashInternal env fl st = .ok r) (hk : fl.keep_unused = true) :
    r.symbols.map (·.address) = st.symbols.map (·.address) := by
  unfold hashInternal at h
  cases h1 : st.symbols.reverse.foldlM (hashStep env fl st) {} with
  | error e => rw [h1] at h; cases h
  | ok L =>
    rw [h1] at h
    cases h
    obtain ⟨hs, ha, hd, _, hu⟩ := hashLoop_ok st.symbols h1
    have hnil : L.unused = [] := by
      refine List.eq_nil_iff_forall_not_mem.mpr (fun a h2 => ?_)
      obtain ⟨i, s, x, _, _, _, h3⟩ := (hu a).mp h2
      unfold unusedSymbol at h3
      rw [hk] at h3
      simp at h3
    show ((L.unused.foldl Tree.erase L.done).map (·.address)) = _
    rw [hnil, List.foldl_nil, hd, List.map_map]
    have hrels := hok.rels
    clear hok h1 hu hd hnil
    revert hrels
    generalize st.symbols = l at ha
    induction ha with
    | nil => intro _; rfl
    | cons hx _ ih =>
      intro hrels
      rw [List.map_cons, List.map_cons, ih (fun s hs => hrels s (List.mem_cons_of_mem _ hs))]
      congr 1
      rw [Function.comp_apply, finishSymbol_address]
      exact (hashSymbol_same (hrels _ List.mem_cons_self) hx).1.address

set_option maxRecDepth 8000 in
example (r : AState) (h : hashInternal exEnv { keep_unused := true } exUnused = .ok r) :
    r.symbols.map (·.address) = [0x1000, 0x1004] :=
  C42_keep exEnv _ exUnused r (by decide) h rfl

end Bean

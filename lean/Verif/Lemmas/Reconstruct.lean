import Verif.Spec.Reconstruct
import Verif.Lemmas.HashLoop
/-
Lemmas about reconstructed relocations.
-/
namespace Bean
open Tree Spec

/-! ### Relocations of one symbol -/

/-- The same relocation up to the information on the instruction. -/
def SameUpToInsn (r r' : Rel) : Prop :=
  r = { r' with instruction_offset := r.instruction_offset, instruction_access := r.instruction_access }

theorem SameUpToInsn.refl (r : Rel) : SameUpToInsn r r := rfl

theorem SameUpToInsn.trans {a b c : Rel} (h : SameUpToInsn a b) (h' : SameUpToInsn b c) : SameUpToInsn a c := by
  unfold SameUpToInsn at *
  rw [h, h']

theorem SameUpToInsn.offset {a b : Rel} (h : SameUpToInsn a b) : a.offset = b.offset := by
  unfold SameUpToInsn at h; rw [h]

/-- Location of a relocation. -/
def RelArgs.loc (a : RelArgs) : Addr := a.address + a.offset.setWidth 64

theorem newRel_offset (st : AState) (s : Symbol) (a : RelArgs) : (newRel st s a).offset = a.loc := rfl

theorem newRel_congr (st : AState) {s s' : Symbol} (ha : s.address = s'.address) (hz : s.size = s'.size) (a : RelArgs) :
    newRel st s a = newRel st s' a := by
  unfold newRel accessFlags
  rw [ha, hz]

theorem createRelocation_form (st : AState) (s : Symbol) (a : RelArgs) :
    createRelocation st s a = { s with rels := (createRelocation st s a).rels } := by
  unfold createRelocation
  split <;> rfl

/-- One call of `create_relocation`. -/
theorem createRelocation_rels (st : AState) {s : Symbol} (hs : Sorted s.rels) (a : RelArgs) :
    Sorted (createRelocation st s a).rels ∧
    (∀ r ∈ s.rels, ∃ r' ∈ (createRelocation st s a).rels, SameUpToInsn r' r ∧ (r.offset ≠ a.target → r' = r)) ∧
    (∀ r' ∈ (createRelocation st s a).rels, (∃ r ∈ s.rels, SameUpToInsn r' r ∧ (r.offset ≠ a.target → r' = r)) ∨
      (r' = newRel st s a ∧ ∀ r ∈ s.rels, r.offset ≠ a.target)) ∧
    ((∀ r ∈ s.rels, r.offset ≠ a.target) → ∃ r' ∈ (createRelocation st s a).rels, r'.offset = a.loc ∧
      ((∀ r ∈ s.rels, r.offset ≠ a.loc) → r' = newRel st s a)) := by
  unfold createRelocation
  cases hf : Tree.find s.rels a.target with
  | some x =>
    simp only
    have hx := find_mem hf
    refine ⟨sorted_modify hs _ _ (fun _ => rfl), ?_, ?_, ?_⟩
    · intro r hr
      refine ⟨_, List.mem_map.mpr ⟨r, hr, rfl⟩, ?_⟩
      by_cases hc : key r = a.target
      · rw [if_pos hc]
        exact ⟨rfl, fun h => absurd hc h⟩
      · rw [if_neg hc]
        exact ⟨rfl, fun _ => rfl⟩
    · intro r' hr'
      obtain ⟨r, hr, rfl⟩ := List.mem_map.mp hr'
      refine Or.inl ⟨r, hr, ?_⟩
      by_cases hc : key r = a.target
      · rw [if_pos hc]
        exact ⟨rfl, fun h => absurd hc h⟩
      · rw [if_neg hc]
        exact ⟨rfl, fun _ => rfl⟩
    · intro h
      exact absurd hx.2 (h x hx.1)
  | none =>
    simp only
    have hn := find_eq_none_iff.mp hf
    refine ⟨sorted_insert hs _, ?_, ?_, ?_⟩
    · intro r hr
      exact ⟨r, (mem_insert' hs).mpr (Or.inl hr), .refl r, fun _ => rfl⟩
    · intro r' hr'
      rcases (mem_insert' hs).mp hr' with h | ⟨rfl, _⟩
      · exact Or.inl ⟨r', h, .refl r', fun _ => rfl⟩
      · exact Or.inr ⟨rfl, hn⟩
    · intro _
      by_cases hex : ∃ r ∈ s.rels, r.offset = a.loc
      · obtain ⟨r, hr, he⟩ := hex
        exact ⟨r, (mem_insert' hs).mpr (Or.inl hr), he, fun h => absurd he (h r hr)⟩
      · refine ⟨newRel st s a, (mem_insert' hs).mpr (Or.inr ⟨rfl, ?_⟩), rfl, fun _ => rfl⟩
        intro y hy he
        exact hex ⟨y, hy, he⟩

theorem rels_trans {a b c : Symbol} (h : b = { a with rels := b.rels }) (h' : c = { b with rels := c.rels }) :
    c = { a with rels := c.rels } := by
  cases a; cases b; cases c
  simp_all

theorem createAll_form (st : AState) (as : List RelArgs) (s : Symbol) :
    as.foldl (createRelocation st) s = { s with rels := (as.foldl (createRelocation st) s).rels } := by
  induction as generalizing s with
  | nil => rfl
  | cons a as ih =>
    rw [List.foldl_cons]
    exact rels_trans (createRelocation_form st s a) (ih _)

/-- A sequence of calls of `create_relocation`. -/
structure Created (st : AState) (s : Symbol) (as : List RelArgs) (s' : Symbol) : Prop where
  form : s' = { s with rels := s'.rels }
  sorted : Sorted s'.rels
  keep : ∀ r ∈ s.rels, ∃ r' ∈ s'.rels, SameUpToInsn r' r ∧ ((∀ a ∈ as, a.target ≠ r.offset) → r' = r)
  origin : ∀ r' ∈ s'.rels, (∃ r ∈ s.rels, SameUpToInsn r' r ∧ ((∀ a ∈ as, a.target ≠ r.offset) → r' = r)) ∨
    ∃ a ∈ as, SameUpToInsn r' (newRel st s a) ∧ ((∀ b ∈ as, b.target ≠ a.loc) → r' = newRel st s a)
  create : ∀ a ∈ as, (∀ r ∈ s'.rels, r.offset ≠ a.target) → ∃ r' ∈ s'.rels, r'.offset = a.loc ∧
    ((∀ r ∈ s.rels, r.offset ≠ a.loc) → (∀ b ∈ as, b.loc = a.loc → b = a) → SameUpToInsn r' (newRel st s a))

theorem created (st : AState) (as : List RelArgs) {s : Symbol} (hs : Sorted s.rels) :
    Created st s as (as.foldl (createRelocation st) s) := by
  induction as generalizing s with
  | nil =>
    exact ⟨rfl, hs, fun r hr => ⟨r, hr, .refl r, fun _ => rfl⟩, fun r hr => Or.inl ⟨r, hr, .refl r, fun _ => rfl⟩,
      fun a ha => by cases ha⟩
  | cons a as ih =>
    rw [List.foldl_cons]
    obtain ⟨c1, c2, c3, c4⟩ := createRelocation_rels st hs a
    have hform := createRelocation_form st s a
    have h := ih c1
    have haddr : (createRelocation st s a).address = s.address := by rw [hform]
    have hsize : (createRelocation st s a).size = s.size := by rw [hform]
    have hnew := fun b => newRel_congr st haddr hsize b
    have hoff : ∀ {r' r : Rel}, SameUpToInsn r' r → r'.offset = r.offset := fun h => h.offset
    refine ⟨?_, h.sorted, ?_, ?_, ?_⟩
    · exact rels_trans hform h.form
    · intro r hr
      obtain ⟨r1, m1, e1, k1⟩ := c2 r hr
      obtain ⟨r2, m2, e2, k2⟩ := h.keep r1 m1
      refine ⟨r2, m2, e2.trans e1, fun hall => ?_⟩
      have := k1 (fun h => hall a List.mem_cons_self h.symm)
      subst this
      exact k2 (fun b hb => hall b (List.mem_cons_of_mem _ hb))
    · intro r2 m2
      rcases h.origin r2 m2 with ⟨r1, m1, e2, k2⟩ | ⟨b, hb, e2, k2⟩
      · rcases c3 r1 m1 with ⟨r, m, e1, k1⟩ | ⟨rfl, _⟩
        · refine Or.inl ⟨r, m, e2.trans e1, fun hall => ?_⟩
          have := k1 (fun h => hall a List.mem_cons_self h.symm)
          subst this
          exact k2 (fun b hb => hall b (List.mem_cons_of_mem _ hb))
        · refine Or.inr ⟨a, List.mem_cons_self, e2, fun hall => ?_⟩
          exact k2 (fun b hb => hall b (List.mem_cons_of_mem _ hb))
      · rw [hnew] at e2 k2
        exact Or.inr ⟨b, List.mem_cons_of_mem _ hb, e2, fun hall =>
          k2 (fun c hc => hall c (List.mem_cons_of_mem _ hc))⟩
    · intro b hb hnt
      by_cases hba : b = a
      · subst hba
        have hnt1 : ∀ r ∈ s.rels, r.offset ≠ b.target := by
          intro r hr he
          obtain ⟨r1, m1, e1, _⟩ := c2 r hr
          obtain ⟨r2, m2, e2, _⟩ := h.keep r1 m1
          exact hnt r2 m2 (by rw [hoff e2, hoff e1, he])
        obtain ⟨r1, m1, o1, k1⟩ := c4 hnt1
        obtain ⟨r2, m2, e2, _⟩ := h.keep r1 m1
        refine ⟨r2, m2, (hoff e2).trans o1, fun hno _ => ?_⟩
        rw [k1 hno] at e2
        exact e2
      · have hb' : b ∈ as := by
          rcases List.mem_cons.mp hb with h | h
          · exact absurd h hba
          · exact h
        obtain ⟨r2, m2, o2, k2⟩ := h.create b hb' hnt
        refine ⟨r2, m2, o2, fun hno huniq => ?_⟩
        rw [hnew] at k2
        refine k2 ?_ (fun c hc => huniq c (List.mem_cons_of_mem _ hc))
        intro r1 m1 he
        rcases c3 r1 m1 with ⟨r, m, e1, _⟩ | ⟨rfl, _⟩
        · exact hno r m (by rw [← hoff e1]; exact he)
        · rw [newRel_offset] at he
          exact hba (huniq a List.mem_cons_self he).symm

/-! ### The loop -/

/-- The result for one symbol. -/
inductive ReconAs (env : Env) (st : AState) (s0 s' : Symbol) : Prop
  | plt (sec : ElfSec) : Tree.floor st.sections s0.address = some sec →
      hasPrefix ".plt" (adoptSection sec s0).sec.name = true → s' = adoptSection sec s0 → ReconAs env st s0 s'
  | code (sec : ElfSec) (last : Addr) (s1 : Symbol) : Tree.floor st.sections s0.address = some sec →
      hasPrefix ".plt" (adoptSection sec s0).sec.name = false →
      sizeSymbol env sec last (adoptSection sec s0) = .ok s1 →
      reconstructCode env st sec s1 = .ok s' → ReconAs env st s0 s'

theorem reconstructCode_form {env : Env} {st : AState} {sec : ElfSec} {s s' : Symbol}
    (h : reconstructCode env st sec s = .ok s') : s' = { s with rels := s'.rels } := by
  unfold reconstructCode at h
  split at h
  · replace h := (massert_bind_ok h).2
    simp only at h
    cases hb : readBytes sec.data (TLS.virt_addr s.address - sec.virt_addr) s.size with
    | error e => rw [hb] at h; cases h
    | ok bytes =>
      rw [hb] at h
      cases h
      exact createAll_form st _ s
  · cases h; rfl

theorem sizeSymbol_form {env : Env} {sec : ElfSec} {last : Addr} {s s1 : Symbol}
    (h : sizeSymbol env sec last s = .ok s1) : s1 = { s with size := s1.size } := by
  unfold sizeSymbol at h
  replace h := (massert_bind_ok h).2
  have h' : ∀ m : Addr, s1 = (if m - s.address > s.size then { s with size := m - s.address } else s) →
      s1 = { s with size := s1.size } := by
    intro m e
    subst e
    by_cases hc : m - s.address > s.size
    · rw [if_pos hc]
    · rw [if_neg hc]
  exact h' _ (Except.ok.inj h).symm

theorem reconStep_ok {env : Env} {st : AState} {l l' : ReconLoop} {s : Symbol}
    (h : reconstructStep env st l s = .ok l') : ∃ s', l'.done = s' :: l.done ∧ ReconAs env st s s' := by
  unfold reconstructStep at h
  cases hm : mderef env.build (Tree.floor st.sections s.address) with
  | error e => rw [hm] at h; cases h
  | ok sec =>
    rw [hm] at h
    have hf := mderef_ok hm
    change (if hasPrefix ".plt" (adoptSection sec s).sec.name = true then _ else _) = _ at h
    by_cases hc : hasPrefix ".plt" (adoptSection sec s).sec.name = true
    · rw [if_pos hc] at h
      cases h
      exact ⟨_, rfl, .plt sec hf hc rfl⟩
    · rw [if_neg hc] at h
      cases h1 : sizeSymbol env sec l.last_addr (adoptSection sec s) with
      | error e => rw [h1] at h; cases h
      | ok s1 =>
        rw [h1] at h
        cases h2 : reconstructCode env st sec s1 with
        | error e =>
          change (reconstructCode env st sec s1 >>= _) = _ at h
          rw [h2] at h; cases h
        | ok s2 =>
          change (reconstructCode env st sec s1 >>= _) = _ at h
          rw [h2] at h
          cases h
          exact ⟨s2, rfl, .code sec _ s1 hf (by simpa using hc) h1 h2⟩

theorem reconLoop_ok {env : Env} {st : AState} (l : List Symbol) {L : ReconLoop}
    (h : l.reverse.foldlM (reconstructStep env st) {} = .ok L) : Zip (ReconAs env st) l L.done := by
  induction l generalizing L with
  | nil => cases h; exact .nil
  | cons s l ih =>
    rw [List.reverse_cons, List.foldlM_append] at h
    cases h1 : l.reverse.foldlM (reconstructStep env st) {} with
    | error e => rw [h1] at h; cases h
    | ok L1 =>
      rw [h1] at h
      simp only [List.foldlM_cons, List.foldlM_nil] at h
      change (reconstructStep env st L1 s >>= fun y => pure y) = Except.ok L at h
      cases h2 : reconstructStep env st L1 s with
      | error e => rw [h2] at h; cases h
      | ok L2 =>
        rw [h2] at h
        cases h
        obtain ⟨s', hd, hr⟩ := reconStep_ok h2
        rw [hd]
        exact .cons hr (ih h1)

theorem reconstruct_ok {env : Env} {st st' : AState} (h : reconstruct env st = .ok st') :
    st' = { st with symbols := st'.symbols } ∧ Zip (ReconAs env st) st.symbols st'.symbols := by
  unfold reconstruct at h
  cases h1 : st.symbols.reverse.foldlM (reconstructStep env st) {} with
  | error e => rw [h1] at h; cases h
  | ok L =>
    rw [h1] at h
    cases h
    exact ⟨rfl, reconLoop_ok _ h1⟩

theorem ReconAs.facts {env : Env} {st : AState} {s s' : Symbol} (h : ReconAs env st s s') :
    s'.address = s.address ∧ s'.name = s.name ∧ s'.refs = s.refs ∧ s'.deps = s.deps ∧ s'.type = s.type ∧
    s'.bind = s.bind ∧ s'.flags = s.flags := by
  have had := fun sec => adoptSection_same sec s
  cases h with
  | plt sec hf hp he =>
    subst he
    exact ⟨(had sec).1.address, (had sec).1.name, (had sec).2.2.2.2.1, (had sec).1.deps, (had sec).1.type, (had sec).1.bind,
      (had sec).2.2.1⟩
  | code sec last s1 hf hp h1 h2 =>
    rw [reconstructCode_form h2, sizeSymbol_form h1]
    exact ⟨(had sec).1.address, (had sec).1.name, (had sec).2.2.2.2.1, (had sec).1.deps, (had sec).1.type, (had sec).1.bind,
      (had sec).2.2.1⟩

/-! ### Layout of instructions -/

/-- A decoded instruction in a range of bytes. -/
structure Placed (env : Env) (a : Addr) (n : Nat) (s : Step) : Prop where
  lower : a.toNat ≤ s.insn.address.toNat
  upper : s.address.toNat ≤ a.toNat + n
  end_ : s.address.toNat = s.insn.address.toNat + s.insn.size
  pos : 0 < s.insn.size
  short : s.insn.size ≤ 15
  inside : ∀ op ∈ s.insn.ops, ∀ tls_end offset size target,
    RefersTo tls_end (env.kind s.insn.id) s.insn op offset size target → offset.toNat < s.insn.size

theorem disasmN_layout {env : Env} (hd : SaneDecoder env) (n : Nat) (a : Addr) (bytes : List (BitVec 8))
    (h : a.toNat + bytes.length < 2 ^ 64) :
    (∀ s ∈ disasmN env n a bytes, Placed env a bytes.length s) ∧
    (disasmN env n a bytes).Pairwise (fun s s' => s.address.toNat ≤ s'.insn.address.toNat) := by
  induction n generalizing a bytes with
  | zero => exact ⟨fun s hs => (by cases hs), .nil⟩
  | succ n ih =>
    unfold disasmN
    cases hc : env.decode a bytes with
    | none => exact ⟨fun s hs => (by cases hs), .nil⟩
    | some i =>
      simp only
      by_cases hi : 0 < i.size ∧ i.size ≤ bytes.length
      · rw [if_pos hi]
        have hadd : (a + BitVec.ofNat 64 i.size).toNat = a.toNat + i.size := by
          rw [BitVec.toNat_add, BitVec.toNat_ofNat]
          omega
        have hl : (bytes.drop i.size).length = bytes.length - i.size := List.length_drop
        obtain ⟨h1, h2⟩ := ih (a + BitVec.ofNat 64 i.size) (bytes.drop i.size) (by rw [hl]; omega)
        have hia := hd.address hc
        constructor
        · intro s hs
          rcases List.mem_cons.mp hs with rfl | hs
          · refine ⟨?_, ?_, ?_, hi.1, hd.short hc, hd.inside hc⟩
            · simp only; rw [hia]; omega
            · simp only; omega
            · simp only; rw [hia]; omega
          · have p := h1 s hs
            exact ⟨by have := p.lower; omega, by have := p.upper; omega, p.end_, p.pos, p.short, p.inside⟩
        · refine List.pairwise_cons.mpr ⟨?_, h2⟩
          intro s hs
          exact (h1 s hs).lower
      · rw [if_neg hi]
        exact ⟨fun s hs => (by cases hs), .nil⟩

/-- Instructions at overlapping places are the same. -/
theorem steps_eq {steps : List Step} (hp : steps.Pairwise (fun s s' => s.address.toNat ≤ s'.insn.address.toNat))
    {s s' : Step} (hs : s ∈ steps) (hs' : s' ∈ steps) {x : Nat}
    (h1 : s.insn.address.toNat ≤ x) (h2 : x < s.address.toNat)
    (h1' : s'.insn.address.toNat ≤ x) (h2' : x < s'.address.toNat) : s = s' := by
  induction hp with
  | nil => cases hs
  | @cons y l hy _ ih =>
    rcases List.mem_cons.mp hs with rfl | hsl
    · rcases List.mem_cons.mp hs' with rfl | hs'
      · rfl
      · have := hy s' hs'; omega
    · rcases List.mem_cons.mp hs' with rfl | hs'
      · have := hy s hsl; omega
      · exact ih hsl hs'

/-! ### The calls for an operand -/

theorem mem_codeRels {env : Env} {tls_end : Addr} {steps : List Step} {a : RelArgs} :
    a ∈ codeRels env tls_end steps ↔
      ∃ s ∈ steps, ∃ op ∈ s.insn.ops, a ∈ operandRels tls_end (env.kind s.insn.id) s.insn op := by
  unfold codeRels
  simp only [List.mem_flatMap]

/-- A call for a distance relative to the instruction pointer. -/
structure PcArgs (i : Insn) (offset size : BitVec 8) (target : Addr) (a : RelArgs) : Prop where
  address : a.address = i.address
  offset : a.offset = offset
  size : a.size = size
  target : a.target = target
  addend : a.addend = negDistance i.size a.offset

theorem operandRels_pc {tls_end : Addr} {k : InsKind} {i : Insn} {op : Operand} {offset size : BitVec 8} {target : Addr}
    (h : PcRelative k i op offset size target) :
    ∃ a ∈ operandRels tls_end k i op, PcArgs i offset size target a := by
  cases h with
  | branch v a hb =>
    simp only [operandRels]
    rw [if_pos ((isBranch_iff k).mpr hb)]
    exact ⟨_, List.mem_singleton.mpr rfl, ⟨rfl, rfl, rfl, rfl, rfl⟩⟩
  | rip segment index scale disp a =>
    simp only [operandRels]
    rw [if_pos trivial]
    exact ⟨_, List.mem_append.mpr (Or.inr (List.mem_singleton.mpr rfl)), ⟨rfl, rfl, rfl, rfl, rfl⟩⟩

theorem operandRels_origin {tls_end : Addr} {k : InsKind} {i : Insn} {op : Operand} {a : RelArgs}
    (h : a ∈ operandRels tls_end k i op) :
    a.address = i.address ∧ RefersTo tls_end k i op a.offset a.size a.target := by
  cases op with
  | reg r => simp [operandRels] at h
  | other => simp [operandRels] at h
  | imm v acc =>
    simp only [operandRels] at h
    by_cases hb : isBranch k = true
    · rw [if_pos hb] at h
      rw [List.mem_singleton] at h
      subst h
      exact ⟨rfl, Or.inl (.branch v acc ((isBranch_iff k).mp hb))⟩
    · rw [if_neg hb] at h
      cases h
  | mem segment base index scale disp acc =>
    simp only [operandRels] at h
    rcases List.mem_append.mp h with h | h
    · by_cases hs : segment = X86_REG_FS
      · rw [if_pos hs, List.mem_singleton] at h
        subst h hs
        exact ⟨rfl, Or.inr (.fs base index scale disp acc)⟩
      · rw [if_neg hs] at h; cases h
    · by_cases hb : base = X86_REG_RIP
      · rw [if_pos hb, List.mem_singleton] at h
        subst h hb
        exact ⟨rfl, Or.inl (.rip segment index scale disp acc)⟩
      · rw [if_neg hb] at h; cases h

/-- The location of a call as a number. -/
theorem loc_toNat {env : Env} {a0 : Addr} {n : Nat} {s : Step} (hp : Placed env a0 n s)
    {tls_end : Addr} {op : Operand} (hop : op ∈ s.insn.ops) {a : RelArgs}
    (ha : a ∈ operandRels tls_end (env.kind s.insn.id) s.insn op) :
    a.loc.toNat = s.insn.address.toNat + a.offset.toNat ∧ a.offset.toNat < s.insn.size := by
  obtain ⟨h1, h2⟩ := operandRels_origin ha
  have h3 := hp.inside op hop tls_end _ _ _ h2
  have := hp.upper
  have := hp.end_
  refine ⟨?_, h3⟩
  unfold RelArgs.loc
  rw [h1, BitVec.toNat_add, BitVec.toNat_setWidth]
  omega

/-! ### Facts about a function in the result -/

/-- Everything about a reconstructed function. -/
structure ReconFacts (env : Env) (st : AState) (s' s0 : Symbol) (steps : List Step) : Prop where
  mem : s0 ∈ st.symbols
  address : s0.address = s'.address
  created : ∃ s1 : Symbol, s1.address = s'.address ∧ s1.size = s'.size ∧ s1.rels = s0.rels ∧
    Created st s1 (codeRels env (tlsEnd env st.tls_segment) steps) s'

theorem zip_mem_right {α β : Type} {R : α → β → Prop} {l : List α} {l' : List β} (h : Zip R l l') {y : β} (hy : y ∈ l') :
    ∃ x ∈ l, R x y := by
  induction h with
  | nil => cases hy
  | @cons x y' xs ys hr _ ih =>
    rcases List.mem_cons.mp hy with rfl | hy
    · exact ⟨x, List.mem_cons_self, hr⟩
    · obtain ⟨x', h1, h2⟩ := ih hy
      exact ⟨x', List.mem_cons_of_mem _ h1, h2⟩

/-- The symbol is one of the procedure linkage table. -/
def PltSym (s : Symbol) : Prop := ∃ n, s.sec.name = some n ∧ ".plt".toList.isPrefixOf n.toList = true

theorem hasPrefix_iff (pre : String) (n : Option String) :
    hasPrefix pre n = true ↔ ∃ m, n = some m ∧ pre.toList.isPrefixOf m.toList = true := by
  cases n <;> simp [hasPrefix]

theorem recon_facts {env : Env} {st st' : AState} (hok : SymsOK st.symbols) (h : reconstruct env st = .ok st')
    {s' : Symbol} (hs : s' ∈ st'.symbols) (hx : s'.sec.executable = true) (hp : ¬ PltSym s') {steps : List Step}
    (hc : CodeOf env st s' steps) : ∃ s0, ReconFacts env st s' s0 steps := by
  obtain ⟨_, hz⟩ := reconstruct_ok h
  obtain ⟨s0, hm, hr⟩ := zip_mem_right hz hs
  have haddr := hr.facts.1
  refine ⟨s0, hm, haddr.symm, ?_⟩
  cases hr with
  | plt sec hf hpl he =>
    subst he
    exact absurd ((hasPrefix_iff _ _).mp hpl) hp
  | code sec last s1 hf hpl h1 h2 =>
    have f2 := reconstructCode_form h2
    have f1 := sizeSymbol_form h1
    have had := adoptSection_same sec s0
    have ea : s1.address = s'.address := by rw [f2]
    have ez : s1.size = s'.size := by rw [f2]
    have hx1 : s1.sec.executable = true := by rw [f2] at hx; exact hx
    have er : s1.rels = s0.rels := by rw [f1]; exact had.2.2.2.1
    refine ⟨s1, ea, ez, er, ?_⟩
    unfold reconstructCode at h2
    rw [if_pos hx1] at h2
    replace h2 := (massert_bind_ok h2).2
    simp only at h2
    obtain ⟨sec', bytes, c1, c2, c3⟩ := hc
    rw [haddr, hf] at c1
    cases c1
    rw [ea, ez, c2] at h2
    have h3 := Except.ok.inj h2
    rw [← c3] at h3
    have h4 := created st (codeRels env (tlsEnd env st.tls_segment) steps) (s := s1) (by rw [er]; exact hok.rels s0 hm)
    rw [h3] at h4
    exact h4

theorem reconAs_rels {env : Env} {st : AState} {s s' : Symbol} (h : ReconAs env st s s') (hs : Sorted s.rels) :
    Sorted s'.rels ∧ (s.rels = [] → ∀ q ∈ s'.rels, q.reconstructed = true) := by
  cases h with
  | plt sec hf hp he =>
    subst he
    have hr := (adoptSection_same sec s).2.2.2.1
    rw [hr]
    exact ⟨hs, fun h0 q hq => by rw [h0] at hq; cases hq⟩
  | code sec last s1 hf hp h1 h2 =>
    have er : s1.rels = s.rels := by rw [sizeSymbol_form h1]; exact (adoptSection_same sec s).2.2.2.1
    unfold reconstructCode at h2
    split at h2
    · replace h2 := (massert_bind_ok h2).2
      simp only at h2
      cases hb : readBytes sec.data (TLS.virt_addr s1.address - sec.virt_addr) s1.size with
      | error e => rw [hb] at h2; cases h2
      | ok bytes =>
        rw [hb] at h2
        have h3 := Except.ok.inj h2
        have h4 := created st (codeRels env (tlsEnd env st.tls_segment) (disasm env (TLS.virt_addr s1.address) bytes))
          (s := s1) (by rw [er]; exact hs)
        rw [h3] at h4
        refine ⟨h4.sorted, fun h0 q hq => ?_⟩
        rcases h4.origin q hq with ⟨r, hr, _⟩ | ⟨a, _, hsame, _⟩
        · rw [er, h0] at hr; cases hr
        · exact congrArg Rel.reconstructed hsame
    · cases h2
      rw [er]
      exact ⟨hs, fun h0 q hq => by rw [h0] at hq; cases hq⟩

theorem zip_sorted {R : Symbol → Symbol → Prop} (hR : ∀ x y, R x y → y.address = x.address) {l l' : SymTree}
    (h : Zip R l l') (hs : Sorted l) : Sorted l' := by
  induction h with
  | nil => exact hs
  | @cons x y xs ys hr hz ih =>
    obtain ⟨h1, h2⟩ := List.pairwise_cons.mp hs
    refine List.pairwise_cons.mpr ⟨fun b hb => ?_, ih h2⟩
    obtain ⟨a, ha, hab⟩ := zip_mem_right hz hb
    show y.address < b.address
    rw [hR _ _ hr, hR _ _ hab]
    exact h1 a ha

theorem reconstruct_symsOK {env : Env} {st st' : AState} (hok : SymsOK st.symbols) (h : reconstruct env st = .ok st') :
    SymsOK st'.symbols := by
  obtain ⟨_, hz⟩ := reconstruct_ok h
  refine ⟨zip_sorted (fun x y hr => hr.facts.1) hz hok.sorted, fun s hs => ?_⟩
  obtain ⟨s0, h0, hr⟩ := zip_mem_right hz hs
  exact (reconAs_rels hr (hok.rels s0 h0)).1

theorem reconstruct_reconstructed {env : Env} {st st' : AState} (hok : SymsOK st.symbols)
    (hnew : ∀ s ∈ st.symbols, s.rels = []) (h : reconstruct env st = .ok st') {s : Symbol} (hs : s ∈ st'.symbols)
    {q : Rel} (hq : q ∈ s.rels) : q.reconstructed = true := by
  obtain ⟨_, hz⟩ := reconstruct_ok h
  obtain ⟨s0, h0, hr⟩ := zip_mem_right hz hs
  exact (reconAs_rels hr (hok.rels s0 h0)).2 (hnew s0 h0) q hq

/-! ### Name, type and addend -/

theorem targetSection_iff {st : AState} (hs : Sorted st.symbols) (hsec : Sorted st.sections) (t : Addr) (n : String) :
    targetSection st t = some n ↔ SectionAt st t n := by
  unfold targetSection
  cases hf : Tree.find st.symbols t with
  | none =>
    have hno := find_eq_none_iff.mp hf
    simp only [Option.bind_none]
    constructor
    · intro h
      cases hfl : Tree.floor st.sections t with
      | none => rw [hfl] at h; cases h
      | some sec =>
        rw [hfl] at h
        cases h
        obtain ⟨h1, h2, h3⟩ := (floor_eq_some_iff hsec).mp hfl
        exact .floor sec (fun y hy e => absurd e (hno y hy)) h1 h2 h3
    · intro h
      cases h with
      | symbol y n hy he hn => exact absurd he (hno y hy)
      | floor sec _ h1 h2 h3 => rw [(floor_eq_some_iff hsec).mpr ⟨h1, h2, h3⟩]; rfl
  | some y =>
    obtain ⟨hy, he⟩ := (find_eq_some_iff hs).mp hf
    simp only [Option.bind_some]
    cases hn : y.sec.name with
    | some m =>
      simp only
      constructor
      · intro h; cases h; exact .symbol y _ hy he hn
      · intro h
        cases h with
        | symbol z n hz hez hnz =>
          have : z = y := hs.inj hz hy (by show z.address = y.address; rw [hez]; exact he.symm)
          subst this
          rw [hn] at hnz
          exact hnz
        | floor sec hno => have := hno y hy he; rw [hn] at this; cases this
    | none =>
      simp only
      constructor
      · intro h
        cases hfl : Tree.floor st.sections t with
        | none => rw [hfl] at h; cases h
        | some sec =>
          rw [hfl] at h
          cases h
          obtain ⟨h1, h2, h3⟩ := (floor_eq_some_iff hsec).mp hfl
          refine .floor sec (fun z hz e => ?_) h1 h2 h3
          have : z = y := hs.inj hz hy (by show z.address = y.address; rw [e]; exact he.symm)
          rw [this]; exact hn
      · intro h
        cases h with
        | symbol z n hz hez hnz =>
          have : z = y := hs.inj hz hy (by show z.address = y.address; rw [hez]; exact he.symm)
          subst this
          rw [hn] at hnz
          cases hnz
        | floor sec _ h1 h2 h3 => rw [(floor_eq_some_iff hsec).mpr ⟨h1, h2, h3⟩]; rfl

theorem inSection_iff {st : AState} (hs : Sorted st.symbols) (hsec : Sorted st.sections) (t : Addr) (pre : String) :
    hasPrefix pre (targetSection st t) = true ↔ InSectionNamed st t pre := by
  rw [hasPrefix_iff]
  unfold InSectionNamed
  simp only [targetSection_iff hs hsec]

theorem closestTo_floor {t : List Symbol} (hs : Sorted t) {a : Addr} {y : Symbol} (h : ClosestTo t a y) :
    Tree.floor t a = some y :=
  (floor_eq_some_iff hs).mpr ⟨h.1, h.2.1, h.2.2⟩

theorem closestTo_of_address {t : List Symbol} {y : Symbol} (hy : y ∈ t) : ClosestTo t y.address y :=
  ⟨hy, Nat.le_refl _, fun _ _ h => h⟩

theorem closestTo_unique {t : List Symbol} (hs : Sorted t) {a : Addr} {y z : Symbol} (h : ClosestTo t a y)
    (h' : ClosestTo t a z) : y = z := by
  have e1 := closestTo_floor hs h
  rw [closestTo_floor hs h'] at e1
  exact (Option.some.inj e1).symm

/-- After the search for the closest symbol, name and addend describe the target. -/
theorem closestParts_spec {st : AState} (hs : Sorted st.symbols) {target : Addr} {size : BitVec 8} {p : RelParts}
    {y : Symbol} (hy : ClosestTo st.symbols target y)
    (hp : p.name = none ∨ p.name = (Tree.find st.symbols target).bind (·.name)) :
    (closestParts st target size p).type = p.type ∧ (closestParts st target size p).name = y.name ∧
    y.address + (closestParts st target size p).addend = target + p.addend := by
  unfold closestParts
  cases hn : p.name with
  | none =>
    simp only [Option.isNone_none, if_true]
    rw [closestTo_floor hs hy]
    refine ⟨rfl, rfl, ?_⟩
    simp only
    grind
  | some n =>
    simp only [Option.isNone_some, Bool.false_eq_true, if_false]
    rw [hn] at hp
    rcases hp with hp | hp
    · cases hp
    · cases hf : Tree.find st.symbols target with
      | none => rw [hf] at hp; cases hp
      | some z =>
        rw [hf] at hp
        obtain ⟨hz, he⟩ := (find_eq_some_iff hs).mp hf
        have he' : z.address = target := he
        have hcz : ClosestTo st.symbols target z := by rw [← he']; exact closestTo_of_address hz
        have := closestTo_unique hs hy hcz
        subst this
        refine ⟨trivial, ?_, ?_⟩
        · rw [hn, hp]; rfl
        · rw [he']

theorem pcType_plain {size : BitVec 8} (h : size = 1 ∨ size = 2 ∨ size = 4 ∨ size = 8) :
    PlainPcType size (pcType R_X86_64_NONE size) := by
  rcases h with rfl | rfl | rfl | rfl <;> unfold PlainPcType <;> decide

theorem gotName_import {st : AState} (hr : Sorted st.relocations) {target : Addr} {n : String} (d : Option String)
    (h : ImportSlot st target (some n)) : gotName st target d = some n := by
  obtain ⟨rel, h1, h2, s, h3, h4, h5⟩ := h
  have : Tree.find st.relocations target = some rel := (find_eq_some_iff hr).mpr ⟨h1, h2⟩
  unfold gotName
  rw [this]
  simp only
  rw [h3]
  simp only
  rw [if_pos h4, h5]

/-- The relocation reproduces the distance to its target. -/
theorem relParts_applied {st : AState} (hs : Sorted st.symbols) (hsec : Sorted st.sections) (hrel : Sorted st.relocations)
    {r : Rel} {size : BitVec 8} {base : BitVec 64} (ht : TLS.is_tls r.target = false)
    (hz : size = 1 ∨ size = 2 ∨ size = 4 ∨ size = 8) {y : Symbol} (hy : ClosestTo st.symbols r.target y)
    (htype : r.type = (relParts st r.target size base).type) (hname : r.name = (relParts st r.target size base).name)
    (hadd : r.addend = (relParts st r.target size base).addend)
    (hgot : size = 4 → InSectionNamed st r.target ".got" → ¬ InSectionNamed st r.target ".plt" →
      ∃ n, ImportSlot st r.target (some n)) :
    Applied st size r (r.target + base - r.offset) := by
  have hpart : relParts st r.target size base =
      { closestParts st r.target size (sectionParts st r.target size base) with
        type := pcType (closestParts st r.target size (sectionParts st r.target size base)).type size } := by
    unfold relParts
    rw [if_neg (by rw [ht]; decide)]
  rw [hpart] at htype hname hadd
  simp only at htype hname hadd
  by_cases hplt : size = 4 ∧ hasPrefix ".plt" (targetSection st r.target) = true
  · have hsp : sectionParts st r.target size base =
        { type := R_X86_64_PLT32, name := (Tree.find st.symbols r.target).bind (·.name), addend := base } := by
      unfold sectionParts
      rw [if_pos hplt]
    rw [hsp] at htype hname hadd
    obtain ⟨h1, h2, h3⟩ := closestParts_spec hs (size := size) hy (p := { type := R_X86_64_PLT32, name := (Tree.find st.symbols r.target).bind (·.name), addend := base }) (Or.inr rfl)
    rw [h1] at htype
    rw [h2] at hname
    rw [← hadd] at h3
    simp only at h3
    rw [← h3]
    exact .plt y hplt.1 htype ((inSection_iff hs hsec _ _).mp hplt.2) hname.symm hy
  · by_cases hg : size = 4 ∧ hasPrefix ".got" (targetSection st r.target) = true
    · have hsp : sectionParts st r.target size base =
          { type := R_X86_64_GOTPCREL, name := gotName st r.target ((Tree.find st.symbols r.target).bind (·.name)),
            addend := base } := by
        unfold sectionParts
        rw [if_neg hplt, if_pos hg]
      obtain ⟨n, hn⟩ := hgot hg.1 ((inSection_iff hs hsec _ _).mp hg.2)
        (fun h => hplt ⟨hg.1, (inSection_iff hs hsec _ _).mpr h⟩)
      rw [hsp, gotName_import hrel _ hn] at htype hname hadd
      have hc : closestParts st r.target size { type := R_X86_64_GOTPCREL, name := some n, addend := base } =
          { type := R_X86_64_GOTPCREL, name := some n, addend := base } := by
        unfold closestParts
        rfl
      rw [hc] at htype hname hadd
      simp only at htype hname hadd
      rw [← hadd]
      rw [← hname] at hn
      exact .got r.target hg.1 htype hn
    · have hsp : sectionParts st r.target size base =
          { type := R_X86_64_NONE, name := (Tree.find st.symbols r.target).bind (·.name), addend := base } := by
        unfold sectionParts
        rw [if_neg hplt, if_neg hg]
      rw [hsp] at htype hname hadd
      obtain ⟨h1, h2, h3⟩ := closestParts_spec hs (size := size) hy (p := { type := R_X86_64_NONE, name := (Tree.find st.symbols r.target).bind (·.name), addend := base }) (Or.inr rfl)
      rw [h1] at htype
      rw [h2] at hname
      rw [← hadd] at h3
      simp only at h3
      rw [← h3]
      exact .plain y (by rw [htype]; exact pcType_plain hz) hname.symm hy

theorem negDistance_eq (a t : Addr) (size : Nat) (offset : BitVec 8) :
    t + negDistance size offset - (a + offset.setWidth 64) = t - (a + BitVec.ofNat 64 size) := by
  unfold negDistance
  generalize offset.setWidth 64 = o
  generalize BitVec.ofNat 64 size = n
  grind

end Bean

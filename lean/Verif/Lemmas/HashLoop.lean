import Verif.Lemmas.HashInternal
/-
Lemmas about the loop over all symbols.
-/
namespace Bean
open Tree Spec

/-! ### Relocations -/

/-- Symbols that only differ in references and relocations. -/
structure SameBase (s s' : Symbol) : Prop where
  address : s'.address = s.address
  size : s'.size = s.size
  name : s'.name = s.name
  type : s'.type = s.type
  bind : s'.bind = s.bind
  flags : s'.flags = s.flags
  sec : s'.sec = s.sec
  id : s'.id = s.id
  deps : s'.deps = s.deps
  offset_ids : s'.offset_ids = s.offset_ids

theorem SameBase.refl (s : Symbol) : SameBase s s := ⟨rfl, rfl, rfl, rfl, rfl, rfl, rfl, rfl, rfl, rfl⟩

theorem SameBase.trans {a b c : Symbol} (h : SameBase a b) (h' : SameBase b c) : SameBase a c :=
  ⟨h'.address.trans h.address, h'.size.trans h.size, h'.name.trans h.name, h'.type.trans h.type, h'.bind.trans h.bind,
   h'.flags.trans h.flags, h'.sec.trans h.sec, h'.id.trans h.id, h'.deps.trans h.deps,
   h'.offset_ids.trans h.offset_ids⟩

/-- What the addition of relocations to `s` guarantees: relocations are kept, and the references are extended by the
targets of new defined ones if relocations are resolved. -/
structure RelsAdded (resolve : Bool) (s s' : Symbol) : Prop where
  base : SameBase s s'
  sorted : Sorted s'.rels
  keep : ∀ r ∈ s.rels, r ∈ s'.rels
  refs : ∀ t, t ∈ s'.refs ↔ t ∈ s.refs ∨
    (resolve = true ∧ ∃ r ∈ s'.rels, r ∉ s.rels ∧ r.undefined = false ∧ r.target = t)

theorem RelsAdded.refl (resolve : Bool) {s : Symbol} (h : Sorted s.rels) : RelsAdded resolve s s :=
  ⟨.refl s, h, fun _ h => h, fun t => ⟨Or.inl, by rintro (h | ⟨_, r, hr, hn, _⟩); exact h; exact absurd hr hn⟩⟩

theorem RelsAdded.trans {resolve : Bool} {a b c : Symbol} (h : RelsAdded resolve a b) (h' : RelsAdded resolve b c) :
    RelsAdded resolve a c := by
  refine ⟨h.base.trans h'.base, h'.sorted, fun r hr => h'.keep r (h.keep r hr), fun t => ?_⟩
  rw [h'.refs, h.refs]
  constructor
  · rintro ((h1 | ⟨h1, r, hr, hn, hu, ht⟩) | ⟨h1, r, hr, hn, hu, ht⟩)
    · exact Or.inl h1
    · exact Or.inr ⟨h1, r, h'.keep r hr, hn, hu, ht⟩
    · exact Or.inr ⟨h1, r, hr, fun hc => hn (h.keep r hc), hu, ht⟩
  · rintro (h1 | ⟨h1, r, hr, hn, hu, ht⟩)
    · exact Or.inl (Or.inl h1)
    · by_cases hb : r ∈ b.rels
      · exact Or.inl (Or.inr ⟨h1, r, hb, hn, hu, ht⟩)
      · exact Or.inr ⟨h1, r, hr, hb, hu, ht⟩

theorem addRel_added (resolve : Bool) {s : Symbol} (hs : Sorted s.rels) (r : Rel) :
    RelsAdded resolve s (addRel resolve s r) := by
  refine ⟨⟨rfl, rfl, rfl, rfl, rfl, rfl, rfl, rfl, rfl, rfl⟩, sorted_insert hs r, ?_, ?_⟩
  · intro x hx
    exact (mem_insert' hs).mpr (Or.inl hx)
  · intro t
    show t ∈ (if ((Tree.insert s.rels r).2 && resolve && !r.undefined) = true then HSet.add s.refs r.target else s.refs) ↔ _
    cases hnew : (Tree.insert s.rels r).2 with
    | false =>
      simp only [Bool.false_and, Bool.false_eq_true, if_false]
      constructor
      · exact Or.inl
      · rintro (h | ⟨_, x, hx, hn, _⟩)
        · exact h
        · have hx' : x ∈ (Tree.insert s.rels r).1 := hx
          rw [mem_insert' hs] at hx'
          rcases hx' with h | ⟨rfl, h⟩
          · exact absurd h hn
          · obtain ⟨y, hy, e⟩ := (insert_snd_false hs).mp hnew
            exact absurd e (h y hy)
    | true =>
      have hfresh := (insert_snd_iff hs).mp hnew
      have hmem : ∀ x, x ∈ (addRel resolve s r).rels ↔ x ∈ s.rels ∨ x = r := by
        intro x
        show x ∈ (Tree.insert s.rels r).1 ↔ _
        rw [mem_insert' hs]
        constructor
        · rintro (h | ⟨h, _⟩)
          · exact Or.inl h
          · exact Or.inr h
        · rintro (h | h)
          · exact Or.inl h
          · exact Or.inr ⟨h, hfresh⟩
      have hnot : r ∉ s.rels := fun h => hfresh r h rfl
      simp only [Bool.true_and]
      by_cases hc : (resolve && !r.undefined) = true
      · rw [if_pos hc, mem_hset_add]
        rw [Bool.and_eq_true, Bool.not_eq_true'] at hc
        constructor
        · rintro (h | rfl)
          · exact Or.inl h
          · exact Or.inr ⟨hc.1, r, (hmem r).mpr (Or.inr rfl), hnot, hc.2, rfl⟩
        · rintro (h | ⟨_, x, hx, hn, _, ht⟩)
          · exact Or.inl h
          · rcases (hmem x).mp hx with h | rfl
            · exact absurd h hn
            · exact Or.inr ht.symm
      · rw [if_neg hc]
        constructor
        · exact Or.inl
        · rintro (h | ⟨h1, x, hx, hn, hu, ht⟩)
          · exact h
          · rcases (hmem x).mp hx with h | rfl
            · exact absurd h hn
            · exact absurd (by rw [h1, hu]; rfl) hc

theorem foldRels_added (resolve : Bool) {ρ : Type} (f : ρ → Rel) (l : List ρ) {s : Symbol} (hs : Sorted s.rels) :
    RelsAdded resolve s (l.foldl (fun s r => addRel resolve s (f r)) s) := by
  induction l generalizing s with
  | nil => exact .refl resolve hs
  | cons x l ih => exact (addRel_added resolve hs (f x)).trans (ih (addRel_added resolve hs (f x)).sorted)

theorem foldRelative_added (resolve : Bool) (sec : ElfSec) (l : List Addr) {s s' : Symbol} (hs : Sorted s.rels)
    (h : l.foldlM (addRelative resolve sec) s = .ok s') : RelsAdded resolve s s' := by
  induction l generalizing s with
  | nil => cases h; exact .refl resolve hs
  | cons x l ih =>
    rw [List.foldlM_cons] at h
    cases h1 : addRelative resolve sec s x with
    | error e => rw [h1] at h; cases h
    | ok s1 =>
      rw [h1] at h
      have h2 : RelsAdded resolve s s1 := by
        unfold addRelative at h1
        cases h3 : readBytes sec.data (x - sec.virt_addr) 8 with
        | error e => rw [h3] at h1; cases h1
        | ok bytes => rw [h3] at h1; cases h1; exact addRel_added resolve hs _
      exact h2.trans (ih h2.sorted h)

theorem addRelocations_added {env : Env} {fl : AnalyzeFlags} {st : AState} {sec : ElfSec} {a : Addr} {s s' : Symbol}
    (hs : Sorted s.rels) (h : addRelocations env fl st sec a s = .ok s') : RelsAdded fl.resolve_internal s s' := by
  have h1 := foldRels_added fl.resolve_internal
    (relOfElf env s.address fl.resolve_internal st.global_offset_table)
    (treeRange st.relocations (TLS.virt_addr s.address) (a + s.size)) hs
  unfold addRelocations at h
  exact h1.trans (foldRelative_added _ _ _ h1.sorted h)

/-! ### Symbols -/

/-- The address from which on other symbols occupy the memory. -/
def lastAddr : List Symbol → Addr
  | [] => BitVec.allOnes 64
  | x :: _ => x.address

/-- The result of `hashSymbol` for each symbol. -/
inductive HashedAs (env : Env) (fl : AnalyzeFlags) (st : AState) : List Symbol → List Hashed → Prop
  | nil : HashedAs env fl st [] []
  | cons {s : Symbol} {l : List Symbol} {h : Hashed} {hs : List Hashed} :
      hashSymbol env fl st (lastAddr l) s = .ok h → HashedAs env fl st l hs → HashedAs env fl st (s :: l) (h :: hs)

theorem fallThrough_ok {b : Build} {t : SymTree} {e : ExecState} {s s' : Symbol} (h : fallThrough b t e s = .ok s') :
    ((e.leave = true ∧ ¬ e.max_branch > e.last_instruction) ∧ s' = s) ∨
    ((e.leave = false ∨ e.max_branch > e.last_instruction) ∧
      ∃ next, Tree.ceil t (s.address + s.size) = some next ∧ s' = { s with refs := HSet.add s.refs next.address }) := by
  unfold fallThrough at h
  by_cases hc : (e.leave && !decide (e.max_branch > e.last_instruction)) = true
  · rw [if_pos hc] at h
    cases h
    rw [Bool.and_eq_true, Bool.not_eq_true', decide_eq_false_iff_not] at hc
    exact Or.inl ⟨hc, rfl⟩
  · rw [if_neg hc] at h
    cases hm : mderef b (Tree.ceil t (s.address + s.size)) with
    | error e => rw [hm] at h; cases h
    | ok next =>
      rw [hm] at h
      cases h
      refine Or.inr ⟨?_, next, mderef_ok hm, rfl⟩
      rw [Bool.and_eq_true, Bool.not_eq_true', decide_eq_false_iff_not, Classical.not_and_iff_not_or_not] at hc
      rcases hc with hc | hc
      · exact Or.inl (by simpa using hc)
      · exact Or.inr (Classical.not_not.mp hc)

/-- All steps of `hashExec`. -/
theorem hashExec_ok {env : Env} {fl : AnalyzeFlags} {st : AState} {sec : ElfSec} {s : Symbol} {h : Hashed}
    (e : hashExec env fl st sec s = .ok h) :
    ∃ s1 bytes,
      addRelocations env fl st sec (TLS.virt_addr s.address) s = .ok s1 ∧
      readBytes sec.data (TLS.virt_addr s.address - sec.virt_addr) s1.size = .ok bytes ∧
      fallThrough env.build st.symbols
        (execLoop env (symCtx env st s1) (disasm env (TLS.virt_addr s.address) bytes) (execStart s1))
        (applyExec s1 (execLoop env (symCtx env st s1) (disasm env (TLS.virt_addr s.address) bytes) (execStart s1))) =
        .ok h.sym ∧
      h.input = (execLoop env (symCtx env st s1) (disasm env (TLS.virt_addr s.address) bytes) (execStart s1)).hashed ∧
      h.content = (execLoop env (symCtx env st s1) (disasm env (TLS.virt_addr s.address) bytes) (execStart s1)).content := by
  unfold hashExec at e
  simp only at e
  replace e := (massert_bind_ok e).2
  cases h1 : addRelocations env fl st sec (TLS.virt_addr s.address) s with
  | error x => rw [h1] at e; cases e
  | ok s1 =>
    rw [h1] at e
    change (do
      let bytes ← readBytes sec.data (TLS.virt_addr s.address - sec.virt_addr) s1.size
      _) = Except.ok h at e
    cases h2 : readBytes sec.data (TLS.virt_addr s.address - sec.virt_addr) s1.size with
    | error x => rw [h2] at e; cases e
    | ok bytes =>
      rw [h2] at e
      refine ⟨s1, bytes, rfl, h2, ?_⟩
      change (do
        let y ← fallThrough env.build st.symbols
          (execLoop env (symCtx env st s1) (disasm env (TLS.virt_addr s.address) bytes) (execStart s1))
          (applyExec s1
            (execLoop env (symCtx env st s1) (disasm env (TLS.virt_addr s.address) bytes) (execStart s1)))
        _) = Except.ok h at e
      cases hx : fallThrough env.build st.symbols
          (execLoop env (symCtx env st s1) (disasm env (TLS.virt_addr s.address) bytes) (execStart s1))
          (applyExec s1
            (execLoop env (symCtx env st s1) (disasm env (TLS.virt_addr s.address) bytes) (execStart s1))) with
      | error x => rw [hx] at e; cases e
      | ok s2 =>
        rw [hx] at e
        cases e
        exact ⟨rfl, rfl, rfl⟩

/-- In a debug build data does not exceed the segment that is found for it. -/
theorem hashData_inside {env : Env} {fl : AnalyzeFlags} {st : AState} {sec : ElfSec} {s : Symbol} {h : Hashed}
    {seg : ElfSeg} (e : hashData env fl st sec s = .ok h) (hs : dataSegment st sec (TLS.virt_addr s.address) = .ok seg)
    (hb : env.build = .debug) :
    TLS.virt_addr s.address + s.size ≤ env.align_up (seg.virt_addr + seg.virt_size) seg.alignment := by
  unfold hashData at e
  simp only at e
  rw [hs] at e
  have hc := (massert_bind_ok e).1 hb
  simpa using hc

/-- All steps of `hashData`. -/
theorem hashData_ok {env : Env} {fl : AnalyzeFlags} {st : AState} {sec : ElfSec} {s : Symbol} {h : Hashed}
    (e : hashData env fl st sec s = .ok h) :
    ∃ seg, dataSegment st sec (TLS.virt_addr s.address) = .ok seg ∧ h.content = true ∧
      ((isBss sec seg (TLS.virt_addr s.address) = true ∧ h.sym = s ∧
          h.input = pageOffset s (TLS.virt_addr s.address) ++ zeros s.size.toNat) ∨
       (isBss sec seg (TLS.virt_addr s.address) = false ∧
          ∃ bytes c, addRelocations env fl st sec (TLS.virt_addr s.address) s = .ok h.sym ∧
            readBytes sec.data (TLS.virt_addr s.address - sec.virt_addr) h.sym.size = .ok bytes ∧
            dataContent env st.global_offset_table (TLS.virt_addr s.address) h.sym.size h.sym.rels bytes = .ok c ∧
            h.input = pageOffset h.sym (TLS.virt_addr s.address) ++ c)) := by
  unfold hashData at e
  simp only at e
  cases h0 : dataSegment st sec (TLS.virt_addr s.address) with
  | error x => rw [h0] at e; cases e
  | ok seg =>
    rw [h0] at e
    replace e := (massert_bind_ok e).2
    refine ⟨seg, rfl, ?_⟩
    cases hb : isBss sec seg (TLS.virt_addr s.address) with
    | true =>
      rw [if_pos hb] at e
      cases e
      exact ⟨rfl, Or.inl ⟨rfl, rfl, rfl⟩⟩
    | false =>
      rw [if_neg (by rw [hb]; decide)] at e
      cases h1 : addRelocations env fl st sec (TLS.virt_addr s.address) s with
      | error x => rw [h1] at e; cases e
      | ok s1 =>
        rw [h1] at e
        change (do
          let bytes ← readBytes sec.data (TLS.virt_addr s.address - sec.virt_addr) s1.size
          _) = Except.ok h at e
        cases h2 : readBytes sec.data (TLS.virt_addr s.address - sec.virt_addr) s1.size with
        | error x => rw [h2] at e; cases e
        | ok bytes =>
          rw [h2] at e
          change (do
            let c ← dataContent env st.global_offset_table (TLS.virt_addr s.address) s1.size s1.rels bytes
            _) = Except.ok h at e
          cases h3 : dataContent env st.global_offset_table (TLS.virt_addr s.address) s1.size s1.rels bytes with
          | error x => rw [h3] at e; cases e
          | ok c =>
            rw [h3] at e
            cases e
            exact ⟨rfl, Or.inr ⟨rfl, bytes, c, rfl, h2, h3, rfl⟩⟩

/-- All steps of `hashSymbol`. -/
theorem hashSymbol_ok {env : Env} {fl : AnalyzeFlags} {st : AState} {last : Addr} {s : Symbol} {h : Hashed}
    (e : hashSymbol env fl st last s = .ok h) :
    ∃ sec s1, Tree.floor st.sections s.address = some sec ∧ sizeSymbol env sec last (adoptSection sec s) = .ok s1 ∧
      ((s1.sec.executable = true ∧ hashExec env fl st sec s1 = .ok h) ∨
       (s1.sec.executable = false ∧ hashData env fl st sec s1 = .ok h)) := by
  unfold hashSymbol at e
  cases h0 : mderef env.build (Tree.floor st.sections s.address) with
  | error x => rw [h0] at e; cases e
  | ok sec =>
    rw [h0] at e
    change (do
      let s1 ← sizeSymbol env sec last (adoptSection sec s)
      _) = Except.ok h at e
    cases h1 : sizeSymbol env sec last (adoptSection sec s) with
    | error x => rw [h1] at e; cases e
    | ok s1 =>
      rw [h1] at e
      refine ⟨sec, s1, mderef_ok h0, h1, ?_⟩
      change (if s1.sec.executable = true then hashExec env fl st sec s1 else hashData env fl st sec s1) = _ at e
      by_cases hx : s1.sec.executable = true
      · rw [if_pos hx] at e; exact Or.inl ⟨hx, e⟩
      · rw [if_neg hx] at e; exact Or.inr ⟨by simpa using hx, e⟩

theorem sizeSymbol_ok {env : Env} {sec : ElfSec} {last : Addr} {s s1 : Symbol}
    (h : sizeSymbol env sec last s = .ok s1) :
    ∃ n, s1 = { s with size := n } ∧ s.size.toNat ≤ n.toNat ∧
      (∀ a : Addr, a.toNat < last.toNat → a.toNat < (sectionEnd env sec).toNat → a.toNat < s.address.toNat + n.toNat) ∧
      (s.address.toNat ≤ last.toNat → s.address.toNat ≤ (sectionEnd env sec).toNat →
        n.toNat = max s.size.toNat (min last.toNat (sectionEnd env sec).toNat - s.address.toNat)) ∧
      (env.build = .debug → s.address.toNat ≤ last.toNat ∧ s.address.toNat ≤ (sectionEnd env sec).toNat) := by
  unfold sizeSymbol at h
  simp only at h
  change (do
    massert env.build (decide ((if last < sectionEnd env sec then last else sectionEnd env sec) ≥ s.address))
    return if (if last < sectionEnd env sec then last else sectionEnd env sec) - s.address > s.size then
      { s with size := (if last < sectionEnd env sec then last else sectionEnd env sec) - s.address } else s) = _ at h
  generalize hm : (if last < sectionEnd env sec then last else sectionEnd env sec) = m at h
  have hmin : m.toNat = min last.toNat (sectionEnd env sec).toNat := by
    rw [← hm]
    split
    · rename_i hc
      rw [BitVec.lt_def] at hc
      omega
    · rename_i hc
      rw [BitVec.lt_def] at hc
      omega
  have hdbg : env.build = .debug → s.address ≤ m := by
    intro hd
    rw [hd] at h
    by_cases hc : m ≥ s.address
    · exact hc
    · rw [decide_eq_false hc] at h
      cases h
  replace h := (massert_bind_ok h).2
  have hs : s1 = if m - s.address > s.size then { s with size := m - s.address } else s := by cases h; rfl
  have hsub := BitVec.toNat_sub m s.address
  have hm64 := m.isLt
  have hd64 : env.build = .debug → s.address.toNat ≤ last.toNat ∧ s.address.toNat ≤ (sectionEnd env sec).toNat := by
    intro hd
    have := hdbg hd
    rw [BitVec.le_def] at this
    omega
  by_cases hc : m - s.address > s.size
  · rw [if_pos hc] at hs
    rw [gt_iff_lt, BitVec.lt_def] at hc
    refine ⟨m - s.address, hs, by omega, ?_, ?_, hd64⟩
    · intro a h1 h2
      omega
    · intro h1 h2
      omega
  · rw [if_neg hc] at hs
    rw [gt_iff_lt, BitVec.lt_def] at hc
    refine ⟨s.size, by rw [hs], by omega, ?_, ?_, hd64⟩
    · intro a h1 h2
      omega
    · intro h1 h2
      omega

/-- What stays the same for each symbol. -/
structure SameSym (s s' : Symbol) : Prop where
  address : s'.address = s.address
  name : s'.name = s.name
  type : s'.type = s.type
  bind : s'.bind = s.bind
  deps : s'.deps = s.deps
  id : s'.id = s.id
  offset_ids : s'.offset_ids = s.offset_ids
  rels : ∀ r ∈ s.rels, r ∈ s'.rels
  refs : ∀ t ∈ s.refs, t ∈ s'.refs

theorem execLoop_refs_mono {env : Env} {cx : SymCtx} (l : List Step) (e : ExecState) (t : Addr) (h : t ∈ e.refs) :
    t ∈ (execLoop env cx l e).refs := by
  have hop : ∀ (b : Bool) (next : Addr) (o : OpState) (op : Operand), t ∈ o.refs → t ∈ (hashOperand cx b next o op).refs := by
    intro b next o op ho
    cases op with
    | reg r => exact ho
    | other => exact ho
    | imm v a =>
      simp only [hashOperand, hashImm]
      split
      · split
        · exact ho
        · exact mem_hset_add.mpr (Or.inl ho)
      · exact ho
    | mem segment base index scale disp a =>
      simp only [hashOperand]
      have hfs : t ∈ (hashFs cx o segment disp).refs := by
        unfold hashFs
        split
        · exact mem_hset_add.mpr (Or.inl ho)
        · exact ho
      split
      · unfold hashRip
        split
        · exact hfs
        · exact mem_hset_add.mpr (Or.inl hfs)
      · exact hfs
  have hins : ∀ (e : ExecState) (i : Insn) (a : Addr), t ∈ e.refs → t ∈ (execInsn env cx e i a).refs := by
    intro e i a he
    have : ∀ (ops : List Operand) (o : OpState), t ∈ o.refs →
        t ∈ (ops.foldl (hashOperand cx (isBranch (env.kind i.id)) (i.address + BitVec.ofNat 64 i.size)) o).refs := by
      intro ops
      induction ops with
      | nil => exact fun o h => h
      | cons x l ih => exact fun o h => ih _ (hop _ _ _ _ h)
    exact this _ _ he
  induction l generalizing e with
  | nil => exact h
  | cons x l ih =>
    by_cases hn : env.kind x.insn.id = .nop
    · rw [execLoop_nop hn]; exact ih e h
    · by_cases hfin : FinalStep env x
      · rw [execLoop_final hfin]; exact hins _ _ _ h
      · rw [execLoop_next hn hfin]; exact ih _ (hins _ _ _ h)

theorem RelsAdded.same {resolve : Bool} {s s' : Symbol} (h : RelsAdded resolve s s') : SameSym s s' :=
  ⟨h.base.address, h.base.name, h.base.type, h.base.bind, h.base.deps, h.base.id, h.base.offset_ids, h.keep,
   fun t ht => (h.refs t).mpr (Or.inl ht)⟩

theorem SameSym.trans {a b c : Symbol} (h : SameSym a b) (h' : SameSym b c) : SameSym a c :=
  ⟨h'.address.trans h.address, h'.name.trans h.name, h'.type.trans h.type, h'.bind.trans h.bind,
   h'.deps.trans h.deps, h'.id.trans h.id, h'.offset_ids.trans h.offset_ids, fun r hr => h'.rels r (h.rels r hr),
   fun r hr => h'.refs r (h.refs r hr)⟩

theorem fallThrough_same {b : Build} {t : SymTree} {e : ExecState} {s s' : Symbol} (h : fallThrough b t e s = .ok s') :
    SameSym s s' ∧ s'.size = s.size ∧ s'.flags = s.flags ∧ s'.sec = s.sec ∧ s'.rels = s.rels := by
  rcases fallThrough_ok h with ⟨_, rfl⟩ | ⟨_, next, _, rfl⟩
  · exact ⟨⟨rfl, rfl, rfl, rfl, rfl, rfl, rfl, fun _ h => h, fun _ h => h⟩, rfl, rfl, rfl, rfl⟩
  · exact ⟨⟨rfl, rfl, rfl, rfl, rfl, rfl, rfl, fun _ h => h, fun _ h => mem_hset_add.mpr (Or.inl h)⟩, rfl, rfl, rfl, rfl⟩

theorem hashExec_same {env : Env} {fl : AnalyzeFlags} {st : AState} {sec : ElfSec} {s : Symbol} {h : Hashed}
    (hs : Sorted s.rels) (e : hashExec env fl st sec s = .ok h) :
    SameSym s h.sym ∧ h.sym.size = s.size ∧ h.sym.sec = s.sec ∧ Sorted h.sym.rels := by
  obtain ⟨s1, bytes, h1, h2, h3, h4, h5⟩ := hashExec_ok e
  have ha := addRelocations_added hs h1
  have hf := fallThrough_same h3
  have hm : SameSym s1 (applyExec s1 (execLoop env (symCtx env st s1) (disasm env (TLS.virt_addr s.address) bytes)
      (execStart s1))) :=
    ⟨rfl, rfl, rfl, rfl, rfl, rfl, rfl, fun _ h => h, fun t ht => execLoop_refs_mono _ _ _ ht⟩
  exact ⟨ha.same.trans (hm.trans hf.1), hf.2.1.trans ha.base.size, hf.2.2.2.1.trans ha.base.sec, by
    rw [hf.2.2.2.2]; exact ha.sorted⟩

theorem hashData_same {env : Env} {fl : AnalyzeFlags} {st : AState} {sec : ElfSec} {s : Symbol} {h : Hashed}
    (hs : Sorted s.rels) (e : hashData env fl st sec s = .ok h) :
    SameSym s h.sym ∧ h.sym.size = s.size ∧ h.sym.sec = s.sec ∧ h.sym.flags = s.flags ∧ Sorted h.sym.rels := by
  obtain ⟨seg, _, _, ⟨_, h1, _⟩ | ⟨_, bytes, c, h1, _⟩⟩ := hashData_ok e
  · rw [h1]
    exact ⟨⟨rfl, rfl, rfl, rfl, rfl, rfl, rfl, fun _ h => h, fun _ h => h⟩, rfl, rfl, rfl, hs⟩
  · have ha := addRelocations_added hs h1
    exact ⟨ha.same, ha.base.size, ha.base.sec, ha.base.flags, ha.sorted⟩

theorem adoptSection_same (sec : ElfSec) (s : Symbol) : SameSym s (adoptSection sec s) ∧
    (adoptSection sec s).size = s.size ∧ (adoptSection sec s).flags = s.flags ∧ (adoptSection sec s).rels = s.rels ∧
    (adoptSection sec s).refs = s.refs ∧ (adoptSection sec s).sec.flags = s.sec.flags := by
  unfold adoptSection
  split
  · exact ⟨⟨rfl, rfl, rfl, rfl, rfl, rfl, rfl, fun _ h => h, fun _ h => h⟩, rfl, rfl, rfl, rfl, rfl⟩
  · exact ⟨⟨rfl, rfl, rfl, rfl, rfl, rfl, rfl, fun _ h => h, fun _ h => h⟩, rfl, rfl, rfl, rfl, rfl⟩

/-- Everything about one symbol: `s1` is the symbol with its section attributes and final size. -/
theorem hashSymbol_same {env : Env} {fl : AnalyzeFlags} {st : AState} {last : Addr} {s : Symbol} {h : Hashed}
    (hs : Sorted s.rels) (e : hashSymbol env fl st last s = .ok h) :
    SameSym s h.sym ∧ Sorted h.sym.rels ∧ ∃ sec s1, Tree.floor st.sections s.address = some sec ∧
      s1 = { adoptSection sec s with size := h.sym.size } ∧ h.sym.sec = s1.sec ∧
      sizeSymbol env sec last (adoptSection sec s) = .ok s1 ∧
      ((s1.sec.executable = true ∧ hashExec env fl st sec s1 = .ok h) ∨
       (s1.sec.executable = false ∧ hashData env fl st sec s1 = .ok h)) := by
  obtain ⟨sec, s1, h1, h2, h3⟩ := hashSymbol_ok e
  obtain ⟨n, hn, _⟩ := sizeSymbol_ok h2
  have had := adoptSection_same sec s
  have hs1 : Sorted s1.rels := by
    rw [hn]
    show Sorted (adoptSection sec s).rels
    rw [had.2.2.2.1]
    exact hs
  have hsame1 : SameSym s s1 := by
    rw [hn]
    exact had.1.trans ⟨rfl, rfl, rfl, rfl, rfl, rfl, rfl, fun _ h => h, fun _ h => h⟩
  have hfin : SameSym s1 h.sym ∧ h.sym.size = s1.size ∧ h.sym.sec = s1.sec ∧ Sorted h.sym.rels := by
    rcases h3 with ⟨_, h3⟩ | ⟨_, h3⟩
    · exact hashExec_same hs1 h3
    · have := hashData_same hs1 h3
      exact ⟨this.1, this.2.1, this.2.2.1, this.2.2.2.2⟩
  refine ⟨hsame1.trans hfin.1, hfin.2.2.2, sec, s1, h1, ?_, hfin.2.2.1, h2, h3⟩
  rw [hfin.2.1, hn]

/-! ### The loop -/

theorem finishSymbol_address (env : Env) (fl : AnalyzeFlags) (h : Hashed) :
    (finishSymbol env fl h).address = h.sym.address := by
  unfold finishSymbol
  split <;> rfl

theorem hashLoop_ok {env : Env} {fl : AnalyzeFlags} {st : AState} (l : List Symbol) {L : HashLoop}
    (h : l.reverse.foldlM (hashStep env fl st) {} = .ok L) :
    ∃ hs, HashedAs env fl st l hs ∧ L.done = hs.map (finishSymbol env fl) ∧ L.last_addr = lastAddr l ∧
      ∀ a, a ∈ L.unused ↔ ∃ (i : Nat) (s : Symbol) (x : Hashed), l[i]? = some s ∧ hs[i]? = some x ∧ s.address = a ∧
        unusedSymbol fl x = true := by
  induction l generalizing L with
  | nil =>
    cases h
    exact ⟨[], .nil, rfl, rfl, fun a => by simp⟩
  | cons s l ih =>
    rw [List.reverse_cons, List.foldlM_append] at h
    cases h1 : l.reverse.foldlM (hashStep env fl st) {} with
    | error e => rw [h1] at h; cases h
    | ok L1 =>
      rw [h1] at h
      obtain ⟨hs, ha, hd, hl, hu⟩ := ih h1
      simp only [List.foldlM_cons, List.foldlM_nil] at h
      change (hashStep env fl st L1 s >>= fun y => pure y) = Except.ok L at h
      unfold hashStep at h
      cases h2 : hashSymbol env fl st L1.last_addr s with
      | error e => rw [h2] at h; cases h
      | ok x =>
        rw [h2] at h
        cases h
        refine ⟨x :: hs, .cons (by rw [← hl]; exact h2) ha, by simp [hd], rfl, fun a => ?_⟩
        show a ∈ (if unusedSymbol fl x = true then L1.unused ++ [s.address] else L1.unused) ↔ _
        have hmem : a ∈ (if unusedSymbol fl x = true then L1.unused ++ [s.address] else L1.unused) ↔
            a ∈ L1.unused ∨ (unusedSymbol fl x = true ∧ a = s.address) := by
          split
          · rename_i hc; simp [hc]
          · rename_i hc; simp [hc]
        rw [hmem, hu]
        constructor
        · rintro (⟨i, y, z, h3, h4, h5⟩ | ⟨h3, h4⟩)
          · exact ⟨i + 1, y, z, by simpa using h3, by simpa using h4, h5⟩
          · exact ⟨0, s, x, rfl, rfl, h4.symm, h3⟩
        · rintro ⟨i, y, z, h3, h4, h5, h6⟩
          cases i with
          | zero =>
            have e1 : s = y := by simpa using h3
            have e2 : x = z := by simpa using h4
            subst e1 e2
            exact Or.inr ⟨h6, h5.symm⟩
          | succ i => exact Or.inl ⟨i, y, z, by simpa using h3, by simpa using h4, h5, h6⟩

theorem mem_foldl_erase {l : List Addr} {t : SymTree} {s : Symbol} :
    s ∈ l.foldl Tree.erase t ↔ s ∈ t ∧ s.address ∉ l := by
  induction l generalizing t with
  | nil => simp
  | cons x l ih =>
    rw [List.foldl_cons, ih, mem_erase]
    show (s ∈ t ∧ s.address ≠ x) ∧ s.address ∉ l ↔ _
    rw [List.mem_cons]
    constructor
    · rintro ⟨⟨h1, h2⟩, h3⟩
      exact ⟨h1, by rintro (h | h); exact h2 h; exact h3 h⟩
    · rintro ⟨h1, h2⟩
      exact ⟨⟨h1, fun h => h2 (Or.inl h)⟩, fun h => h2 (Or.inr h)⟩

theorem HashedAs.length {env : Env} {fl : AnalyzeFlags} {st : AState} {l : List Symbol} {hs : List Hashed}
    (h : HashedAs env fl st l hs) : hs.length = l.length := by
  induction h with
  | nil => rfl
  | cons _ _ ih => simp [ih]

theorem HashedAs.get {env : Env} {fl : AnalyzeFlags} {st : AState} {l : List Symbol} {hs : List Hashed}
    (h : HashedAs env fl st l hs) {i : Nat} {s : Symbol} {x : Hashed} (h1 : l[i]? = some s) (h2 : hs[i]? = some x) :
    hashSymbol env fl st (lastAddr (l.drop (i + 1))) s = .ok x := by
  induction h generalizing i with
  | nil => simp at h1
  | @cons s' l' x' hs' hx ha ih =>
    cases i with
    | zero =>
      have e1 : s' = s := by simpa using h1
      have e2 : x' = x := by simpa using h2
      subst e1 e2
      exact hx
    | succ i => exact ih (by simpa using h1) (by simpa using h2)

theorem sorted_index {l : List Symbol} (h : Sorted l) {i j : Nat} {s s' : Symbol} (h1 : l[i]? = some s)
    (h2 : l[j]? = some s') (e : s.address = s'.address) : i = j := by
  induction l generalizing i j with
  | nil => simp at h1
  | cons x l ih =>
    cases i with
    | zero =>
      cases j with
      | zero => rfl
      | succ j =>
        have e1 : x = s := by simpa using h1
        subst e1
        have hm : s' ∈ l := List.mem_of_getElem? (by simpa using h2)
        have := h.head s' hm
        have : x.address < s'.address := this
        rw [e] at this
        exact absurd this (bv_lt_irrefl _)
    | succ i =>
      cases j with
      | zero =>
        have e1 : x = s' := by simpa using h2
        subst e1
        have hm : s ∈ l := List.mem_of_getElem? (by simpa using h1)
        have : x.address < s.address := h.head s hm
        rw [e] at this
        exact absurd this (bv_lt_irrefl _)
      | succ j =>
        have h1' : l[i]? = some s := by simpa using h1
        have h2' : l[j]? = some s' := by simpa using h2
        rw [ih h.tail h1' h2']

/-- Input of `hash_internal`: ordered symbols with ordered relocations. -/
structure SymsOK (t : SymTree) : Prop where
  sorted : Sorted t
  rels : ∀ s ∈ t, Sorted s.rels

instance {α : Type} [Keyed α] (t : List α) : Decidable (Sorted t) := by unfold Sorted; infer_instance

instance (t : SymTree) : Decidable (SymsOK t) :=
  decidable_of_iff (Sorted t ∧ ∀ s ∈ t, Sorted s.rels) ⟨fun h => ⟨h.1, h.2⟩, fun h => ⟨h.sorted, h.rels⟩⟩

/-- The result of `hash_internal`: each remaining symbol comes from one of the input. -/
theorem hashInternal_ok {env : Env} {fl : AnalyzeFlags} {st r : AState} (hok : SymsOK st.symbols)
    (h : hashInternal env fl st = .ok r) :
    r = { st with symbols := r.symbols } ∧
    (∀ s, s ∈ r.symbols ↔ ∃ (i : Nat) (s0 : Symbol) (x : Hashed), st.symbols[i]? = some s0 ∧
      hashSymbol env fl st (lastAddr (st.symbols.drop (i + 1))) s0 = .ok x ∧ unusedSymbol fl x = false ∧
      s = finishSymbol env fl x) ∧
    (∀ (i : Nat) s0, st.symbols[i]? = some s0 → ∃ x,
      hashSymbol env fl st (lastAddr (st.symbols.drop (i + 1))) s0 = .ok x) := by
  unfold hashInternal at h
  cases h1 : st.symbols.reverse.foldlM (hashStep env fl st) {} with
  | error e => rw [h1] at h; cases h
  | ok L =>
    rw [h1] at h
    cases h
    obtain ⟨hs, ha, hd, _, hu⟩ := hashLoop_ok st.symbols h1
    have haddr : ∀ (i : Nat) s0 x, st.symbols[i]? = some s0 → hs[i]? = some x →
        (finishSymbol env fl x).address = s0.address := by
      intro i s0 x h2 h3
      rw [finishSymbol_address]
      exact (hashSymbol_same (hok.rels s0 (List.mem_of_getElem? h2)) (ha.get h2 h3)).1.address
    have hex : ∀ (i : Nat) s0, st.symbols[i]? = some s0 → ∃ x, hs[i]? = some x := by
      intro i s0 h2
      have : i < hs.length := by
        rw [ha.length]
        exact (List.getElem?_eq_some_iff.mp h2).1
      exact ⟨hs[i], List.getElem?_eq_getElem this⟩
    refine ⟨rfl, ?_, ?_⟩
    · intro s
      show s ∈ L.unused.foldl Tree.erase L.done ↔ _
      rw [mem_foldl_erase, hd, hu, List.mem_map]
      constructor
      · rintro ⟨⟨x, hx, rfl⟩, hn⟩
        obtain ⟨i, hi⟩ := List.getElem?_of_mem hx
        have hil : i < st.symbols.length := by
          rw [← ha.length]
          exact (List.getElem?_eq_some_iff.mp hi).1
        have h2 : st.symbols[i]? = some st.symbols[i] := List.getElem?_eq_getElem hil
        refine ⟨i, st.symbols[i], x, h2, ha.get h2 hi, ?_, rfl⟩
        cases hc : unusedSymbol fl x with
        | false => rfl
        | true => exact absurd ⟨i, _, x, h2, hi, (haddr i _ x h2 hi).symm, hc⟩ hn
      · rintro ⟨i, s0, x, h2, h3, h4, rfl⟩
        obtain ⟨y, hy⟩ := hex i s0 h2
        have e := ha.get h2 hy
        rw [h3] at e
        cases e
        refine ⟨⟨x, List.mem_of_getElem? hy, rfl⟩, ?_⟩
        rintro ⟨j, s1, z, h5, h6, h7, h8⟩
        have := sorted_index hok.sorted h5 h2 (h7.trans (haddr i s0 x h2 hy))
        subst this
        rw [h6] at hy
        cases hy
        rw [h4] at h8
        cases h8
    · intro i s0 h2
      obtain ⟨x, hx⟩ := hex i s0 h2
      exact ⟨x, ha.get h2 hx⟩

theorem symCtx_eq {env : Env} {st : AState} {s s' : Symbol} (ha : s.address = s'.address) (hz : s.size = s'.size) :
    symCtx env st s = symCtx env st s' := by
  unfold symCtx
  rw [ha, hz]

theorem finish_used {env : Env} {fl : AnalyzeFlags} {x : Hashed} (h : unusedSymbol fl x = false) :
    finishSymbol env fl x =
      { x.sym with id := { x.sym.id with internal := env.xxhash (x.input ++ attributeBytes env fl x.sym) } } := by
  unfold finishSymbol
  rw [if_neg (by rw [h]; decide)]

/-- Everything about a function in the result. -/
structure ExecFacts (env : Env) (fl : AnalyzeFlags) (st : AState) (s s0 s1 : Symbol) (steps : List Step) : Prop where
  mem : s0 ∈ st.symbols
  address : s0.address = s.address
  code : CodeOf env st s steps
  added : RelsAdded fl.resolve_internal s0 { s1 with size := s0.size, sec := s0.sec }
  addr1 : s1.address = s.address
  rels1 : s1.rels = s.rels
  flags1 : s1.flags = s0.flags
  through : fallThrough env.build st.symbols (execLoop env (symCtx env st s) steps (execStart s1))
    (applyExec s1 (execLoop env (symCtx env st s) steps (execStart s1))) =
    .ok { applyExec s1 (execLoop env (symCtx env st s) steps (execStart s1)) with refs := s.refs }
  size1 : s1.size = s.size
  flags : s.flags = (applyExec s1 (execLoop env (symCtx env st s) steps (execStart s1))).flags
  input : s.id.internal =
    env.xxhash ((execLoop env (symCtx env st s) steps (execStart s1)).hashed ++ attributeBytes env fl s)

theorem fallThrough_form {b : Build} {t : SymTree} {e : ExecState} {s s' : Symbol} (h : fallThrough b t e s = .ok s') :
    s' = { s with refs := s'.refs } := by
  rcases fallThrough_ok h with ⟨_, rfl⟩ | ⟨_, next, _, rfl⟩ <;> rfl

theorem exec_facts {env : Env} {fl : AnalyzeFlags} {st r : AState} (hok : SymsOK st.symbols)
    (h : hashInternal env fl st = .ok r) {s : Symbol} (hs : s ∈ r.symbols) (hx : s.sec.executable = true) :
    ∃ s0 s1 steps, ExecFacts env fl st s s0 s1 steps := by
  obtain ⟨_, hmem, _⟩ := hashInternal_ok hok h
  obtain ⟨i, s0, x, h1, h2, h3, h4⟩ := (hmem s).mp hs
  have hm0 := List.mem_of_getElem? h1
  rw [finish_used h3] at h4
  obtain ⟨hsame, hsort, sec, sz, h5, h6, h7, h8, h9⟩ := hashSymbol_same (hok.rels s0 hm0) h2
  have hxx : x.sym.sec.executable = true := by rw [h4] at hx; exact hx
  rcases h9 with ⟨_, h9⟩ | ⟨h10, _⟩
  · obtain ⟨s1, bytes, e1, e2, e3, e4, e5⟩ := hashExec_ok h9
    have hsz : Sorted sz.rels := by
      rw [h6]
      show Sorted (adoptSection sec s0).rels
      rw [(adoptSection_same sec s0).2.2.2.1]
      exact hok.rels s0 hm0
    have hadd := addRelocations_added hsz e1
    have hform := fallThrough_form e3
    have had := adoptSection_same sec s0
    have haddr : s.address = s0.address := by rw [h4]; exact hsame.address
    have hszaddr : sz.address = s.address := by
      rw [haddr, h6]
      exact had.1.address
    have ha1 : s1.address = s.address := hadd.base.address.trans hszaddr
    have hz1 : s1.size = s.size := by
      rw [hadd.base.size, h6, h4]
    have hctx := symCtx_eq (env := env) (st := st) ha1 hz1
    rw [hctx] at e3 e4 e5 hform
    rw [hszaddr] at e2 e3 e4 e5 hform
    have hrefs : s.refs = x.sym.refs := by rw [h4]
    refine ⟨s0, s1, disasm env (TLS.virt_addr s.address) bytes, hm0, haddr.symm, ?_, ?_, ha1, ?_, ?_, ?_, hz1, ?_, ?_⟩
    · refine ⟨sec, bytes, by rw [haddr]; exact h5, ?_, rfl⟩
      rw [← hz1]
      exact e2
    · -- relocations
      have b := hadd.base
      have hb : SameBase s0 { s1 with size := s0.size, sec := s0.sec } := by
        refine ⟨?_, rfl, ?_, ?_, ?_, ?_, rfl, ?_, ?_, ?_⟩
        · exact ha1.trans haddr
        · exact b.name.trans (by rw [h6]; exact had.1.name)
        · exact b.type.trans (by rw [h6]; exact had.1.type)
        · exact b.bind.trans (by rw [h6]; exact had.1.bind)
        · exact b.flags.trans (by rw [h6]; exact had.2.2.1)
        · exact b.id.trans (by rw [h6]; exact had.1.id)
        · exact b.deps.trans (by rw [h6]; exact had.1.deps)
        · exact b.offset_ids.trans (by rw [h6]; exact had.1.offset_ids)
      have hr : sz.rels = s0.rels := by rw [h6]; exact had.2.2.2.1
      have hf : sz.refs = s0.refs := by rw [h6]; exact had.2.2.2.2.1
      refine ⟨hb, hadd.sorted, ?_, ?_⟩
      · rw [← hr]; exact hadd.keep
      · rw [← hr, ← hf]; exact hadd.refs
    · have : x.sym.rels = s1.rels := by rw [hform]; rfl
      rw [h4, ← this]
    · rw [hadd.base.flags, h6]; exact had.2.2.1
    · rw [e3, hrefs]
      exact congrArg Except.ok hform
    · have : x.sym.flags = _ := congrArg Symbol.flags hform
      have hfl : s.flags = x.sym.flags := by rw [h4]
      rw [hfl]
      exact this
    · have hid : s.id.internal = env.xxhash (x.input ++ attributeBytes env fl x.sym) := by rw [h4]
      have hat : attributeBytes env fl s = attributeBytes env fl x.sym := by rw [h4]; rfl
      rw [hat, ← e4, hid]
  · rw [h7, h10] at hxx
    cases hxx

end Bean

import Verif.Spec.Hash
import Verif.Lemmas.Read
/-
Lemmas about the internal identifiers.
-/
namespace Bean
open Tree Spec

theorem mem_hset_add {α : Type} [DecidableEq α] {s : List α} {x y : α} : y ∈ HSet.add s x ↔ y ∈ s ∨ y = x := by
  unfold HSet.add HSet.insert
  split
  · constructor
    · exact Or.inl
    · rintro (h | rfl) <;> assumption
  · simp

theorem isBranch_iff (k : InsKind) : isBranch k = true ↔ Branching k := by
  cases k <;> simp [isBranch, Branching]

theorem leaves_iff (k : InsKind) : leaves k = true ↔ Leaving k := by
  cases k <;> simp [leaves, Leaving]

theorem inside_iff {cx : SymCtx} (h : SymFits cx) (t : Addr) : cx.inside t = true ↔ InSym cx t := by
  unfold SymCtx.inside InSym
  unfold SymFits at h
  rw [Bool.and_eq_true, decide_eq_true_eq, decide_eq_true_eq]
  have : (cx.address + cx.size).toNat = cx.address.toNat + cx.size.toNat := by
    rw [BitVec.toNat_add]; omega
  constructor
  · rintro ⟨h1, h2⟩
    rw [BitVec.lt_def] at h2
    rw [ge_iff_le, BitVec.le_def] at h1
    omega
  · rintro ⟨h1, h2⟩
    rw [BitVec.lt_def, ge_iff_le, BitVec.le_def]
    omega

theorem inside_false_iff {cx : SymCtx} (h : SymFits cx) (t : Addr) : cx.inside t = false ↔ ¬ InSym cx t := by
  rw [← inside_iff h]; simp

/-! ### Operands -/

/-- The references after an operand. -/
theorem hashOperand_refs {cx : SymCtx} (hf : SymFits cx) (k : InsKind) (next : Addr) (o : OpState) (op : Operand) (t : Addr) :
    t ∈ (hashOperand cx (isBranch k) next o op).refs ↔ t ∈ o.refs ∨ FarTarget cx k next op t ∨ TlsTarget cx op t := by
  cases op with
  | reg r =>
    simp only [hashOperand]
    constructor
    · exact Or.inl
    · rintro (h | h | h)
      · exact h
      · cases h
      · cases h
  | other =>
    simp only [hashOperand]
    constructor
    · exact Or.inl
    · rintro (h | h | h)
      · exact h
      · cases h
      · cases h
  | imm v a =>
    simp only [hashOperand, hashImm]
    cases hb : isBranch k with
    | false =>
      simp only [Bool.false_eq_true, if_false]
      constructor
      · exact Or.inl
      · rintro (h | h | h)
        · exact h
        · cases h with
          | branch _ _ h1 _ => rw [← isBranch_iff, hb] at h1; cases h1
        · cases h
    | true =>
      simp only [if_true]
      have hk := (isBranch_iff k).mp hb
      cases hi : cx.inside v with
      | true =>
        simp only [if_true]
        constructor
        · exact Or.inl
        · rintro (h | h | h)
          · exact h
          · cases h with
            | branch _ _ _ h2 => exact absurd ((inside_iff hf _).mp hi) h2
          · cases h
      | false =>
        simp only [Bool.false_eq_true, if_false, mem_hset_add]
        have hn := (inside_false_iff hf v).mp hi
        constructor
        · rintro (h | rfl)
          · exact Or.inl h
          · exact Or.inr (Or.inl (.branch _ _ hk hn))
        · rintro (h | h | h)
          · exact Or.inl h
          · cases h; exact Or.inr rfl
          · cases h
  | mem segment base index scale disp a =>
    simp only [hashOperand]
    have hfs : t ∈ (hashFs cx o segment disp).refs ↔ t ∈ o.refs ∨ TlsTarget cx (.mem segment base index scale disp a) t := by
      unfold hashFs
      by_cases hs : segment = X86_REG_FS
      · rw [if_pos hs]
        simp only [mem_hset_add]
        subst hs
        constructor
        · rintro (h | rfl)
          · exact Or.inl h
          · exact Or.inr (.fs _ _ _ _ _)
        · rintro (h | h)
          · exact Or.inl h
          · cases h; exact Or.inr rfl
      · rw [if_neg hs]
        constructor
        · exact Or.inl
        · rintro (h | h)
          · exact h
          · cases h; exact absurd rfl hs
    by_cases hb : base = X86_REG_RIP
    · rw [if_pos hb]
      subst hb
      unfold hashRip
      cases hi : cx.inside (next + disp) with
      | true =>
        simp only [if_true]
        rw [hfs]
        constructor
        · rintro (h | h)
          · exact Or.inl h
          · exact Or.inr (Or.inr h)
        · rintro (h | h | h)
          · exact Or.inl h
          · cases h with
            | rip _ _ _ _ _ h2 => exact absurd ((inside_iff hf _).mp hi) h2
          · exact Or.inr h
      | false =>
        simp only [Bool.false_eq_true, if_false, mem_hset_add]
        rw [hfs]
        have hn := (inside_false_iff hf _).mp hi
        constructor
        · rintro ((h | h) | rfl)
          · exact Or.inl h
          · exact Or.inr (Or.inr h)
          · exact Or.inr (Or.inl (.rip _ _ _ _ _ hn))
        · rintro (h | h | h)
          · exact Or.inl (Or.inl h)
          · cases h; exact Or.inr rfl
          · exact Or.inl (Or.inr h)
    · rw [if_neg hb]
      simp only
      rw [hfs]
      constructor
      · rintro (h | h)
        · exact Or.inl h
        · exact Or.inr (Or.inr h)
      · rintro (h | h | h)
        · exact Or.inl h
        · cases h; exact absurd rfl hb
        · exact Or.inr h

theorem foldOperands_refs {cx : SymCtx} (hf : SymFits cx) (k : InsKind) (next : Addr) (ops : List Operand) (o : OpState)
    (t : Addr) :
    t ∈ (ops.foldl (hashOperand cx (isBranch k) next) o).refs ↔
      t ∈ o.refs ∨ ∃ op ∈ ops, FarTarget cx k next op t ∨ TlsTarget cx op t := by
  induction ops generalizing o with
  | nil => simp
  | cons op ops ih =>
    rw [List.foldl_cons, ih, hashOperand_refs hf]
    simp only [List.mem_cons]
    constructor
    · rintro ((h | h) | ⟨x, hx, h⟩)
      · exact Or.inl h
      · exact Or.inr ⟨op, Or.inl rfl, h⟩
      · exact Or.inr ⟨x, Or.inr hx, h⟩
    · rintro (h | ⟨x, rfl | hx, h⟩)
      · exact Or.inl (Or.inl h)
      · exact Or.inl (Or.inr h)
      · exact Or.inr ⟨x, hx, h⟩

/-! ### Relevant instructions -/

theorem final_leave {env : Env} {s : Step} :
    FinalStep env s ↔ leaves (env.kind s.insn.id) = true ∧ s.rest.all (· == 0) = true := by
  unfold FinalStep
  rw [leaves_iff]
  simp

theorem final_cond {env : Env} {s : Step} :
    (leaves (env.kind s.insn.id) && s.rest.all (· == 0)) = true ↔ FinalStep env s := by
  rw [Bool.and_eq_true, final_leave]

theorem final_not_nop {env : Env} {s : Step} (h : FinalStep env s) : env.kind s.insn.id ≠ .nop := by
  intro hn
  have := h.1
  rw [hn] at this
  rcases this with h | h | h | h <;> cases h

theorem relevant_nil {env : Env} {s : Step} : ¬ Relevant env [] s := by
  rintro ⟨_, pre, post, h, _⟩
  cases pre <;> cases h

theorem relevant_cons {env : Env} {x s : Step} {l : List Step} :
    Relevant env (x :: l) s ↔ (env.kind x.insn.id ≠ .nop ∧ s = x) ∨ (¬ FinalStep env x ∧ Relevant env l s) := by
  constructor
  · rintro ⟨hn, pre, post, e, hp⟩
    cases pre with
    | nil =>
      injection e with e1 e2
      subst e1
      exact Or.inl ⟨hn, rfl⟩
    | cons y pre =>
      injection e with e1 e2
      subst e1
      refine Or.inr ⟨hp _ List.mem_cons_self, hn, pre, post, e2, fun z hz => hp z (List.mem_cons_of_mem _ hz)⟩
  · rintro (⟨hn, rfl⟩ | ⟨hx, hn, pre, post, e, hp⟩)
    · exact ⟨hn, [], l, rfl, by simp⟩
    · refine ⟨hn, x :: pre, post, by rw [e]; rfl, ?_⟩
      intro z hz
      rcases List.mem_cons.mp hz with rfl | hz
      · exact hx
      · exact hp z hz

theorem execLoop_nop {env : Env} {cx : SymCtx} {x : Step} (h : env.kind x.insn.id = .nop) (l : List Step)
    (st : ExecState) : execLoop env cx (x :: l) st = execLoop env cx l st := by
  rw [execLoop, if_pos h]

theorem execLoop_final {env : Env} {cx : SymCtx} {x : Step} (h : FinalStep env x) (l : List Step)
    (st : ExecState) : execLoop env cx (x :: l) st = execInsn env cx st x.insn x.address := by
  rw [execLoop, if_neg (final_not_nop h)]
  exact if_pos (final_cond.mpr h)

theorem execLoop_next {env : Env} {cx : SymCtx} {x : Step} (hn : env.kind x.insn.id ≠ .nop) (h : ¬ FinalStep env x)
    (l : List Step) (st : ExecState) :
    execLoop env cx (x :: l) st = execLoop env cx l (execInsn env cx st x.insn x.address) := by
  rw [execLoop, if_neg hn]
  exact if_neg (fun hc => h (final_cond.mp hc))

/-- References collected by the loop. -/
theorem execLoop_refs {env : Env} {cx : SymCtx} (hf : SymFits cx) (steps : List Step) (st : ExecState) (t : Addr) :
    t ∈ (execLoop env cx steps st).refs ↔ t ∈ st.refs ∨ CodeRefers env cx steps t := by
  unfold CodeRefers
  induction steps generalizing st with
  | nil =>
    simp only [execLoop]
    constructor
    · exact Or.inl
    · rintro (h | ⟨s, h, _⟩)
      · exact h
      · exact absurd h relevant_nil
  | cons x l ih =>
    by_cases hn : env.kind x.insn.id = .nop
    · rw [execLoop_nop hn, ih]
      have hx : ¬ FinalStep env x := fun h => final_not_nop h hn
      simp only [relevant_cons, hn, ne_eq, not_true_eq_false, false_and, false_or, hx, not_false_eq_true, true_and]
    · have he : t ∈ (execInsn env cx st x.insn x.address).refs ↔ t ∈ st.refs ∨
          ∃ op ∈ x.insn.ops, FarTarget cx (env.kind x.insn.id) (nextAddress x.insn) op t ∨ TlsTarget cx op t :=
        foldOperands_refs hf _ _ _ _ _
      by_cases hfin : FinalStep env x
      · rw [execLoop_final hfin, he]
        constructor
        · rintro (h | h)
          · exact Or.inl h
          · exact Or.inr ⟨x, relevant_cons.mpr (Or.inl ⟨hn, rfl⟩), h⟩
        · rintro (h | ⟨s, hs, h⟩)
          · exact Or.inl h
          · rcases relevant_cons.mp hs with ⟨_, rfl⟩ | ⟨hc, _⟩
            · exact Or.inr h
            · exact absurd hfin hc
      · rw [execLoop_next hn hfin, ih, he]
        constructor
        · rintro ((h | h) | ⟨s, hs, h⟩)
          · exact Or.inl h
          · exact Or.inr ⟨x, relevant_cons.mpr (Or.inl ⟨hn, rfl⟩), h⟩
          · exact Or.inr ⟨s, relevant_cons.mpr (Or.inr ⟨hfin, hs⟩), h⟩
        · rintro (h | ⟨s, hs, h⟩)
          · exact Or.inl (Or.inl h)
          · rcases relevant_cons.mp hs with ⟨_, rfl⟩ | ⟨_, hs⟩
            · exact Or.inl (Or.inr h)
            · exact Or.inr ⟨s, hs, h⟩

/-! ### Similar code -/

theorem near_eq {cx cx' : SymCtx} {v v' : Addr} (h : InSym cx v) (h' : InSym cx' v')
    (e : v.toNat - cx.address.toNat = v'.toNat - cx'.address.toNat) : v - cx.address = v' - cx'.address := by
  unfold InSym at h h'
  apply BitVec.eq_of_toNat_eq
  rw [BitVec.toNat_sub, BitVec.toNat_sub]
  omega

theorem hashFs_sim {cx cx' : SymCtx} {o o' : OpState} {segment segment' : Reg}
    (hs : segment = X86_REG_FS ↔ segment' = X86_REG_FS) (disp disp' : BitVec 64)
    (hb : o.buf = o'.buf) (hj : o.jumps = o'.jumps) :
    (hashFs cx o segment disp).buf = (hashFs cx' o' segment' disp').buf ∧
      (hashFs cx o segment disp).jumps = (hashFs cx' o' segment' disp').jumps := by
  unfold hashFs
  by_cases h : segment = X86_REG_FS
  · rw [if_pos h, if_pos (hs.mp h)]; simp [hb]
  · rw [if_neg h, if_neg (fun h' => h (hs.mpr h'))]; exact ⟨hb, hj⟩

theorem hashOperand_sim {cx cx' : SymCtx} (hf : SymFits cx) (hf' : SymFits cx') {k : InsKind} {next next' : Addr}
    {op op' : Operand} (h : OpSim cx cx' k next next' op op') {o o' : OpState}
    (hb : o.buf = o'.buf) (hj : o.jumps = o'.jumps) :
    (hashOperand cx (isBranch k) next o op).buf = (hashOperand cx' (isBranch k) next' o' op').buf ∧
      (hashOperand cx (isBranch k) next o op).jumps = (hashOperand cx' (isBranch k) next' o' op').jumps := by
  cases h with
  | reg r => exact ⟨by simp only [hashOperand, hb], hj⟩
  | other => exact ⟨hb, hj⟩
  | imm v a a' hk =>
    have : isBranch k = false := by
      cases hk' : isBranch k with
      | false => rfl
      | true => exact absurd ((isBranch_iff k).mp hk') hk
    simp only [hashOperand, hashImm, this, Bool.false_eq_true, if_false, hb]
    trivial
  | near v v' a a' hk h1 h2 e =>
    simp only [hashOperand, hashImm, (isBranch_iff k).mpr hk, if_true, (inside_iff hf _).mpr h1,
      (inside_iff hf' _).mpr h2, hb, near_eq h1 h2 e]
    trivial
  | far v v' a a' hk h1 h2 =>
    simp only [hashOperand, hashImm, (isBranch_iff k).mpr hk, if_true, (inside_false_iff hf _).mpr h1,
      (inside_false_iff hf' _).mpr h2, hb, Bool.false_eq_true, if_false, hj]
    trivial
  | ripNear segment segment' index index' scale scale' disp disp' a a' hs h1 h2 e =>
    have hs := hashFs_sim (cx := cx) (cx' := cx') hs disp disp' hb hj
    simp only [hashOperand, hashRip, if_true, (inside_iff hf _).mpr h1, (inside_iff hf' _).mpr h2, near_eq h1 h2 e,
      hs.1, hs.2]
    trivial
  | ripFar segment segment' index index' scale scale' disp disp' a a' hs h1 h2 =>
    have hs := hashFs_sim (cx := cx) (cx' := cx') hs disp disp' hb hj
    simp only [hashOperand, hashRip, if_true, (inside_false_iff hf _).mpr h1, (inside_false_iff hf' _).mpr h2,
      Bool.false_eq_true, if_false, hs.1, hs.2]
    trivial
  | mem segment base index scale disp a a' hr =>
    have hs := hashFs_sim (cx := cx) (cx' := cx') (segment := segment) Iff.rfl disp disp hb hj
    simp only [hashOperand, if_neg hr, hs.1]
    trivial

theorem foldOperands_sim {cx cx' : SymCtx} (hf : SymFits cx) (hf' : SymFits cx') {k : InsKind} {next next' : Addr}
    {ops ops' : List Operand} (h : Zip (OpSim cx cx' k next next') ops ops') {o o' : OpState}
    (hb : o.buf = o'.buf) (hj : o.jumps = o'.jumps) :
    (ops.foldl (hashOperand cx (isBranch k) next) o).buf = (ops'.foldl (hashOperand cx' (isBranch k) next') o').buf ∧
      (ops.foldl (hashOperand cx (isBranch k) next) o).jumps =
        (ops'.foldl (hashOperand cx' (isBranch k) next') o').jumps := by
  induction h generalizing o o' with
  | nil => exact ⟨hb, hj⟩
  | cons hx _ ih =>
    have := hashOperand_sim hf hf' hx hb hj
    exact ih this.1 this.2

/-- The parts of the state which do not depend on the location. -/
structure ExecSim (e e' : ExecState) : Prop where
  hashed : e.hashed = e'.hashed
  flags : e.flags = e'.flags
  jumps : e.jumps = e'.jumps
  content : e.content = e'.content
  leave : e.leave = e'.leave

theorem execInsn_sim {env : Env} {cx cx' : SymCtx} (hf : SymFits cx) (hf' : SymFits cx') {s s' : Step}
    (h : StepSim env cx cx' s s') {e e' : ExecState} (he : ExecSim e e') :
    ExecSim (execInsn env cx e s.insn s.address) (execInsn env cx' e' s'.insn s'.address) := by
  have hh : insnHead s.insn = insnHead s'.insn := by
    unfold insnHead
    rw [h.id, h.prefix, h.opcode]
  have hs := foldOperands_sim hf hf' h.ops
    (o := { buf := insnHead s.insn, refs := e.refs, jumps := nextJumps (env.kind s.insn.id) e.jumps,
            max_branch := e.max_branch })
    (o' := { buf := insnHead s'.insn, refs := e'.refs, jumps := nextJumps (env.kind s.insn.id) e'.jumps,
             max_branch := e'.max_branch }) hh (by simp only [he.jumps])
  unfold execInsn
  simp only [← h.id]
  refine ⟨?_, by simp only [he.flags], hs.2, rfl, rfl⟩
  have h2 := congr (congrArg HAppend.hAppend he.hashed) hs.1
  exact h2

/-- Similar code gives the same hash input. -/
theorem execLoop_sim {env : Env} {cx cx' : SymCtx} (hf : SymFits cx) (hf' : SymFits cx') {l l' : List Step}
    (h : CodeSim env cx cx' l l') {e e' : ExecState} (he : ExecSim e e') :
    ExecSim (execLoop env cx l e) (execLoop env cx' l' e') := by
  induction h generalizing e e' with
  | nil => exact he
  | nopLeft hn _ ih => rw [execLoop_nop hn]; exact ih he
  | nopRight hn _ ih => rw [execLoop_nop hn]; exact ih he
  | @final x y _ _ hxy hfin =>
    rw [execLoop_final hfin, execLoop_final (hxy.final.mp hfin)]
    exact execInsn_sim hf hf' hxy he
  | @step x y _ _ hxy _ ih =>
    by_cases hfin : FinalStep env x
    · rw [execLoop_final hfin, execLoop_final (hxy.final.mp hfin)]
      exact execInsn_sim hf hf' hxy he
    · have hfin' := fun h => hfin (hxy.final.mpr h)
      by_cases hx : env.kind x.insn.id = .nop
      · rw [execLoop_nop hx, execLoop_nop (by rw [← hxy.id]; exact hx)]
        exact ih he
      · rw [execLoop_next hx hfin, execLoop_next (by rw [← hxy.id]; exact hx) hfin']
        exact ih (execInsn_sim hf hf' hxy he)

/-! ### Content -/

theorem execInsn_content (env : Env) (cx : SymCtx) (st : ExecState) (i : Insn) (a : Addr) :
    (execInsn env cx st i a).content = true := rfl

theorem execLoop_content_mono {env : Env} {cx : SymCtx} (l : List Step) {st : ExecState} (h : st.content = true) :
    (execLoop env cx l st).content = true := by
  induction l generalizing st with
  | nil => exact h
  | cons x l ih =>
    by_cases hn : env.kind x.insn.id = .nop
    · rw [execLoop_nop hn]; exact ih h
    · by_cases hfin : FinalStep env x
      · rw [execLoop_final hfin]; rfl
      · rw [execLoop_next hn hfin]; exact ih rfl

theorem execLoop_content {env : Env} {cx : SymCtx} (l : List Step) (st : ExecState) :
    (execLoop env cx l st).content = true ↔ st.content = true ∨ ∃ s ∈ l, env.kind s.insn.id ≠ .nop := by
  induction l generalizing st with
  | nil => simp [execLoop]
  | cons x l ih =>
    by_cases hn : env.kind x.insn.id = .nop
    · rw [execLoop_nop hn, ih]
      simp [hn]
    · have : (execLoop env cx (x :: l) st).content = true := by
        by_cases hfin : FinalStep env x
        · rw [execLoop_final hfin]; rfl
        · rw [execLoop_next hn hfin]; exact execLoop_content_mono l rfl
      simp [this, hn]

/-! ### End of the function -/

theorem mem_relevant {env : Env} {l : List Step} {s : Step} : s ∈ relevant env l ↔ Relevant env l s := by
  induction l with
  | nil => simp [relevant, relevant_nil]
  | cons x l ih =>
    rw [relevant_cons, relevant]
    by_cases hn : env.kind x.insn.id = .nop
    · rw [if_pos hn, ih]
      have : ¬ FinalStep env x := fun h => final_not_nop h hn
      simp [hn, this]
    · rw [if_neg hn]
      by_cases hf : FinalStep env x
      · rw [if_pos hf]
        simp [hn, hf]
      · rw [if_neg hf]
        simp [hn, hf, ih]

theorem hashOperand_branch {cx : SymCtx} (hf : SymFits cx) (k : InsKind) (next : Addr) (o : OpState) (op : Operand) :
    (hashOperand cx (isBranch k) next o op).max_branch = (nearTarget cx k next op).getD o.max_branch := by
  cases op with
  | reg r => rfl
  | other => rfl
  | imm v a =>
    simp only [hashOperand, hashImm, nearTarget]
    by_cases hb : Branching k
    · rw [if_pos ((isBranch_iff k).mpr hb)]
      by_cases hi : InSym cx v
      · rw [if_pos ((inside_iff hf v).mpr hi), if_pos ⟨hb, hi⟩]
        rfl
      · rw [if_neg (fun h => hi ((inside_iff hf v).mp h)), if_neg (fun h => hi h.2)]
        rfl
    · rw [if_neg (fun h => hb ((isBranch_iff k).mp h)), if_neg (fun h => hb h.1)]
      rfl
  | mem segment base index scale disp a =>
    have hfs : (hashFs cx o segment disp).max_branch = o.max_branch := by
      unfold hashFs; split <;> rfl
    simp only [hashOperand, nearTarget]
    by_cases hb : base = X86_REG_RIP
    · rw [if_pos hb, hashRip]
      by_cases hi : InSym cx (next + disp)
      · rw [if_pos ((inside_iff hf _).mpr hi), if_pos ⟨hb, hi⟩]
        rfl
      · rw [if_neg (fun h => hi ((inside_iff hf _).mp h)), if_neg (fun h => hi h.2)]
        exact hfs
    · rw [if_neg hb, if_neg (fun h => hb h.1)]
      exact hfs

theorem foldOperands_branch {cx : SymCtx} (hf : SymFits cx) (k : InsKind) (next : Addr) (ops : List Operand)
    (o : OpState) :
    (ops.foldl (hashOperand cx (isBranch k) next) o).max_branch =
      ((ops.filterMap (nearTarget cx k next)).getLast?).getD o.max_branch := by
  induction ops generalizing o with
  | nil => rfl
  | cons op ops ih =>
    rw [List.foldl_cons, ih, hashOperand_branch hf]
    cases hn : nearTarget cx k next op with
    | none => rw [List.filterMap_cons_none hn]; rfl
    | some t =>
      rw [List.filterMap_cons_some hn, List.getLast?_cons]
      cases (ops.filterMap (nearTarget cx k next)).getLast? <;> rfl

theorem getLast?_append_getD {α : Type} (a b : List α) (d : α) :
    ((a ++ b).getLast?).getD d = (b.getLast?).getD ((a.getLast?).getD d) := by
  rw [List.getLast?_append]
  cases b.getLast? <;> rfl

/-- Variables deciding about the continuation in the next symbol. -/
theorem execLoop_end {env : Env} {cx : SymCtx} (hf : SymFits cx) (l : List Step) (e : ExecState) :
    (execLoop env cx l e).max_branch = ((nearTargets env cx l).getLast?).getD e.max_branch ∧
    (execLoop env cx l e).last_instruction = (((relevant env l).getLast?).map Step.address).getD e.last_instruction ∧
    (execLoop env cx l e).leave =
      (((relevant env l).getLast?).map (fun s => leaves (env.kind s.insn.id))).getD e.leave := by
  unfold nearTargets
  induction l generalizing e with
  | nil => exact ⟨rfl, rfl, rfl⟩
  | cons x l ih =>
    have hb : (execInsn env cx e x.insn x.address).max_branch =
        ((x.insn.ops.filterMap (nearTarget cx (env.kind x.insn.id) (nextAddress x.insn))).getLast?).getD e.max_branch :=
      foldOperands_branch hf _ _ _ _
    rw [relevant]
    by_cases hn : env.kind x.insn.id = .nop
    · rw [if_pos hn, execLoop_nop hn]
      exact ih e
    · rw [if_neg hn]
      by_cases hfin : FinalStep env x
      · rw [if_pos hfin, execLoop_final hfin, hb]
        simp only [List.flatMap_cons, List.flatMap_nil, List.append_nil]
        exact ⟨trivial, rfl, rfl⟩
      · rw [if_neg hfin, execLoop_next hn hfin]
        obtain ⟨h1, h2, h3⟩ := ih (execInsn env cx e x.insn x.address)
        rw [h1, h2, h3, hb, List.flatMap_cons, getLast?_append_getD, List.getLast?_cons]
        refine ⟨rfl, ?_, ?_⟩
        · cases (relevant env l).getLast? <;> rfl
        · cases (relevant env l).getLast? <;> rfl

/-! ### Decoded instructions -/

theorem disasmN_address {env : Env} (n : Nat) (a : Addr) (bytes : List (BitVec 8)) (h : a.toNat + bytes.length < 2 ^ 64) :
    ∀ s ∈ disasmN env n a bytes, a.toNat < s.address.toNat ∧ s.address.toNat ≤ a.toNat + bytes.length := by
  induction n generalizing a bytes with
  | zero => intro s hs; cases hs
  | succ n ih =>
    intro s hs
    unfold disasmN at hs
    cases hd : env.decode a bytes with
    | none => rw [hd] at hs; cases hs
    | some i =>
      rw [hd] at hs
      simp only at hs
      by_cases hc : 0 < i.size ∧ i.size ≤ bytes.length
      · rw [if_pos hc] at hs
        have hi : (a + BitVec.ofNat 64 i.size).toNat = a.toNat + i.size := by
          rw [BitVec.toNat_add, BitVec.toNat_ofNat]
          omega
        rcases List.mem_cons.mp hs with rfl | hs
        · simp only
          omega
        · have := ih (a + BitVec.ofNat 64 i.size) (bytes.drop i.size) (by rw [List.length_drop]; omega) s hs
          rw [List.length_drop] at this
          omega
      · rw [if_neg hc] at hs; cases hs

theorem readBytes_length {data bytes : List (BitVec 8)} {o n : Addr} (h : readBytes data o n = .ok bytes) :
    bytes.length = n.toNat := by
  unfold readBytes at h
  split at h
  · cases h
    rw [List.length_take, List.length_drop]
    omega
  · cases h

end Bean

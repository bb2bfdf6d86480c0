import Verif.Lemmas.HashLoop
/-
Lemmas about the bytes given to the hash of a function and about attached relocations.
-/
namespace Bean
open Tree Spec

/-! ### Little endian bytes -/

theorem leBytes_length (n : Nat) (v : BitVec (8 * n)) : (leBytes n v).length = n := by
  induction n with
  | zero => rfl
  | succ n ih => unfold leBytes; simp [ih]

theorem leBytes_inj (n : Nat) {v w : BitVec (8 * n)} (h : leBytes n v = leBytes n w) : v = w := by
  induction n with
  | zero => exact Subsingleton.elim (α := BitVec 0) v w
  | succ n ih =>
    unfold leBytes at h
    obtain ⟨h1, h2⟩ := List.cons.inj h
    have h3 := ih h2
    apply BitVec.eq_of_getLsbD_eq
    intro i hi
    by_cases h8 : i < 8
    · have := congrArg (fun x => x.getLsbD i) h1
      simpa [h8] using this
    · have := congrArg (fun x => x.getLsbD (i - 8)) h3
      have e : 8 + (i - 8) = i := by omega
      have e2 : i - 8 < 8 * n := by omega
      simpa [e, e2] using this

theorem le32_inj {v w : BitVec 32} (h : le32 v = le32 w) : v = w := leBytes_inj 4 h
theorem le64_inj {v w : BitVec 64} (h : le64 v = le64 w) : v = w := leBytes_inj 8 h
theorem le32_length (v : BitVec 32) : (le32 v).length = 4 := leBytes_length 4 v
theorem le64_length (v : BitVec 64) : (le64 v).length = 8 := leBytes_length 8 v

/-! ### Bytes of functions -/

theorem hashOperand_buf {cx : SymCtx} (hf : SymFits cx) (k : InsKind) (next : Addr) (o : OpState) (op : Operand) :
    (hashOperand cx (isBranch k) next o op).buf = o.buf ++ operandBytes cx k next op := by
  cases op with
  | reg r => rfl
  | other => simp [hashOperand, operandBytes]
  | imm v a =>
    simp only [hashOperand, hashImm, operandBytes]
    by_cases hb : Branching k
    · rw [if_pos hb, if_pos ((isBranch_iff k).mpr hb)]
      by_cases hi : InSym cx v
      · rw [if_pos hi, if_pos ((inside_iff hf v).mpr hi)]
      · rw [if_neg hi, if_neg (fun h => hi ((inside_iff hf v).mp h))]
    · rw [if_neg hb, if_neg (fun h => hb ((isBranch_iff k).mp h))]
  | mem segment base index scale disp a =>
    have hfs : (hashFs cx o segment disp).buf = o.buf ++ (if segment = X86_REG_FS then le32 0xF01 else []) := by
      unfold hashFs
      by_cases h : segment = X86_REG_FS
      · rw [if_pos h, if_pos h]
      · rw [if_neg h, if_neg h, List.append_nil]
    simp only [hashOperand, operandBytes]
    by_cases hr : base = X86_REG_RIP
    · rw [if_pos hr, if_pos hr]
      unfold hashRip
      by_cases hi : InSym cx (next + disp)
      · rw [if_pos hi, if_pos ((inside_iff hf _).mpr hi)]
        simp only [hfs, List.append_assoc]
      · rw [if_neg hi, if_neg (fun h => hi ((inside_iff hf _).mp h))]
        simp only [hfs, List.append_assoc]
    · rw [if_neg hr, if_neg hr]
      simp only [hfs, List.append_assoc]

theorem foldOperands_buf {cx : SymCtx} (hf : SymFits cx) (k : InsKind) (next : Addr) (ops : List Operand) (o : OpState) :
    (ops.foldl (hashOperand cx (isBranch k) next) o).buf = o.buf ++ ops.flatMap (operandBytes cx k next) := by
  induction ops generalizing o with
  | nil => simp
  | cons op ops ih => rw [List.foldl_cons, ih, hashOperand_buf hf, List.flatMap_cons, List.append_assoc]

theorem execInsn_hashed {env : Env} {cx : SymCtx} (hf : SymFits cx) (e : ExecState) (i : Insn) (a : Addr) :
    (execInsn env cx e i a).hashed = e.hashed ++ insnBytes env cx i := by
  show e.hashed ++ (i.ops.foldl (hashOperand cx (isBranch (env.kind i.id)) (nextAddress i)) _).buf = _
  rw [foldOperands_buf hf]
  rfl

/-- The bytes given to the hash. -/
theorem execLoop_hashed {env : Env} {cx : SymCtx} (hf : SymFits cx) (l : List Step) (e : ExecState) :
    (execLoop env cx l e).hashed = e.hashed ++ codeInput env cx l := by
  induction l generalizing e with
  | nil => simp [execLoop, codeInput, relevant]
  | cons x l ih =>
    unfold codeInput relevant
    by_cases hn : env.kind x.insn.id = .nop
    · rw [execLoop_nop hn, if_pos hn]
      exact ih e
    · rw [if_neg hn]
      by_cases hfin : FinalStep env x
      · rw [execLoop_final hfin, if_pos hfin, execInsn_hashed hf]
        simp
      · rw [execLoop_next hn hfin, if_neg hfin, ih, execInsn_hashed hf, List.append_assoc, List.flatMap_cons]
        rfl

/-! ### Operands of the same form -/

theorem operandBytes_length {cx cx' : SymCtx} {k : InsKind} {next next' : Addr} {op op' : Operand}
    (h : form cx k next op = form cx' k next' op') :
    (operandBytes cx k next op).length = (operandBytes cx' k next' op').length := by
  cases op <;> cases op' <;> simp only [form, operandBytes] at h ⊢ <;>
    repeat' split at h
  all_goals first
    | cases h; done
    | (simp_all [le32_length, le64_length]; done)
    | skip
  all_goals
    simp only [Form.mem.injEq, Form.ripNear.injEq, Form.ripFar.injEq, decide_eq_decide] at h
    simp [*, le32_length, le64_length]

theorem near_of_bytes {cx cx' : SymCtx} {v v' : Addr} (h : InSym cx v) (h' : InSym cx' v')
    (e : le64 (v - cx.address) = le64 (v' - cx'.address)) :
    v.toNat - cx.address.toNat = v'.toNat - cx'.address.toNat := by
  have := congrArg BitVec.toNat (le64_inj e)
  unfold InSym at h h'
  rw [BitVec.toNat_sub, BitVec.toNat_sub] at this
  omega

theorem form_sim {cx cx' : SymCtx} {k : InsKind} {next next' : Addr} {op op' : Operand}
    (h : form cx k next op = form cx' k next' op')
    (hb : operandBytes cx k next op = operandBytes cx' k next' op') : OpSim cx cx' k next next' op op' := by
  have hmem : ∀ segment base index scale disp a x, form cx k next (.mem segment base index scale disp a) = x →
      x ≠ .reg ∧ x ≠ .value ∧ x ≠ .near ∧ x ≠ .far ∧ x ≠ .other := by
    intro segment base index scale disp a x e
    simp only [form] at e
    subst e
    split
    · split <;> simp
    · simp
  have hmem' : ∀ segment base index scale disp a x, form cx' k next' (.mem segment base index scale disp a) = x →
      x ≠ .reg ∧ x ≠ .value ∧ x ≠ .near ∧ x ≠ .far ∧ x ≠ .other := by
    intro segment base index scale disp a x e
    simp only [form] at e
    subst e
    split
    · split <;> simp
    · simp
  cases op with
  | reg r =>
    cases op' with
    | reg r' => cases le32_inj hb; exact .reg r
    | imm v a => simp only [form] at h; (repeat' split at h) <;> cases h
    | other => cases h
    | mem s b i sc d a => exact absurd h.symm (hmem' _ _ _ _ _ _ _ rfl).1
  | other =>
    cases op' with
    | other => exact .other
    | reg r' => cases h
    | imm v a => simp only [form] at h; (repeat' split at h) <;> cases h
    | mem s b i sc d a => exact absurd h.symm (hmem' _ _ _ _ _ _ _ rfl).2.2.2.2
  | imm v a =>
    cases op' with
    | reg r' => simp only [form] at h; (repeat' split at h) <;> cases h
    | other => simp only [form] at h; (repeat' split at h) <;> cases h
    | mem s b i sc d a' =>
      have := hmem' _ _ _ _ _ _ _ h.symm
      simp only [form] at this
      by_cases h1 : Branching k
      · rw [if_pos h1] at this
        by_cases h2 : InSym cx v
        · rw [if_pos h2] at this; simp at this
        · rw [if_neg h2] at this; simp at this
      · rw [if_neg h1] at this; simp at this
    | imm v' a' =>
      simp only [form, operandBytes] at h hb
      by_cases h1 : Branching k
      · simp only [if_pos h1] at h hb
        by_cases h2 : InSym cx v
        · by_cases h3 : InSym cx' v'
          · simp only [if_pos h2, if_pos h3] at hb
            exact .near v v' a a' h1 h2 h3 (near_of_bytes h2 h3 hb)
          · rw [if_pos h2, if_neg h3] at h; cases h
        · by_cases h3 : InSym cx' v'
          · rw [if_neg h2, if_pos h3] at h; cases h
          · exact .far v v' a a' h1 h2 h3
      · simp only [if_neg h1] at hb
        cases le64_inj hb
        exact .imm v a a' h1
  | mem s b i sc d a =>
    cases op' with
    | reg r' => exact absurd h (hmem _ _ _ _ _ _ _ rfl).1
    | other => exact absurd h (hmem _ _ _ _ _ _ _ rfl).2.2.2.2
    | imm v' a' =>
      have := hmem _ _ _ _ _ _ _ h
      simp only [form] at this
      by_cases h1 : Branching k
      · rw [if_pos h1] at this
        by_cases h2 : InSym cx' v'
        · rw [if_pos h2] at this; simp at this
        · rw [if_neg h2] at this; simp at this
      · rw [if_neg h1] at this; simp at this
    | mem s' b' i' sc' d' a' =>
      simp only [form, operandBytes] at h hb
      have hfs : ∀ {x y : List (BitVec 8)}, (s = X86_REG_FS ↔ s' = X86_REG_FS) →
          (if s = X86_REG_FS then le32 0xF01 else []) ++ x = (if s' = X86_REG_FS then le32 0xF01 else []) ++ y →
          x = y := by
        intro x y hiff e
        by_cases hc : s = X86_REG_FS
        · rw [if_pos hc, if_pos (hiff.mp hc)] at e; exact List.append_cancel_left e
        · rw [if_neg hc, if_neg (fun h => hc (hiff.mpr h))] at e; exact e
      by_cases h1 : b = X86_REG_RIP
      · by_cases h2 : b' = X86_REG_RIP
        · subst h1 h2
          simp only [if_true] at h hb
          by_cases h3 : InSym cx (next + d)
          · by_cases h4 : InSym cx' (next' + d')
            · simp only [if_pos h3, if_pos h4, Form.ripNear.injEq, decide_eq_decide] at h hb
              exact .ripNear s s' i i' sc sc' d d' a a' h h3 h4 (near_of_bytes h3 h4 (hfs h hb))
            · rw [if_pos h3, if_neg h4] at h; cases h
          · by_cases h4 : InSym cx' (next' + d')
            · rw [if_neg h3, if_pos h4] at h; cases h
            · simp only [if_neg h3, if_neg h4, Form.ripFar.injEq, decide_eq_decide] at h
              exact .ripFar s s' i i' sc sc' d d' a a' h h3 h4
        · rw [if_pos h1, if_neg h2] at h
          by_cases h3 : InSym cx (next + d)
          · rw [if_pos h3] at h; cases h
          · rw [if_neg h3] at h; cases h
      · by_cases h2 : b' = X86_REG_RIP
        · rw [if_neg h1, if_pos h2] at h
          by_cases h3 : InSym cx' (next' + d')
          · rw [if_pos h3] at h; cases h
          · rw [if_neg h3] at h; cases h
        · simp only [if_neg h1, if_neg h2, Form.mem.injEq, decide_eq_decide] at h hb
          have e := hfs h hb
          obtain ⟨e, e5⟩ := List.append_inj' e (by rw [le64_length, le64_length])
          obtain ⟨e, e4⟩ := List.append_inj' e (by rw [le32_length, le32_length])
          obtain ⟨e, e3⟩ := List.append_inj' e (by rw [le32_length, le32_length])
          obtain ⟨e1, e2⟩ := List.append_inj' e (by rw [le32_length, le32_length])
          cases le32_inj e1; cases le32_inj e2; cases le32_inj e3; cases le32_inj e4; cases le64_inj e5
          exact .mem s b i sc d a a' h1

theorem ops_of_bytes {cx cx' : SymCtx} {k : InsKind} {next next' : Addr} {ops ops' : List Operand}
    (h : ops.map (form cx k next) = ops'.map (form cx' k next')) :
    (ops.flatMap (operandBytes cx k next)).length = (ops'.flatMap (operandBytes cx' k next')).length ∧
    (ops.flatMap (operandBytes cx k next) = ops'.flatMap (operandBytes cx' k next') →
      Zip (OpSim cx cx' k next next') ops ops') := by
  induction ops generalizing ops' with
  | nil =>
    cases ops' with
    | nil => exact ⟨rfl, fun _ => .nil⟩
    | cons y ys => cases h
  | cons x xs ih =>
    cases ops' with
    | nil => cases h
    | cons y ys =>
      obtain ⟨h1, h2⟩ := List.cons.inj h
      obtain ⟨i1, i2⟩ := ih h2
      have hl := operandBytes_length h1
      refine ⟨by simp only [List.flatMap_cons, List.length_append, hl, i1], fun e => ?_⟩
      rw [List.flatMap_cons, List.flatMap_cons] at e
      obtain ⟨e1, e2⟩ := List.append_inj e hl
      exact .cons (form_sim h1 e1) (i2 e2)

theorem sim_ops_bytes {cx cx' : SymCtx} (hf : SymFits cx) (hf' : SymFits cx') {k : InsKind} {next next' : Addr}
    {ops ops' : List Operand} (h : Zip (OpSim cx cx' k next next') ops ops') :
    ops.flatMap (operandBytes cx k next) = ops'.flatMap (operandBytes cx' k next') := by
  have := (foldOperands_sim hf hf' h (o := ⟨[], [], 0, 0⟩) (o' := ⟨[], [], 0, 0⟩) rfl rfl).1
  rw [foldOperands_buf hf, foldOperands_buf hf'] at this
  exact this

end Bean

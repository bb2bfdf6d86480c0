import Verif.Lemmas.RebaseHash
/-
Internal identifiers of the functions of a moved file (C100).
-/
namespace Bean
open Bean.Spec

variable {m : Rebase} {elf : Elf} {dbg : Option Elf} {st : AState} {env : Env} {fl : AnalyzeFlags}

/-! ### Operands -/

def rebaseOpState (tls : Bool) (k : Addr) (o : OpState) : OpState :=
  { o with refs := o.refs.map (rebaseRef tls k), max_branch := o.max_branch + k }

structure GoodOpState (tls : Bool) (k : Addr) (o : OpState) : Prop where
  refs : ∀ a ∈ o.refs, GoodRef tls k a
  branch : Low k o.max_branch

/-- The function and the end of the thread-local storage for the moved file. -/
structure RebasedCtx (tls : Bool) (k : Addr) (cx cx' : SymCtx) : Prop where
  address : cx'.address = cx.address + k
  size : cx'.size = cx.size
  tls_end : cx'.tls_end = if tls then cx.tls_end + k else cx.tls_end
  range : LowRange k cx.address cx.size

variable {tls : Bool} {k : Addr} {cx cx' : SymCtx}

theorem RebasedCtx.inside (h : RebasedCtx tls k cx cx') {t : Addr} (ht : Low k t) : cx'.inside (t + k) = cx.inside t := by
  unfold SymCtx.inside
  rw [h.address, h.size, add_swap, Bool.eq_iff_iff]
  simp only [Bool.and_eq_true, decide_eq_true_eq, ge_iff_le, add_le_iff h.range.low.noWrap ht.noWrap,
    add_lt_iff ht.noWrap h.range.end_.noWrap]

theorem goodRefs_add {l : List Addr} {x : Addr} (hl : ∀ a ∈ l, GoodRef tls k a) (hx : GoodRef tls k x) :
    ∀ a ∈ HSet.add l x, GoodRef tls k a := by
  intro a ha
  rcases mem_hset_add.mp ha with ha | rfl
  · exact hl a ha
  · exact hx

theorem hashRip_rebase (h : RebasedCtx tls k cx cx') {o : OpState} (ho : GoodOpState tls k o) {t : Addr} (ht : Low k t) :
    hashRip cx' (rebaseOpState tls k o) (t + k) = rebaseOpState tls k (hashRip cx o t) ∧ GoodOpState tls k (hashRip cx o t) := by
  unfold hashRip
  rw [h.inside ht]
  by_cases hc : cx.inside t = true
  · rw [if_pos hc, if_pos hc, h.address, sub_shift]
    exact ⟨rfl, ho.refs, ht⟩
  · rw [if_neg hc, if_neg hc]
    have hg : GoodRef tls k t := Or.inl ht.lowT
    refine ⟨?_, goodRefs_add ho.refs hg, ho.branch⟩
    unfold rebaseOpState
    dsimp only
    rw [← refs_add ho.refs hg, (ht.lowT (tls := tls)).ref]

theorem hashImm_rebase (h : RebasedCtx tls k cx cx') {o : OpState} (ho : GoodOpState tls k o) (br : Bool) {t : Addr}
    (ht : br = true → Low k t) :
    hashImm cx' br (rebaseOpState tls k o) (if br = true then t + k else t) = rebaseOpState tls k (hashImm cx br o t) ∧
      GoodOpState tls k (hashImm cx br o t) := by
  unfold hashImm
  cases br with
  | true =>
    replace ht := ht rfl
    simp only [if_true]
    rw [h.inside ht]
    by_cases hc : cx.inside t = true
    · rw [if_pos hc, if_pos hc, h.address, sub_shift]
      exact ⟨rfl, ho.refs, ht⟩
    · rw [if_neg hc, if_neg hc]
      have hg : GoodRef tls k t := Or.inl ht.lowT
      refine ⟨?_, goodRefs_add ho.refs hg, ho.branch⟩
      unfold rebaseOpState
      dsimp only
      rw [← refs_add ho.refs hg, (ht.lowT (tls := tls)).ref]
  | false =>
    simp only [Bool.false_eq_true, if_false]
    exact ⟨rfl, ho.refs, ho.branch⟩

theorem hashFs_rebase (h : RebasedCtx tls k cx cx') {o : OpState} (ho : GoodOpState tls k o) {segment : Reg} {disp : BitVec 64}
    (ht : segment = X86_REG_FS → tls = true → Low k (cx.tls_end + disp)) :
    hashFs cx' (rebaseOpState tls k o) segment disp = rebaseOpState tls k (hashFs cx o segment disp) ∧
      GoodOpState tls k (hashFs cx o segment disp) := by
  unfold hashFs
  by_cases hc : segment = X86_REG_FS
  · rw [if_pos hc, if_pos hc]
    replace ht := ht hc
    have hg : GoodRef tls k (TLS.trans_addr (cx.tls_end + disp) true) ∧
        TLS.trans_addr (cx'.tls_end + disp) true = rebaseRef tls k (TLS.trans_addr (cx.tls_end + disp) true) := by
      rw [h.tls_end]
      cases tls with
      | true =>
        have hl : LowT true k (TLS.trans_addr (cx.tls_end + disp) true) := ⟨_, true, ht rfl, fun _ => rfl, rfl⟩
        rw [hl.ref, if_pos rfl, add_swap, (ht rfl).trans]
        exact ⟨Or.inl hl, rfl⟩
      | false =>
        have hf : (false = false) ∧ TLS.is_tls (TLS.trans_addr (cx.tls_end + disp) true) = true := ⟨rfl, TLS.is_tls_trans_true _⟩
        rw [rebaseRef_fixed hf]
        exact ⟨Or.inr hf, rfl⟩
    refine ⟨?_, goodRefs_add ho.refs hg.1, ho.branch⟩
    unfold rebaseOpState
    dsimp only
    rw [← refs_add ho.refs hg.1, hg.2]
  · rw [if_neg hc, if_neg hc]
    exact ⟨rfl, ho⟩

theorem hashOperand_rebase (h : RebasedCtx m.tls m.dist cx cx') {o : OpState} (ho : GoodOpState m.tls m.dist o) {i : Insn} {op : Operand}
    (hop : OperandLow env m cx.tls_end i op) :
    hashOperand cx' (isBranch (env.kind i.id)) (nextAddress i + m.dist) (rebaseOpState m.tls m.dist o) (moveOp (env.kind i.id) m.dist op) =
      rebaseOpState m.tls m.dist (hashOperand cx (isBranch (env.kind i.id)) (nextAddress i) o op) ∧
      GoodOpState m.tls m.dist (hashOperand cx (isBranch (env.kind i.id)) (nextAddress i) o op) := by
  have hbr : isBranch (env.kind i.id) = true ↔ Branching (env.kind i.id) := isBranch_iff _
  cases op with
  | reg r => exact ⟨rfl, ho.refs, ho.branch⟩
  | other => exact ⟨rfl, ho⟩
  | imm v a =>
    have := hashImm_rebase h ho (isBranch (env.kind i.id)) (t := v) (fun hb => hop (hbr.mp hb))
    refine ⟨?_, this.2⟩
    rw [← show _ = rebaseOpState m.tls m.dist (hashOperand cx (isBranch (env.kind i.id)) (nextAddress i) o (.imm v a)) from this.1]
    show hashImm cx' _ _ (if Branching (env.kind i.id) then v + m.dist else v) = _
    simp only [hbr]
  | mem segment base index scale disp acc =>
    obtain ⟨h1, h2⟩ := hop
    obtain ⟨h3, h4⟩ := hashFs_rebase h ho h1
    show (if base = X86_REG_RIP then hashRip cx' (hashFs cx' (rebaseOpState m.tls m.dist o) segment disp) (nextAddress i + m.dist + disp)
      else _) = rebaseOpState m.tls m.dist (if base = X86_REG_RIP then _ else _) ∧ GoodOpState m.tls m.dist (if base = X86_REG_RIP then _ else _)
    by_cases hc : base = X86_REG_RIP
    · rw [if_pos hc, if_pos hc, h3, add_swap]
      exact hashRip_rebase h h4 (h2 hc)
    · rw [if_neg hc, if_neg hc]
      refine ⟨?_, h4.refs, h4.branch⟩
      rw [h3]; rfl

theorem hashOps_rebase (h : RebasedCtx m.tls m.dist cx cx') {i : Insn} (l : List Operand)
    (hl : ∀ op ∈ l, OperandLow env m cx.tls_end i op) {o : OpState} (ho : GoodOpState m.tls m.dist o) :
    (l.map (moveOp (env.kind i.id) m.dist)).foldl (hashOperand cx' (isBranch (env.kind i.id)) (nextAddress i + m.dist)) (rebaseOpState m.tls m.dist o) =
      rebaseOpState m.tls m.dist (l.foldl (hashOperand cx (isBranch (env.kind i.id)) (nextAddress i)) o) ∧
      GoodOpState m.tls m.dist (l.foldl (hashOperand cx (isBranch (env.kind i.id)) (nextAddress i)) o) := by
  induction l generalizing o with
  | nil => exact ⟨rfl, ho⟩
  | cons op l ih =>
    obtain ⟨h1, h2⟩ := hashOperand_rebase h ho (hl op List.mem_cons_self)
    rw [List.map_cons, List.foldl_cons, h1]
    exact ih (fun op hop => hl op (List.mem_cons_of_mem _ hop)) h2

/-! ### Instructions -/

def rebaseExec (tls : Bool) (k : Addr) (e : ExecState) : ExecState :=
  { e with refs := e.refs.map (rebaseRef tls k), last_instruction := e.last_instruction + k, max_branch := e.max_branch + k }

structure GoodExec (tls : Bool) (k : Addr) (e : ExecState) : Prop where
  refs : ∀ a ∈ e.refs, GoodRef tls k a
  branch : Low k e.max_branch
  last : Low k e.last_instruction

theorem execInsn_rebase (h : RebasedCtx m.tls m.dist cx cx') {x : Step} (hl : ∀ op ∈ x.insn.ops, OperandLow env m cx.tls_end x.insn op)
    (hx : Low m.dist x.address) {e : ExecState} (he : GoodExec m.tls m.dist e) :
    execInsn (rebaseEnv m.dist env) cx' (rebaseExec m.tls m.dist e) (moveInsn env m.dist x.insn) (x.address + m.dist) =
      rebaseExec m.tls m.dist (execInsn env cx e x.insn x.address) ∧ GoodExec m.tls m.dist (execInsn env cx e x.insn x.address) := by
  obtain ⟨h1, h2⟩ := hashOps_rebase h x.insn.ops hl
    (o := { buf := insnHead x.insn, refs := e.refs, jumps := nextJumps (env.kind x.insn.id) e.jumps, max_branch := e.max_branch })
    ⟨he.refs, he.branch⟩
  unfold execInsn
  dsimp only
  refine ⟨?_, h2.refs, h2.branch, hx⟩
  have e1 : (moveInsn env m.dist x.insn).address + BitVec.ofNat 64 (moveInsn env m.dist x.insn).size = nextAddress x.insn + m.dist := by
    show x.insn.address + m.dist + BitVec.ofNat 64 x.insn.size = _
    rw [add_swap]; rfl
  rw [e1]
  exact congrArg (fun o : OpState => ({
    refs := o.refs, flags := if env.kind x.insn.id = .endbr then e.flags ||| SYMBOL_USING_CET else e.flags, jumps := o.jumps,
    content := true, leave := leaves (env.kind x.insn.id), last_instruction := x.address + m.dist, max_branch := o.max_branch,
    hashed := e.hashed ++ o.buf } : ExecState)) h1

theorem execLoop_rebase (h : RebasedCtx m.tls m.dist cx cx') (l : List Step)
    (hl : ∀ x ∈ l, (∀ op ∈ x.insn.ops, OperandLow env m cx.tls_end x.insn op) ∧ Low m.dist x.address) {e : ExecState} (he : GoodExec m.tls m.dist e) :
    execLoop (rebaseEnv m.dist env) cx' (l.map (moveStep env m.dist)) (rebaseExec m.tls m.dist e) =
      rebaseExec m.tls m.dist (execLoop env cx l e) ∧ GoodExec m.tls m.dist (execLoop env cx l e) := by
  induction l generalizing e with
  | nil => exact ⟨rfl, he⟩
  | cons x l ih =>
    have hx := hl x List.mem_cons_self
    have ih' := fun {e} he => ih (fun y hy => hl y (List.mem_cons_of_mem _ hy)) (e := e) he
    obtain ⟨h1, h2⟩ := execInsn_rebase h hx.1 hx.2 he
    rw [List.map_cons, execLoop, execLoop]
    have hk : (rebaseEnv m.dist env).kind (moveStep env m.dist x).insn.id = env.kind x.insn.id := rfl
    rw [hk]
    by_cases hn : env.kind x.insn.id = .nop
    · rw [if_pos hn, if_pos hn]
      exact ih' he
    · rw [if_neg hn, if_neg hn]
      dsimp only
      rw [show (moveStep env m.dist x).insn = moveInsn env m.dist x.insn from rfl,
        show (moveStep env m.dist x).address = x.address + m.dist from rfl,
        show (moveStep env m.dist x).rest = x.rest from rfl, h1,
        show (rebaseExec m.tls m.dist (execInsn env cx e x.insn x.address)).leave = (execInsn env cx e x.insn x.address).leave from rfl]
      by_cases hc : ((execInsn env cx e x.insn x.address).leave && x.rest.all (· == 0)) = true
      · rw [if_pos hc, if_pos hc]; exact ⟨rfl, h2⟩
      · rw [if_neg hc, if_neg hc]; exact ih' h2

theorem fallThrough_rebase {b : Build} {t : SymTree} (ht : ∀ s ∈ t, LowT m.tls m.dist s.address) {e : ExecState} (he : GoodExec m.tls m.dist e)
    {s : Symbol} (hs : GoodOut m.tls m.dist s) (hw : NoOver m.dist (s.address + s.size)) :
    Carries (rebaseSymbol m.tls m.dist) (GoodOut m.tls m.dist) (fallThrough b t e s)
      (fallThrough b (t.map (rebaseSymbol m.tls m.dist)) (rebaseExec m.tls m.dist e) (rebaseSymbol m.tls m.dist s)) := by
  unfold fallThrough
  refine Carries.ite ?_ (fun _ => Carries.ok rfl hs) (fun _ => ?_)
  · have : (e.last_instruction + m.dist < e.max_branch + m.dist) ↔ e.last_instruction < e.max_branch := add_lt_iff he.last.noWrap he.branch.noWrap
    show ((e.leave && !decide (e.max_branch + m.dist > e.last_instruction + m.dist)) = true) ↔ _
    simp only [gt_iff_lt, this]
  · refine Carries.bind (g := rebaseSymbol m.tls m.dist) (P := fun y => Tree.ceil t (s.address + s.size) = some y)
      (Carries.deref ?_) (fun y hy => Carries.ok ?_ ?_)
    · show Tree.ceil (t.map (rebaseSymbol m.tls m.dist)) (s.address + m.dist + s.size) = _
      rw [add_swap, ceil_shift (fun s hs => symbol_shifts (ht s hs)) hw]
    · have hg := ht y (Tree.ceil_mem hy).1
      unfold rebaseSymbol
      dsimp only
      rw [← refs_add hs.refs (Or.inl hg), hg.ref]
    · have hg := ht y (Tree.ceil_mem hy).1
      exact ⟨hs.address, goodRefs_add hs.refs (Or.inl hg), hs.rels⟩

/-! ### Functions -/

theorem tlsEnd_rebase (hr : Rebasable env fl m elf dbg) (hst : Ready env m elf dbg st) :
    tlsEnd (rebaseEnv m.dist env) (rebaseState m elf.sections st).tls_segment =
      if m.tls then tlsEnd env st.tls_segment + m.dist else tlsEnd env st.tls_segment := by
  have ht : m.tls = st.tls_segment.isSome := by rw [hst.thread]; exact hr.tls
  show tlsEnd (rebaseEnv m.dist env) (st.tls_segment.map (rebaseSeg m.dist)) = _
  cases hs : st.tls_segment with
  | none => rw [ht, hs]; rfl
  | some seg =>
    rw [ht, hs]
    show env.align_up (seg.virt_addr + m.dist + seg.virt_size) seg.alignment = env.align_up (seg.virt_addr + seg.virt_size) seg.alignment + m.dist
    rw [add_swap, (hst.tls seg hs).align.1]

/-- The result for one symbol. -/
def rebaseHashed (m : Rebase) (h : Hashed) : Hashed := { h with sym := rebaseSymbol m.tls m.dist h.sym }

theorem take_drop_congr {l l' : List (BitVec 8)} {n o c : Nat} (h : l'.take n = l.take n) (hn : o + c ≤ n) :
    (l'.drop o).take c = (l.drop o).take c := by
  have e : ∀ x : List (BitVec 8), (x.drop o).take c = (((x.take n).drop o).take c) := by
    intro x
    rw [List.drop_take, List.take_take, Nat.min_eq_left (by omega)]
  rw [e, e l, h]

theorem hashExec_rebase {sec : ElfSec} {s : Symbol} (hr : Rebasable env fl m elf dbg) (hst : Ready env m elf dbg st) (hl : Loaded elf sec)
    (hs : GoodOut m.tls m.dist s) (h1 : secStart sec ≤ s.address) (h2 : s.address.toNat + s.size.toNat ≤ (secEnd env sec).toNat)
    (hsort : Tree.Sorted s.rels) (hx : sec.executable = true) (ht : sec.tls = false)
    (hops : ∀ x ∈ disasm env s.address ((sec.data.drop (s.address - sec.virt_addr).toNat).take s.size.toNat), ∀ op ∈ x.insn.ops,
      OperandLow env m (tlsEnd env st.tls_segment) x.insn op) :
    Carries (rebaseHashed m) (fun h => GoodOut m.tls m.dist h.sym) (hashExec env fl st sec s)
      (hashExec (rebaseEnv m.dist env) fl (rebaseState m elf.sections st) (rebaseSec m elf.sections sec) (rebaseSymbol m.tls m.dist s)) := by
  have sp := span_of (hr.sections sec hl.1 hl.2.1) hs.address h1 h2
  have hreg : TLS.is_tls s.address = false := by rw [sp.tls, ht]
  have hv : TLS.virt_addr s.address = s.address := TLS.virt_of_regular hreg
  have hss : secStart sec = sec.virt_addr := by unfold secStart; rw [ht, TLS.trans_false]
  unfold hashExec
  rw [show (rebaseSymbol m.tls m.dist s).address = s.address + m.dist from rfl, hs.address.lowT.virt]
  dsimp only
  refine Carries.assert (fun h => h) ?_
  refine Carries.bind (P := fun s1 => GoodOut m.tls m.dist s1 ∧ s1.address = s.address ∧ s1.size = s.size)
    ((addRelocations_rebase hr hst hl hs h1 h2).also ?_) (fun s1 hs1 => ?_)
  · exact fun s1 h => ⟨(addRelocations_added hsort h).base.address, (addRelocations_added hsort h).base.size⟩
  · obtain ⟨g1, ha, hz⟩ := hs1
    refine Carries.bind (g := id) (P := fun bytes => bytes = (sec.data.drop (s.address - sec.virt_addr).toNat).take s.size.toNat)
      ?_ (fun bytes hb => ?_)
    · intro bytes hb
      rw [hv, hz] at hb
      obtain ⟨h3, h4⟩ := readBytes_slice hb
      refine ⟨?_, h4⟩
      rw [sec_virt _ hl.2.1, sub_shift, hv]
      refine readBytes_of ?_ ?_
      · show _ ≤ (m.data sec).length
        rw [hr.length sec hl]
        show (s.address - sec.virt_addr).toNat + s1.size.toNat ≤ _
        rw [hz]; exact h3
      · show id bytes = ((m.data sec).drop _).take s1.size.toNat
        rw [h4, hz]
        refine (take_drop_congr (hr.code sec hl hx).1 ?_).symm
        have := BitVec.le_def.mp h1
        rw [hss] at this ⊢
        have h5 := (secEnd env sec).isLt
        rw [BitVec.toNat_sub, BitVec.toNat_sub]
        omega
    · subst hb
      generalize hbytes : (sec.data.drop (s.address - sec.virt_addr).toNat).take s.size.toNat = bytes at hops
      have hlen : bytes.length ≤ s.size.toNat := by rw [← hbytes, List.length_take]; omega
      have hrange := sp.range
      rw [hv] at hrange
      have hcx : RebasedCtx m.tls m.dist (symCtx env st s1)
          (symCtx (rebaseEnv m.dist env) (rebaseState m elf.sections st) (rebaseSymbol m.tls m.dist s1)) :=
        ⟨rfl, rfl, tlsEnd_rebase hr hst, by
          show LowRange m.dist s1.address s1.size
          rw [ha, hz]; exact hrange⟩
      have hsteps : disasm (rebaseEnv m.dist env) (TLS.virt_addr s.address + m.dist) bytes =
          (disasm env (TLS.virt_addr s.address) bytes).map (moveStep env m.dist) := by
        rw [disasm_rebase]
        exact disasmN_move hr.decode _ _ _
      have hstart : execStart (rebaseSymbol m.tls m.dist s1) = rebaseExec m.tls m.dist (execStart s1) := by
        unfold execStart rebaseExec
        dsimp only
        rw [show (rebaseSymbol m.tls m.dist s1).address = s1.address + m.dist from rfl, g1.address.lowT.virt]
        rfl
      have hge : GoodExec m.tls m.dist (execStart s1) := ⟨g1.refs, g1.address.virt.2, g1.address.virt.2⟩
      obtain ⟨h5, h6⟩ := execLoop_rebase hcx (disasm env (TLS.virt_addr s.address) bytes) (fun x hx => by
        rw [hv] at hx
        refine ⟨hops x hx, ?_⟩
        unfold LowRange at hrange
        have := (disasmN_place hr.place bytes.length s.address bytes (by omega) x hx).2.2.2
        unfold Low
        omega) hge
      show Carries _ _ _ (fallThrough env.build (st.symbols.map (rebaseSymbol m.tls m.dist)) _ _ >>= _)
      rw [id, hsteps, hstart, h5]
      generalize execLoop env (symCtx env st s1) (disasm env (TLS.virt_addr s.address) bytes) (execStart s1) = e at h6
      have happ : applyExec (rebaseSymbol m.tls m.dist s1) (rebaseExec m.tls m.dist e) = rebaseSymbol m.tls m.dist (applyExec s1 e) := rfl
      rw [happ]
      refine Carries.bind (fallThrough_rebase hst.low h6 ⟨g1.address, h6.refs, g1.rels⟩ ?_) (fun s2 hs2 => Carries.ok rfl hs2)
      show NoOver m.dist (s1.address + s1.size)
      rw [ha, hz]; exact sp.wrap

end Bean

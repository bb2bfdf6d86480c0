import Verif.Lemmas.HashLoop
import Verif.Props.HashExamples
import Verif.Lemmas.Tls
import Verif.Spec.Lookup
/-
C32 to C36, C42: sizes, internal identifiers and references of functions.
-/
namespace Bean
open Tree Spec

/-! C32: sizes. -/

theorem sorted_getElem_lt {l : List Symbol} (h : Sorted l) {i j : Nat} {s y : Symbol} (hi : l[i]? = some s)
    (hj : l[j]? = some y) (hij : i < j) : s.address < y.address := by
  obtain ⟨h1, rfl⟩ := List.getElem?_eq_some_iff.mp hi
  obtain ⟨h2, rfl⟩ := List.getElem?_eq_some_iff.mp hj
  exact List.pairwise_iff_getElem.mp h i j h1 h2 hij

/-- The next symbol limits the size. -/
theorem lastAddr_next {l : List Symbol} (h : Sorted l) {i : Nat} {s : Symbol} (hi : l[i]? = some s) :
    ((∀ y ∈ l, y.address ≤ s.address) ∧ lastAddr (l.drop (i + 1)) = BitVec.allOnes 64) ∨
    ∃ y ∈ l, s.address < y.address ∧ (∀ z ∈ l, s.address < z.address → y.address ≤ z.address) ∧
      lastAddr (l.drop (i + 1)) = y.address := by
  have hidx : ∀ z ∈ l, s.address < z.address → ∃ j, i < j ∧ l[j]? = some z := by
    intro z hz hlt
    obtain ⟨j, hj⟩ := List.getElem?_of_mem hz
    refine ⟨j, ?_, hj⟩
    rcases Nat.lt_trichotomy i j with hc | hc | hc
    · exact hc
    · subst hc
      rw [hi] at hj
      cases hj
      exact absurd hlt (bv_lt_irrefl _)
    · exact absurd (bv_lt_trans hlt (sorted_getElem_lt h hj hi hc)) (bv_lt_irrefl _)
  cases hd : l.drop (i + 1) with
  | nil =>
    left
    refine ⟨fun y hy => bv_not_lt.mp fun hlt => ?_, rfl⟩
    obtain ⟨j, hij, hj⟩ := hidx y hy hlt
    have h1 := (List.getElem?_eq_some_iff.mp hj).1
    have h2 := congrArg List.length hd
    rw [List.length_drop, List.length_nil] at h2
    omega
  | cons y t =>
    right
    have hy : l[i + 1]? = some y := by
      have h3 : (l.drop (i + 1))[0]? = some y := by rw [hd]; rfl
      rw [List.getElem?_drop] at h3
      simpa using h3
    refine ⟨y, List.mem_of_getElem? hy, sorted_getElem_lt h hi hy (by omega), ?_, rfl⟩
    intro z hz hlt
    obtain ⟨j, hij, hj⟩ := hidx z hz hlt
    by_cases hj1 : j = i + 1
    · subst hj1
      rw [hy] at hj
      cases hj
      exact bv_le_refl _
    · have := sorted_getElem_lt h hy hj (by omega)
      bv_omega

/-- C32: each symbol is at least as large as declared, and it covers each address up to the end of its section that is
not at or behind a following symbol. Only symbols without content may disappear, and not with the flag
`FLAG_KEEP_UNUSED_SYMBOLS`. -/
theorem C32_coverage (env : Env) (fl : AnalyzeFlags) (st r : AState) (hok : SymsOK st.symbols)
    (h : hashInternal env fl st = .ok r) (s0 : Symbol) (hs : s0 ∈ st.symbols) (sec : ElfSec)
    (hsec : Tree.floor st.sections s0.address = some sec) :
    (∃ s ∈ r.symbols, s.address = s0.address ∧ s0.size.toNat ≤ s.size.toNat ∧
      ∀ a : Addr, s0.address.toNat ≤ a.toNat → a.toNat < (sectionEnd env sec).toNat →
        (∀ y ∈ st.symbols, s0.address.toNat < y.address.toNat → a.toNat < y.address.toNat) → Covers s a) ∨
    (fl.keep_unused = false ∧ s0.name = none ∧ ∀ s ∈ r.symbols, s.address ≠ s0.address) := by
  obtain ⟨_, hmem, hall⟩ := hashInternal_ok hok h
  obtain ⟨i, hi⟩ := List.getElem?_of_mem hs
  obtain ⟨x, hx⟩ := hall i s0 hi
  obtain ⟨hsame, hsort, sec', sz, h5, h6, h7, h8, h9⟩ := hashSymbol_same (hok.rels s0 hs) hx
  rw [hsec] at h5
  cases h5
  have had := adoptSection_same sec s0
  cases hu : unusedSymbol fl x with
  | false =>
    left
    refine ⟨finishSymbol env fl x, (hmem _).mpr ⟨i, s0, x, hi, hx, hu, rfl⟩, ?_, ?_⟩
    · rw [finishSymbol_address]; exact hsame.address
    · obtain ⟨n, hn, hle, hcov, _, _⟩ := sizeSymbol_ok h8
      have hsize : (finishSymbol env fl x).size = n := by
        rw [finish_used hu]
        have := congrArg Symbol.size (h6.symm.trans hn)
        exact this
      rw [had.2.1] at hle
      refine ⟨by rw [hsize]; exact hle, fun a h1 h2 h3 => ?_⟩
      unfold Covers
      rw [hsize, finishSymbol_address, hsame.address]
      refine ⟨h1, ?_⟩
      have := hcov a ?_ h2
      · rw [had.1.address] at this
        exact this
      · rcases lastAddr_next hok.sorted hi with ⟨_, e⟩ | ⟨y, hy, hlt, _, e⟩
        · rw [e]
          have := (sectionEnd env sec).isLt
          have h4 : (BitVec.allOnes 64).toNat = 2 ^ 64 - 1 := by decide
          omega
        · rw [e]
          exact h3 y hy (BitVec.lt_def.mp hlt)
  | true =>
    right
    unfold unusedSymbol at hu
    simp only [Bool.and_eq_true, Bool.not_eq_true'] at hu
    refine ⟨hu.1.1.1.1.2, ?_, ?_⟩
    · have := hu.1.1.1.2
      rw [hsame.name] at this
      simpa using this
    · intro s hsr e
      obtain ⟨j, s2, y, h10, h11, h12, rfl⟩ := (hmem s).mp hsr
      have hsame2 := (hashSymbol_same (hok.rels s2 (List.mem_of_getElem? h10)) h11).1
      rw [finishSymbol_address, hsame2.address] at e
      have := sorted_index hok.sorted h10 hi e
      subst this
      rw [hi] at h10
      cases h10
      rw [hx] at h11
      cases h11
      unfold unusedSymbol at h12
      simp [hu] at h12

/-- C32: the size is exactly the larger one of the declared size and the distance to the next symbol or the end of the
section. In a build with assertions, symbols behind the end of their section do not get this far. -/
theorem C32_exact_size (env : Env) (fl : AnalyzeFlags) (st r : AState) (hok : SymsOK st.symbols)
    (h : hashInternal env fl st = .ok r) (hb : env.build = .debug) (s0 : Symbol) (hs : s0 ∈ st.symbols) (sec : ElfSec)
    (hsec : Tree.floor st.sections s0.address = some sec) (s : Symbol) (hsr : s ∈ r.symbols)
    (ha : s.address = s0.address) (next : Addr)
    (hnext : (∃ y ∈ st.symbols, y.address = next ∧ s0.address < next ∧
        ∀ z ∈ st.symbols, s0.address < z.address → next ≤ z.address) ∨
      ((∀ y ∈ st.symbols, y.address ≤ s0.address) ∧ next = BitVec.allOnes 64)) :
    s0.address.toNat ≤ (sectionEnd env sec).toNat ∧
    s.size.toNat = max s0.size.toNat (min next.toNat (sectionEnd env sec).toNat - s0.address.toNat) := by
  obtain ⟨_, hmem, hall⟩ := hashInternal_ok hok h
  obtain ⟨i, s2, x, hi, hx, hu, rfl⟩ := (hmem s).mp hsr
  have hm2 := List.mem_of_getElem? hi
  obtain ⟨hsame, hsort, sec', sz, h5, h6, h7, h8, h9⟩ := hashSymbol_same (hok.rels s2 hm2) hx
  rw [finishSymbol_address, hsame.address] at ha
  have : s2 = s0 := hok.sorted.inj hm2 hs ha
  subst this
  rw [hsec] at h5
  cases h5
  have had := adoptSection_same sec s2
  obtain ⟨n, hn, hle, hcov, hex, hdbg⟩ := sizeSymbol_ok h8
  have hsize : (finishSymbol env fl x).size = n := by
    rw [finish_used hu]
    exact congrArg Symbol.size (h6.symm.trans hn)
  rw [had.1.address] at hex hdbg
  rw [had.2.1] at hex
  have hd := hdbg hb
  have hlast : lastAddr (st.symbols.drop (i + 1)) = next := by
    rcases lastAddr_next hok.sorted hi with ⟨h1, e⟩ | ⟨y, hy, hlt, hmin, e⟩
    · rcases hnext with ⟨z, hz, hz1, hz2, _⟩ | ⟨_, e2⟩
      · subst hz1
        have := h1 z hz
        exact absurd hz2 (bv_not_lt.mpr this)
      · rw [e, e2]
    · rcases hnext with ⟨z, hz, hz1, hz2, hz3⟩ | ⟨h1, _⟩
      · subst hz1
        rw [e]
        exact bv_le_antisymm (hmin z hz hz2) (hz3 y hy hlt)
      · exact absurd hlt (bv_not_lt.mpr (h1 y hy))
  rw [hlast] at hex hd
  rw [hsize]
  exact ⟨hd.2, hex hd.1 hd.2⟩

/-- A call, a loop, a return and another function. -/
def exA : AState := exCode 0x1000 [0xe8, 0x10, 0x75, 0xfc, 0xc3, 0x90, 0xc3] [exSym 0x1000, exSym 0x1006]

/-- The same at another address behind a NOP that belongs to no symbol. -/
def exB : AState := exCode 0x4fff [0x90, 0xe8, 0x10, 0x75, 0xfc, 0xc3, 0x90, 0xc3] [exSym 0x5000, exSym 0x5006]

/-- An untyped symbol after the analysis. -/
def exHashed (a size : Addr) (id : BitVec 64) (refs : List Addr) : Symbol where
  address := a
  size := size
  sec := { name := some ".text", executable := true }
  id := { internal := id }
  refs := refs

def exAr : AState :=
  { exA with symbols := [exHashed 0x1000 6 0x8439f92f7d7b009f [0x1012], exHashed 0x1006 1 0xc1cabdf []] }

def exBr : AState :=
  { exB with symbols := [exHashed 0x5000 6 0x8439f92f7d7b009f [0x5012], exHashed 0x5006 1 0xc1cabdf []] }

set_option maxRecDepth 8000 in
theorem exA_hash : hashInternal exEnv {} exA = .ok exAr := by
  rfl

set_option maxRecDepth 8000 in
theorem exB_hash : hashInternal exEnv {} exB = .ok exBr := by
  rfl

theorem exA_ok : SymsOK exA.symbols := by decide

theorem exB_ok : SymsOK exB.symbols := by decide

example : hashInternal exEnv {} exA = .ok exAr ∧
    (∃ s ∈ exAr.symbols, s.address = 0x1000 ∧ ∀ a : Addr, 0x1000 ≤ a.toNat → a.toNat < 0x1006 → Covers s a) := by
  refine ⟨exA_hash, ?_⟩
  rcases C32_coverage exEnv {} exA exAr exA_ok exA_hash (exSym 0x1000) (by decide) _ rfl with ⟨s, h1, h2, _, h3⟩ | ⟨_, _, h⟩
  · refine ⟨s, h1, h2, fun a ha hb => h3 a ha (Nat.lt_of_lt_of_le hb (by decide)) (fun y hy hlt => ?_)⟩
    rcases List.mem_cons.mp hy with rfl | hy
    · exact absurd hlt (by decide)
    · cases List.mem_singleton.mp hy
      exact hb
  · exact absurd rfl (h (exHashed 0x1000 6 0x8439f92f7d7b009f [0x1012]) List.mem_cons_self)

example (r : AState) (h : hashInternal exEnv {} exA = .ok r) (s : Symbol) (hs : s ∈ r.symbols)
    (ha : s.address = 0x1000) : s.size = 6 := by
  have := (C32_exact_size exEnv {} exA r exA_ok h rfl (exSym 0x1000) (by decide) _ rfl s hs ha 0x1006
    (Or.inl ⟨exSym 0x1006, by decide, rfl, by decide, by decide⟩)).2
  apply BitVec.eq_of_toNat_eq
  rw [this]
  rfl

/-! C33: position independence. -/

/-- The attributes that are hashed with `FLAG_HASH_ATTRIBUTES_FOR_ID`. -/
def SameAttributes (s s' : Symbol) : Prop :=
  s.name = s'.name ∧ s.type = s'.type ∧ s.bind = s'.bind ∧ s.sec.name = s'.sec.name ∧
    s.sec.writeable = s'.sec.writeable ∧ s.sec.executable = s'.sec.executable ∧ s.sec.flags = s'.sec.flags

theorem attributeBytes_eq {env : Env} {fl : AnalyzeFlags} {s s' : Symbol}
    (h : fl.hash_attributes = true → SameAttributes s s') : attributeBytes env fl s = attributeBytes env fl s' := by
  unfold attributeBytes
  cases hf : fl.hash_attributes with
  | false => rfl
  | true =>
    obtain ⟨h1, h2, h3, h4, h5, h6, h7⟩ := h hf
    simp only [if_true]
    rw [h1, h2, h3, h4, h5, h6, h7]

theorem codeOf_unique {env : Env} {st : AState} {s : Symbol} {l l' : List Step} (h : CodeOf env st s l)
    (h' : CodeOf env st s l') : l = l' := by
  obtain ⟨sec, bytes, h1, h2, rfl⟩ := h
  obtain ⟨sec', bytes', h3, h4, rfl⟩ := h'
  rw [h1] at h3
  cases h3
  rw [h2] at h4
  cases h4
  rfl

theorem sim_id {env : Env} {fl : AnalyzeFlags} {st st' r r' : AState}
    (hok : SymsOK st.symbols) (hok' : SymsOK st'.symbols) (h : hashInternal env fl st = .ok r)
    (h' : hashInternal env fl st' = .ok r') {s s' : Symbol} (hs : s ∈ r.symbols) (hs' : s' ∈ r'.symbols)
    (hx : s.sec.executable = true) (hx' : s'.sec.executable = true)
    (hf : SymFits (symCtx env st s)) (hf' : SymFits (symCtx env st' s'))
    {steps steps' : List Step} (hc : CodeOf env st s steps) (hc' : CodeOf env st' s' steps')
    (hsim : CodeSim env (symCtx env st s) (symCtx env st' s') steps steps')
    (hattr : fl.hash_attributes = true → SameAttributes s s') : s.id.internal = s'.id.internal := by
  obtain ⟨s0, s1, l, f⟩ := exec_facts hok h hs hx
  obtain ⟨s0', s1', l', f'⟩ := exec_facts hok' h' hs' hx'
  have := codeOf_unique f.code hc
  subst this
  have := codeOf_unique f'.code hc'
  subst this
  rw [f.input, f'.input, attributeBytes_eq hattr]
  have hloop := execLoop_sim (e := { execStart s1 with flags := 0 }) (e' := { execStart s1' with flags := 0 }) hf hf' hsim
    ⟨rfl, rfl, rfl, rfl, rfl⟩
  have key : ∀ (cx : SymCtx) (l : List Step) (e : ExecState) (fl : BitVec 16),
      (execLoop env cx l { e with flags := fl }).hashed = (execLoop env cx l e).hashed := by
    intro cx l
    induction l with
    | nil => intro e fl; rfl
    | cons x l ih =>
      intro e fl
      by_cases hn : env.kind x.insn.id = .nop
      · rw [execLoop_nop hn, execLoop_nop hn]; exact ih e fl
      · by_cases hfin : FinalStep env x
        · rw [execLoop_final hfin, execLoop_final hfin]; rfl
        · rw [execLoop_next hn hfin, execLoop_next hn hfin]
          have : execInsn env cx { e with flags := fl } x.insn x.address =
              { execInsn env cx e x.insn x.address with
                flags := (execInsn env cx { e with flags := fl } x.insn x.address).flags } := rfl
          rw [this, ih]
  have e1 := (key _ _ (execStart s1) 0).symm.trans (hloop.hashed.trans (key _ _ (execStart s1') 0))
  rw [e1]

/-- C33: functions with the same instructions up to the location have the same internal identifier, in whatever file,
section or address they are: targets inside of the function need the same distance to its start, targets outside are
arbitrary. -/
theorem C33_position_independent (env : Env) (fl : AnalyzeFlags) (st st' r r' : AState)
    (hok : SymsOK st.symbols) (hok' : SymsOK st'.symbols) (h : hashInternal env fl st = .ok r)
    (h' : hashInternal env fl st' = .ok r') (s s' : Symbol) (hs : s ∈ r.symbols) (hs' : s' ∈ r'.symbols)
    (hx : s.sec.executable = true) (hx' : s'.sec.executable = true)
    (hf : SymFits (symCtx env st s)) (hf' : SymFits (symCtx env st' s'))
    (steps steps' : List Step) (hc : CodeOf env st s steps) (hc' : CodeOf env st' s' steps')
    (hsim : Zip (StepSim env (symCtx env st s) (symCtx env st' s')) steps steps')
    (hattr : fl.hash_attributes = true → SameAttributes s s') : s.id.internal = s'.id.internal := by
  refine sim_id hok hok' h h' hs hs' hx hx' hf hf' hc hc' ?_ hattr
  clear hc hc'
  induction hsim with
  | nil => exact .nil
  | cons hxy _ ih => exact .step hxy ih

theorem disasmN_move {env : Env} {d : Addr} (hm : MovesWith env d) (n : Nat) (a : Addr) (bytes : List (BitVec 8)) :
    disasmN env n (a + d) bytes = (disasmN env n a bytes).map (moveStep env d) := by
  induction n generalizing a bytes with
  | zero => rfl
  | succ n ih =>
    unfold disasmN
    rw [hm]
    cases env.decode a bytes with
    | none => rfl
    | some i =>
      simp only [Option.map_some]
      show (if 0 < i.size ∧ i.size ≤ bytes.length then _ else _) = _
      by_cases hc : 0 < i.size ∧ i.size ≤ bytes.length
      · rw [if_pos hc, if_pos hc, List.map_cons]
        have e : a + d + BitVec.ofNat 64 i.size = a + BitVec.ofNat 64 i.size + d := by
          rw [BitVec.add_assoc, BitVec.add_comm d, ← BitVec.add_assoc]
        show Step.mk _ (a + d + BitVec.ofNat 64 i.size) _ :: disasmN env n (a + d + BitVec.ofNat 64 i.size) _ = _
        rw [e, ih]
        rfl
      · rw [if_neg hc, if_neg hc]
        rfl

/-- Contexts of the same size at a distance of `d`. -/
structure Moved (d : Addr) (cx cx' : SymCtx) : Prop where
  address : cx'.address = cx.address + d
  size : cx'.size = cx.size

theorem inSym_sub {cx : SymCtx} (hf : SymFits cx) (t : Addr) : InSym cx t ↔ (t - cx.address).toNat < cx.size.toNat := by
  unfold InSym
  unfold SymFits at hf
  rw [BitVec.toNat_sub]
  have := t.isLt
  have := cx.address.isLt
  omega

theorem inSym_move {d : Addr} {cx cx' : SymCtx} (hm : Moved d cx cx') (hf : SymFits cx) (hf' : SymFits cx') (t : Addr) :
    InSym cx' (t + d) ↔ InSym cx t := by
  rw [inSym_sub hf, inSym_sub hf', hm.address, hm.size]
  have : t + d - (cx.address + d) = t - cx.address := by bv_omega
  rw [this]

theorem near_move {d : Addr} {cx cx' : SymCtx} (hm : Moved d cx cx') {t : Addr} (h : InSym cx t)
    (h' : InSym cx' (t + d)) : t.toNat - cx.address.toNat = (t + d).toNat - cx'.address.toNat := by
  have e : t - cx.address = (t + d) - cx'.address := by rw [hm.address]; bv_omega
  have e2 := congrArg BitVec.toNat e
  unfold InSym at h h'
  rw [BitVec.toNat_sub, BitVec.toNat_sub] at e2
  have := t.isLt
  have := (t + d).isLt
  omega

theorem moveOp_sim {d : Addr} {cx cx' : SymCtx} (hm : Moved d cx cx') (hf : SymFits cx) (hf' : SymFits cx')
    (k : InsKind) (next : Addr) (op : Operand) : OpSim cx cx' k next (next + d) op (moveOp k d op) := by
  cases op with
  | reg r => exact .reg r
  | other => exact .other
  | imm v a =>
    show OpSim _ _ _ _ _ _ (.imm (if Branching k then v + d else v) a)
    by_cases hb : Branching k
    · rw [if_pos hb]
      by_cases hi : InSym cx v
      · have hi' := (inSym_move hm hf hf' v).mpr hi
        exact .near _ _ _ _ hb hi hi' (near_move hm hi hi')
      · exact .far _ _ _ _ hb hi (fun h => hi ((inSym_move hm hf hf' v).mp h))
    · rw [if_neg hb]
      exact .imm _ _ _ hb
  | mem segment base index scale disp a =>
    by_cases hr : base = X86_REG_RIP
    · subst hr
      have e : next + d + disp = next + disp + d := by
        rw [BitVec.add_assoc, BitVec.add_comm d, ← BitVec.add_assoc]
      show OpSim _ _ _ _ _ _ (.mem segment X86_REG_RIP index scale disp a)
      by_cases hi : InSym cx (next + disp)
      · have hi' := (inSym_move hm hf hf' _).mpr hi
        refine .ripNear _ _ _ _ _ _ _ _ _ _ Iff.rfl hi ?_ ?_
        · rw [e]; exact hi'
        · rw [e]; exact near_move hm hi hi'
      · refine .ripFar _ _ _ _ _ _ _ _ _ _ Iff.rfl hi ?_
        rw [e]
        exact fun h => hi ((inSym_move hm hf hf' _).mp h)
    · exact .mem _ _ _ _ _ _ _ hr

theorem zip_map {α β : Type} {R : α → β → Prop} (f : α → β) (l : List α) (h : ∀ x ∈ l, R x (f x)) :
    Zip R l (l.map f) := by
  induction l with
  | nil => exact .nil
  | cons x l ih => exact .cons (h x List.mem_cons_self) (ih (fun y hy => h y (List.mem_cons_of_mem _ hy)))

theorem nextAddress_move (env : Env) (d : Addr) (i : Insn) : nextAddress (moveInsn env d i) = nextAddress i + d := by
  unfold nextAddress moveInsn
  simp only
  rw [BitVec.add_assoc, BitVec.add_comm d, ← BitVec.add_assoc]

theorem moveStep_sim {env : Env} {d : Addr} {cx cx' : SymCtx} (hm : Moved d cx cx') (hf : SymFits cx)
    (hf' : SymFits cx') (s : Step) : StepSim env cx cx' s (moveStep env d s) := by
  refine ⟨rfl, rfl, rfl, ?_, Iff.rfl⟩
  show Zip _ s.insn.ops (s.insn.ops.map (moveOp (env.kind s.insn.id) d))
  refine zip_map _ _ (fun op _ => ?_)
  rw [show nextAddress (moveStep env d s).insn = nextAddress s.insn + d from nextAddress_move env d s.insn]
  exact moveOp_sim hm hf hf' _ _ _

/-- C33: the same bytes at another address (not thread-local, in whatever file) have the same internal identifier. -/
theorem C33_same_bytes (env : Env) (fl : AnalyzeFlags) (st st' r r' : AState)
    (hok : SymsOK st.symbols) (hok' : SymsOK st'.symbols) (h : hashInternal env fl st = .ok r)
    (h' : hashInternal env fl st' = .ok r') (s s' : Symbol) (hs : s ∈ r.symbols) (hs' : s' ∈ r'.symbols)
    (hx : s.sec.executable = true) (hx' : s'.sec.executable = true)
    (hf : s.address.toNat + s.size.toNat < 2 ^ 64) (hf' : s'.address.toNat + s'.size.toNat < 2 ^ 64)
    (ht : TLS.is_tls s.address = false) (ht' : TLS.is_tls s'.address = false)
    (hm : MovesWith env (s'.address - s.address)) (hz : s.size = s'.size)
    (sec sec' : ElfSec) (bytes : List (BitVec 8)) (hsec : Tree.floor st.sections s.address = some sec)
    (hsec' : Tree.floor st'.sections s'.address = some sec')
    (hb : readBytes sec.data (s.address - sec.virt_addr) s.size = .ok bytes)
    (hb' : readBytes sec'.data (s'.address - sec'.virt_addr) s'.size = .ok bytes)
    (hattr : fl.hash_attributes = true → SameAttributes s s') : s.id.internal = s'.id.internal := by
  have hv : TLS.virt_addr s.address = s.address := TLS.virt_of_regular ht
  have hv' : TLS.virt_addr s'.address = s'.address := TLS.virt_of_regular ht'
  have e : s'.address = s.address + (s'.address - s.address) := by bv_omega
  have hmv : Moved (s'.address - s.address) (symCtx env st s) (symCtx env st' s') := ⟨e, hz.symm⟩
  refine C33_position_independent env fl st st' r r' hok hok' h h' s s' hs hs' hx hx' hf hf' _
    ((disasm env s.address bytes).map (moveStep env (s'.address - s.address)))
    ⟨sec, bytes, hsec, by rw [hv]; exact hb, by rw [hv]⟩
    ⟨sec', bytes, hsec', by rw [hv']; exact hb', ?_⟩ (zip_map _ _ (fun x _ => moveStep_sim hmv hf hf' x)) hattr
  rw [hv']
  unfold disasm
  rw [← disasmN_move hm, ← e]

theorem relevant_move {env : Env} {d : Addr} {l : List Step} :
    relevant env (l.map (moveStep env d)) = (relevant env l).map (moveStep env d) := by
  induction l with
  | nil => rfl
  | cons x l ih =>
    rw [List.map_cons, relevant, relevant]
    have h1 : env.kind (moveStep env d x).insn.id = env.kind x.insn.id := rfl
    have h2 : FinalStep env (moveStep env d x) ↔ FinalStep env x := Iff.rfl
    rw [h1]
    by_cases hn : env.kind x.insn.id = .nop
    · rw [if_pos hn, if_pos hn, ih]
    · rw [if_neg hn, if_neg hn]
      by_cases hf : FinalStep env x
      · rw [if_pos (h2.mpr hf), if_pos hf]; rfl
      · rw [if_neg (fun h => hf (h2.mp h)), if_neg hf, ih]; rfl

theorem farTarget_move {d : Addr} {cx cx' : SymCtx} (hm : Moved d cx cx') (hf : SymFits cx) (hf' : SymFits cx')
    {k : InsKind} {next : Addr} {op : Operand} {t : Addr} :
    FarTarget cx k next op t ↔ FarTarget cx' k (next + d) (moveOp k d op) (t + d) := by
  have hadd : ∀ disp : Addr, next + d + disp = next + disp + d := fun disp => by
    rw [BitVec.add_assoc, BitVec.add_comm d, ← BitVec.add_assoc]
  constructor
  · intro h
    cases h with
    | branch v a hb hi =>
      show FarTarget _ _ _ (.imm (if Branching k then t + d else t) a) _
      rw [if_pos hb]
      exact .branch _ _ hb (fun h => hi ((inSym_move hm hf hf' _).mp h))
    | rip segment index scale disp a hi =>
      rw [← hadd]
      refine .rip _ _ _ _ _ ?_
      rw [hadd]
      exact fun h => hi ((inSym_move hm hf hf' _).mp h)
  · intro h
    cases op with
    | reg r => cases h
    | other => cases h
    | imm v a =>
      change FarTarget _ _ _ (.imm (if Branching k then v + d else v) a) _ at h
      by_cases hb : Branching k
      · rw [if_pos hb] at h
        generalize ht : t + d = u at h
        cases h with
        | branch _ _ _ hi =>
          have : t = v := by bv_omega
          subst this
          exact .branch _ _ hb (fun h => hi ((inSym_move hm hf hf' _).mpr h))
      · rw [if_neg hb] at h
        cases h with
        | branch _ _ hb' _ => exact absurd hb' hb
    | mem segment base index scale disp a =>
      change FarTarget cx' k (next + d) (.mem segment base index scale disp a) (t + d) at h
      generalize ht : t + d = u at h
      cases h with
      | rip _ _ _ _ _ hi =>
        have : t = next + disp := by bv_omega
        subst this
        refine .rip _ _ _ _ _ ?_
        rw [hadd] at hi
        exact fun h => hi ((inSym_move hm hf hf' _).mpr h)

/-- C33: if code is moved by `d`, with the targets moving along, the references to the (not thread-local) address space
move by the same distance. -/
theorem C33_references (env : Env) (cx cx' : SymCtx) (d : Addr) (ha : cx'.address = cx.address + d)
    (hz : cx'.size = cx.size) (hf : SymFits cx) (hf' : SymFits cx') (steps : List Step)
    (hfs : ∀ s ∈ steps, ∀ op ∈ s.insn.ops, ∀ t, ¬ TlsTarget cx op t) (e e' : ExecState)
    (he : ∀ t, t ∈ e.refs ↔ t + d ∈ e'.refs) (t : Addr) :
    t ∈ (execLoop env cx steps e).refs ↔ t + d ∈ (execLoop env cx' (steps.map (moveStep env d)) e').refs := by
  rw [execLoop_refs hf, execLoop_refs hf', he]
  have hm : Moved d cx cx' := ⟨ha, hz⟩
  refine or_congr Iff.rfl ?_
  unfold CodeRefers
  have hsub : ∀ s, Relevant env steps s → s ∈ steps := by
    rintro s ⟨_, pre, post, h, _⟩
    rw [h]
    exact List.mem_append_right _ List.mem_cons_self
  constructor
  · rintro ⟨s, hs, op, hop, h | h⟩
    · refine ⟨moveStep env d s, ?_, moveOp (env.kind s.insn.id) d op, List.mem_map_of_mem hop, Or.inl ?_⟩
      · rw [← mem_relevant, relevant_move]
        exact List.mem_map_of_mem (mem_relevant.mpr hs)
      · show FarTarget cx' (env.kind s.insn.id) (nextAddress (moveInsn env d s.insn)) _ _
        rw [nextAddress_move]
        exact (farTarget_move hm hf hf').mp h
    · exact absurd h (hfs s (hsub s hs) op hop t)
  · rintro ⟨s', hs', op', hop', h⟩
    rw [← mem_relevant, relevant_move] at hs'
    obtain ⟨s, hs, rfl⟩ := List.mem_map.mp hs'
    obtain ⟨op, hop, rfl⟩ := List.mem_map.mp hop'
    refine ⟨s, mem_relevant.mp hs, op, hop, ?_⟩
    rcases h with h | h
    · left
      have h' : FarTarget cx' (env.kind s.insn.id) (nextAddress (moveInsn env d s.insn)) _ _ := h
      rw [nextAddress_move] at h'
      exact (farTarget_move hm hf hf').mpr h'
    · exfalso
      cases op with
      | mem segment base index scale disp a =>
        change TlsTarget cx' (.mem segment base index scale disp a) _ at h
        generalize t + d = u at h
        cases h
        exact hfs s (hsub s (mem_relevant.mp hs)) _ hop _ (.fs _ _ _ _ _)
      | reg r => cases h
      | other => cases h
      | imm v a =>
        cases h

theorem exMoves (d : Addr) : MovesWith exEnv d := by
  intro a bytes
  show exDecode (a + d) bytes = (exDecode a bytes).map (moveInsn exEnv d)
  have h4 : ∀ v : Addr, a + d + v = a + v + d := by intro v; bv_omega
  unfold exDecode
  split <;>
    simp [moveInsn, moveOp, exEnv, exKind, exBranch, exLoad, exStore, Branching, h4, X86_REG_RIP]

example (r r' : AState) (h : hashInternal exEnv {} exA = .ok r) (h' : hashInternal exEnv {} exB = .ok r') :
    r.symbols.head?.map (·.id.internal) = r'.symbols.head?.map (·.id.internal) := by
  cases exA_hash.symm.trans h
  cases exB_hash.symm.trans h'
  refine congrArg some ?_
  exact C33_same_bytes exEnv {} exA exB _ _ exA_ok exB_ok exA_hash exB_hash (exHashed 0x1000 6 0x8439f92f7d7b009f [0x1012])
    (exHashed 0x5000 6 0x8439f92f7d7b009f [0x5012]) List.mem_cons_self List.mem_cons_self rfl rfl
    (by decide) (by decide) (by decide) (by decide) (exMoves _) rfl _ _ [0xe8, 0x10, 0x75, 0xfc, 0xc3, 0x90] rfl rfl rfl
    rfl (by simp)

/-! C34: NOPs and padding. -/

/-- C34: functions that only differ in NOPs, in what follows a leaving instruction with nothing but zeros behind it, and
in their location have the same internal identifier. Missing for the full property: padding that starts with a NOP
(see `C34_counterexample`). -/
theorem C34_nops_and_padding_partial (env : Env) (fl : AnalyzeFlags) (st st' r r' : AState)
    (hok : SymsOK st.symbols) (hok' : SymsOK st'.symbols) (h : hashInternal env fl st = .ok r)
    (h' : hashInternal env fl st' = .ok r') (s s' : Symbol) (hs : s ∈ r.symbols) (hs' : s' ∈ r'.symbols)
    (hx : s.sec.executable = true) (hx' : s'.sec.executable = true)
    (hf : SymFits (symCtx env st s)) (hf' : SymFits (symCtx env st' s'))
    (steps steps' : List Step) (hc : CodeOf env st s steps) (hc' : CodeOf env st' s' steps')
    (hsim : CodeSim env (symCtx env st s) (symCtx env st' s') steps steps')
    (hattr : fl.hash_attributes = true → SameAttributes s s') : s.id.internal = s'.id.internal :=
  sim_id hok hok' h h' hs hs' hx hx' hf hf' hc hc' hsim hattr

/-- A call, a NOP, a return and padding with zeros. -/
def exNops : AState := exCode 0x1000 [0xe8, 0x10, 0x90, 0xc3, 0x00, 0x00, 0x00] [exSym 0x1000]

/-- A call, a return and less padding. -/
def exNoNops : AState := exCode 0x2000 [0xe8, 0x10, 0xc3, 0x00] [exSym 0x2000]

example (r r' : AState) (h : hashInternal exEnv {} exNops = .ok r) (h' : hashInternal exEnv {} exNoNops = .ok r') :
    r.symbols.head?.map (·.id.internal) = r'.symbols.head?.map (·.id.internal) := by
  have e : hashInternal exEnv {} exNops =
      .ok { exNops with symbols := [exHashed 0x1000 7 0xe6a3acce09633c11 [0x1012]] } := by rfl
  have e' : hashInternal exEnv {} exNoNops =
      .ok { exNoNops with symbols := [exHashed 0x2000 4 0xe6a3acce09633c11 [0x2012]] } := by rfl
  cases e.symm.trans h
  cases e'.symm.trans h'
  refine congrArg some ?_
  refine C34_nops_and_padding_partial exEnv {} exNops exNoNops _ _ (by decide)
    (by decide) e e' (exHashed 0x1000 7 0xe6a3acce09633c11 [0x1012])
    (exHashed 0x2000 4 0xe6a3acce09633c11 [0x2012]) List.mem_cons_self List.mem_cons_self rfl rfl
    (by unfold SymFits; decide) (by unfold SymFits; decide) _ _ ⟨_, _, rfl, rfl, rfl⟩ ⟨_, _, rfl, rfl, rfl⟩ ?_ (by simp)
  refine .step ⟨rfl, rfl, rfl, .cons (.far _ _ _ _ (by decide) (by decide) (by decide)) .nil, by decide⟩ ?_
  refine .nopLeft rfl ?_
  exact .final ⟨rfl, rfl, rfl, .nil, by decide⟩ (by decide)

/-- A return, padding and another function. -/
def exPad : AState := exCode 0x1000 [0xc3, 0x00, 0x00, 0xc3] [exSym 0x1000, exSym 0x1003]

/-- The same with a NOP behind the first return. -/
def exNopPad : AState := exCode 0x1000 [0xc3, 0x90, 0x00, 0x00, 0xc3] [exSym 0x1000, exSym 0x1004]

set_option maxRecDepth 8000 in
/-- C34: padding behind a leaving instruction is taken for code if it starts with a NOP: the NOP changes the identifier
(and the function refers to the following one). -/
theorem C34_counterexample : ∃ (env : Env) (st st' r r' : AState) (s s' : Symbol), SymsOK st.symbols ∧
    SymsOK st'.symbols ∧ hashInternal env {} st = .ok r ∧ hashInternal env {} st' = .ok r' ∧ s ∈ r.symbols ∧
    s' ∈ r'.symbols ∧ s.sec.executable = true ∧ s'.sec.executable = true ∧
    (∃ ret ret' nop rest rest', CodeOf env st s (ret :: rest) ∧ CodeOf env st' s' (ret' :: nop :: rest') ∧
      ret.insn = ret'.insn ∧ Leaving (env.kind ret.insn.id) ∧ env.kind nop.insn.id = .nop ∧
      (∀ b ∈ ret.rest, b = 0) ∧ nop.rest = ret.rest) ∧ s.id.internal ≠ s'.id.internal := by
  refine ⟨exEnv, exPad, exNopPad,
    { exPad with symbols := [exHashed 0x1000 3 0xc1cabdf [], exHashed 0x1003 1 0xc1cabdf []] },
    { exNopPad with symbols := [exHashed 0x1000 4 0x38c39161b65c2415 [0x1004], exHashed 0x1004 1 0xc1cabdf []] },
    exHashed 0x1000 3 0xc1cabdf [], exHashed 0x1000 4 0x38c39161b65c2415 [0x1004], by decide, by decide, by rfl, by rfl,
    List.mem_cons_self, List.mem_cons_self, rfl, rfl,
    ⟨_, _, _, _, _, ⟨_, _, rfl, rfl, rfl⟩, ⟨_, _, rfl, rfl, rfl⟩, rfl, by decide, rfl, by decide, rfl⟩, by decide⟩

/-! C35: references of functions. -/

theorem continues_iff {env : Env} {cx : SymCtx} (hf : SymFits cx) {l : List Step} {e : ExecState}
    (hl : e.leave = true) (hm : e.max_branch = e.last_instruction)
    (ha : ∀ s ∈ l, e.last_instruction.toNat ≤ s.address.toNat) :
    ((execLoop env cx l e).leave = false ∨
      (execLoop env cx l e).max_branch > (execLoop env cx l e).last_instruction) ↔ Continues env cx l := by
  obtain ⟨h1, h2, h3⟩ := execLoop_end (env := env) hf l e
  rw [h1, h2, h3]
  unfold Continues
  have hrel : ∀ s, (relevant env l).getLast? = some s → s ∈ l := by
    intro s hs
    have : s ∈ relevant env l := List.mem_of_getLast? hs
    obtain ⟨_, pre, post, e, _⟩ := mem_relevant.mp this
    rw [e]
    exact List.mem_append_right _ List.mem_cons_self
  cases hlast : (relevant env l).getLast? with
  | none =>
    have hnil : relevant env l = [] := List.getLast?_eq_none_iff.mp hlast
    have hnt : nearTargets env cx l = [] := by unfold nearTargets; rw [hnil]; rfl
    rw [hnt]
    simp only [Option.map_none, Option.getD_none, hl]
    constructor
    · rintro (h | h)
      · cases h
      · change e.max_branch > e.last_instruction at h
        rw [hm] at h
        exact absurd h (bv_lt_irrefl _)
    · rintro ⟨s, hs, _⟩
      cases hs
  | some s =>
    simp only [Option.map_some, Option.getD_some, Option.some.injEq, exists_eq_left']
    have hlv : leaves (env.kind s.insn.id) = false ↔ ¬ Leaving (env.kind s.insn.id) := by
      rw [← leaves_iff]; simp
    rw [hlv]
    refine or_congr Iff.rfl ?_
    cases hn : (nearTargets env cx l).getLast? with
    | none =>
      simp only [Option.getD_none]
      constructor
      · intro h
        have := ha s (hrel s hlast)
        rw [hm, gt_iff_lt, BitVec.lt_def] at h
        omega
      · rintro ⟨t, ht, _⟩
        cases ht
    | some t =>
      simp only [Option.getD_some, Option.some.injEq, exists_eq_left']
      rw [gt_iff_lt, BitVec.lt_def]

/-- C35: the references of a function are exactly the ones known before, those of its instructions to addresses outside
of it, those to thread-local variables, the targets of relocations that are resolved, and the following symbol if it is
taken to continue there. Missing for the full property: only the last target inside of the function is considered for
the continuation (see `C35_counterexample`). -/
theorem C35_references_partial (env : Env) (fl : AnalyzeFlags) (st r : AState) (hok : SymsOK st.symbols)
    (h : hashInternal env fl st = .ok r) (s : Symbol) (hs : s ∈ r.symbols) (hx : s.sec.executable = true)
    (hf : s.address.toNat + s.size.toNat < 2 ^ 64) (htls : TLS.is_tls s.address = false)
    (steps : List Step) (hc : CodeOf env st s steps) (s0 : Symbol) (hs0 : s0 ∈ st.symbols)
    (ha : s0.address = s.address) (t : Addr) :
    t ∈ s.refs ↔ t ∈ s0.refs ∨ CodeRefers env (symCtx env st s) steps t ∨
      (fl.resolve_internal = true ∧ ∃ rel ∈ s.rels, rel ∉ s0.rels ∧ rel.undefined = false ∧ rel.target = t) ∨
      (Continues env (symCtx env st s) steps ∧ ∃ y ∈ st.symbols, y.address = t ∧
        s.address.toNat + s.size.toNat ≤ y.address.toNat ∧
        ∀ z ∈ st.symbols, s.address.toNat + s.size.toNat ≤ z.address.toNat → y.address.toNat ≤ z.address.toNat) := by
  obtain ⟨s0', s1, l, f⟩ := exec_facts hok h hs hx
  have := codeOf_unique f.code hc
  subst this
  have : s0' = s0 := hok.sorted.inj f.mem hs0 (f.address.trans ha.symm)
  subst this
  have hfit : SymFits (symCtx env st s) := hf
  have hv : TLS.virt_addr s.address = s.address := TLS.virt_of_regular htls
  have hrefs1 : ∀ t, t ∈ s1.refs ↔ t ∈ s0'.refs ∨
      (fl.resolve_internal = true ∧ ∃ rel ∈ s.rels, rel ∉ s0'.rels ∧ rel.undefined = false ∧ rel.target = t) := by
    intro t
    have := f.added.refs t
    simp only at this
    rw [f.rels1] at this
    exact this
  have hsteps : ∀ x ∈ l, (execStart s1).last_instruction.toNat ≤ x.address.toNat := by
    obtain ⟨sec, bytes, _, h2, rfl⟩ := hc
    intro x hx
    have hlen := readBytes_length h2
    show (TLS.virt_addr s1.address).toNat ≤ _
    rw [f.addr1]
    have := disasmN_address bytes.length (TLS.virt_addr s.address) bytes (by rw [hv, hlen]; exact hf) x hx
    omega
  have hcont := continues_iff (env := env) hfit (l := l) (e := execStart s1) rfl rfl hsteps
  have hex : ∀ t, t ∈ (execLoop env (symCtx env st s) l (execStart s1)).refs ↔ _ :=
    fun t => execLoop_refs hfit l (execStart s1) t
  have hend : (s.address + s.size).toNat = s.address.toNat + s.size.toNat := by
    rw [BitVec.toNat_add]; omega
  rcases fallThrough_ok f.through with ⟨hno, e⟩ | ⟨hyes, next, hn, e⟩
  · have e2 : s.refs = (execLoop env (symCtx env st s) l (execStart s1)).refs := congrArg Symbol.refs e
    have hnc : ¬ Continues env (symCtx env st s) l := by
      rw [← hcont]
      rintro (hc | hc)
      · rw [hno.1] at hc; cases hc
      · exact hno.2 hc
    rw [e2, hex]
    show t ∈ s1.refs ∨ _ ↔ _
    rw [hrefs1]
    constructor
    · rintro ((h | h) | h)
      · exact Or.inl h
      · exact Or.inr (Or.inr (Or.inl h))
      · exact Or.inr (Or.inl h)
    · rintro (h | h | h | ⟨h, _⟩)
      · exact Or.inl (Or.inl h)
      · exact Or.inr h
      · exact Or.inl (Or.inr h)
      · exact absurd h hnc
  · have e2 : s.refs = HSet.add (execLoop env (symCtx env st s) l (execStart s1)).refs next.address :=
      congrArg Symbol.refs e
    have hnc : Continues env (symCtx env st s) l := hcont.mp hyes
    have hn' : Tree.ceil st.symbols (s.address + s.size) = some next := by
      rw [← f.addr1, ← f.size1]; exact hn
    obtain ⟨hm1, hm2, hm3⟩ := (ceil_eq_some_iff hok.sorted).mp hn'
    rw [e2, mem_hset_add, hex]
    show (t ∈ s1.refs ∨ _) ∨ _ ↔ _
    rw [hrefs1]
    have hnext : t = next.address ↔ ∃ y ∈ st.symbols, y.address = t ∧
        s.address.toNat + s.size.toNat ≤ y.address.toNat ∧
        ∀ z ∈ st.symbols, s.address.toNat + s.size.toNat ≤ z.address.toNat → y.address.toNat ≤ z.address.toNat := by
      constructor
      · rintro rfl
        refine ⟨next, hm1, rfl, ?_, ?_⟩
        · rw [← hend]; exact BitVec.le_def.mp hm2
        · intro z hz hle
          exact BitVec.le_def.mp (hm3 z hz (BitVec.le_def.mpr (by rw [hend]; exact hle)))
      · rintro ⟨y, hy, rfl, h1, h2⟩
        apply bv_le_antisymm
        · exact BitVec.le_def.mpr (h2 next hm1 (by rw [← hend]; exact BitVec.le_def.mp hm2))
        · exact hm3 y hy (BitVec.le_def.mpr (by rw [hend]; exact h1))
    rw [hnext]
    constructor
    · rintro (((h | h) | h) | h)
      · exact Or.inl h
      · exact Or.inr (Or.inr (Or.inl h))
      · exact Or.inr (Or.inl h)
      · exact Or.inr (Or.inr (Or.inr ⟨hnc, h⟩))
    · rintro (h | h | h | ⟨_, h⟩)
      · exact Or.inl (Or.inl (Or.inl h))
      · exact Or.inl (Or.inr h)
      · exact Or.inl (Or.inl (Or.inr h))
      · exact Or.inr h

example (r : AState) (h : hashInternal exEnv {} exA = .ok r) (s : Symbol) (hs : s ∈ r.symbols)
    (ha : s.address = 0x1000) : 0x1012 ∈ s.refs := by
  cases exA_hash.symm.trans h
  have : s = exHashed 0x1000 6 0x8439f92f7d7b009f [0x1012] := by
    rcases List.mem_cons.mp hs with h | h
    · exact h
    · cases List.mem_singleton.mp h; exact absurd ha (by decide)
  subst this
  rw [C35_references_partial exEnv {} exA _ exA_ok exA_hash _ hs rfl (by decide) (by decide) _ ⟨_, _, rfl, rfl, rfl⟩
    (exSym 0x1000) (by decide) rfl]
  refine Or.inr (Or.inl ⟨_, ⟨?_, [], _, rfl, by simp⟩, .imm 0x1012 0, by decide, Or.inl ?_⟩)
  · decide
  · exact .branch _ _ (by decide) (by decide)

/-- A branch to the NOPs at the end of the function, a jump back to its start and another function. -/
def exBack : AState := exCode 0x1000 [0x75, 0x03, 0xeb, 0xfc, 0x90, 0x90, 0xc3] [exSym 0x1000, exSym 0x1006]

set_option maxRecDepth 8000 in
/-- C35: execution may continue in the following symbol, since a branch `x` has a target `t` behind the last instruction
`y` that is not a NOP, but the symbol is not referred to: a later branch inside of the function hides the target. -/
theorem C35_counterexample : ∃ (env : Env) (st r : AState) (s next : Symbol) (steps : List Step) (x y : Step) (t : Addr),
    SymsOK st.symbols ∧ hashInternal env {} st = .ok r ∧ s ∈ r.symbols ∧ s.sec.executable = true ∧ CodeOf env st s steps ∧
    Relevant env steps x ∧ (∃ op ∈ x.insn.ops, nearTarget (symCtx env st s) (env.kind x.insn.id) (nextAddress x.insn) op = some t) ∧
    (relevant env steps).getLast? = some y ∧ y.address.toNat < t.toNat ∧
    next ∈ st.symbols ∧ next.address = s.address + s.size ∧ next.address ∉ s.refs := by
  refine ⟨exEnv, exBack,
    { exBack with symbols := [exHashed 0x1000 6 0xa47b99ce132c1641 [], exHashed 0x1006 1 0xc1cabdf []] },
    exHashed 0x1000 6 0xa47b99ce132c1641 [], exSym 0x1006, _, _, _, 0x1005, by decide, by rfl, List.mem_cons_self, rfl,
    ⟨_, _, rfl, rfl, rfl⟩, ⟨?_, [], _, rfl, by simp⟩, ⟨.imm 0x1005 0, by decide, by decide⟩, by rfl, by decide, by decide,
    rfl, by decide⟩
  decide

end Bean

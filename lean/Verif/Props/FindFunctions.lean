import Verif.Lemmas.FindFunctions
import Verif.Lemmas.Reconstruct
import Verif.Props.Reconstruct
/-
C69 to C71: search for functions in executable sections.
-/
namespace Bean
open Tree Spec

/-- An executable section does not reach the end of the address space. -/
def Spec.CodeFits (st : AState) : Prop :=
  ∀ sec ∈ st.sections, sec.executable = true → sec.virt_addr.toNat + sec.size.toNat < 2 ^ 64

instance (st : AState) : Decidable (Spec.CodeFits st) := by unfold Spec.CodeFits; infer_instance

theorem sectionCode_layout {env : Env} (hd : SaneDecoder env) {st : AState} (hw : Spec.CodeFits st) {sec : ElfSec}
    {steps : List Step} (h : SectionCode env st sec steps) :
    (∀ s ∈ steps, Placed env sec.virt_addr sec.size.toNat s) ∧
      steps.Pairwise (fun s s' => s.address.toNat ≤ s'.insn.address.toNat) := by
  obtain ⟨hm, hx, bytes, hb, rfl⟩ := h
  have hl := readBytes_length hb
  have := disasmN_layout hd bytes.length sec.virt_addr bytes (by rw [hl]; exact hw sec hm hx)
  rw [hl] at this
  unfold disasm
  rw [hl]
  exact this

/-- C69: after the search there are symbols at all addresses that had one, at the start of each section, at the target of
each direct call into an executable section and at each ENDBR that follows the end of some code (NOPs aside). Other
instructions that follow the end of some code have a symbol if no jump in front of them leads to or over them. -/
theorem C69_found (env : Env) (hd : SaneDecoder env) (fl : AnalyzeFlags) (st st' : AState) (hs : Sorted st.symbols)
    (hw : Spec.CodeFits st) (h : findFunctions env fl st = .ok st') :
    (∀ s ∈ st.symbols, HasSym st'.symbols s.address) ∧
    (∀ sec ∈ st.sections, HasSym st'.symbols (TLS.trans_addr sec.virt_addr sec.tls)) ∧
    (∀ sec steps, SectionCode env st sec steps → ∀ x ∈ steps, env.kind x.insn.id ≠ .nop → ∀ k, CallsTo st x.insn k →
      HasSym st'.symbols k) ∧
    (∀ sec pre x post, SectionCode env st sec (pre ++ x :: post) → env.kind x.insn.id = .endbr → AfterEnd env pre →
      HasSym st'.symbols (TLS.trans_addr x.insn.address sec.tls)) ∧
    (∀ sec pre x post, SectionCode env st sec (pre ++ x :: post) → Ordinary (env.kind x.insn.id) → AfterEnd env pre →
      (∀ y ∈ pre, ∀ t, JumpsTo env y t → t < x.insn.address) →
      HasSym st'.symbols (TLS.trans_addr x.insn.address sec.tls)) := by
  obtain ⟨t, rfl, hD⟩ := findFunctions_done hs h
  refine ⟨fun s hs => hD.keep _ ⟨s, hs, rfl⟩, hD.start, fun sec steps hc => hD.calls sec hc.1 steps hc,
    fun sec pre x post hc => hD.marks sec hc.1 pre x post hc, fun sec pre x post hc hk ha hj => ?_⟩
  obtain ⟨hP, hO⟩ := sectionCode_layout hd hw hc
  have hlt : ∀ y ∈ pre, y.insn.address.toNat < x.insn.address.toNat := by
    intro y hy
    have h1 := (List.pairwise_append.mp hO).2.2 y hy x (by simp)
    have h2 := hP y (List.mem_append_left _ hy)
    have := h2.end_
    have := h2.pos
    omega
  refine hD.nexts sec hc.1 pre x post hc hk ha ?_ (fun y hy => BitVec.lt_def.mpr (hlt y hy)) hj
  obtain ⟨p, hp, _⟩ := ha
  have hpm : p ∈ pre := (List.mem_filter.mp (List.mem_of_getLast? hp)).1
  have h1 := (hP p (List.mem_append_left _ hpm)).lower
  have h2 := hlt p hpm
  rw [BitVec.lt_def]
  omega

/-- C69: the search adds symbols only at addresses with such a reason (see `Start`). -/
theorem C69_only (env : Env) (fl : AnalyzeFlags) (st st' : AState) (hs : Sorted st.symbols)
    (h : findFunctions env fl st = .ok st') :
    Sorted st'.symbols ∧
    ∀ s ∈ st'.symbols, (∃ s0 ∈ st.symbols, s0.address = s.address) ∨ Start env fl st st'.symbols s.address := by
  obtain ⟨t, rfl, hD⟩ := findFunctions_done hs h
  exact ⟨hD.sorted, fun s hs => hD.only t (fun k hk => hk) s.address ⟨s, hs, rfl⟩⟩

/-- C70: symbols that have been added lie within a section (or at its start) as long as calls with a target behind an
executable section do not leave this section. -/
theorem C70_inside_partial (env : Env) (hd : SaneDecoder env) (fl : AnalyzeFlags) (st st' : AState) (hs : Sorted st.symbols)
    (hw : Spec.CodeFits st)
    (ht : ∀ sec ∈ st.sections, sec.executable = true → sec.tls = false)
    (hc : ∀ sec steps, SectionCode env st sec steps → ∀ x ∈ steps, env.kind x.insn.id ≠ .nop → .call ∈ x.insn.groups →
      ∀ t, Direct x.insn t → ∀ target, Tree.floor st.sections t = some target → target.executable = true →
        t.toNat < target.virt_addr.toNat + target.size.toNat)
    (h : findFunctions env fl st = .ok st') (s : Symbol) (hsm : s ∈ st'.symbols) (hnew : ¬ HasSym st.symbols s.address) :
    ∃ sec ∈ st.sections, s.address = TLS.trans_addr sec.virt_addr sec.tls ∨
      (sec.executable = true ∧ sec.virt_addr.toNat ≤ s.address.toNat ∧
        s.address.toNat < sec.virt_addr.toNat + sec.size.toNat) := by
  have hin : ∀ sec steps, SectionCode env st sec steps → ∀ x ∈ steps,
      sec.virt_addr.toNat ≤ (TLS.trans_addr x.insn.address sec.tls).toNat ∧
      (TLS.trans_addr x.insn.address sec.tls).toNat < sec.virt_addr.toNat + sec.size.toNat := by
    intro sec steps hsc x hx
    rw [ht sec hsc.1 hsc.2.1, TLS.trans_false]
    have hp := (sectionCode_layout hd hw hsc).1 x hx
    have h1 := hp.lower
    have h2 := hp.upper
    have h3 := hp.end_
    have h4 := hp.pos
    omega
  rcases (C69_only env fl st st' hs h).2 s hsm with h1 | h1
  · exact absurd h1 hnew
  · generalize s.address = a at h1 ⊢
    cases h1 with
    | sec sec hm => exact ⟨sec, hm, Or.inl rfl⟩
    | called sec steps x _ hsc hx hk hcall =>
      obtain ⟨hg, t, target, hdir, hf, hex, rfl⟩ := hcall
      have hm := floor_mem hf
      have hb := hc sec steps hsc x hx hk hg t hdir target hf hex
      have htls := ht target hm hex
      have hle := floor_le hf
      refine ⟨target, hm, Or.inr ⟨hex, ?_, ?_⟩⟩
      · rw [htls, TLS.trans_false]
        have : TLS.trans_addr target.virt_addr target.tls ≤ t := hle
        rw [htls, TLS.trans_false, BitVec.le_def] at this
        exact this
      · rw [htls, TLS.trans_false]
        exact hb
    | mark sec pre x post hsc _ _ =>
      obtain ⟨h2, h3⟩ := hin sec _ hsc x (by simp)
      exact ⟨sec, hsc.1, Or.inr ⟨hsc.2.1, h2, h3⟩⟩
    | next sec p q x post hsc _ _ _ _ =>
      obtain ⟨h2, h3⟩ := hin sec _ hsc x (by simp)
      exact ⟨sec, hsc.1, Or.inr ⟨hsc.2.1, h2, h3⟩⟩
    | plt sec steps _ hsc _ hk =>
      rcases hk with rfl | ⟨x, hx, rfl⟩
      · exact ⟨sec, hsc.1, Or.inl (by rw [ht sec hsc.1 hsc.2.1, TLS.trans_false])⟩
      · have hb := hin sec _ hsc x hx
        rw [ht sec hsc.1 hsc.2.1, TLS.trans_false] at hb
        exact ⟨sec, hsc.1, Or.inr ⟨hsc.2.1, hb.1, hb.2⟩⟩

/-! ### The search does not abort -/

/-- A jump to the address in a memory location (relative to the following instruction) that is relocated. -/
def Spec.SlotJump (st : AState) (i : Insn) : Prop :=
  ∃ (segment index : Reg) (scale : BitVec 32) (disp : BitVec 64) (a : BitVec 8) (rel : ElfRel),
    i.ops = [.mem segment X86_REG_RIP index scale disp a] ∧
    Tree.find st.relocations (i.address + BitVec.ofNat 64 i.size + disp) = some rel

/-- Conditions on the file: executable sections are neither writeable nor thread local, their data is part of the file,
addresses of code do not look like those of thread local data. If imports are named then PLT sections jump to relocated addresses
only. -/
structure Spec.PlainCode (env : Env) (fl : AnalyzeFlags) (st : AState) : Prop where
  names : ∀ sec steps, SectionCode env st sec steps → namesPlt fl sec = true → ∀ x ∈ steps, env.kind x.insn.id ≠ .nop →
    .jump ∈ x.insn.groups → Spec.SlotJump st x.insn
  plain : ∀ sec ∈ st.sections, sec.executable = true → sec.writeable = false ∧ sec.tls = false ∧
    TLS.is_tls sec.virt_addr = false ∧ sec.size.toNat ≤ sec.data.length
  steps : ∀ sec steps, SectionCode env st sec steps → ∀ x ∈ steps, TLS.is_tls x.insn.address = false ∧
    sec.virt_addr ≤ x.insn.address
  operands : ∀ sec steps, SectionCode env st sec steps → ∀ x ∈ steps, (.jump ∈ x.insn.groups ∨ .call ∈ x.insn.groups) →
    x.insn.ops ≠ []
  targets : ∀ sec steps, SectionCode env st sec steps → ∀ x ∈ steps, .call ∈ x.insn.groups → ∀ t, Direct x.insn t →
    ∀ target, Tree.floor st.sections t = some target → target.executable = true → TLS.is_tls t = false

theorem insertSymbol_total {b : Build} (t : SymTree) {sec : ElfSec} (a : Addr) (type : ElfSymType)
    (h : sec.executable = true → sec.writeable = false ∧ TLS.is_tls a = false) :
    ∃ t', insertSymbol b t (plainArgs sec a type) = .ok t' := by
  have h1 : massert b (!((plainArgs sec a type).executable && (plainArgs sec a type).writeable)) = .ok () := by
    apply massert_ok
    show (!(sec.executable && sec.writeable)) = true
    cases hx : sec.executable with
    | false => rfl
    | true => rw [(h hx).1]; rfl
  have h2 : massert b (!((plainArgs sec a type).executable && TLS.is_tls (plainArgs sec a type).address)) = .ok () := by
    apply massert_ok
    show (!(sec.executable && TLS.is_tls a)) = true
    cases hx : sec.executable with
    | false => rfl
    | true => rw [(h hx).2]; rfl
  have h3 : ∀ pos, mergeCheck b (plainArgs sec a type) pos = .ok () := by
    intro pos
    unfold mergeCheck
    split
    · rfl
    · rw [if_neg (by show ¬ ((0 : Addr) ≠ 0); exact fun h => h rfl)]
  unfold insertSymbol
  rw [h1]
  simp only [bind, Except.bind, h2]
  split
  · exact ⟨_, rfl⟩
  · split
    · exact ⟨_, rfl⟩
    · split
      · rw [h3]
        exact ⟨_, rfl⟩
      · exact ⟨_, rfl⟩

theorem foldlM_total {α σ : Type} {f : σ → α → M σ} (l : List α) (s : σ) (h : ∀ x ∈ l, ∀ a, ∃ a', f a x = .ok a') :
    ∃ s', l.foldlM f s = .ok s' := by
  induction l generalizing s with
  | nil => exact ⟨s, rfl⟩
  | cons x l ih =>
    obtain ⟨a', ha⟩ := h x (by simp) s
    rw [List.foldlM_cons, ha]
    exact ih a' (fun y hy => h y (List.mem_cons_of_mem _ hy))

theorem directTarget_total {i : Insn} (h : i.ops ≠ []) : ∃ o, directTarget i = .ok o := by
  unfold directTarget
  cases hl : i.ops.getLast? with
  | none => exact absurd (List.getLast?_eq_none_iff.mp hl) h
  | some op => cases op <;> exact ⟨_, rfl⟩

theorem foldlM_keeps {α σ : Type} {f : σ → α → M σ} (I : σ → Prop) (l : List α) (s : σ) (h0 : I s)
    (h : ∀ x ∈ l, ∀ a, I a → ∃ a', f a x = .ok a' ∧ I a') : ∃ s', l.foldlM f s = .ok s' ∧ I s' := by
  induction l generalizing s with
  | nil => exact ⟨s, rfl, h0⟩
  | cons x l ih =>
    obtain ⟨a', ha, hi⟩ := h x (by simp) s h0
    rw [List.foldlM_cons, ha]
    exact ih a' hi (fun y hy => h y (List.mem_cons_of_mem _ hy))

theorem nameImport_total {b : Build} {st : AState} {sec : ElfSec} (hm : sec ∈ st.sections) (ht : sec.tls = false) {i : Insn}
    (hj : Spec.SlotJump st i) (after : Addr) {f : FindState} (hf : sec.virt_addr ≤ f.start) :
    ∃ f', nameImport b st i after f = .ok f' ∧ sec.virt_addr ≤ f'.start := by
  obtain ⟨sg, ix, sc, disp, ac, rel, hops, hrel⟩ := hj
  unfold nameImport
  rw [hops]
  rw [massert_ok (by rfl)]
  simp only [bind, Except.bind]
  rw [massert_ok (by decide)]
  simp only [hrel, mderef]
  cases hs : rel.symbol with
  | none => exact ⟨f, rfl, hf⟩
  | some sym =>
    simp only
    cases hk : Tree.find f.symbols f.start with
    | some y => exact ⟨_, rfl, hf⟩
    | none =>
      simp only
      cases hfl : Tree.floor st.sections f.start with
      | none =>
        have h1 := floor_eq_none_iff.mp hfl sec hm
        rw [show Keyed.key sec = sec.virt_addr by
          show TLS.trans_addr sec.virt_addr sec.tls = _
          rw [ht, TLS.trans_false]] at h1
        rw [BitVec.le_def] at hf
        rw [BitVec.lt_def] at h1
        omega
      | some s' => exact ⟨_, rfl, hf⟩

theorem findInsn_total {env : Env} {fl : AnalyzeFlags} {st : AState} (hp : Spec.PlainCode env fl st) {sec : ElfSec}
    {steps : List Step} (hc : SectionCode env st sec steps) (x : Step) (hx : x ∈ steps) (f : FindState)
    (hf : sec.virt_addr ≤ f.start) :
    ∃ f', findInsn env st sec (namesPlt fl sec) f x = .ok f' ∧ sec.virt_addr ≤ f'.start := by
  unfold findInsn
  split
  · exact ⟨f, rfl, hf⟩
  · rename_i hnop
    have hpl := hp.plain sec hc.1 hc.2.1
    have hat := hp.steps sec steps hc x hx
    have hst : ∀ f, ∃ f', insertStart env.build sec x.insn.address f = .ok f' ∧ f'.start = x.insn.address := by
      intro f
      unfold insertStart
      rw [massert_ok hc.2.1]
      obtain ⟨t', ht'⟩ := insertSymbol_total (b := env.build) f.symbols (sec := sec)
        (TLS.trans_addr x.insn.address sec.tls) .func
        (fun _ => ⟨hpl.1, by rw [hpl.2.1, TLS.trans_false]; exact hat.1⟩)
      simp only [bind, Except.bind, ht']
      exact ⟨_, rfl, rfl⟩
    have h1 : ∃ f1, findStart env sec x.insn f = .ok f1 ∧ sec.virt_addr ≤ f1.start := by
      unfold findStart
      obtain ⟨f2, hf2, hf3⟩ := hst f
      split
      · exact ⟨_, rfl, hf⟩
      · exact ⟨_, rfl, hf⟩
      · split
        · rw [hf2]; exact ⟨_, rfl, by show sec.virt_addr ≤ f2.start; rw [hf3]; exact hat.2⟩
        · exact ⟨_, rfl, hat.2⟩
      · split
        · rw [hf2]; exact ⟨_, rfl, by show sec.virt_addr ≤ f2.start; rw [hf3]; exact hat.2⟩
        · exact ⟨_, rfl, hf⟩
    obtain ⟨f1, hf1, hf1s⟩ := h1
    rw [hf1]
    refine foldlM_keeps (fun f => sec.virt_addr ≤ f.start) x.insn.groups f1 hf1s (fun g hg f2 hf2 => ?_)
    cases g with
    | jump =>
      unfold findGroup findJump
      by_cases hn : namesPlt fl sec = true
      · rw [if_pos hn]
        exact nameImport_total hc.1 hpl.2.1 (hp.names sec steps hc hn x hx hnop hg) _ hf2
      · obtain ⟨o, ho⟩ := directTarget_total (hp.operands sec steps hc x hx (Or.inl hg))
        rw [if_neg hn, ho]
        cases o with
        | none => exact ⟨_, rfl, hf2⟩
        | some t =>
          refine ⟨_, rfl, ?_⟩
          split <;> exact hf2
    | call =>
      obtain ⟨o, ho⟩ := directTarget_total (hp.operands sec steps hc x hx (Or.inr hg))
      have hdt := directTarget_ok ho
      unfold findGroup findCall
      rw [ho]
      cases o with
      | none => exact ⟨_, rfl, hf2⟩
      | some t =>
        simp only [bind, Except.bind]
        cases hf : Tree.floor st.sections t with
        | none => exact ⟨_, rfl, hf2⟩
        | some target =>
          simp only
          by_cases hx' : target.executable = true
          · rw [if_pos hx']
            have hpt := hp.plain target (floor_mem hf) hx'
            obtain ⟨t', ht'⟩ := insertSymbol_total (b := env.build) f2.symbols (sec := target)
              (TLS.trans_addr t target.tls) .func (fun _ => ⟨hpt.1, by
                rw [hpt.2.1, TLS.trans_false]
                exact hp.targets sec steps hc x hx hg t ((hdt t).mp rfl) target hf hx'⟩)
            rw [ht']
            exact ⟨_, rfl, hf2⟩
          · rw [if_neg hx']
            exact ⟨_, rfl, hf2⟩
    | ret => exact ⟨_, rfl, hf2⟩
    | iret => exact ⟨_, rfl, hf2⟩
    | other => exact ⟨_, rfl, hf2⟩

/-- C71: the search succeeds, in debug builds as well, on files with ordinary code sections. -/
theorem C71_no_abort (env : Env) (fl : AnalyzeFlags) (st : AState) (hp : Spec.PlainCode env fl st) :
    ∃ st', findFunctions env fl st = .ok st' := by
  have : ∃ t, st.sections.foldlM (findSection env fl st) st.symbols = .ok t := by
    refine foldlM_total st.sections st.symbols (fun sec hm t => ?_)
    unfold findSection
    obtain ⟨t1, ht1⟩ := insertSymbol_total (b := env.build) t (sec := sec) (TLS.trans_addr sec.virt_addr sec.tls) .hiproc
      (fun hx => by
        have := hp.plain sec hm hx
        rw [this.2.1, TLS.trans_false]
        exact ⟨this.1, this.2.2.1⟩)
    rw [ht1]
    change ∃ a', (if sec.executable = true then _ else _) = Except.ok a'
    by_cases hx : sec.executable = true
    · rw [if_pos hx]
      have hb : readBytes sec.data 0 sec.size = .ok ((sec.data.drop 0).take sec.size.toNat) := by
        unfold readBytes
        rw [if_pos (by have := (hp.plain sec hm hx).2.2.2; simpa using this)]
        rfl
      rw [hb]
      have hc : SectionCode env st sec (disasm env sec.virt_addr ((sec.data.drop 0).take sec.size.toNat)) :=
        ⟨hm, hx, _, hb, rfl⟩
      obtain ⟨f, hf, _⟩ := foldlM_keeps (fun f : FindState => sec.virt_addr ≤ f.start) _
        { symbols := t1, start := sec.virt_addr, max_branch := sec.virt_addr } (BitVec.le_refl _)
        (fun x hx f hf => findInsn_total hp hc x hx f hf)
      simp only [bind, Except.bind, hf]
      exact ⟨_, rfl⟩
    · rw [if_neg hx]
      exact ⟨_, rfl⟩
  obtain ⟨t, ht⟩ := this
  unfold findFunctions
  rw [ht]
  exact ⟨_, rfl⟩

/-! ### Examples -/

/-- Decoder for the examples. -/
def fexDecode (a : Addr) : List (BitVec 8) → Option Insn
  | 0x90#8 :: _ => some { address := a, size := 1, id := 1, opcode := [0x90] }
  | 0xc3#8 :: _ => some { address := a, size := 1, id := 2, opcode := [0xc3], groups := [.ret] }
  | 0x40#8 :: _ => some { address := a, size := 1, id := 7, opcode := [0x40] }
  | 0xf3#8 :: _ => some { address := a, size := 1, id := 8, opcode := [0xf3] }
  | 0xe8#8 :: d :: _ => some (exBranch a 4 0xe8 d .call)
  | 0x75#8 :: d :: _ => some (exBranch a 6 0x75 d .jump)
  | _ => none

/-- Environment with this decoder. -/
def fexEnv : Env := { exEnv with decode := fexDecode, kind := fun id => if id = 8 then .endbr else exKind id }

theorem fexEnv_sane : SaneDecoder fexEnv := by
  have hcases : ∀ {a : Addr} {bytes : List (BitVec 8)} {i : Insn}, fexDecode a bytes = some i →
      i.address = a ∧ i.size ≤ 15 ∧ (i.ops = [] ∨ i.imm_offset.toNat < i.size) ∧ (i.ops = [] ∨ i.disp_offset.toNat < i.size) := by
    intro a bytes i h
    unfold fexDecode at h
    split at h
    all_goals first
      | cases h
        exact ⟨rfl, Nat.le_of_ble_eq_true rfl, Or.inl rfl, Or.inl rfl⟩
      | cases h
        exact ⟨rfl, Nat.le_of_ble_eq_true rfl, Or.inr (Nat.le_of_ble_eq_true rfl), Or.inr (Nat.le_of_ble_eq_true rfl)⟩
      | cases h
  refine ⟨fun h => (hcases h).1, fun h => (hcases h).2.1, fun h op hop _ _ _ _ hr => ?_⟩
  obtain ⟨_, _, h1, h2⟩ := hcases h
  rcases hr with hr | hr
  · cases hr with
    | branch => exact h1.resolve_left (fun e => by rw [e] at hop; cases hop)
    | rip => exact h2.resolve_left (fun e => by rw [e] at hop; cases hop)
  · cases hr with
    | fs => exact h2.resolve_left (fun e => by rw [e] at hop; cases hop)

theorem direct_target {i : Insn} {t : Addr} (h : Direct i t) : directTarget i = .ok (some t) := by
  cases h with
  | imm v a e => unfold directTarget; rw [e]
  | rip s x sc d a e => unfold directTarget; rw [e]; simp

/-- Decidable form of a statement on the direct targets of some instructions. -/
def allTargets (steps : List Step) (p : Step → Addr → Bool) : Bool :=
  steps.all (fun x => match directTarget x.insn with
    | .ok (some t) => p x t
    | _ => true)

theorem allTargets_of {steps : List Step} {p : Step → Addr → Bool} (h : allTargets steps p = true) :
    ∀ x ∈ steps, ∀ t, Direct x.insn t → p x t = true := by
  intro x hx t ht
  have := List.all_eq_true.mp h x hx
  rw [direct_target ht] at this
  exact this

/-- A jump over a return, a function behind it, a function with a mark, and one that is called. -/
def fexCode : List (BitVec 8) := [0x75, 0x02, 0xc3, 0x40, 0xc3, 0x90, 0x40, 0xe8, 0x03, 0xc3, 0xf3, 0xc3, 0x40, 0xc3]

/-- A file without symbols. -/
def fexFile (code : List (BitVec 8)) : AState where
  sections := [rexText code]

/-- A symbol of the search. -/
def fexSym (a : Addr) (type : SymType := .func) : Symbol where
  address := a
  size := 0
  type := type
  sec := { address := 0x1000, name := some ".text", executable := true }

/-- The file after the search. -/
def fexFile' : AState := { fexFile fexCode with symbols := [fexSym 0x1000 .unknown, fexSym 0x1006, fexSym 0x100a, fexSym 0x100c] }

theorem fexFile_ok : findFunctions fexEnv {} (fexFile fexCode) = .ok fexFile' := by
  exact ok_of_decide (by decide +kernel)

theorem fex_code {code : List (BitVec 8)} {sec : ElfSec} {steps : List Step}
    (h : SectionCode fexEnv (fexFile code) sec steps) :
    sec = rexText code ∧ ∃ bytes, readBytes (rexText code).data 0 (rexText code).size = .ok bytes ∧
      steps = disasm fexEnv 0x1000 bytes := by
  obtain ⟨h1, _, h2⟩ := h
  have : sec = rexText code := List.mem_singleton.mp h1
  subst this
  exact ⟨rfl, h2⟩

theorem fex_steps {sec : ElfSec} {steps : List Step} (h : SectionCode fexEnv (fexFile fexCode) sec steps) :
    sec = rexText fexCode ∧ steps = disasm fexEnv 0x1000 fexCode := by
  obtain ⟨h1, bytes, hb, h2⟩ := fex_code h
  refine ⟨h1, ?_⟩
  have : readBytes (rexText fexCode).data 0 (rexText fexCode).size = .ok fexCode := by rfl
  rw [this] at hb
  cases hb
  exact h2

theorem fex_section : SectionCode fexEnv (fexFile fexCode) (rexText fexCode) (disasm fexEnv 0x1000 fexCode) :=
  ⟨List.mem_singleton.mpr rfl, rfl, fexCode, by rfl, rfl⟩

/-- The return in front of the function at 0x1006. -/
def fexRet : Step where
  insn := { address := 0x1004, size := 1, id := 2, opcode := [0xc3], groups := [.ret] }
  address := 0x1005
  rest := fexCode.drop 5

/-- The function at 0x1006 is found since the jump at the start of the section leads to 0x1004. -/
example : HasSym fexFile'.symbols 0x1006 := by
  have hx : disasm fexEnv 0x1000 fexCode = (disasm fexEnv 0x1000 fexCode).take 5 ++
      { insn := { address := 0x1006, size := 1, id := 7, opcode := [0x40] }, address := 0x1007, rest := fexCode.drop 7 } ::
        (disasm fexEnv 0x1000 fexCode).drop 6 := by decide +kernel
  have h := (C69_found fexEnv fexEnv_sane {} (fexFile fexCode) fexFile' (by decide) (by decide +kernel) fexFile_ok).2.2.2.2
    (rexText fexCode) _ _ _ (hx ▸ fex_section) (by exact trivial) ?_ ?_
  · exact h
  · exact ⟨fexRet, by decide +kernel, Or.inr (Or.inr (Or.inl (by decide)))⟩
  · intro y hy t ht
    exact of_decide_eq_true (allTargets_of (p := fun _ t => decide (t < 0x1006))
      (steps := (disasm fexEnv 0x1000 fexCode).take 5) (by decide +kernel) y hy t ht.2.2)

/-- No symbol at 0x1003, behind a return, since it is between the jump and its target. -/
example : ∀ s ∈ fexFile'.symbols, Start fexEnv {} (fexFile fexCode) fexFile'.symbols s.address := by
  intro s hs
  rcases (C69_only fexEnv {} (fexFile fexCode) fexFile' (by decide) fexFile_ok).2 s hs with ⟨_, h, _⟩ | h
  · cases h
  · exact h

example : ∃ sec ∈ (fexFile fexCode).sections, (0x100c : Addr) = TLS.trans_addr sec.virt_addr sec.tls ∨
    (sec.executable = true ∧ sec.virt_addr.toNat ≤ (0x100c : Addr).toNat ∧
      (0x100c : Addr).toNat < sec.virt_addr.toNat + sec.size.toNat) := by
  refine C70_inside_partial fexEnv fexEnv_sane {} (fexFile fexCode) fexFile' (by decide) (by decide +kernel)
    (by decide) ?_ fexFile_ok (fexSym 0x100c) (by decide) (fun ⟨_, h, _⟩ => by cases h)
  intro sec steps hc x hx _ _ t ht target hf _
  obtain ⟨rfl, rfl⟩ := fex_steps hc
  have := of_decide_eq_true (allTargets_of (p := fun _ t => decide (t.toNat < 0x100e)) (by decide +kernel) x hx t ht)
  have hm := floor_mem hf
  rw [List.mem_singleton.mp hm]
  exact this

/-- The call of this code leads far behind the section. -/
def fexFar : List (BitVec 8) := [0xe8, 0x60, 0xc3]

/-- The file after the search. -/
def fexFar' : AState := { fexFile fexFar with symbols := [fexSym 0x1000 .unknown, fexSym 0x1062] }

theorem fexFar_ok : findFunctions fexEnv {} (fexFile fexFar) = .ok fexFar' := by
  exact ok_of_decide (by decide +kernel)

/-- C70: the target of a call gets a symbol even if it is behind the end of the closest executable section: the new symbol
is in none of the sections. -/
theorem C70_counterexample :
    findFunctions fexEnv {} (fexFile fexFar) = .ok fexFar' ∧ fexSym 0x1062 ∈ fexFar'.symbols ∧
    (fexSym 0x1062).sec.executable = true ∧ ¬ HasSym (fexFile fexFar).symbols 0x1062 ∧
    ∀ sec ∈ (fexFile fexFar).sections, ¬ (sec.virt_addr.toNat ≤ (0x1062 : Addr).toNat ∧
      (0x1062 : Addr).toNat < sec.virt_addr.toNat + sec.size.toNat) :=
  ⟨fexFar_ok, by decide, rfl, fun ⟨_, h, _⟩ => (by cases h), by decide⟩

theorem fex_plain : Spec.PlainCode fexEnv {} (fexFile fexCode) where
  names := by
    intro sec steps hc hn
    exact absurd hn (by rw [(fex_steps hc).1]; decide)
  plain := by decide +kernel
  steps := by
    intro sec steps hc
    obtain ⟨rfl, rfl⟩ := fex_steps hc
    decide +kernel
  operands := by
    intro sec steps hc
    obtain ⟨rfl, rfl⟩ := fex_steps hc
    decide +kernel
  targets := by
    intro sec steps hc x hx _ t ht target _ _
    obtain ⟨rfl, rfl⟩ := fex_steps hc
    exact of_decide_eq_true (allTargets_of (p := fun _ t => decide (TLS.is_tls t = false)) (by decide +kernel) x hx t ht)

example : ∃ st', findFunctions fexEnv {} (fexFile fexCode) = .ok st' := C71_no_abort fexEnv {} _ fex_plain

/-- Decoder for a PLT: `0xff` with a byte is a jump to the address in the memory location that many bytes behind. -/
def pltDecode (a : Addr) : List (BitVec 8) → Option Insn
  | 0x90#8 :: _ => some { address := a, size := 1, id := 1, opcode := [0x90] }
  | 0xf3#8 :: _ => some { address := a, size := 1, id := 8, opcode := [0xf3] }
  | 0xff#8 :: d :: _ => some { address := a, size := 2, id := 3, opcode := [0xff], groups := [.jump], ops := [
      .mem 0 X86_REG_RIP 0 1 (d.zeroExtend 64) 1] }
  | _ => none

def pltEnv : Env := { exEnv with decode := pltDecode, kind := fun id => if id = 8 then .endbr else if id = 3 then .jmp else exKind id }

/-- A PLT section with two entries and padding in front. -/
def pltSec : ElfSec := { rexText [0x90, 0xf3, 0xff, 0x0c, 0xf3, 0xff, 0x11] with name := ".plt.sec" }

/-- The relocation of a memory location for an imported function. -/
def pltRel (a : Addr) (name : String) : ElfRel where
  offset := a
  type := 7
  symbol := some { value := 0, name := some name, type := .func, bind := .global }

def pltFile : AState where
  sections := [pltSec]
  relocations := [pltRel 0x1010 "puts", pltRel 0x1018 "exit"]

theorem plt_steps {sec : ElfSec} {steps : List Step} (h : SectionCode pltEnv pltFile sec steps) :
    sec = pltSec ∧ steps = disasm pltEnv 0x1000 [0x90, 0xf3, 0xff, 0x0c, 0xf3, 0xff, 0x11] := by
  obtain ⟨h1, _, bytes, h3, h4⟩ := h
  rw [List.mem_singleton.mp h1] at h3 h4 ⊢
  have : readBytes pltSec.data 0 pltSec.size = .ok [0x90, 0xf3, 0xff, 0x0c, 0xf3, 0xff, 0x11] := by rfl
  rw [this] at h3
  cases h3
  exact ⟨rfl, h4⟩

/-- Decidable form: is the instruction a jump to a relocated location? -/
def slotJump (st : AState) (i : Insn) : Bool :=
  match i.ops with
  | [.mem _ base _ _ disp _] => base == X86_REG_RIP && (Tree.find st.relocations (i.address + BitVec.ofNat 64 i.size + disp)).isSome
  | _ => false

theorem slotJump_of {st : AState} {i : Insn} (h : slotJump st i = true) : Spec.SlotJump st i := by
  unfold slotJump at h
  split at h
  · rename_i sg base ix sc disp ac heq
    obtain ⟨h1, h2⟩ := Bool.and_eq_true_iff.mp h
    obtain ⟨rel, hr⟩ := Option.isSome_iff_exists.mp h2
    rw [eq_of_beq h1] at heq
    exact ⟨sg, ix, sc, disp, ac, rel, heq, hr⟩
  · cases h

theorem plt_plain : Spec.PlainCode pltEnv { hash_attributes := true } pltFile where
  names := by
    intro sec steps hc _ x hx _ hj
    rw [(plt_steps hc).2] at hx
    have : ∀ x ∈ disasm pltEnv 0x1000 [0x90, 0xf3, 0xff, 0x0c, 0xf3, 0xff, 0x11], .jump ∈ x.insn.groups →
        slotJump pltFile x.insn = true := by decide +kernel
    exact slotJump_of (this x hx hj)
  plain := by decide +kernel
  steps := by
    intro sec steps hc
    obtain ⟨rfl, rfl⟩ := plt_steps hc
    decide +kernel
  operands := by
    intro sec steps hc
    obtain ⟨rfl, rfl⟩ := plt_steps hc
    decide +kernel
  targets := by
    intro sec steps hc x hx _ t ht target _ _
    obtain ⟨rfl, rfl⟩ := plt_steps hc
    exact of_decide_eq_true (allTargets_of (p := fun _ t => decide (TLS.is_tls t = false)) (by decide +kernel) x hx t ht)

example : ∃ st', findFunctions pltEnv { hash_attributes := true } pltFile = .ok st' :=
  C71_no_abort pltEnv { hash_attributes := true } pltFile plt_plain

/-- The symbols of the PLT have the names of the imported functions. -/
example : (findFunctions pltEnv { hash_attributes := true } pltFile).toOption.map (fun st => st.symbols.map (fun s => (s.address, s.size, s.name))) =
    some [(0x1000, 0, none), (0x1001, 3, some "puts"), (0x1004, 0, some "exit")] := by decide +kernel

/-- C71: jumps of a named PLT section to locations without relocation abort the search. -/
theorem C71_slot_counterexample :
    findFunctions pltEnv { hash_attributes := true } { pltFile with relocations := [pltRel 0x1010 "puts"] } = .error .assert ∧
    findFunctions { pltEnv with build := .release } { hash_attributes := true } { pltFile with relocations := [pltRel 0x1010 "puts"] } =
      .error .ub := by
  constructor <;> rfl

/-- An executable section that is writeable as well. -/
def fexWx : AState where
  sections := [{ rexText fexCode with writeable := true }]

/-- C71: the restriction to sections that are not writeable is needed. -/
theorem C71_writeable_code : findFunctions fexEnv {} fexWx = .error .assert := by rfl

end Bean

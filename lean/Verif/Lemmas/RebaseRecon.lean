import Verif.Spec.RebaseRecon
import Verif.Lemmas.RebaseData
import Verif.Lemmas.Reconstruct
/-
Relocations reconstructed from the code of a moved file (C100).
-/
namespace Bean
open Bean.Spec

variable {m : Rebase} {elf : Elf} {dbg : Option Elf} {st : AState} {env : Env} {fl : AnalyzeFlags}

/-! ### Arguments -/

/-- The arguments for the moved file. -/
def rebaseRelArgs (m : Rebase) (a : RelArgs) : RelArgs :=
  { a with address := a.address + m.dist, target := rebaseRef m.tls m.dist a.target }

/-- Arguments that can be moved. -/
structure GoodRelArgs (m : Rebase) (t : SymTree) (a : RelArgs) : Prop where
  target : AddressedT m.tls m.dist a.target ∨ (m.tls = false ∧ TLS.is_tls a.target = true)
  front : TLS.is_tls a.target = false → (Tree.floor t a.target).isSome = true
  loc : Low m.dist a.loc

theorem GoodRelArgs.ref {t : SymTree} {a : RelArgs} (h : GoodRelArgs m t a) : GoodRef m.tls m.dist a.target := by
  rcases h.target with h | h
  · exact Or.inl h.lowT
  · exact Or.inr h

theorem InFront.ref {t : SymTree} {a : Addr} (h : InFront m t a) : rebaseRef m.tls m.dist a = a + m.dist :=
  (h.1.2.lowT (tls := m.tls)).ref

theorem operandRels_rebase {t : SymTree} {te te' : Addr} {i : Insn} {op : Operand} (hte : te' = if m.tls then te + m.dist else te)
    (hop : OperandAnchored env m t te i op) :
    operandRels te' (env.kind i.id) (moveInsn env m.dist i) (moveOp (env.kind i.id) m.dist op) =
      (operandRels te (env.kind i.id) i op).map (rebaseRelArgs m) ∧
    ∀ a ∈ operandRels te (env.kind i.id) i op,
      (AddressedT m.tls m.dist a.target ∨ (m.tls = false ∧ TLS.is_tls a.target = true)) ∧
      (TLS.is_tls a.target = false → (Tree.floor t a.target).isSome = true) := by
  cases op with
  | reg r => exact ⟨rfl, fun a h => (by simp [operandRels] at h)⟩
  | other => exact ⟨rfl, fun a h => (by simp [operandRels] at h)⟩
  | imm v acc =>
    by_cases hb : isBranch (env.kind i.id) = true
    · have hbr := (isBranch_iff _).mp hb
      have hv := hop hbr
      constructor
      · show operandRels te' _ _ (.imm (if Branching (env.kind i.id) then v + m.dist else v) acc) = _
        rw [if_pos hbr]
        unfold operandRels
        simp only [if_pos hb, List.map_cons, List.map_nil]
        unfold rebaseRelArgs
        simp only [InFront.ref hv]
        rfl
      · intro a ha
        unfold operandRels at ha
        simp only [if_pos hb, List.mem_singleton] at ha
        subst ha
        exact ⟨Or.inl hv.1.addressedT, fun _ => hv.2⟩
    · constructor
      · unfold operandRels moveOp
        simp only [if_neg hb, List.map_nil]
      · intro a ha
        unfold operandRels at ha
        simp only [if_neg hb] at ha
        cases ha
  | mem segment base index scale disp acc =>
    obtain ⟨h1, h2⟩ := hop
    constructor
    · unfold operandRels moveOp
      simp only [List.map_append]
      congr 1
      · by_cases hc : segment = X86_REG_FS
        · simp only [if_pos hc, List.map_cons, List.map_nil]
          unfold rebaseRelArgs
          have : TLS.trans_addr (te' + disp) true = rebaseRef m.tls m.dist (TLS.trans_addr (te + disp) true) := by
            cases ht : m.tls with
            | true =>
              have hl := h1 hc ht
              have hl' : LowT true m.dist (TLS.trans_addr (te + disp) true) := ⟨_, true, hl.2, fun _ => rfl, rfl⟩
              rw [hte, ht, hl'.ref, if_pos rfl, add_swap, hl.2.trans]
            | false =>
              rw [hte, ht, rebaseRef_fixed ⟨rfl, TLS.is_tls_trans_true _⟩]
              rfl
          simp only [this]
          rfl
        · simp only [if_neg hc, List.map_nil]
      · by_cases hc : base = X86_REG_RIP
        · have hv := h2 hc
          have e : (moveInsn env m.dist i).address + BitVec.ofNat 64 (moveInsn env m.dist i).size + disp =
              rebaseRef m.tls m.dist (i.address + BitVec.ofNat 64 i.size + disp) := by
            have := InFront.ref hv
            unfold nextAddress at this
            rw [this]
            show i.address + m.dist + BitVec.ofNat 64 i.size + disp = _
            bv_omega
          simp only [if_pos hc, List.map_cons, List.map_nil]
          unfold rebaseRelArgs
          rw [e]
          rfl
        · simp only [if_neg hc, List.map_nil]
    · intro a ha
      unfold operandRels at ha
      rcases List.mem_append.mp ha with ha | ha
      · by_cases hc : segment = X86_REG_FS
        · simp only [if_pos hc, List.mem_singleton] at ha
          subst ha
          have htt := TLS.is_tls_trans_true (te + disp)
          refine ⟨?_, fun h => ?_⟩
          · cases ht : m.tls with
            | true => exact Or.inl ⟨_, true, h1 hc ht, fun _ => rfl, rfl⟩
            | false => exact Or.inr ⟨rfl, htt⟩
          · dsimp only at h; rw [htt] at h; cases h
        · simp only [if_neg hc] at ha
          cases ha
      · by_cases hc : base = X86_REG_RIP
        · simp only [if_pos hc, List.mem_singleton] at ha
          subst ha
          have hv := h2 hc
          exact ⟨Or.inl hv.1.addressedT, fun _ => hv.2⟩
        · simp only [if_neg hc] at ha
          cases ha

theorem flatMap_same {α β : Type} {l : List α} {f g : α → List β} (h : ∀ x ∈ l, f x = g x) : l.flatMap f = l.flatMap g := by
  induction l with
  | nil => rfl
  | cons x l ih =>
    rw [List.flatMap_cons, List.flatMap_cons, h x List.mem_cons_self, ih (fun y hy => h y (List.mem_cons_of_mem _ hy))]

theorem codeRels_rebase {t : SymTree} {te te' : Addr} (hte : te' = if m.tls then te + m.dist else te) (l : List Step)
    (hl : ∀ x ∈ l, ∀ op ∈ x.insn.ops, OperandAnchored env m t te x.insn op) :
    codeRels (rebaseEnv m.dist env) te' (l.map (moveStep env m.dist)) = (codeRels env te l).map (rebaseRelArgs m) := by
  unfold codeRels
  rw [List.map_flatMap, List.flatMap_map]
  refine flatMap_same fun x hx => ?_
  rw [List.map_flatMap]
  show ((moveInsn env m.dist x.insn).ops).flatMap _ = _
  show (x.insn.ops.map (moveOp (env.kind x.insn.id) m.dist)).flatMap _ = _
  rw [List.flatMap_map]
  exact flatMap_same fun op hop => (operandRels_rebase hte (hl x hx op hop)).1

/-! ### Parts of a relocation -/

theorem goodRef_tls {a : Addr} (ha : GoodRef m.tls m.dist a) : TLS.is_tls (rebaseRef m.tls m.dist a) = TLS.is_tls a := by
  rcases ha with h | h
  · rw [h.ref, h.is_tls]
  · rw [rebaseRef_fixed h]

theorem find_ref {t : SymTree} (ht : ∀ s ∈ t, LowT m.tls m.dist s.address) {a : Addr} (ha : GoodRef m.tls m.dist a) :
    Tree.find (t.map (rebaseSymbol m.tls m.dist)) (rebaseRef m.tls m.dist a) = (Tree.find t a).map (rebaseSymbol m.tls m.dist) := by
  rcases ha with h | h
  · rw [h.ref]
    exact find_shift (fun _ _ => rfl) _
  · rw [rebaseRef_fixed h]
    have hreg : ∀ s ∈ t, TLS.is_tls s.address = false := by
      intro s hs
      cases hc : TLS.is_tls s.address with
      | false => rfl
      | true => rw [h.1] at ht; exact absurd ((ht s hs).has_tls hc) (by decide)
    have e1 : Tree.find t a = none := Tree.find_eq_none_iff.mpr (fun s hs e => by
      have := hreg s hs
      have e' : s.address = a := e
      rw [e', h.2] at this
      cases this)
    have e2 : Tree.find (t.map (rebaseSymbol m.tls m.dist)) a = none := Tree.find_eq_none_iff.mpr (fun s hs e => by
      obtain ⟨s0, hs0, rfl⟩ := List.mem_map.mp hs
      have e' : s0.address + m.dist = a := e
      have h1 := (ht s0 hs0).is_tls
      rw [e', h.2, hreg s0 hs0] at h1
      cases h1)
    rw [e1, e2]; rfl

theorem targetSection_rebase (hr : Rebasable env fl m elf dbg) (hst : Ready env m elf dbg st) {a : Addr} (ha : Low m.dist a) :
    targetSection (rebaseState m elf.sections st) (a + m.dist) = targetSection st a := by
  unfold targetSection
  have e1 : Tree.find (rebaseState m elf.sections st).symbols (a + m.dist) = (Tree.find st.symbols a).map (rebaseSymbol m.tls m.dist) :=
    find_shift (fun _ _ => rfl) _
  have e2 : Tree.floor (rebaseState m elf.sections st).sections (a + m.dist) = (Tree.floor st.sections a).map (rebaseSec m elf.sections) :=
    floor_shift (hst.shifts hr) ha.noWrap
  rw [e1, e2]
  have e3 : ((Tree.find st.symbols a).map (rebaseSymbol m.tls m.dist)).bind (·.sec.name) = (Tree.find st.symbols a).bind (·.sec.name) := by
    cases Tree.find st.symbols a <;> rfl
  rw [e3]
  cases (Tree.find st.symbols a).bind (·.sec.name) with
  | some n => rfl
  | none =>
    show ((Tree.floor st.sections a).map (rebaseSec m elf.sections)).map (·.name) = (Tree.floor st.sections a).map (·.name)
    cases Tree.floor st.sections a <;> rfl

theorem gotName_rebase (secs : List ElfSec) (a : Addr) (name : Option String) :
    gotName (rebaseState m secs st) (a + m.dist) name = gotName st a name := by
  unfold gotName
  have e1 : Tree.find (rebaseState m secs st).relocations (a + m.dist) = (Tree.find st.relocations a).map (rebaseElfRel m.dist) :=
    find_shift (fun _ _ => rfl) _
  rw [e1]
  cases Tree.find st.relocations a with
  | none => rfl
  | some r =>
    show (match r.symbol.map (rebaseRelSym m.dist) with
      | none => name
      | some s => if s.shndx = SecIndex.undef then s.name else name) = (match r.symbol with
      | none => name
      | some s => if s.shndx = SecIndex.undef then s.name else name)
    cases r.symbol <;> rfl

theorem sectionParts_rebase (hr : Rebasable env fl m elf dbg) (hst : Ready env m elf dbg st) {a : Addr} (ha : Low m.dist a) (size : BitVec 8)
    (addend : BitVec 64) : sectionParts (rebaseState m elf.sections st) (a + m.dist) size addend = sectionParts st a size addend := by
  unfold sectionParts
  have e1 : Tree.find (rebaseState m elf.sections st).symbols (a + m.dist) = (Tree.find st.symbols a).map (rebaseSymbol m.tls m.dist) :=
    find_shift (fun _ _ => rfl) _
  have e3 : ((Tree.find st.symbols a).map (rebaseSymbol m.tls m.dist)).bind (·.name) = (Tree.find st.symbols a).bind (·.name) := by
    cases Tree.find st.symbols a <;> rfl
  rw [e1, e3, targetSection_rebase hr hst ha]
  simp only [gotName_rebase]

/-- Without addends that are addresses. -/
theorem sectionParts_type (st : AState) (a : Addr) (size : BitVec 8) (addend : BitVec 64) :
    ¬ RelativeType (sectionParts st a size addend).type := by
  unfold sectionParts
  dsimp only
  split
  · show ¬ RelativeType R_X86_64_PLT32
    decide
  · split
    · show ¬ RelativeType R_X86_64_GOTPCREL
      decide
    · show ¬ RelativeType R_X86_64_NONE
      decide

theorem pcType_type {type : Addr} (h : ¬ RelativeType type) (size : BitVec 8) : ¬ RelativeType (pcType type size) := by
  unfold pcType
  split
  · split
    · decide
    · split
      · decide
      · split
        · decide
        · split
          · decide
          · exact h
  · exact h

theorem relParts_rebase (hr : Rebasable env fl m elf dbg) (hst : Ready env m elf dbg st) {a : Addr} (ha : GoodRef m.tls m.dist a)
    (hf : TLS.is_tls a = false → (Tree.floor st.symbols a).isSome = true) (size : BitVec 8) (addend : BitVec 64) :
    relParts (rebaseState m elf.sections st) (rebaseRef m.tls m.dist a) size addend = relParts st a size addend ∧
      ¬ RelativeType (relParts st a size addend).type := by
  unfold relParts
  rw [goodRef_tls ha]
  by_cases ht : TLS.is_tls a = true
  · rw [if_pos ht, if_pos ht]
    have e : (Tree.find (rebaseState m elf.sections st).symbols (rebaseRef m.tls m.dist a)).bind (·.name) = (Tree.find st.symbols a).bind (·.name) := by
      rw [show (rebaseState m elf.sections st).symbols = st.symbols.map (rebaseSymbol m.tls m.dist) from rfl, find_ref hst.low ha]
      cases Tree.find st.symbols a <;> rfl
    rw [e]
    refine ⟨rfl, ?_⟩
    dsimp only
    split
    · decide
    · split <;> decide
  · have ht' : TLS.is_tls a = false := by simpa using ht
    have hl : Low m.dist a := by
      rcases ha with h | h
      · exact h.low ht'
      · rw [h.2] at ht'; cases ht'
    rw [if_neg ht, if_neg ht, (hl.lowT (tls := m.tls)).ref]
    dsimp only
    rw [sectionParts_rebase hr hst hl]
    have htype := sectionParts_type st a size addend
    generalize sectionParts st a size addend = p at htype
    obtain ⟨y, hy⟩ := Option.isSome_iff_exists.mp (hf ht')
    have e1 : Tree.floor (rebaseState m elf.sections st).symbols (a + m.dist) = some (rebaseSymbol m.tls m.dist y) := by
      rw [show (rebaseState m elf.sections st).symbols = st.symbols.map (rebaseSymbol m.tls m.dist) from rfl,
        floor_shift (fun s hs => symbol_shifts (hst.low s hs)) hl.noWrap, hy]
      rfl
    have e2 : closestParts (rebaseState m elf.sections st) (a + m.dist) size p = closestParts st a size p := by
      unfold closestParts
      rw [e1, hy]
      dsimp only
      rw [show (rebaseSymbol m.tls m.dist y).address = y.address + m.dist from rfl, sub_shift]
      rfl
    have e3 : (closestParts st a size p).type = p.type := by
      unfold closestParts
      rw [hy]
      split <;> rfl
    rw [e2]
    refine ⟨rfl, pcType_type ?_ _⟩
    rw [e3]; exact htype

theorem access_rebase {s : Symbol} (hs : LowRange m.dist s.address s.size) {a : Addr} (ha : GoodRef m.tls m.dist a) (f x : BitVec 8) :
    accessFlags (rebaseSymbol m.tls m.dist s) (rebaseRef m.tls m.dist a) f x = accessFlags s a f x := by
  have key : (rebaseRef m.tls m.dist a ≥ s.address + m.dist ∧ rebaseRef m.tls m.dist a < s.address + m.dist + s.size) ↔
      (a ≥ s.address ∧ a < s.address + s.size) := by
    rw [add_swap]
    rcases ha with h | h
    · rw [h.ref, ge_iff_le, ge_iff_le, add_le_iff hs.low.noWrap h.noWrap, add_lt_iff h.noWrap hs.end_.noWrap]
    · rw [rebaseRef_fixed h]
      have hreg : ∀ b : Addr, b.toNat < 2 ^ 51 → a < b → False := by
        intro b hb hab
        have h1 := BitVec.lt_def.mp hab
        have h2 : Low 0 a := by unfold Low; rw [show BitVec.toNat (0 : Addr) = 0 from rfl]; omega
        have := h2.regular
        rw [h.2] at this
        cases this
      have h3 := hs.end_
      unfold Low at h3
      constructor
      · rintro ⟨_, h2⟩
        exact (hreg _ (by rw [add_toNat hs.end_.noWrap]; exact h3) h2).elim
      · rintro ⟨_, h2⟩
        exact (hreg _ (by omega) h2).elim
  unfold accessFlags
  rw [show (rebaseSymbol m.tls m.dist s).address = s.address + m.dist from rfl, show (rebaseSymbol m.tls m.dist s).size = s.size from rfl]
  simp only [key]

/-! ### New relocations -/

theorem GoodRelArgs.nonzero {t : SymTree} {a : RelArgs} (h : GoodRelArgs m t a) : a.target ≠ 0 := by
  rcases h.target with h | h
  · exact fun e => AddressedT.ne_zero h (by rw [e]; rfl)
  · intro e
    have := h.2
    rw [e] at this
    exact absurd this (by decide)

theorem newRel_rebase (hr : Rebasable env fl m elf dbg) (hst : Ready env m elf dbg st) {s : Symbol} (hs : LowRange m.dist s.address s.size)
    {a : RelArgs} (ha : GoodRelArgs m st.symbols a) :
    newRel (rebaseState m elf.sections st) (rebaseSymbol m.tls m.dist s) (rebaseRelArgs m a) = rebaseRel m.tls m.dist (newRel st s a) ∧
      GoodRel m.tls m.dist (newRel st s a) := by
  obtain ⟨h1, h2⟩ := relParts_rebase hr hst ha.ref ha.front a.size a.addend
  refine ⟨?_, ⟨ha.loc, Or.inr ha.target, fun h => absurd h h2⟩⟩
  unfold newRel rebaseRelArgs
  dsimp only
  rw [h1, access_rebase hs ha.ref]
  generalize relParts st a.target a.size a.addend = p at h2
  unfold rebaseRel
  simp only [if_neg h2, rebaseTarget_ref ha.nonzero, add_swap]

theorem find_rel {l : List Rel} (hl : ∀ r ∈ l, GoodRel m.tls m.dist r) {a : Addr} (ha : GoodRef m.tls m.dist a) :
    Tree.find (l.map (rebaseRel m.tls m.dist)) (rebaseRef m.tls m.dist a) = (Tree.find l a).map (rebaseRel m.tls m.dist) := by
  rcases ha with h | h
  · rw [h.ref]
    exact find_shift (fun _ _ => rfl) _
  · rw [rebaseRef_fixed h]
    have e1 : Tree.find l a = none := Tree.find_eq_none_iff.mpr (fun r hr e => by
      have := (hl r hr).offset.regular
      have e' : r.offset = a := e
      rw [e', h.2] at this
      cases this)
    have e2 : Tree.find (l.map (rebaseRel m.tls m.dist)) a = none := Tree.find_eq_none_iff.mpr (fun r hr e => by
      obtain ⟨r0, hr0, rfl⟩ := List.mem_map.mp hr
      have e' : r0.offset + m.dist = a := e
      have h1 := (hl r0 hr0).offset.regular_add
      rw [e', h.2] at h1
      cases h1)
    rw [e1, e2]; rfl

theorem createRelocation_rebase (hr : Rebasable env fl m elf dbg) (hst : Ready env m elf dbg st) {s : Symbol} (hg : GoodOut m.tls m.dist s)
    (hs : LowRange m.dist s.address s.size) {a : RelArgs} (ha : GoodRelArgs m st.symbols a) :
    createRelocation (rebaseState m elf.sections st) (rebaseSymbol m.tls m.dist s) (rebaseRelArgs m a) =
      rebaseSymbol m.tls m.dist (createRelocation st s a) ∧ GoodOut m.tls m.dist (createRelocation st s a) := by
  obtain ⟨h1, h2⟩ := newRel_rebase hr hst hs ha
  have hf := find_rel hg.rels ha.ref
  unfold createRelocation
  rw [h1]
  rw [show (rebaseSymbol m.tls m.dist s).rels = s.rels.map (rebaseRel m.tls m.dist) from rfl,
    show (rebaseRelArgs m a).target = rebaseRef m.tls m.dist a.target from rfl,
    show (rebaseRelArgs m a).flags = a.flags from rfl, show (rebaseRelArgs m a).access = a.access from rfl,
    show (rebaseRelArgs m a).offset = a.offset from rfl, hf, access_rebase hs ha.ref]
  cases hc : Tree.find s.rels a.target with
  | none =>
    dsimp only [Option.map_none]
    rw [insert_shift h2.shift (fun y hy => (hg.rels y hy).shift)]
    refine ⟨rfl, hg.address, hg.refs, fun q hq => ?_⟩
    rcases Tree.mem_insert.mp hq with hq | ⟨rfl, _⟩
    · exact hg.rels q hq
    · exact h2
  | some r0 =>
    dsimp only [Option.map_some]
    have hl : rebaseRef m.tls m.dist a.target = a.target + m.dist := by
      rcases ha.ref with h | h
      · exact h.ref
      · exfalso
        have h3 := Tree.find_mem hc
        have h4 := (hg.rels r0 h3.1).offset.regular
        have e : r0.offset = a.target := h3.2
        rw [e, h.2] at h4
        cases h4
    rw [hl, modify_shift (g := rebaseRel m.tls m.dist) (f := fun r => { r with
        instruction_access := r.instruction_access ||| accessFlags s a.target a.flags a.access
        instruction_offset := a.offset.setWidth 4 }) (fun _ _ => rfl) (fun _ _ _ => rfl)]
    refine ⟨rfl, hg.address, hg.refs, fun q hq => ?_⟩
    obtain ⟨y, hy, rfl⟩ := List.mem_map.mp hq
    have g := hg.rels y hy
    split
    · exact ⟨g.offset, g.target, g.relative⟩
    · exact g

theorem createAll_rebase (hr : Rebasable env fl m elf dbg) (hst : Ready env m elf dbg st) (l : List RelArgs)
    (hl : ∀ a ∈ l, GoodRelArgs m st.symbols a) {s : Symbol} (hg : GoodOut m.tls m.dist s) (hs : LowRange m.dist s.address s.size) :
    (l.map (rebaseRelArgs m)).foldl (createRelocation (rebaseState m elf.sections st)) (rebaseSymbol m.tls m.dist s) =
      rebaseSymbol m.tls m.dist (l.foldl (createRelocation st) s) ∧ GoodOut m.tls m.dist (l.foldl (createRelocation st) s) := by
  induction l generalizing s with
  | nil => exact ⟨rfl, hg⟩
  | cons a l ih =>
    obtain ⟨h1, h2⟩ := createRelocation_rebase hr hst hg hs (hl a List.mem_cons_self)
    have hf := createRelocation_form st s a
    rw [List.map_cons, List.foldl_cons, List.foldl_cons, h1]
    refine ih (fun b hb => hl b (List.mem_cons_of_mem _ hb)) h2 ?_
    rw [hf]; exact hs

end Bean

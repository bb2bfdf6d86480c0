import Verif.Spec.OffsetIds
import Verif.Lemmas.Reconstruct
import Verif.Lemmas.HashExternal
import Verif.Lemmas.Tls
/-
Lemmas on identifiers of positions.
-/
namespace Bean
open Tree Spec

/-! ### Sorted lists -/

theorem dropWhile_sorted {α : Type} [Keyed α] {t : List α} (h : Sorted t) (to : Addr) :
    t.dropWhile (fun x => decide (key x < to)) = t.filter (fun x => decide (to ≤ key x)) := by
  induction t with
  | nil => rfl
  | cons y t ih =>
    rw [List.dropWhile_cons]
    by_cases hy : key y < to
    · rw [if_pos (decide_eq_true hy), ih h.tail, List.filter_cons_of_neg]
      simpa using bv_not_le.mpr hy
    · rw [if_neg (by simpa using hy), List.filter_eq_self.mpr]
      intro x hx
      have hy' := bv_not_lt.mp hy
      rcases List.mem_cons.mp hx with rfl | hx
      · exact decide_eq_true hy'
      · have := h.head x hx
        exact decide_eq_true (by bv_omega)

theorem takeWhile_sorted {α : Type} [Keyed α] {t : List α} (h : Sorted t) (to : Addr) :
    t.takeWhile (fun x => decide (key x < to)) = t.filter (fun x => decide (key x < to)) := by
  induction t with
  | nil => rfl
  | cons y t ih =>
    rw [List.takeWhile_cons]
    by_cases hy : key y < to
    · rw [if_pos (decide_eq_true hy), ih h.tail, List.filter_cons_of_pos (by simpa using hy)]
    · rw [if_neg (by simpa using hy), eq_comm, List.filter_eq_nil_iff]
      intro x hx
      have hy' := bv_not_lt.mp hy
      rcases List.mem_cons.mp hx with rfl | hx
      · simpa using hy'
      · have := h.head x hx
        simp only [decide_eq_true_eq]
        bv_omega

theorem key_addr (a : Addr) : key a = a := rfl

theorem mem_relTargets {symbols : SymTree} {t : Addr} : t ∈ relTargets symbols ↔ Interesting symbols t := by
  unfold relTargets
  rw [mem_ofList_iff (fun x _ y _ h => h)]
  simp only [List.mem_flatMap, Interesting]
  constructor
  · rintro ⟨s, hs, r, hr, ht⟩
    refine ⟨s, hs, r, hr, ?_⟩
    unfold targetsOf at ht
    rcases List.mem_append.mp ht with h | h
    · split at h
      · rename_i h0
        exact Or.inr ⟨h0, List.mem_singleton.mp h⟩
      · cases h
    · exact Or.inl (List.mem_singleton.mp h)
  · rintro ⟨s, hs, r, hr, ht⟩
    refine ⟨s, hs, r, hr, ?_⟩
    unfold targetsOf
    rcases ht with rfl | ⟨h0, rfl⟩
    · exact List.mem_append.mpr (Or.inr (List.mem_singleton.mpr rfl))
    · rw [if_pos h0]
      exact List.mem_append.mpr (Or.inl (List.mem_singleton.mpr rfl))

/-! ### One instruction -/

theorem offsetOperand_eq (k : InsKind) (op : Operand) : offsetOperand (isBranch k) op = plainOperand k op := by
  cases op with
  | reg r => rfl
  | other => rfl
  | imm v a =>
    simp only [offsetOperand, plainOperand]
    by_cases h : Branching k
    · rw [if_pos h, if_pos ((isBranch_iff k).mpr h)]
    · rw [if_neg h, if_neg (fun h' => h ((isBranch_iff k).mp h'))]
  | mem s b i sc d a =>
    simp only [offsetOperand, plainOperand]
    by_cases h : b = X86_REG_RIP
    · rw [if_pos h, if_neg (fun h' => h' h)]
    · rw [if_neg h, if_pos h]

theorem offsetRel_ok {env : Env} {symbols : SymTree} {s : Symbol} (hw : s.address.toNat + s.size.toNat < 2 ^ 64) {r : Rel}
    {b : List (BitVec 8)} (h : offsetRel env symbols s r = .ok b) : b = relBytes env symbols s r := by
  have hin : (r.target ≥ s.address ∧ r.target < s.address + s.size) ↔
      (s.address.toNat ≤ r.target.toNat ∧ r.target.toNat < s.address.toNat + s.size.toNat) := by
    have : (s.address + s.size).toNat = s.address.toNat + s.size.toNat := by
      rw [BitVec.toNat_add, Nat.mod_eq_of_lt hw]
    rw [ge_iff_le, BitVec.le_def, BitVec.lt_def, this]
  unfold offsetRel at h
  unfold relBytes
  by_cases h0 : r.target = 0
  · rw [if_pos h0] at h ⊢
    exact (Except.ok.inj h).symm
  · rw [if_neg h0] at h ⊢
    by_cases h1 : r.target ≥ s.address ∧ r.target < s.address + s.size
    · rw [if_pos h1] at h
      rw [if_pos (hin.mp h1)]
      exact (Except.ok.inj h).symm
    · rw [if_neg h1] at h
      rw [if_neg (fun h' => h1 (hin.mpr h'))]
      cases hf : Tree.floor symbols r.target with
      | some y => rw [hf] at h; exact (Except.ok.inj h).symm
      | none =>
        rw [hf] at h
        exact (Except.ok.inj (massert_bind_ok h).2).symm

theorem mapM_ok {α β : Type} {f : α → M β} {g : α → β} (hg : ∀ x b, f x = .ok b → b = g x) {l : List α} {r : List β}
    (h : l.mapM f = .ok r) : r = l.map g := by
  induction l generalizing r with
  | nil => cases h; rfl
  | cons x l ih =>
    rw [List.mapM_cons] at h
    cases h1 : f x with
    | error e => rw [h1] at h; cases h
    | ok b =>
      rw [h1] at h
      cases h2 : l.mapM f with
      | error e =>
        change (l.mapM f >>= _) = _ at h
        rw [h2] at h; cases h
      | ok bs =>
        change (l.mapM f >>= _) = _ at h
        rw [h2] at h
        cases h
        rw [List.map_cons, hg x b h1, ih h2]

theorem find_insertAll (addr : Addr) (v : BitVec 64) (l : List Addr) (m : List (Addr × BitVec 64)) (t : Addr) :
    HMap.find (l.foldl (fun m t => HMap.insert m (t - addr) v) m) (t - addr) =
      (HMap.find m (t - addr)).or (if t ∈ l then some v else none) := by
  induction l generalizing m with
  | nil => simp
  | cons x l ih =>
    rw [List.foldl_cons, ih, HMap.find_insert]
    have hx : (t - addr = x - addr) ↔ t = x := by
      constructor
      · intro h
        have := congrArg (· + addr) h
        simpa using this
      · rintro rfl; rfl
    by_cases h : t = x
    · subst h
      rw [if_pos rfl, if_pos List.mem_cons_self]
      cases HMap.find m (t - addr) <;> simp
    · rw [if_neg (fun h' => h (hx.mp h'))]
      have : (t ∈ x :: l) ↔ t ∈ l := by simp [h]
      simp only [this, Option.or_none]

/-- The result of the loop over the instructions of a function. -/
structure OffsetsDone (env : Env) (symbols : SymTree) (s : Symbol) (prev : Addr) (steps : List Step) (l l' : OffLoop) :
    Prop where
  todo : ∀ t, t ∈ l'.todo ↔ t ∈ l.todo ∧ ¬ Before env steps t
  sublist : l'.todo.Sublist l.todo
  ids : ∀ t, HMap.find l'.ids (t - s.address) = (HMap.find l.ids (t - s.address)).or
    (if t ∈ l.todo ∧ Before env steps t then some (env.xxhash (l.hashed ++ codeUpTo env symbols s t prev steps)) else none)

theorem offsetInsns_ok {env : Env} {symbols : SymTree} {s : Symbol} (hw : s.address.toNat + s.size.toNat < 2 ^ 64)
    (hsr : Sorted s.rels) (steps : List Step) {prev : Addr} {l l' : OffLoop}
    (hm : (steps.map Step.address).Pairwise (· ≤ ·)) (hp : ∀ x ∈ steps, prev ≤ x.address)
    (hs : Sorted l.todo) (hr : l.rels = s.rels.filter (fun r => decide (prev ≤ r.offset)))
    (h : offsetInsns env symbols s steps l = .ok l') : OffsetsDone env symbols s prev steps l l' := by
  induction steps generalizing prev l with
  | nil =>
    cases h
    have hb : ∀ t, ¬ Before env [] t := fun t ⟨x, hx, _⟩ => by cases hx
    exact ⟨fun t => ⟨fun h => ⟨h, hb t⟩, And.left⟩, List.Sublist.refl _, fun t => by simp [hb]⟩
  | cons x steps ih =>
    have hm' : (steps.map Step.address).Pairwise (· ≤ ·) := (List.pairwise_cons.mp hm).2
    have hle : ∀ y ∈ steps, x.address ≤ y.address := fun y hy =>
      (List.pairwise_cons.mp hm).1 _ (List.mem_map.mpr ⟨y, hy, rfl⟩)
    unfold offsetInsns at h
    by_cases hn : env.kind x.insn.id = .nop
    · rw [if_pos hn] at h
      have hi := ih hm' (fun y hy => hp y (List.mem_cons_of_mem _ hy)) hs hr h
      have hb : ∀ t, Before env (x :: steps) t ↔ Before env steps t := by
        intro t
        constructor
        · rintro ⟨y, hy, h1, h2⟩
          rcases List.mem_cons.mp hy with rfl | hy
          · exact absurd hn h1
          · exact ⟨y, hy, h1, h2⟩
        · rintro ⟨y, hy, h1, h2⟩
          exact ⟨y, List.mem_cons_of_mem _ hy, h1, h2⟩
      refine ⟨fun t => by rw [hb]; exact hi.todo t, hi.sublist, fun t => ?_⟩
      rw [hi.ids t]
      simp only [hb, codeUpTo, if_pos hn]
    · rw [if_neg hn] at h
      cases h1 : offsetInsn env symbols s l x with
      | error e => rw [h1] at h; cases h
      | ok l1 =>
        rw [h1] at h
        change (if l1.todo.isEmpty = true then Except.ok l1 else offsetInsns env symbols s steps l1) = _ at h
        -- the instruction
        unfold offsetInsn at h1
        cases hmm : (l.rels.takeWhile (fun r => decide (r.offset < x.address))).mapM (offsetRel env symbols s) with
        | error e => simp only [hmm] at h1; cases h1
        | ok bytes =>
          simp only [hmm] at h1
          have hb := mapM_ok (fun r b => offsetRel_ok hw) hmm
          have hl1 := Except.ok.inj h1
          have hrs : Sorted l.rels := by rw [hr]; exact hsr.filter _
          have etake : l.rels.takeWhile (fun r => decide (r.offset < x.address)) =
              s.rels.filter (fun r => decide (prev ≤ r.offset ∧ r.offset < x.address)) := by
            have h2 := takeWhile_sorted hrs x.address
            change l.rels.takeWhile (fun r => decide (r.offset < x.address)) = _ at h2
            rw [h2, hr, List.filter_filter]
            refine List.filter_congr (fun r _ => ?_)
            show (decide (r.offset < x.address) && decide (prev ≤ r.offset)) = _
            rw [Bool.and_comm]
            simp
          have etodo : l1.todo = l.todo.filter (fun t => decide (x.address ≤ t)) := by
            rw [← hl1]; exact dropWhile_sorted hs x.address
          have erels : l1.rels = s.rels.filter (fun r => decide (x.address ≤ r.offset)) := by
            rw [← hl1]
            have h2 := dropWhile_sorted hrs x.address
            change l.rels.dropWhile (fun r => decide (r.offset < x.address)) = _ at h2
            refine h2.trans ?_
            rw [hr, List.filter_filter]
            refine List.filter_congr (fun r _ => ?_)
            show (decide (x.address ≤ r.offset) && decide (prev ≤ r.offset)) = decide (x.address ≤ r.offset)
            by_cases h3 : x.address ≤ r.offset
            · have := hp x List.mem_cons_self
              have h4 : prev ≤ r.offset := by bv_omega
              simp [h3, h4]
            · simp [h3]
          have ehash : l1.hashed = l.hashed ++ positionBytes env symbols s prev x := by
            rw [← hl1]
            show l.hashed ++ (insnHead x.insn ++ x.insn.ops.flatMap (offsetOperand (isBranch (env.kind x.insn.id))) ++
              bytes.flatten) = _
            rw [hb, etake]
            unfold positionBytes insnHead leading
            rw [List.flatMap_def, List.flatMap_def (f := relBytes env symbols s)]
            have : (fun op => offsetOperand (isBranch (env.kind x.insn.id)) op) = plainOperand (env.kind x.insn.id) := by
              funext op; exact offsetOperand_eq _ op
            rw [show offsetOperand (isBranch (env.kind x.insn.id)) = plainOperand (env.kind x.insn.id) from this,
              ← List.flatMap_def]
          have eids : ∀ t, HMap.find l1.ids (t - s.address) = (HMap.find l.ids (t - s.address)).or
              (if t ∈ l.todo ∧ t < x.address then some (env.xxhash l.hashed) else none) := by
            intro t
            rw [← hl1]
            have h2 := find_insertAll s.address (env.xxhash l.hashed)
              (l.todo.takeWhile (fun t => decide (t < x.address))) l.ids t
            have h3 := takeWhile_sorted hs x.address
            change l.todo.takeWhile (fun t => decide (t < x.address)) = _ at h3
            refine h2.trans ?_
            rw [h3]
            simp only [List.mem_filter, key_addr, decide_eq_true_eq]
          have hsub1 : l1.todo.Sublist l.todo := by rw [etodo]; exact List.filter_sublist
          have hmem1 : ∀ t, t ∈ l1.todo ↔ t ∈ l.todo ∧ ¬ t < x.address := by
            intro t
            rw [etodo, List.mem_filter, decide_eq_true_eq, bv_not_lt]
          have hbef : ∀ t, Before env (x :: steps) t ↔ t < x.address ∨ Before env steps t := by
            intro t
            constructor
            · rintro ⟨y, hy, h1, h2⟩
              rcases List.mem_cons.mp hy with rfl | hy
              · exact Or.inl h2
              · exact Or.inr ⟨y, hy, h1, h2⟩
            · rintro (h1 | ⟨y, hy, h1, h2⟩)
              · exact ⟨x, List.mem_cons_self, hn, h1⟩
              · exact ⟨y, List.mem_cons_of_mem _ hy, h1, h2⟩
          have hcode : ∀ t, codeUpTo env symbols s t prev (x :: steps) =
              if t < x.address then [] else positionBytes env symbols s prev x ++ codeUpTo env symbols s t x.address steps := by
            intro t
            simp only [codeUpTo, if_neg hn]
          -- both cases of the end of the loop
          have hdone : OffsetsDone env symbols s x.address steps l1 l' := by
            by_cases he : l1.todo.isEmpty = true
            · rw [if_pos he] at h
              have e := Except.ok.inj h
              have hnil : l1.todo = [] := List.isEmpty_iff.mp he
              rw [← e]
              exact ⟨fun t => by simp [hnil], List.Sublist.refl _, fun t => by simp [hnil]⟩
            · rw [if_neg he] at h
              exact ih hm' hle (hs.sublist hsub1) erels h
          refine ⟨fun t => ?_, hdone.sublist.trans hsub1, fun t => ?_⟩
          · rw [hdone.todo, hmem1, hbef]
            constructor
            · rintro ⟨⟨h1, h2⟩, h3⟩
              exact ⟨h1, fun h4 => h4.elim h2 h3⟩
            · rintro ⟨h1, h2⟩
              exact ⟨⟨h1, fun h4 => h2 (Or.inl h4)⟩, fun h4 => h2 (Or.inr h4)⟩
          · rw [hdone.ids, eids, hcode, Option.or_assoc]
            congr 1
            rw [ehash]
            by_cases h1 : t ∈ l.todo
            · by_cases h2 : t < x.address
              · have c1 : t ∈ l.todo ∧ t < x.address := ⟨h1, h2⟩
                have c2 : t ∈ l.todo ∧ Before env (x :: steps) t := ⟨h1, (hbef t).mpr (Or.inl h2)⟩
                rw [if_pos c1, if_pos c2, if_pos h2, List.append_nil]
                simp
              · have h3 : t ∈ l1.todo := (hmem1 t).mpr ⟨h1, h2⟩
                have c1 : ¬ (t ∈ l.todo ∧ t < x.address) := fun h => h2 h.2
                rw [if_neg c1, if_neg h2, Option.none_or]
                by_cases h4 : Before env steps t
                · have c2 : t ∈ l1.todo ∧ Before env steps t := ⟨h3, h4⟩
                  have c3 : t ∈ l.todo ∧ Before env (x :: steps) t := ⟨h1, (hbef t).mpr (Or.inr h4)⟩
                  rw [if_pos c2, if_pos c3, List.append_assoc]
                · have c2 : ¬ (t ∈ l1.todo ∧ Before env steps t) := fun h => h4 h.2
                  have c3 : ¬ (t ∈ l.todo ∧ Before env (x :: steps) t) := fun h => ((hbef t).mp h.2).elim h2 h4
                  rw [if_neg c2, if_neg c3]
            · have h3 : t ∉ l1.todo := fun h => h1 ((hmem1 t).mp h).1
              have c1 : ¬ (t ∈ l.todo ∧ t < x.address) := fun h => h1 h.1
              have c2 : ¬ (t ∈ l1.todo ∧ Before env steps t) := fun h => h3 h.1
              have c3 : ¬ (t ∈ l.todo ∧ Before env (x :: steps) t) := fun h => h1 h.1
              rw [if_neg c1, if_neg c2, if_neg c3]
              rfl

/-! ### One iteration -/

/-- A symbol with other identifiers of positions. -/
def setIds (f : Addr → List (Addr × BitVec 64)) (s : Symbol) : Symbol := { s with offset_ids := f s.address }

theorem relBytes_setIds (env : Env) (symbols : SymTree) (f : Addr → List (Addr × BitVec 64)) (s : Symbol) (r : Rel) :
    relBytes env (symbols.map (setIds f)) (setIds f s) r = relBytes env symbols s r := by
  unfold relBytes
  rw [floor_map (f := setIds f) (fun _ => rfl)]
  cases Tree.floor symbols r.target <;> rfl

theorem codeUpTo_setIds (env : Env) (symbols : SymTree) (f : Addr → List (Addr × BitVec 64)) (s : Symbol) (t : Addr)
    (steps : List Step) (prev : Addr) :
    codeUpTo env (symbols.map (setIds f)) (setIds f s) t prev steps = codeUpTo env symbols s t prev steps := by
  have h : relBytes env (symbols.map (setIds f)) (setIds f s) = relBytes env symbols s := by
    funext r; exact relBytes_setIds env symbols f s r
  induction steps generalizing prev with
  | nil => rfl
  | cons x steps ih =>
    simp only [codeUpTo, ih, positionBytes, h]
    rfl

/-- The identifiers of one symbol replaced. -/
def updIds (f : Addr → List (Addr × BitVec 64)) (a : Addr) (ids : List (Addr × BitVec 64)) :
    Addr → List (Addr × BitVec 64) := fun x => if x = a then ids else f x

theorem modify_setIds (symbols : SymTree) (f : Addr → List (Addr × BitVec 64)) (a : Addr) (ids : List (Addr × BitVec 64)) :
    Tree.modify (symbols.map (setIds f)) a (fun y => { y with offset_ids := ids }) = symbols.map (setIds (updIds f a ids)) := by
  unfold Tree.modify
  rw [List.map_map]
  refine List.map_congr_left (fun s _ => ?_)
  show (if (setIds f s).address = a then _ else _) = _
  unfold setIds updIds
  by_cases h : s.address = a
  · rw [if_pos h, if_pos h]
  · rw [if_neg h, if_neg h]

theorem offsetInsns_sublist {env : Env} {symbols : SymTree} {s : Symbol} (steps : List Step) {l l' : OffLoop}
    (h : offsetInsns env symbols s steps l = .ok l') : l'.todo.Sublist l.todo := by
  induction steps generalizing l with
  | nil => cases h; exact List.Sublist.refl _
  | cons x steps ih =>
    unfold offsetInsns at h
    by_cases hn : env.kind x.insn.id = .nop
    · rw [if_pos hn] at h
      exact ih h
    · rw [if_neg hn] at h
      cases h1 : offsetInsn env symbols s l x with
      | error e => rw [h1] at h; cases h
      | ok l1 =>
        rw [h1] at h
        have hsub : l1.todo.Sublist l.todo := by
          unfold offsetInsn at h1
          cases hmm : (l.rels.takeWhile (fun r => decide (r.offset < x.address))).mapM (offsetRel env symbols s) with
          | error e => simp only [hmm] at h1; cases h1
          | ok bytes =>
            simp only [hmm] at h1
            rw [← Except.ok.inj h1]
            exact List.dropWhile_sublist _
        change (if l1.todo.isEmpty = true then Except.ok l1 else offsetInsns env symbols s steps l1) = _ at h
        by_cases he : l1.todo.isEmpty = true
        · rw [if_pos he] at h
          rw [← Except.ok.inj h]
          exact hsub
        · rw [if_neg he] at h
          exact (ih h).trans hsub

theorem disasm_ends {env : Env} (n : Nat) (a : Addr) (bytes : List (BitVec 8)) (h : a.toNat + bytes.length < 2 ^ 64) :
    ((disasmN env n a bytes).map Step.address).Pairwise (· ≤ ·) := by
  induction n generalizing a bytes with
  | zero => exact List.Pairwise.nil
  | succ n ih =>
    unfold disasmN
    cases hd : env.decode a bytes with
    | none => exact List.Pairwise.nil
    | some i =>
      by_cases hc : 0 < i.size ∧ i.size ≤ bytes.length
      · simp only [if_pos hc, List.map_cons]
        have ha : (a + BitVec.ofNat 64 i.size).toNat = a.toNat + i.size := by
          rw [BitVec.toNat_add, BitVec.toNat_ofNat, Nat.mod_eq_of_lt (a := i.size) (by omega), Nat.mod_eq_of_lt (by omega)]
        have hlen : (a + BitVec.ofNat 64 i.size).toNat + (bytes.drop i.size).length < 2 ^ 64 := by
          rw [ha, List.length_drop]; omega
        refine List.pairwise_cons.mpr ⟨fun b hb => ?_, ih _ _ hlen⟩
        obtain ⟨x, hx, rfl⟩ := List.mem_map.mp hb
        have := (disasmN_address n _ _ hlen x hx).1
        rw [BitVec.le_def]
        omega
      · simp only [if_neg hc]
        exact List.Pairwise.nil

/-- What is known about the instructions of a function. -/
structure CodeAt (env : Env) (st : AState) (s : Symbol) (steps : List Step) : Prop where
  code : ∃ sec bytes, Tree.floor st.sections s.address = some sec ∧
    readBytes sec.data (s.address - sec.virt_addr) s.size = .ok bytes ∧ steps = disasm env s.address bytes

theorem codeAt_of {env : Env} {st : AState} {s : Symbol} {steps : List Step} (hc : CodeOf env st s steps)
    (ht : TLS.is_tls s.address = false) : CodeAt env st s steps := by
  unfold CodeOf at hc
  rw [TLS.virt_of_regular ht] at hc
  exact ⟨hc⟩

theorem CodeAt.ends {env : Env} {st : AState} {s : Symbol} {steps : List Step} (hc : CodeAt env st s steps)
    (hw : s.address.toNat + s.size.toNat < 2 ^ 64) :
    (steps.map Step.address).Pairwise (· ≤ ·) ∧
    ∀ x ∈ steps, s.address.toNat < x.address.toNat ∧ x.address.toNat ≤ s.address.toNat + s.size.toNat := by
  obtain ⟨sec, bytes, _, h1, rfl⟩ := hc.code
  have hl := readBytes_length h1
  have hw' : s.address.toNat + bytes.length < 2 ^ 64 := by rw [hl]; exact hw
  refine ⟨disasm_ends _ _ _ hw', fun x hx => ?_⟩
  rw [← hl]
  exact disasmN_address _ _ _ hw' x hx

theorem offsetSymbol_ok {env : Env} {st : AState} {f : Addr → List (Addr × BitVec 64)} {s : Symbol}
    (hw : s.address.toNat + s.size.toNat < 2 ^ 64) (hsr : Sorted s.rels) {todo : List Addr} (hs : Sorted todo) {l : OffLoop}
    (h : offsetSymbol env st (st.symbols.map (setIds f)) (setIds f s) todo = .ok l) :
    ∃ steps, CodeAt env st s steps ∧
      (∀ t, t ∈ l.todo ↔ t ∈ todo ∧ ¬ Before env steps t) ∧
      ∀ t, HMap.find l.ids (t - s.address) = (HMap.find (f s.address) (t - s.address)).or
        (if t ∈ todo ∧ Before env steps t then some (env.xxhash (codeUpTo env st.symbols s t 0 steps)) else none) := by
  unfold offsetSymbol at h
  cases hm : mderef env.build (Tree.floor st.sections (setIds f s).address) with
  | error e => rw [hm] at h; cases h
  | ok sec =>
    rw [hm] at h
    have hf : Tree.floor st.sections s.address = some sec := mderef_ok hm
    cases hb : readBytes sec.data (s.address - sec.virt_addr) s.size with
    | error e =>
      change (readBytes sec.data (s.address - sec.virt_addr) s.size >>= _) = _ at h
      rw [hb] at h; cases h
    | ok bytes =>
      change (readBytes sec.data (s.address - sec.virt_addr) s.size >>= _) = _ at h
      rw [hb] at h
      have hc : CodeAt env st s (disasm env s.address bytes) := ⟨sec, bytes, hf, hb, rfl⟩
      refine ⟨_, hc, ?_⟩
      have hd := offsetInsns_ok (s := setIds f s) hw hsr (disasm env s.address bytes) (prev := 0) (hc.ends hw).1
        (fun x _ => by bv_omega) (l := { todo := todo, ids := f s.address, rels := s.rels }) hs
        (by
          refine (List.filter_eq_self.mpr (fun r _ => ?_)).symm
          exact decide_eq_true (by bv_omega)) h
      refine ⟨hd.todo, fun t => ?_⟩
      have := hd.ids t
      rw [codeUpTo_setIds] at this
      exact this

/-- The cases of one iteration. -/
inductive BodyAs (env : Env) (st : AState) (f : Addr → List (Addr × BitVec 64)) (t : Addr) (rest : List Addr) :
    (Addr → List (Addr × BitVec 64)) → List Addr → Prop
  | none : Tree.floor st.symbols t = none → BodyAs env st f t rest f rest
  | skip (s : Symbol) : Tree.floor st.symbols t = some s → t = s.address → BodyAs env st f t rest f rest
  | dataStart (s : Symbol) (n : Addr) (later : List Addr) : Tree.floor st.symbols t = some s → t = s.address →
      s.sec.executable = false → rest = n :: later → n < s.address + s.size → BodyAs env st f t rest f later
  | data (s : Symbol) : Tree.floor st.symbols t = some s → t ≠ s.address → s.sec.executable = false →
      BodyAs env st f t rest f rest
  | code (s : Symbol) (todo : List Addr) (l : OffLoop) : Tree.floor st.symbols t = some s → s.sec.executable = true →
      ((t = s.address ∧ todo = rest) ∨ (t ≠ s.address ∧ todo = t :: rest)) → todo ≠ [] →
      offsetSymbol env st (st.symbols.map (setIds f)) (setIds f s) todo = .ok l →
      l.todo.Sublist todo → BodyAs env st f t rest (updIds f s.address l.ids) l.todo.tail

theorem offsetBody_ok {env : Env} {st : AState} {f : Addr → List (Addr × BitVec 64)} {t : Addr} {rest : List Addr}
    {r : SymTree × List Addr} (h : offsetBody env st (st.symbols.map (setIds f)) t rest = .ok r) :
    ∃ f', r.1 = st.symbols.map (setIds f') ∧ BodyAs env st f t rest f' r.2 := by
  unfold offsetBody at h
  rw [floor_map (f := setIds f) (fun _ => rfl)] at h
  cases hf : Tree.floor st.symbols t with
  | none =>
    rw [hf] at h
    cases h
    exact ⟨f, rfl, .none hf⟩
  | some s =>
    rw [hf] at h
    simp only [Option.map_some] at h
    have main : ∀ (todo : List Addr), ((t = s.address ∧ todo = rest) ∨ (t ≠ s.address ∧ todo = t :: rest)) →
        (match todo with
          | [] => (.ok (st.symbols.map (setIds f), []) : M (SymTree × List Addr))
          | n :: later =>
            if t = (setIds f s).address ∧ n ≥ (setIds f s).address + (setIds f s).size then
              .ok (st.symbols.map (setIds f), n :: later)
            else if !(setIds f s).sec.executable then .ok (st.symbols.map (setIds f), later)
            else do
              let l ← offsetSymbol env st (st.symbols.map (setIds f)) (setIds f s) (n :: later)
              return (Tree.modify (st.symbols.map (setIds f)) (setIds f s).address
                (fun y => { y with offset_ids := l.ids }), l.todo.tail)) = .ok r →
        ∃ f', r.1 = st.symbols.map (setIds f') ∧ BodyAs env st f t rest f' r.2 := by
      intro todo ht h
      cases todo with
      | nil =>
        cases h
        rcases ht with ⟨h1, h2⟩ | ⟨_, h2⟩
        · refine ⟨f, rfl, ?_⟩
          have := BodyAs.skip (env := env) (f := f) (rest := rest) s hf h1
          rw [← h2] at this ⊢
          exact this
        · cases h2
      | cons n later =>
        simp only at h
        by_cases hc : t = (setIds f s).address ∧ n ≥ (setIds f s).address + (setIds f s).size
        · rw [if_pos hc] at h
          cases h
          refine ⟨f, rfl, ?_⟩
          rcases ht with ⟨h1, h2⟩ | ⟨h1, _⟩
          · rw [h2]; exact .skip s hf h1
          · exact absurd hc.1 h1
        · rw [if_neg hc] at h
          cases hx : s.sec.executable with
          | false =>
            have hx' : (!(setIds f s).sec.executable) = true := by show (!s.sec.executable) = true; rw [hx]; rfl
            rw [if_pos hx'] at h
            cases h
            refine ⟨f, rfl, ?_⟩
            rcases ht with ⟨h1, h2⟩ | ⟨h1, h2⟩
            · refine .dataStart s n later hf h1 hx h2.symm ?_
              exact bv_not_le.mp (fun h3 => hc ⟨h1, h3⟩)
            · cases h2
              exact .data s hf h1 hx
          | true =>
            have hx' : ¬ (!(setIds f s).sec.executable) = true := by show ¬ (!s.sec.executable) = true; rw [hx]; decide
            rw [if_neg hx'] at h
            cases hl : offsetSymbol env st (st.symbols.map (setIds f)) (setIds f s) (n :: later) with
            | error e => rw [hl] at h; cases h
            | ok l =>
              rw [hl] at h
              cases h
              refine ⟨updIds f s.address l.ids, modify_setIds _ _ _ _, ?_⟩
              refine .code s (n :: later) l hf hx ht (by simp) hl ?_
              unfold offsetSymbol at hl
              cases hm : mderef env.build (Tree.floor st.sections (setIds f s).address) with
              | error e => rw [hm] at hl; cases hl
              | ok sec =>
                rw [hm] at hl
                cases hb : readBytes sec.data (s.address - sec.virt_addr) s.size with
                | error e =>
                  change (readBytes sec.data (s.address - sec.virt_addr) s.size >>= _) = _ at hl
                  rw [hb] at hl; cases hl
                | ok bytes =>
                  change (readBytes sec.data (s.address - sec.virt_addr) s.size >>= _) = _ at hl
                  rw [hb] at hl
                  exact offsetInsns_sublist (disasm env s.address bytes) hl
    by_cases ht : t = s.address
    · exact main rest (Or.inl ⟨ht, rfl⟩) (by
        have : (if t = (setIds f s).address then rest else t :: rest) = rest := if_pos ht
        rw [this] at h
        exact h)
    · exact main (t :: rest) (Or.inr ⟨ht, rfl⟩) (by
        have : (if t = (setIds f s).address then rest else t :: rest) = t :: rest := if_neg ht
        rw [this] at h
        exact h)

theorem bodyAs_sublist {env : Env} {st : AState} {f f' : Addr → List (Addr × BitVec 64)} {t : Addr} {rest todo' : List Addr}
    (h : BodyAs env st f t rest f' todo') : todo'.Sublist rest ∧ todo'.length < (t :: rest).length := by
  have key : todo'.Sublist rest := by
    cases h with
    | none => exact List.Sublist.refl _
    | skip => exact List.Sublist.refl _
    | dataStart s n later _ _ _ h4 => rw [h4]; exact List.sublist_cons_self _ _
    | data => exact List.Sublist.refl _
    | code s todo l _ _ h3 _ _ h6 =>
      rcases h3 with ⟨_, rfl⟩ | ⟨_, rfl⟩
      · exact (List.tail_sublist _).trans h6
      · exact h6.tail
  exact ⟨key, by rw [List.length_cons]; have := key.length_le; omega⟩

/-- An invariant of the iterations holds at the end, without remaining targets. -/
theorem offsetLoop_inv {env : Env} {st : AState} (P : (Addr → List (Addr × BitVec 64)) → List Addr → Prop)
    (hP : ∀ f t rest f' todo', P f (t :: rest) → BodyAs env st f t rest f' todo' → P f' todo')
    (n : Nat) {f : Addr → List (Addr × BitVec 64)} {todo : List Addr} (hn : todo.length ≤ n) (h0 : P f todo)
    {symbols : SymTree} (h : offsetLoop env st n (st.symbols.map (setIds f)) todo = .ok symbols) :
    ∃ f', symbols = st.symbols.map (setIds f') ∧ P f' [] := by
  induction n generalizing f todo with
  | zero =>
    cases todo with
    | nil => cases h; exact ⟨f, rfl, h0⟩
    | cons t rest => simp at hn
  | succ n ih =>
    cases todo with
    | nil => cases h; exact ⟨f, rfl, h0⟩
    | cons t rest =>
      unfold offsetLoop at h
      cases hb : offsetBody env st (st.symbols.map (setIds f)) t rest with
      | error e => rw [hb] at h; cases h
      | ok r =>
        rw [hb] at h
        obtain ⟨f', h1, h2⟩ := offsetBody_ok hb
        change offsetLoop env st n r.1 r.2 = _ at h
        rw [h1] at h
        have := (bodyAs_sublist h2).2
        rw [List.length_cons] at this hn
        exact ih (by omega) (hP f t rest f' r.2 h0 h2) h

theorem functionOffsets_inv {env : Env} {st st' : AState} (hnew : ∀ s ∈ st.symbols, s.offset_ids = [])
    (P : (Addr → List (Addr × BitVec 64)) → List Addr → Prop)
    (hP : ∀ f t rest f' todo', P f (t :: rest) → BodyAs env st f t rest f' todo' → P f' todo')
    (h0 : P (fun _ => []) (relTargets st.symbols)) (h : functionOffsets env st = .ok st') :
    ∃ f, st' = { st with symbols := st.symbols.map (setIds f) } ∧ P f [] := by
  unfold functionOffsets at h
  have hs : st.symbols = st.symbols.map (setIds (fun _ => [])) := by
    conv => lhs; rw [← List.map_id st.symbols]
    refine List.map_congr_left (fun s hs => ?_)
    have := hnew s hs
    cases s
    simp_all [setIds]
  cases hl : offsetLoop env st (relTargets st.symbols).length st.symbols (relTargets st.symbols) with
  | error e => simp only [hl] at h; cases h
  | ok symbols =>
    simp only [hl] at h
    cases h
    have hl' : offsetLoop env st (relTargets st.symbols).length (st.symbols.map (setIds (fun _ => []))) (relTargets st.symbols) =
        .ok symbols := by rw [← hs]; exact hl
    obtain ⟨f, h1, h2⟩ := offsetLoop_inv P hP _ (Nat.le_refl _) h0 hl'
    exact ⟨f, by rw [h1], h2⟩

end Bean

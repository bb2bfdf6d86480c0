import Verif.Lemmas.Run
import Verif.Lemmas.RebaseGather
/-
What the search for functions keeps, with names of imported functions.
-/
namespace Bean
open Tree Spec Props

theorem mderef_some {α : Type} {b : Build} {o : Option α} {x : α} (h : mderef b o = .ok x) : o = some x := by
  cases o with
  | none => cases b <;> cases h
  | some y => cases h; rfl

/-- Later instructions are behind earlier ones. -/
theorem disasmN_order {env : Env} (hp : ∀ a bytes i, env.decode a bytes = some i → i.address = a) (n : Nat) (a : Addr) (bytes : List (BitVec 8))
    (h : a.toNat + bytes.length < 2 ^ 64) : ∀ pre x post, disasmN env n a bytes = pre ++ x :: post → ∀ y ∈ pre ++ [x],
      y.insn.address.toNat ≤ x.insn.address.toNat := by
  induction n generalizing a bytes with
  | zero =>
    intro pre x post he
    cases pre <;> cases he
  | succ n ih =>
    intro pre x post he y hy
    cases pre with
    | nil => rw [List.mem_singleton.mp hy]; exact Nat.le_refl _
    | cons z pre =>
      have hxm : x ∈ disasmN env (n + 1) a bytes := by rw [he]; simp
      have hlow := (disasmN_place hp (n + 1) a bytes h x hxm).1
      unfold disasmN at he
      cases hd : env.decode a bytes with
      | none => rw [hd] at he; cases he
      | some i =>
        rw [hd] at he
        simp only at he
        by_cases hc : 0 < i.size ∧ i.size ≤ bytes.length
        · rw [if_pos hc] at he
          have hi : (a + BitVec.ofNat 64 i.size).toNat = a.toNat + i.size := by
            rw [BitVec.toNat_add, BitVec.toNat_ofNat]
            omega
          have he' := List.cons.inj he
          rcases List.mem_cons.mp hy with rfl | hy
          · rw [← he'.1]
            simp only
            rw [hp a bytes i hd]
            exact hlow
          · exact ih (a + BitVec.ofNat 64 i.size) (bytes.drop i.size) (by rw [List.length_drop]; omega) pre x post he'.2 y hy
        · rw [if_neg hc] at he; cases he

/-- The jump `x` in a named PLT section belongs to code that starts at `start`. -/
structure SlotAt (env : Env) (fl : AnalyzeFlags) (st : AState) (sec : ElfSec) (pre : List Step) (x : Step) (post : List Step)
    (start : Addr) : Prop where
  code : SectionCode env st sec (pre ++ x :: post)
  named : namesPlt fl sec = true
  jump : .jump ∈ x.insn.groups
  start : start = sec.virt_addr ∨ ∃ y ∈ pre ++ [x], start = y.insn.address

/-- A name of a relocation. -/
def RelName (st : AState) (n : Option String) : Prop := ∃ rel ∈ st.relocations, ∃ sym, rel.symbol = some sym ∧ n = sym.name

/-- The arguments for a new symbol with a name. -/
def slotArgs (sec : ElfSec) (start after : Addr) (n : Option String) : InsertArgs :=
  { plainArgs sec start with size := TLS.trans_addr (after - start) sec.tls, name := n }

/-- Operations of the search for functions in the sections `S`. -/
structure SearchKeeps (env : Env) (fl : AnalyzeFlags) (st : AState) (S : ElfSec → Prop) (A : InsertArgs → Prop) (I : SymTree → Prop) : Prop where
  start : ∀ sec ∈ st.sections, S sec → A (plainArgs sec (TLS.trans_addr sec.virt_addr sec.tls))
  insn : ∀ sec steps, S sec → SectionCode env st sec steps → ∀ x ∈ steps, A (plainArgs sec (TLS.trans_addr x.insn.address sec.tls) .func)
  call : ∀ k sec, Tree.floor st.sections k = some sec → sec.executable = true → A (plainArgs sec (TLS.trans_addr k sec.tls) .func)
  insert : ∀ t t' a, A a → insertSymbol env.build t a = .ok t' → I t → I t'
  rename : ∀ t sec pre x post start n, S sec → SlotAt env fl st sec pre x post start → RelName st n → I t →
    I (Tree.modify t start (fun s => { s with name := n }))
  emplace : ∀ t sec pre x post start sec' n, S sec → SlotAt env fl st sec pre x post start → Tree.floor st.sections start = some sec' →
    RelName st n → I t → I (Tree.insert t (newSymbol (slotArgs sec' start x.address n))).1

theorem insertStart_keeps {env : Env} {fl : AnalyzeFlags} {st : AState} {S : ElfSec → Prop} {A : InsertArgs → Prop} {I : SymTree → Prop}
    (hk : SearchKeeps env fl st S A I) {sec : ElfSec} {a : Addr} (ha : A (plainArgs sec (TLS.trans_addr a sec.tls) .func))
    {f f1 : FindState} (h : insertStart env.build sec a f = .ok f1) (hi : I f.symbols) : I f1.symbols ∧ f1.start = a := by
  unfold insertStart at h
  replace h := (massert_bind_ok h).2
  cases hs : insertSymbol env.build f.symbols (plainArgs sec (TLS.trans_addr a sec.tls) .func) with
  | error e => rw [hs] at h; cases h
  | ok t' =>
    rw [hs] at h
    cases h
    exact ⟨hk.insert _ _ _ ha hs hi, rfl⟩

theorem findStart_keeps {env : Env} {fl : AnalyzeFlags} {st : AState} {S : ElfSec → Prop} {A : InsertArgs → Prop} {I : SymTree → Prop}
    (hk : SearchKeeps env fl st S A I) {sec : ElfSec} {i : Insn} (ha : A (plainArgs sec (TLS.trans_addr i.address sec.tls) .func))
    {f f1 : FindState} (h : findStart env sec i f = .ok f1) (hi : I f.symbols) :
    I f1.symbols ∧ (f1.start = f.start ∨ f1.start = i.address) := by
  unfold findStart at h
  split at h
  · cases h; exact ⟨hi, Or.inl rfl⟩
  · cases h; exact ⟨hi, Or.inl rfl⟩
  · split at h
    · cases hs : insertStart env.build sec i.address f with
      | error e => rw [hs] at h; cases h
      | ok f2 =>
        rw [hs] at h
        have := insertStart_keeps hk ha hs hi
        cases h
        exact ⟨this.1, Or.inr this.2⟩
    · cases h; exact ⟨hi, Or.inr rfl⟩
  · split at h
    · cases hs : insertStart env.build sec i.address f with
      | error e => rw [hs] at h; cases h
      | ok f2 =>
        rw [hs] at h
        have := insertStart_keeps hk ha hs hi
        cases h
        exact ⟨this.1, Or.inr this.2⟩
    · cases h; exact ⟨hi, Or.inl rfl⟩

theorem findGroup_keeps {env : Env} {fl : AnalyzeFlags} {st : AState} {S : ElfSec → Prop} {A : InsertArgs → Prop} {I : SymTree → Prop}
    (hk : SearchKeeps env fl st S A I) {sec : ElfSec} {pre : List Step} {x : Step} {post : List Step}
    (hS : S sec) (hc : SectionCode env st sec (pre ++ x :: post)) {g : InsGroup} (hg : g ∈ x.insn.groups) {f f' : FindState}
    (hst : f.start = sec.virt_addr ∨ ∃ y ∈ pre ++ [x], f.start = y.insn.address)
    (h : findGroup env.build st (namesPlt fl sec) x.insn x.address f g = .ok f') (hi : I f.symbols) :
    I f'.symbols ∧ f'.start = f.start := by
  cases g with
  | ret => cases h; exact ⟨hi, rfl⟩
  | iret => cases h; exact ⟨hi, rfl⟩
  | other => cases h; exact ⟨hi, rfl⟩
  | call =>
    change findCall env.build st x.insn f = .ok f' at h
    unfold findCall at h
    cases hd : directTarget x.insn with
    | error e => rw [hd] at h; cases h
    | ok o =>
      rw [hd] at h
      cases o with
      | none => cases h; exact ⟨hi, rfl⟩
      | some target =>
        simp only [bind, Except.bind] at h
        cases hf : Tree.floor st.sections target with
        | none => rw [hf] at h; cases h; exact ⟨hi, rfl⟩
        | some sec' =>
          simp only [hf] at h
          split at h
          · rename_i hx
            cases hs : insertSymbol env.build f.symbols (plainArgs sec' (TLS.trans_addr target sec'.tls) .func) with
            | error e => rw [hs] at h; cases h
            | ok t' =>
              rw [hs] at h
              cases h
              exact ⟨hk.insert _ _ _ (hk.call target sec' hf hx) hs hi, rfl⟩
          · cases h; exact ⟨hi, rfl⟩
  | jump =>
    change findJump env.build st (namesPlt fl sec) x.insn x.address f = .ok f' at h
    unfold findJump at h
    split at h
    · rename_i hplt
      unfold nameImport at h
      replace h := (massert_bind_ok h).2
      split at h
      · rename_i sg base ix sc disp ac rest heq
        replace h := (massert_bind_ok h).2
        cases hm : mderef env.build (Tree.find st.relocations (x.insn.address + BitVec.ofNat 64 x.insn.size + disp)) with
        | error e => rw [hm] at h; cases h
        | ok rel =>
          rw [hm] at h
          have hrel : rel ∈ st.relocations := (find_mem (mderef_some hm)).1
          cases hr : rel.symbol with
          | none => simp only [bind, Except.bind, hr] at h; cases h; exact ⟨hi, rfl⟩
          | some sym =>
            simp only [bind, Except.bind, hr] at h
            have hn : RelName st sym.name := ⟨rel, hrel, sym, hr, rfl⟩
            cases hf : Tree.find f.symbols f.start with
            | some y =>
              simp only [hf] at h
              cases h
              exact ⟨hk.rename _ sec pre x post f.start sym.name hS ⟨hc, hplt, hg, hst⟩ hn hi, rfl⟩
            | none =>
              simp only [hf] at h
              cases hm2 : mderef env.build (Tree.floor st.sections f.start) with
              | error e => simp only [hm2] at h; cases h
              | ok sec' =>
                simp only [hm2] at h
                cases h
                exact ⟨hk.emplace _ sec pre x post f.start sec' sym.name hS ⟨hc, hplt, hg, hst⟩ (mderef_some hm2) hn hi, rfl⟩
      · replace h := (massert_bind_ok h).2
        cases h
    · cases hd : directTarget x.insn with
      | error e => rw [hd] at h; cases h
      | ok o =>
        rw [hd] at h
        cases o with
        | none => cases h; exact ⟨hi, rfl⟩
        | some t =>
          have h' : (if t > f.max_branch then { f with max_branch := t } else f) = f' := Except.ok.inj h
          subst h'
          split <;> exact ⟨hi, rfl⟩

theorem findSection_keeps {env : Env} {fl : AnalyzeFlags} {st : AState} {S : ElfSec → Prop} {A : InsertArgs → Prop} {I : SymTree → Prop}
    (hk : SearchKeeps env fl st S A I) {sec : ElfSec} (hsec : sec ∈ st.sections) (hS : S sec) {t1 t2 : SymTree}
    (h : findSection env fl st t1 sec = .ok t2) (hi : I t1) : I t2 := by
  unfold findSection at h
  cases hs : insertSymbol env.build t1 (plainArgs sec (TLS.trans_addr sec.virt_addr sec.tls)) with
  | error e => rw [hs] at h; cases h
  | ok t3 =>
    rw [hs] at h
    have h1 : I t3 := hk.insert _ _ _ (hk.start sec hsec hS) hs hi
    change (if sec.executable = true then _ else _) = _ at h
    split at h
    · rename_i hex
      cases hb : readBytes sec.data 0 sec.size with
      | error e => rw [hb] at h; cases h
      | ok bytes =>
        rw [hb] at h
        cases hf : (disasm env sec.virt_addr bytes).foldlM (findInsn env st sec (namesPlt fl sec))
            { symbols := t3, start := sec.virt_addr, max_branch := sec.virt_addr } with
        | error e => simp only [bind, Except.bind, hf] at h; cases h
        | ok f =>
          simp only [bind, Except.bind, hf] at h
          cases h
          have hc : SectionCode env st sec (disasm env sec.virt_addr bytes) := ⟨hsec, hex, bytes, hb, rfl⟩
          refine (foldlM_prefix (fun pre (f : FindState) => I f.symbols ∧
            (f.start = sec.virt_addr ∨ ∃ y ∈ pre, f.start = y.insn.address)) ⟨h1, Or.inl rfl⟩ ?_ hf).1
          intro pre x post f1 f2 he hp h
          rw [he] at hc
          have wider : (f1.start = sec.virt_addr ∨ ∃ y ∈ pre ++ [x], f1.start = y.insn.address) :=
            hp.2.imp id (fun ⟨y, h1, h2⟩ => ⟨y, List.mem_append_left _ h1, h2⟩)
          unfold findInsn at h
          split at h
          · cases h; exact ⟨hp.1, wider⟩
          · cases hs : findStart env sec x.insn f1 with
            | error e => rw [hs] at h; cases h
            | ok f3 =>
              rw [hs] at h
              obtain ⟨g1, g2⟩ := findStart_keeps hk (hk.insn sec _ hS hc x (by simp)) hs hp.1
              have g3 : (f3.start = sec.virt_addr ∨ ∃ y ∈ pre ++ [x], f3.start = y.insn.address) := by
                rcases g2 with g2 | g2
                · rw [g2]; exact wider
                · exact Or.inr ⟨x, by simp, g2⟩
              exact foldlM_rel (fun f f' : FindState => I f.symbols ∧
                (f.start = sec.virt_addr ∨ ∃ y ∈ pre ++ [x], f.start = y.insn.address) → I f'.symbols ∧
                (f'.start = sec.virt_addr ∨ ∃ y ∈ pre ++ [x], f'.start = y.insn.address)) (fun _ h => h)
                (fun _ _ _ h1 h2 h => h2 (h1 h)) (fun g hg f1 f2 h hp => by
                  obtain ⟨e1, e2⟩ := findGroup_keeps hk hS hc hg hp.2 h hp.1
                  rw [e2]
                  exact ⟨e1, hp.2⟩) h ⟨g1, g3⟩
    · cases h; exact h1

theorem findFunctions_keeps {env : Env} {fl : AnalyzeFlags} {st st' : AState} {A : InsertArgs → Prop} {I : SymTree → Prop}
    (hk : SearchKeeps env fl st (fun _ => True) A I) (h : findFunctions env fl st = .ok st') (hi : I st.symbols) : I st'.symbols := by
  unfold findFunctions at h
  cases hf : st.sections.foldlM (findSection env fl st) st.symbols with
  | error e => rw [hf] at h; cases h
  | ok t =>
    rw [hf] at h
    cases h
    exact foldlM_rel (fun t t' : SymTree => I t → I t') (fun _ h => h) (fun _ _ _ h1 h2 h => h2 (h1 h))
      (fun sec hsec t1 t2 h hi => findSection_keeps hk hsec trivial h hi) hf hi

end Bean

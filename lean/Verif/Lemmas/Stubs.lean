import Verif.Spec.Stubs
import Verif.Lemmas.FindKeeps
/-
Names of entries for imported functions (C111).
-/
namespace Bean
open Tree Spec Props

/-- The symbols at the addresses have the names. -/
def Labelled (l : List (Addr × Option String)) (t : SymTree) : Prop :=
  Sorted t ∧ ∀ e ∈ l, ∃ s, Tree.find t e.1 = some s ∧ s.name = e.2

theorem labelled_insert {b : Build} {l : List (Addr × Option String)} {t t' : SymTree} {a : InsertArgs} (ha : a.name = none)
    (h : insertSymbol b t a = .ok t') (hl : Labelled l t) : Labelled l t' := by
  obtain ⟨h1, h2, h3⟩ := insertSymbol_spec hl.1 h
  refine ⟨h1, fun e he => ?_⟩
  obtain ⟨s, hs, hn⟩ := hl.2 e he
  by_cases hk : e.1 = a.address
  · rw [hk] at hs ⊢
    rw [hs] at h2
    refine ⟨_, h2, ?_⟩
    unfold stepAt
    simp only
    split
    · exact hn
    · split
      · unfold mergeSymbol takesName
        simp only [ha, Option.isSome_none, Bool.false_and]
        exact hn
      · exact hn
  · rw [h3 _ hk]
    exact ⟨s, hs, hn⟩

theorem labelled_rename {l : List (Addr × Option String)} {t : SymTree} {k : Addr} {n : Option String} (hk : ∀ e ∈ l, e.1 = k → e.2 = n)
    (hl : Labelled l t) : Labelled l (Tree.modify t k (fun s => { s with name := n })) := by
  refine ⟨sorted_modify hl.1 k _ (fun _ => rfl), fun e he => ?_⟩
  obtain ⟨s, hs, hn⟩ := hl.2 e he
  by_cases hc : e.1 = k
  · rw [hc] at hs ⊢
    exact ⟨_, find_modify_self (f := fun s => { s with name := n }) hl.1 (fun _ => rfl) hs, (hk e he hc).symm⟩
  · rw [find_modify_ne (f := fun s => { s with name := n }) (fun _ => rfl) hc]
    exact ⟨s, hs, hn⟩

theorem labelled_emplace {l : List (Addr × Option String)} {t : SymTree} {y : Symbol} (hl : Labelled l t) :
    Labelled l (Tree.insert t y).1 := by
  refine ⟨sorted_insert hl.1 y, fun e he => ?_⟩
  obtain ⟨s, hs, hn⟩ := hl.2 e he
  obtain ⟨h1, h2⟩ := find_mem hs
  exact ⟨s, (find_eq_some_iff (sorted_insert hl.1 y)).mpr ⟨(mem_insert' hl.1).mpr (Or.inl h1), h2⟩, hn⟩

/-- A jump gives the entry its name. -/
theorem nameImport_labels {b : Build} {st : AState} {i : Insn} {after : Addr} {f f' : FindState} {l : List (Addr × Option String)}
    {sg ix : Reg} {sc : BitVec 32} {disp : Addr} {ac : BitVec 8} {rel : ElfRel} {sym : ElfSym} (ho : i.ops = [.mem sg X86_REG_RIP ix sc disp ac])
    (hr : Tree.find st.relocations (i.address + BitVec.ofNat 64 i.size + disp) = some rel) (hs : rel.symbol = some sym)
    (h : nameImport b st i after f = .ok f') (hk : ∀ e ∈ l, e.1 = f.start → e.2 = sym.name) (hl : Labelled l f.symbols) :
    f'.start = f.start ∧ Labelled ((f.start, sym.name) :: l) f'.symbols := by
  unfold nameImport at h
  replace h := (massert_bind_ok h).2
  rw [ho] at h
  simp only at h
  replace h := (massert_bind_ok h).2
  rw [hr] at h
  change (match rel.symbol with | none => _ | some sym => _) = _ at h
  rw [hs] at h
  simp only at h
  cases hf : Tree.find f.symbols f.start with
  | some y =>
    rw [hf] at h
    cases h
    have := labelled_rename hk hl
    refine ⟨rfl, this.1, fun e he => ?_⟩
    rcases List.mem_cons.mp he with rfl | he
    · exact ⟨_, find_modify_self (f := fun s => { s with name := sym.name }) hl.1 (fun _ => rfl) hf, rfl⟩
    · exact this.2 e he
  | none =>
    rw [hf] at h
    simp only at h
    cases hm : mderef b (Tree.floor st.sections f.start) with
    | error e => rw [hm] at h; cases h
    | ok sec' =>
      rw [hm] at h
      cases h
      have := labelled_emplace (y := newSymbol (slotArgs sec' f.start after sym.name)) hl
      refine ⟨rfl, this.1, fun e he => ?_⟩
      rcases List.mem_cons.mp he with rfl | he
      · exact ⟨_, find_insert_self (x := newSymbol (slotArgs sec' f.start after sym.name)) hl.1 hf, rfl⟩
      · exact this.2 e he

theorem groups_label {b : Build} {st : AState} {i : Insn} {after : Addr} {gs : List InsGroup} {f f' : FindState} {l : List (Addr × Option String)}
    {sg ix : Reg} {sc : BitVec 32} {disp : Addr} {ac : BitVec 8} {rel : ElfRel} {sym : ElfSym} (ho : i.ops = [.mem sg X86_REG_RIP ix sc disp ac])
    (hr : Tree.find st.relocations (i.address + BitVec.ofNat 64 i.size + disp) = some rel) (hs : rel.symbol = some sym)
    (hg : ∀ g ∈ gs, g = .jump ∨ g = .other) (hj : .jump ∈ gs)
    (h : gs.foldlM (findGroup b st true i after) f = .ok f') (hk : ∀ e ∈ l, e.1 ≠ f.start) (hl : Labelled l f.symbols) :
    Labelled ((f.start, sym.name) :: l) f'.symbols := by
  refine (foldlM_prefix (fun pre (g : FindState) => g.start = f.start ∧ Labelled l g.symbols ∧
    (.jump ∈ pre → Labelled ((f.start, sym.name) :: l) g.symbols)) ⟨rfl, hl, fun h => by cases h⟩ ?_ h).2.2 hj
  intro pre x post a a' he ⟨h1, h2, h3⟩ h
  rcases hg x (by rw [he]; simp) with rfl | rfl
  · change findJump b st true i after a = .ok a' at h
    unfold findJump at h
    rw [if_pos rfl] at h
    obtain ⟨e1, e2⟩ := nameImport_labels ho hr hs h (fun e he hc => absurd (hc.trans h1) (hk e he)) h2
    rw [h1] at e1 e2
    exact ⟨e1, ⟨e2.1, fun e he => e2.2 e (List.mem_cons_of_mem _ he)⟩, fun _ => e2⟩
  · cases h
    refine ⟨h1, h2, fun hm => h3 ?_⟩
    simpa using hm

theorem groups_other {b : Build} {st : AState} {plt : Bool} {i : Insn} {after : Addr} {gs : List InsGroup} {f f' : FindState}
    (hg : ∀ g ∈ gs, g = .other) (h : gs.foldlM (findGroup b st plt i after) f = .ok f') : f' = f := by
  refine foldlM_rel (fun a b : FindState => b = a) (fun _ => rfl) (fun _ _ _ h1 h2 => h2.trans h1) ?_ h
  intro g hm a a' h
  rw [hg g hm] at h
  exact (Except.ok.inj h).symm

theorem pads_skip {env : Env} {st : AState} {sec : ElfSec} {plt : Bool} {l rest : List Step} (hp : ∀ p ∈ l, env.kind p.insn.id = .nop)
    (f : FindState) : (l ++ rest).foldlM (findInsn env st sec plt) f = rest.foldlM (findInsn env st sec plt) f := by
  induction l with
  | nil => rfl
  | cons p l ih =>
    rw [List.cons_append, List.foldlM_cons]
    have : findInsn env st sec plt f p = .ok f := by
      unfold findInsn
      rw [if_pos (hp p List.mem_cons_self)]
    rw [this]
    exact ih (fun q hq => hp q (List.mem_cons_of_mem _ hq))

theorem findInsn_bind {env : Env} {st : AState} {sec : ElfSec} {plt : Bool} {f f' : FindState} {x : Step} (hk : env.kind x.insn.id ≠ .nop)
    (h : findInsn env st sec plt f x = .ok f') :
    ∃ f1, findStart env sec x.insn f = .ok f1 ∧ x.insn.groups.foldlM (findGroup env.build st plt x.insn x.address) f1 = .ok f' := by
  unfold findInsn at h
  rw [if_neg hk] at h
  cases hs : findStart env sec x.insn f with
  | error e => rw [hs] at h; cases h
  | ok f1 => rw [hs] at h; exact ⟨f1, rfl, h⟩

/-- The marker at the begin of an entry. -/
theorem marker_start {env : Env} {sec : ElfSec} {i : Insn} {f f' : FindState} {l : List (Addr × Option String)}
    (hk : env.kind i.id = .endbr) (h : findStart env sec i f = .ok f') (hl : Labelled l f.symbols) :
    f'.start = i.address ∧ Labelled l f'.symbols := by
  unfold findStart at h
  rw [hk] at h
  simp only at h
  split at h
  · cases hs : insertStart env.build sec i.address f with
    | error e => rw [hs] at h; cases h
    | ok f2 =>
      rw [hs] at h
      unfold insertStart at hs
      replace hs := (massert_bind_ok hs).2
      cases ht : insertSymbol env.build f.symbols (plainArgs sec (TLS.trans_addr i.address sec.tls) .func) with
      | error e => rw [ht] at hs; cases hs
      | ok t' =>
        rw [ht] at hs
        cases hs
        cases h
        exact ⟨rfl, labelled_insert rfl ht hl⟩
  · cases h
    exact ⟨rfl, hl⟩

theorem stubs_label {env : Env} {st : AState} {sec : ElfSec} {rels : List ElfRel} (hrel : st.relocations = Tree.ofList rels)
    {steps : List Step} {l : List (Addr × Option String)} (hs : Stubs env rels steps l) :
    ∀ (f f' : FindState) (before : List (Addr × Option String)), steps.foldlM (findInsn env st sec true) f = .ok f' →
      Labelled before f.symbols → (∀ e ∈ before, ∀ x ∈ steps, e.1 ≠ x.insn.address) →
      steps.Pairwise (fun x y => x.insn.address ≠ y.insn.address) → Labelled (l ++ before) f'.symbols := by
  induction hs with
  | nil =>
    intro f f' before h hl _ _
    cases h
    exact hl
  | pad x rest l hk _ ih =>
    intro f f' before h hl hb hp
    have := pads_skip (env := env) (st := st) (sec := sec) (plt := true) (l := [x]) (rest := rest)
      (fun p hp => by rw [List.mem_singleton.mp hp]; exact hk) f
    rw [List.singleton_append] at this
    rw [this] at h
    exact ih f f' before h hl (fun e he y hy => hb e he y (List.mem_cons_of_mem _ hy)) (List.pairwise_cons.mp hp).2
  | stub e pads j rest l sg ix sc disp ac rel sym h1 h2 h3 h4 h5 h6 h7 h8 h9 h10 h11 _ ih =>
    intro f f' before h hl hb hp
    rw [List.foldlM_cons] at h
    cases he : findInsn env st sec true f e with
    | error x => rw [he] at h; cases h
    | ok f1 =>
      rw [he] at h
      change (pads ++ j :: rest).foldlM (findInsn env st sec true) f1 = _ at h
      rw [pads_skip h3, List.foldlM_cons] at h
      obtain ⟨f2, k1, k2⟩ := findInsn_bind (by rw [h1]; decide) he
      obtain ⟨m1, m2⟩ := marker_start h1 k1 hl
      rw [← groups_other h2 k2] at m1 m2
      cases hj : findInsn env st sec true f1 j with
      | error x => rw [hj] at h; cases h
      | ok f3 =>
        rw [hj] at h
        change rest.foldlM (findInsn env st sec true) f3 = _ at h
        obtain ⟨f4, n1, n2⟩ := findInsn_bind (by rw [h4]; decide) hj
        unfold findStart at n1
        rw [h4] at n1
        cases n1
        have hfind : Tree.find st.relocations (j.insn.address + BitVec.ofNat 64 j.insn.size + disp) = some rel := by
          rw [hrel]
          refine (find_eq_some_iff (sorted_ofList _)).mpr ⟨?_, h9⟩
          obtain ⟨y, y1, y2⟩ := ofList_key h8
          rw [← h10 y (mem_ofList y1) y2]
          exact y1
        have hlab := groups_label h7 hfind h11 h6 h5 n2 (l := before)
          (fun x hx => by rw [show ({ f1 with ret := true } : FindState).start = f1.start from rfl, m1]; exact hb x hx e List.mem_cons_self) m2
        rw [show ({ f1 with ret := true } : FindState).start = f1.start from rfl, m1] at hlab
        obtain ⟨p1, p2⟩ := List.pairwise_cons.mp hp
        have p3 := (List.pairwise_append.mp p2).2.1
        have := ih f3 f' ((e.insn.address, sym.name) :: before) h hlab (fun x hx y hy => by
          rcases List.mem_cons.mp hx with rfl | hx
          · exact p1 y (by simp [hy])
          · exact hb x hx y (by simp [hy])) (List.pairwise_cons.mp p3).2
        refine ⟨this.1, fun x hx => this.2 x ?_⟩
        simp only [List.cons_append, List.mem_cons, List.mem_append] at hx ⊢
        rcases hx with hx | hx | hx
        · exact Or.inr (Or.inl hx)
        · exact Or.inl hx
        · exact Or.inr (Or.inr hx)

theorem disasmN_distinct {env : Env} (hp : ∀ a bytes i, env.decode a bytes = some i → i.address = a) (n : Nat) (a : Addr) (bytes : List (BitVec 8))
    (h : a.toNat + bytes.length < 2 ^ 64) : (disasmN env n a bytes).Pairwise (fun x y => x.insn.address ≠ y.insn.address) := by
  induction n generalizing a bytes with
  | zero => exact List.Pairwise.nil
  | succ n ih =>
    unfold disasmN
    cases hd : env.decode a bytes with
    | none => exact List.Pairwise.nil
    | some i =>
      simp only
      by_cases hc : 0 < i.size ∧ i.size ≤ bytes.length
      · rw [if_pos hc]
        have hi : (a + BitVec.ofNat 64 i.size).toNat = a.toNat + i.size := by
          rw [BitVec.toNat_add, BitVec.toNat_ofNat]
          omega
        have hlen : (a + BitVec.ofNat 64 i.size).toNat + (bytes.drop i.size).length < 2 ^ 64 := by rw [List.length_drop]; omega
        refine List.Pairwise.cons (fun y hy e => ?_) (ih _ _ hlen)
        have := (disasmN_place hp n _ _ hlen y hy).1
        simp only at e
        rw [hp a bytes i hd] at e
        rw [← e] at this
        omega
      · rw [if_neg hc]; exact List.Pairwise.nil

/-- All entries have their names behind the search in their section. -/
theorem findSection_labels {env : Env} {fl : AnalyzeFlags} {st : AState} {sec : ElfSec} {rels : List ElfRel}
    (hp : ∀ a bytes i, env.decode a bytes = some i → i.address = a) (hrel : st.relocations = Tree.ofList rels)
    (hx : sec.executable = true) (hn : namesPlt fl sec = true) (hr : sec.virt_addr.toNat + sec.size.toNat < 2 ^ 64)
    {l : List (Addr × Option String)} (hs : Stubs env rels (disasm env sec.virt_addr (sec.data.take sec.size.toNat)) l)
    {t t' : SymTree} (ht : Sorted t) (h : findSection env fl st t sec = .ok t') : Labelled l t' := by
  unfold findSection at h
  cases h1 : insertSymbol env.build t (plainArgs sec (TLS.trans_addr sec.virt_addr sec.tls)) with
  | error e => rw [h1] at h; cases h
  | ok t1 =>
    rw [h1] at h
    have h2 : Sorted t1 := (insertSymbol_spec ht h1).1
    change (if sec.executable = true then _ else _) = _ at h
    rw [if_pos hx] at h
    cases hb : readBytes sec.data 0 sec.size with
    | error e => rw [hb] at h; cases h
    | ok bytes =>
      rw [hb] at h
      have hlen := readBytes_length hb
      have hbytes : bytes = sec.data.take sec.size.toNat := by
        unfold readBytes at hb
        split at hb
        · cases hb; rfl
        · cases hb
      subst hbytes
      cases hf : (disasm env sec.virt_addr (sec.data.take sec.size.toNat)).foldlM (findInsn env st sec (namesPlt fl sec))
          { symbols := t1, start := sec.virt_addr, max_branch := sec.virt_addr } with
      | error e => simp only [bind, Except.bind, hf] at h; cases h
      | ok f =>
        simp only [bind, Except.bind, hf] at h
        cases h
        rw [hn] at hf
        have := stubs_label hrel hs _ _ [] hf ⟨h2, fun _ h => by cases h⟩ (fun _ h => by cases h)
          (disasmN_distinct hp _ _ _ (by rw [hlen]; exact hr))
        rwa [List.append_nil] at this

/-- The search in all sections. -/
theorem findFunctions_labels {env : Env} {fl : AnalyzeFlags} {st st' : AState} {sec : ElfSec} {rels : List ElfRel}
    (hp : ∀ a bytes i, env.decode a bytes = some i → i.address = a) (hrel : st.relocations = Tree.ofList rels)
    (hsec : sec ∈ st.sections) (hsort : Sorted st.sections) (hx : sec.executable = true) (hn : namesPlt fl sec = true)
    (hr : ∀ sec' ∈ st.sections, sec'.executable = true → sec'.virt_addr.toNat + sec'.size.toNat < 2 ^ 64)
    {l : List (Addr × Option String)} (hs : Stubs env rels (disasm env sec.virt_addr (sec.data.take sec.size.toNat)) l)
    (ho : ∀ sec' ∈ st.sections, sec' ≠ sec → sec'.executable = true → namesPlt fl sec' = true → ∀ e ∈ l,
      e.1.toNat < sec'.virt_addr.toNat ∨ sec'.virt_addr.toNat + sec'.size.toNat ≤ e.1.toNat)
    (ht : Sorted st.symbols) (h : findFunctions env fl st = .ok st') : Labelled l st'.symbols := by
  unfold findFunctions at h
  cases hf : st.sections.foldlM (findSection env fl st) st.symbols with
  | error e => rw [hf] at h; cases h
  | ok t =>
    rw [hf] at h
    cases h
    obtain ⟨pre, post, hsplit⟩ := List.append_of_mem hsec
    have hfold := hf
    rw [hsplit, List.foldlM_append] at hfold
    cases h1 : pre.foldlM (findSection env fl st) st.symbols with
    | error e => rw [h1] at hfold; cases hfold
    | ok t1 =>
      rw [h1] at hfold
      change (sec :: post).foldlM (findSection env fl st) t1 = .ok t at hfold
      rw [List.foldlM_cons] at hfold
      cases h2 : findSection env fl st t1 sec with
      | error e => rw [h2] at hfold; cases hfold
      | ok t2 =>
        rw [h2] at hfold
        change post.foldlM (findSection env fl st) t2 = .ok t at hfold
        have sorted1 : Sorted t1 := by
          refine foldlM_rel (fun t t' : SymTree => Sorted t → Sorted t') (fun _ h => h) (fun _ _ _ h1 h2 h => h2 (h1 h)) ?_ h1 ht
          intro sec' hm a a' h hi
          refine findSection_keeps (S := fun _ => True) (A := fun _ => True) (I := Sorted) ⟨fun _ _ _ => trivial, fun _ _ _ _ _ _ => trivial,
            fun _ _ _ _ => trivial, fun _ _ _ _ h hs => (insertSymbol_spec hs h).1, fun _ _ _ _ _ _ _ _ _ _ hs => sorted_modify hs _ _ (fun _ => rfl),
            fun _ _ _ _ _ _ _ _ _ _ _ _ hs => sorted_insert hs _⟩ (by rw [hsplit]; exact List.mem_append_left _ hm) trivial h hi
        have hlab := findSection_labels hp hrel hx hn (hr sec hsec hx) hs sorted1 h2
        have hkeep : SearchKeeps env fl st (fun sec' => sec' ≠ sec) (fun a => a.name = none) (Labelled l) := by
          refine ⟨fun _ _ _ => rfl, fun _ _ _ _ _ _ => rfl, fun _ _ _ _ => rfl, fun _ _ _ ha h hl => labelled_insert ha h hl, ?_,
            fun _ _ _ _ _ _ _ _ _ _ _ _ hl => labelled_emplace hl⟩
          intro t sec' pre x post start n hne hsl _ hl
          refine labelled_rename (fun e he hc => ?_) hl
          obtain ⟨hm, hx', bytes, hb, hsteps⟩ := hsl.code
          have hlen := readBytes_length hb
          have hr' := hr sec' hm hx'
          have hd := ho sec' hm hne hx' hsl.named e he
          rcases hsl.start with hst | ⟨y, hy, hst⟩
          · rw [hc, hst] at hd
            have hpl := disasmN_place hp _ sec'.virt_addr bytes (by rw [hlen]; exact hr') x (by
              have : x ∈ disasm env sec'.virt_addr bytes := by rw [← hsteps]; simp
              exact this)
            rw [hlen] at hpl
            omega
          · have hpl := disasmN_place hp _ sec'.virt_addr bytes (by rw [hlen]; exact hr') y (by
              have : y ∈ disasm env sec'.virt_addr bytes := by
                rw [← hsteps]
                rcases List.mem_append.mp hy with hy | hy
                · exact List.mem_append_left _ hy
                · rw [List.mem_singleton.mp hy]; simp
              exact this)
            rw [hlen] at hpl
            rw [hc, hst] at hd
            omega
        refine foldlM_rel (fun t t' : SymTree => Labelled l t → Labelled l t') (fun _ h => h) (fun _ _ _ h1 h2 h => h2 (h1 h)) ?_ hfold hlab
        intro sec' hm a a' h hi
        have hne : sec' ≠ sec := by
          rintro rfl
          unfold Sorted at hsort
          rw [hsplit] at hsort
          have := (List.pairwise_cons.mp (List.pairwise_append.mp hsort).2.1).1 sec' hm
          exact absurd this (by rw [BitVec.lt_def]; omega)
        exact findSection_keeps hkeep (by rw [hsplit]; exact List.mem_append_right _ (List.mem_cons_of_mem _ hm)) hne h hi

end Bean

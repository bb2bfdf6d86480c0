import Verif.Spec.Clear
import Verif.Lemmas.Tree
/-
The steps of the analysis on symbols whose relocations are cleared (C47).
-/
namespace Bean
open Bean.Spec

section
variable {α β : Type} [Keyed α] [Keyed β] {g : α → β} (hg : ∀ x, key (g x) = key x)
include hg

theorem Tree.insert_map (t : List α) (x : α) : Tree.insert (t.map g) (g x) = ((Tree.insert t x).1.map g, (Tree.insert t x).2) := by
  induction t with
  | nil => rfl
  | cons y ys ih =>
    simp only [List.map_cons, Tree.insert, hg]
    split
    · rfl
    · split
      · rfl
      · rw [ih]; rfl

theorem Tree.find_map (t : List α) (k : Addr) : Tree.find (t.map g) k = (Tree.find t k).map g := by
  unfold Tree.find
  rw [List.find?_map]
  simp only [Function.comp_def, hg]

theorem Tree.ceil_map (t : List α) (k : Addr) : Tree.ceil (t.map g) k = (Tree.ceil t k).map g := by
  unfold Tree.ceil
  rw [List.find?_map]
  simp only [Function.comp_def, hg]

theorem Tree.floor_map (t : List α) (k : Addr) : Tree.floor (t.map g) k = (Tree.floor t k).map g := by
  unfold Tree.floor
  rw [List.filter_map, List.getLast?_map]
  simp only [Function.comp_def, hg]

theorem Tree.erase_map (t : List α) (k : Addr) : Tree.erase (t.map g) k = (Tree.erase t k).map g := by
  unfold Tree.erase
  rw [List.filter_map]
  simp only [Function.comp_def, hg]

theorem Tree.modify_map (t : List α) (k : Addr) {f : α → α} {f' : β → β} (hf : ∀ x, g (f x) = f' (g x)) :
    Tree.modify (t.map g) k f' = (Tree.modify t k f).map g := by
  unfold Tree.modify
  rw [List.map_map, List.map_map]
  refine List.map_congr_left fun x _ => ?_
  simp only [Function.comp_def, hg]
  split
  · exact (hf x).symm
  · rfl

theorem Tree.ofList_map (l : List α) : Tree.ofList (l.map g) = (Tree.ofList l).map g := by
  unfold Tree.ofList
  have main : ∀ t : List α, (l.map g).foldl (fun t x => (Tree.insert t x).1) (t.map g) =
      (l.foldl (fun t x => (Tree.insert t x).1) t).map g := by
    induction l with
    | nil => exact fun t => rfl
    | cons x l ih =>
      intro t
      simp only [List.map_cons, List.foldl_cons, Tree.insert_map hg]
      exact ih _
  exact main []

theorem foldl_erase_map (ks : List Addr) (t : List α) : ks.foldl Tree.erase (t.map g) = (ks.foldl Tree.erase t).map g := by
  induction ks generalizing t with
  | nil => rfl
  | cons k ks ih => rw [List.foldl_cons, Tree.erase_map hg, ih]; rfl

end

theorem foldl_map_eq {α α' σ σ' : Type} {f : σ → α → σ} {f' : σ' → α' → σ'} (k : α → α') (g : σ → σ')
    (h : ∀ s a, g (f s a) = f' (g s) (k a)) (l : List α) (s : σ) : g (l.foldl f s) = (l.map k).foldl f' (g s) := by
  induction l generalizing s with
  | nil => rfl
  | cons a l ih => rw [List.map_cons, List.foldl_cons, List.foldl_cons, ih, h]

theorem foldlM_map_eq {α α' σ σ' : Type} {f : σ → α → M σ} {f' : σ' → α' → M σ'} (k : α → α') (g : σ → σ')
    (h : ∀ s a, (f s a).map g = f' (g s) (k a)) (l : List α) (s : σ) : (l.foldlM f s).map g = (l.map k).foldlM f' (g s) := by
  induction l generalizing s with
  | nil => rfl
  | cons a l ih =>
    rw [List.map_cons, List.foldlM_cons, List.foldlM_cons, ← h]
    cases f s a with
    | error e => rfl
    | ok s' => exact ih s'

theorem map_bind_eq {α β γ δ : Type} {m : M α} {f : α → M β} {g : β → γ} {k : α → δ} {m' : M δ} {f' : δ → M γ}
    (h : m.map k = m') (h' : ∀ a, (f a).map g = f' (k a)) : (m >>= f).map g = m' >>= f' := by
  subst h
  cases m with
  | error e => rfl
  | ok a => exact h' a

theorem map_bind_same {α β γ : Type} {m : M α} {f : α → M β} {g : β → γ} {f' : α → M γ}
    (h' : ∀ a, (f a).map g = f' a) : (m >>= f).map g = m >>= f' := by
  cases m with
  | error e => rfl
  | ok a => exact h' a

theorem ite_map {α β : Type} {p q : Prop} [Decidable p] [Decidable q] (g : α → β) {a b : α} {a' b' : β} (h : p ↔ q)
    (ha : g a = a') (hb : g b = b') : g (if p then a else b) = if q then a' else b' := by
  by_cases hp : p
  · rw [if_pos hp, if_pos (h.mp hp), ha]
  · rw [if_neg hp, if_neg (fun hq => hp (h.mpr hq)), hb]

/-- The environment with defined values. -/
def env0 (env : Env) : Env := { env with junk := fun _ _ => (0, 0) }

theorem disasm_env0 (env : Env) (a : Addr) (bytes : List (BitVec 8)) : disasm (env0 env) a bytes = disasm env a bytes := by
  unfold disasm
  generalize bytes.length = n
  induction n generalizing a bytes with
  | zero => rfl
  | succ n ih =>
    simp only [disasmN, ih]
    rfl

theorem execLoop_env0 (env : Env) (cx : SymCtx) (steps : List Step) (e : ExecState) :
    execLoop (env0 env) cx steps e = execLoop env cx steps e := by
  induction steps generalizing e with
  | nil => rfl
  | cons s l ih =>
    simp only [execLoop, ih]
    rfl

theorem clearRel_key (r : Rel) : key (clearRel r) = key r := by
  unfold clearRel; split <;> rfl

theorem clearSym_key (s : Symbol) : key (clearSym s) = key s := rfl

theorem clearRel_ext (r : Rel) : (clearRel r).offset = r.offset ∧ (clearRel r).type = r.type ∧ (clearRel r).name = r.name ∧
    (clearRel r).addend = r.addend ∧ (clearRel r).target = r.target ∧ (clearRel r).undefined = r.undefined := by
  unfold clearRel; split <;> exact ⟨rfl, rfl, rfl, rfl, rfl, rfl⟩

/-! Internal identifiers -/

theorem relOfElf_clear (env : Env) (a : Addr) (res : Bool) (got : Addr) (r : ElfRel) :
    clearRel (relOfElf env a res got r) = relOfElf (env0 env) a res got r := rfl

theorem addRel_clear (res : Bool) (sym : Symbol) (rel : Rel) :
    clearSym (addRel res sym rel) = addRel res (clearSym sym) (clearRel rel) := by
  unfold addRel clearSym
  simp only [Tree.insert_map clearRel_key, (clearRel_ext rel).2.2.2.2.1, (clearRel_ext rel).2.2.2.2.2]

theorem addRelative_clear (res : Bool) (sec : ElfSec) (sym : Symbol) (off : Addr) :
    (addRelative res sec sym off).map clearSym = addRelative res sec (clearSym sym) off := by
  unfold addRelative
  refine map_bind_same fun bytes => ?_
  exact congrArg Except.ok (addRel_clear res sym _)

theorem addRelocations_clear (env : Env) (fl : AnalyzeFlags) (st : AState) (sec : ElfSec) (a : Addr) (sym : Symbol) :
    (addRelocations env fl st sec a sym).map clearSym = addRelocations (env0 env) fl st sec a (clearSym sym) := by
  unfold addRelocations
  have h1 := foldl_map_eq (f := fun s r => addRel fl.resolve_internal s
      (relOfElf env sym.address fl.resolve_internal st.global_offset_table r))
    (f' := fun s r => addRel fl.resolve_internal s
      (relOfElf (env0 env) sym.address fl.resolve_internal st.global_offset_table r)) id clearSym
    (fun s r => by rw [addRel_clear, relOfElf_clear]; rfl)
    (treeRange st.relocations (TLS.virt_addr sym.address) (a + sym.size)) sym
  rw [List.map_id] at h1
  generalize hs : (treeRange st.relocations (TLS.virt_addr sym.address) (a + sym.size)).foldl
    (fun s r => addRel fl.resolve_internal s
      (relOfElf env sym.address fl.resolve_internal st.global_offset_table r)) sym = s at h1 ⊢
  have h3 := foldlM_map_eq (f := addRelative fl.resolve_internal sec) (f' := addRelative fl.resolve_internal sec) id clearSym
    (fun s r => addRelative_clear fl.resolve_internal sec s r)
    (treeRange st.relative_relocations s.address (a + s.size)) s
  rw [List.map_id] at h3
  exact h3.trans (congrArg (fun y : Symbol => (treeRange st.relative_relocations y.address (a + y.size)).foldlM
    (addRelative fl.resolve_internal sec) y) h1)

def clearHashed (h : Hashed) : Hashed := { h with sym := clearSym h.sym }

theorem fallThrough_clear (b : Build) (symbols : SymTree) (e : ExecState) (sym : Symbol) :
    (fallThrough b symbols e sym).map clearSym = fallThrough b symbols e (clearSym sym) := by
  unfold fallThrough
  split
  · rfl
  · exact map_bind_same fun n => rfl

theorem hashExec_clear (env : Env) (fl : AnalyzeFlags) (st : AState) (sec : ElfSec) (sym : Symbol) :
    (hashExec env fl st sec sym).map clearHashed = hashExec (env0 env) fl st sec (clearSym sym) := by
  unfold hashExec
  refine map_bind_same fun _ => ?_
  refine map_bind_eq (addRelocations_clear env fl st sec _ sym) fun s => ?_
  refine map_bind_same fun bytes => ?_
  simp only [disasm_env0, execLoop_env0]
  refine map_bind_eq (k := clearSym) (fallThrough_clear _ _ _ _) fun s => rfl

theorem dataStep_clear (env : Env) (address end_ : Addr) (bytes : List (BitVec 8)) (acc : List (BitVec 8) × Addr) (rel : Rel) :
    dataStep (env0 env) address end_ bytes acc (clearRel rel) = dataStep env address end_ bytes acc rel := by
  unfold dataStep
  simp only [(clearRel_ext rel).1, (clearRel_ext rel).2.1]
  rfl

theorem dataContent_clear (env : Env) (got address size : Addr) (rels : List Rel) (bytes : List (BitVec 8)) :
    dataContent (env0 env) got address size (rels.map clearRel) bytes = dataContent env got address size rels bytes := by
  unfold dataContent
  simp only [List.foldlM_map, dataStep_clear]

theorem hashData_clear (env : Env) (fl : AnalyzeFlags) (st : AState) (sec : ElfSec) (sym : Symbol) :
    (hashData env fl st sec sym).map clearHashed = hashData (env0 env) fl st sec (clearSym sym) := by
  unfold hashData
  refine map_bind_same fun seg => ?_
  refine map_bind_same fun _ => ?_
  refine ite_map (Except.map clearHashed) Iff.rfl rfl ?_
  · refine map_bind_eq (addRelocations_clear env fl st sec _ sym) fun s => ?_
    refine map_bind_same fun bytes => ?_
    have : (clearSym s).rels = s.rels.map clearRel := rfl
    simp only [this, dataContent_clear]
    exact map_bind_same fun c => rfl

theorem sizeSymbol_clear (env : Env) (sec : ElfSec) (last : Addr) (sym : Symbol) :
    (sizeSymbol env sec last sym).map clearSym = sizeSymbol (env0 env) sec last (clearSym sym) := by
  unfold sizeSymbol
  refine map_bind_same fun _ => ?_
  refine congrArg Except.ok ?_
  exact ite_map clearSym Iff.rfl rfl rfl

theorem adoptSection_clear (sec : ElfSec) (sym : Symbol) : clearSym (adoptSection sec sym) = adoptSection sec (clearSym sym) := by
  unfold adoptSection
  exact ite_map clearSym Iff.rfl rfl rfl

theorem hashSymbol_clear (env : Env) (fl : AnalyzeFlags) (st : AState) (last : Addr) (sym : Symbol) :
    (hashSymbol env fl st last sym).map clearHashed = hashSymbol (env0 env) fl st last (clearSym sym) := by
  unfold hashSymbol
  refine map_bind_same fun sec => ?_
  rw [← adoptSection_clear]
  refine map_bind_eq (sizeSymbol_clear env sec last _) fun s => ?_
  refine ite_map (Except.map clearHashed) Iff.rfl ?_ ?_
  · exact hashExec_clear env fl st sec s
  · exact hashData_clear env fl st sec s

theorem unusedSymbol_clear (fl : AnalyzeFlags) (h : Hashed) : unusedSymbol fl (clearHashed h) = unusedSymbol fl h := by
  unfold unusedSymbol clearHashed clearSym
  simp only [List.isEmpty_map]

theorem finishSymbol_clear (env : Env) (fl : AnalyzeFlags) (h : Hashed) :
    clearSym (finishSymbol env fl h) = finishSymbol (env0 env) fl (clearHashed h) := by
  unfold finishSymbol
  rw [unusedSymbol_clear]
  split <;> rfl

def clearLoop (l : HashLoop) : HashLoop := { l with done := l.done.map clearSym }

theorem hashStep_clear (env : Env) (fl : AnalyzeFlags) (st : AState) (l : HashLoop) (sym : Symbol) :
    (hashStep env fl st l sym).map clearLoop = hashStep (env0 env) fl st (clearLoop l) (clearSym sym) := by
  unfold hashStep
  refine map_bind_eq (hashSymbol_clear env fl st _ sym) fun h => ?_
  refine congrArg Except.ok ?_
  simp only [← finishSymbol_clear, unusedSymbol_clear]
  rfl

/-- The analysis state with cleared relocations. -/
def clearState (st : AState) : AState := { st with symbols := st.symbols.map clearSym }

theorem hashInternal_clear (env : Env) (fl : AnalyzeFlags) (st : AState) :
    (hashInternal env fl st).map clearState =
      (do let l ← ((st.symbols.reverse).map clearSym).foldlM (hashStep (env0 env) fl st) {}
          return { st with symbols := l.unused.foldl Tree.erase l.done }) := by
  unfold hashInternal
  refine map_bind_eq (k := clearLoop)
    (foldlM_map_eq clearSym clearLoop (fun s a => hashStep_clear env fl st s a) st.symbols.reverse {}) fun l => ?_
  refine congrArg Except.ok ?_
  unfold clearState
  simp only [← foldl_erase_map clearSym_key]
  rfl

/-! External identifiers -/

theorem extRelStep_clear (b : Build) (a : Addr) (acc : List (BitVec 8) × List Addr) (rel : Rel) :
    extRelStep b a acc (clearRel rel) = extRelStep b a acc rel := by
  unfold extRelStep extRelBytes
  obtain ⟨h1, h2, h3, h4, h5, -⟩ := clearRel_ext rel
  rw [h1, h2, h3, h4, h5]

def clearPair (p : SymTree × List (BitVec 8)) : SymTree × List (BitVec 8) := (p.1.map clearSym, p.2)

theorem filter_clear (o : Option Rel) : (o.map clearRel).filter (·.undefined) = (o.filter (·.undefined)).map clearRel := by
  cases o with
  | none => rfl
  | some r =>
    simp only [Option.map_some, Option.filter_some, (clearRel_ext r).2.2.2.2.2]
    split <;> rfl

theorem extRefStep_clear (env : Env) (got a : Addr) (acc : SymTree × List (BitVec 8)) (ref : Addr) :
    clearPair (extRefStep env got a acc ref) = extRefStep (env0 env) got a (clearPair acc) ref := by
  unfold extRefStep
  have e0 : Tree.floor (clearPair acc).1 ref = (Tree.floor acc.1 ref).map clearSym := Tree.floor_map clearSym_key _ _
  rw [e0]
  cases Tree.floor acc.1 ref with
  | none => rfl
  | some y =>
    simp only [Option.map_some]
    refine ite_map clearPair Iff.rfl ?_ ?_
    · refine ite_map clearPair Iff.rfl rfl ?_
      · have e : (if (clearSym y).address = got then (Tree.find (clearSym y).rels ref).filter (·.undefined) else none) =
            (if y.address = got then (Tree.find y.rels ref).filter (·.undefined) else none).map clearRel := by
          change (if y.address = got then (Tree.find (y.rels.map clearRel) ref).filter (·.undefined) else none) = _
          rw [Tree.find_map clearRel_key, filter_clear]
          split <;> rfl
        rw [e]
        cases (if y.address = got then (Tree.find y.rels ref).filter (·.undefined) else none) with
        | some rel =>
          simp only [Option.map_some]
          obtain ⟨h1, h2, h3, h4, h5, -⟩ := clearRel_ext rel
          rw [h2, h3, h4]
          rfl
        | none =>
          simp only [Option.map_none]
          refine ite_map clearPair Iff.rfl rfl ?_
          · refine Prod.ext ?_ rfl
            refine Eq.symm (Tree.modify_map clearSym_key _ _ ?_)
            exact fun x => rfl
    · rfl

theorem extStep_clear (env : Env) (got : Addr) (t : SymTree) (a : Addr) :
    (extStep env got t a).map (List.map clearSym) = extStep (env0 env) got (t.map clearSym) a := by
  unfold extStep
  rw [Tree.find_map clearSym_key]
  cases Tree.find t a with
  | none => rfl
  | some sym =>
    simp only [Option.map_some]
    have e : (clearSym sym).rels = sym.rels.map clearRel := rfl
    rw [e, List.isEmpty_map]
    refine ite_map (Except.map (List.map clearSym)) Iff.rfl rfl ?_
    · rw [List.foldlM_map]
      simp only [extRelStep_clear]
      refine map_bind_same fun p => ?_
      refine congrArg Except.ok ?_
      have h := foldl_map_eq (f := extRefStep env got sym.address) (f' := extRefStep (env0 env) got sym.address) id clearPair
        (fun s r => extRefStep_clear env got sym.address s r) p.2
        (Tree.modify t a (fun z => { z with refs := p.2 }), p.1)
      rw [List.map_id] at h
      have h0 : clearPair (Tree.modify t a (fun z => { z with refs := p.2 }), p.1) =
          (Tree.modify (t.map clearSym) a (fun z => { z with refs := p.2 }), p.1) :=
        Prod.ext (by refine Eq.symm (Tree.modify_map clearSym_key _ _ ?_); exact fun x => rfl) rfl
      rw [h0] at h
      have last : ∀ c c' : SymTree × List (BitVec 8), clearPair c = c' →
          (Tree.modify c.1 a (fun z => { z with id := { z.id with external := env.xxhash c.2 } })).map clearSym =
            Tree.modify c'.1 a (fun z => { z with id := { z.id with external := env.xxhash c'.2 } }) := by
        rintro c _ rfl
        refine Eq.symm (Tree.modify_map clearSym_key _ _ ?_)
        exact fun x => rfl
      exact last _ _ h

theorem hashExternal_clear (env : Env) (st : AState) :
    (hashExternal env st).map clearState = hashExternal (env0 env) (clearState st) := by
  unfold hashExternal
  have h := foldlM_map_eq (f := extStep env st.global_offset_table) (f' := extStep (env0 env) st.global_offset_table) id
    (List.map clearSym) (fun s r => extStep_clear env _ s r) (st.symbols.map (·.address)) st.symbols
  rw [List.map_id] at h
  have e : (clearState st).symbols.map (·.address) = st.symbols.map (·.address) := by
    unfold clearState
    simp only [List.map_map]
    rfl
  rw [e]
  exact map_bind_eq h fun t => rfl

/-! The complete analysis -/

theorem findFunctions_env0 (env : Env) (fl : AnalyzeFlags) (st : AState) :
    findFunctions (env0 env) fl st = findFunctions env fl st := by
  have e : findSection (env0 env) fl st = findSection env fl st := by
    funext symbols sec
    unfold findSection
    simp only [disasm_env0]
    rfl
  unfold findFunctions
  rw [e]

theorem gather_env0 (env : Env) (fl : AnalyzeFlags) (elf : Elf) (dbgsym : Option Elf) :
    gather (env0 env) fl elf dbgsym = gather env fl elf dbgsym := by
  unfold gather
  simp only [findFunctions_env0]
  rfl

theorem reconstruct_env0 (env : Env) (st : AState) : reconstruct (env0 env) st = reconstruct env st := by
  have e : reconstructStep (env0 env) st = reconstructStep env st := by
    funext l sym
    unfold reconstructStep reconstructCode
    simp only [disasm_env0]
    rfl
  unfold reconstruct
  rw [e]

theorem identify_clear (env : Env) (fl : AnalyzeFlags) (hr : fl.reconstruct = false) (st : AState) :
    (identify env fl st).map clearState =
      (do let l ← ((st.symbols.reverse).map clearSym).foldlM (hashStep (env0 env) fl st) {}
          hashExternal (env0 env) { st with symbols := l.unused.foldl Tree.erase l.done }) := by
  unfold identify
  simp only [hr]
  change Except.map clearState (hashInternal env fl st >>= fun s => hashExternal env s >>= fun r => pure r) = _
  have h := hashInternal_clear env fl st
  refine (map_bind_eq (f' := fun s => hashExternal (env0 env) s) h fun s => ?_).trans ?_
  · rw [bind_pure]
    exact hashExternal_clear env s
  · simp only [bind_assoc, pure_bind]

end Bean

import Verif.Lemmas.RebaseRun
import Verif.Props.Clear
import Verif.Props.Diff
import Verif.Props.FileExamples
import Verif.Props.Total
/-
C100: the analysis of a file that is linked to another address.
-/
namespace Bean
open Tree Spec Props

/-- C100: the analysis of the moved file succeeds as well and delivers the same symbols, moved by the distance, apart from the
members of relocations that are never set. -/
theorem C100_symbols_partial (env env' : Env) (hj : SameButJunk env env') (fl : AnalyzeFlags) (hrec : fl.reconstruct = false)
    (m : Rebase) (elf : Elf) (dbgsym : Option Elf) (hr : Rebasable env fl m elf dbgsym)
    (hy : ∀ st, gather env fl elf dbgsym = .ok st → Steady env m st)
    (r : AState) (h : analyze env fl elf dbgsym = .ok r) (ha : Anchored m r.symbols) :
    ∃ r', analyze env' fl (rebaseElf m elf) (dbgsym.map (rebaseElf m)) = .ok r' ∧
      r'.symbols.map clearSym = r.symbols.map (fun s => clearSym (rebaseSymbol m.tls m.dist s)) := by
  have h1 := analyze_rebase hr hrec hy h ha
  have hj' : SameButJunk (rebaseEnv m.dist env) env' := hj
  have h2 := C47_analysis_partial (rebaseEnv m.dist env) env' hj' fl hrec (rebaseElf m elf) (dbgsym.map (rebaseElf m))
  rw [h1] at h2
  cases h3 : analyze env' fl (rebaseElf m elf) (dbgsym.map (rebaseElf m)) with
  | error e => rw [h3] at h2; cases h2
  | ok r' =>
    rw [h3] at h2
    refine ⟨r', rfl, (Except.ok.inj h2).symm.trans ?_⟩
    show (r.symbols.map (rebaseSymbol m.tls m.dist)).map clearSym = _
    rw [List.map_map]
    rfl

/-- What identifies a symbol for a user: everything but its references, relocations and dependencies. -/
def Spec.labelOf (k : Addr) (s : Symbol) :=
  (s.address + k, s.size, s.name, s.type, s.bind, s.flags, s.id, s.sec.name, s.sec.writeable, s.sec.executable, s.sec.flags)

/-- C100: the same list of symbols at the moved addresses, with the same identifiers, names, sizes, types, sections and flags. -/
theorem C100_identifiers_partial (env env' : Env) (hj : SameButJunk env env') (fl : AnalyzeFlags) (hrec : fl.reconstruct = false)
    (m : Rebase) (elf : Elf) (dbgsym : Option Elf) (hr : Rebasable env fl m elf dbgsym)
    (hy : ∀ st, gather env fl elf dbgsym = .ok st → Steady env m st)
    (r : AState) (h : analyze env fl elf dbgsym = .ok r) (ha : Anchored m r.symbols) :
    ∃ r', analyze env' fl (rebaseElf m elf) (dbgsym.map (rebaseElf m)) = .ok r' ∧
      r'.symbols.map (labelOf 0) = r.symbols.map (labelOf m.dist) := by
  obtain ⟨r', h1, h2⟩ := C100_symbols_partial env env' hj fl hrec m elf dbgsym hr hy r h ha
  refine ⟨r', h1, ?_⟩
  have h3 := congrArg (List.map (labelOf 0)) h2
  rw [List.map_map, List.map_map] at h3
  have e1 : (labelOf 0 ∘ clearSym) = labelOf 0 := rfl
  have e2 : (labelOf 0 ∘ fun s => clearSym (rebaseSymbol m.tls m.dist s)) = labelOf m.dist := by
    funext s
    show labelOf 0 (clearSym (rebaseSymbol m.tls m.dist s)) = labelOf m.dist s
    unfold labelOf clearSym rebaseSymbol
    dsimp only
    rw [show (0 : Addr) = 0#64 from rfl, BitVec.add_zero]
  rw [e1, e2] at h3
  exact h3

/-- Nothing is reported if every symbol has a counterpart. -/
theorem diffT_none {c : Cmp} {same : Symbol → Symbol → Prop} (hc : c.Lawful same) {t other : SymTree} (deps : Bool)
    (skip : Option (Symbol → Bool)) (h : ∀ s ∈ t, ∃ o ∈ other, same o s) : diffT c t (SymHash.ofTree c other) deps skip = [] := by
  have : ∀ s ∈ diffT c t (SymHash.ofTree c other) deps skip, False := by
    refine diffT_sound (fun _ => False) ?_ (fun _ _ _ _ h => h.elim)
    intro s hs _ _ hno
    have : SymHash.contains c (SymHash.ofTree c other) s = true := (SymHash.contains_ofTree hc).mpr (h s hs)
    rw [this] at hno; simp at hno
  exact List.eq_nil_iff_forall_not_mem.mpr this

theorem diff_none {t other : SymTree} (h : ∀ s ∈ t, ∃ o ∈ other, SameIdentity o s) (b : Build) (hash : BitVec 64 → BitVec 32)
    (deps : Bool) (mode : Nat) (hm : mode < 4) :
    diff b hash t other deps mode = .ok [] ∧ patchableWith b hash t other deps mode = .ok true := by
  have he : diff_extended hash t other deps = [] := diffT_none (extCmp_lawful hash) deps none h
  have hi : diff_internal hash t other deps = [] := diffT_none (intCmp_lawful hash) deps none (fun s hs => by
    obtain ⟨o, ho, h1, _, h3, _⟩ := h s hs
    exact ⟨o, ho, h1, h3⟩)
  have hd : diff b hash t other deps mode = .ok [] := by
    match mode, hm with
    | 0, _ => simp [diff, he, Tree.ofList]
    | 1, _ => simp [diff, he]
    | 2, _ => simp [diff, he]
    | 3, _ => simp [diff, hi, Tree.ofList]
  exact ⟨hd, by simp [patchableWith, hd, patchable, bind, Except.bind, pure, Except.pure]⟩

/-- C100: no mode of comparison reports a difference between the two files, in neither direction. -/
theorem C100_unchanged_partial (env env' : Env) (hj : SameButJunk env env') (fl : AnalyzeFlags) (hrec : fl.reconstruct = false)
    (m : Rebase) (elf : Elf) (dbgsym : Option Elf) (hr : Rebasable env fl m elf dbgsym)
    (hy : ∀ st, gather env fl elf dbgsym = .ok st → Steady env m st)
    (r : AState) (h : analyze env fl elf dbgsym = .ok r) (ha : Anchored m r.symbols)
    (r' : AState) (h' : analyze env' fl (rebaseElf m elf) (dbgsym.map (rebaseElf m)) = .ok r')
    (b : Build) (hash : BitVec 64 → BitVec 32) (deps : Bool) (mode : Nat) (hm : mode < 4) :
    diff b hash r.symbols r'.symbols deps mode = .ok [] ∧ diff b hash r'.symbols r.symbols deps mode = .ok [] ∧
    patchableWith b hash r.symbols r'.symbols deps mode = .ok true ∧ patchableWith b hash r'.symbols r.symbols deps mode = .ok true := by
  obtain ⟨r1, h1, h2⟩ := C100_symbols_partial env env' hj fl hrec m elf dbgsym hr hy r h ha
  cases h'.symm.trans h1
  have same : ∀ s s' : Symbol, clearSym s' = clearSym (rebaseSymbol m.tls m.dist s) → SameIdentity s' s ∧ SameIdentity s s' := by
    intro s s' e
    have e1 : s'.id = s.id := by have := congrArg (fun x : Symbol => x.id) e; exact this
    have e2 : s'.sec = { s.sec with address := rebaseZero m.dist s.sec.address } := by have := congrArg (fun x : Symbol => x.sec) e; exact this
    have e3 : s'.refs.length = s.refs.length := by
      have := congrArg (fun x : Symbol => x.refs.length) e
      exact this.trans (List.length_map _)
    have e4 : s'.rels.length = s.rels.length := by
      have := congrArg (fun x : Symbol => x.rels.length) e
      change (s'.rels.map clearRel).length = ((s.rels.map (rebaseRel m.tls m.dist)).map clearRel).length at this
      simpa only [List.length_map] using this
    unfold SameIdentity SameSection
    rw [e1, e2, e3, e4]
    exact ⟨⟨rfl, rfl, ⟨rfl, rfl, rfl, rfl⟩, rfl, rfl⟩, ⟨rfl, rfl, ⟨rfl, rfl, rfl, rfl⟩, rfl, rfl⟩⟩
  have d1 := diff_none (t := r.symbols) (other := r'.symbols) (fun s hs => by
    have : clearSym (rebaseSymbol m.tls m.dist s) ∈ r'.symbols.map clearSym := by rw [h2]; exact List.mem_map_of_mem hs
    obtain ⟨s', hs', e⟩ := List.mem_map.mp this
    exact ⟨s', hs', (same s s' e).1⟩) b hash deps mode hm
  have d2 := diff_none (t := r'.symbols) (other := r.symbols) (fun s' hs' => by
    have : clearSym s' ∈ r.symbols.map (fun s => clearSym (rebaseSymbol m.tls m.dist s)) := by rw [← h2]; exact List.mem_map_of_mem hs'
    obtain ⟨s, hs, e⟩ := List.mem_map.mp this
    exact ⟨s, hs, (same s s' e.symm).2⟩) b hash deps mode hm
  exact ⟨d1.1, d2.1, d1.2, d2.2⟩

/-! ### Example -/

/-- The file of the examples is moved from 0x1000 to 0x5000, and the word that is filled by the dynamic linker differs. -/
def imgMove : Rebase where
  dist := 0x4000
  tls := false
  data := fun sec => if sec.name = ".data" then (imgData 0x1000 7).data else sec.data

theorem img_rebased : rebaseElf imgMove (imgElf 0x1000 0) = imgElf 0x5000 7 := by decide +kernel

theorem exPlace (a : Addr) (bytes : List (BitVec 8)) (i : Insn) (h : exEnv.decode a bytes = some i) : i.address = a := by
  change exDecode a bytes = some i at h
  unfold exDecode at h
  split at h <;> cases h <;> rfl

theorem img_segment {seg : ElfSeg} (h : seg ∈ (imgElf 0x1000 0).segments) : SegmentLow exEnv 0x4000 seg := by
  have : seg = imgLoadText 0x1000 ∨ seg = imgLoadData 0x1000 := by simpa [imgElf] using h
  rcases this with rfl | rfl
  · exact ⟨by decide, by decide, fun _ => by decide, ⟨by decide, by decide⟩, fun h => absurd h (by decide), fun h => absurd h (by decide)⟩
  · exact ⟨by decide, by decide, fun _ => by decide, ⟨by decide, by decide⟩, fun h => absurd h (by decide), fun h => absurd h (by decide)⟩

theorem img_section {sec : ElfSec} (h : sec ∈ (imgElf 0x1000 0).sections) (ha : sec.allocate = true) : SectionLow exEnv imgMove sec := by
  have hz : sec.size ≠ 0 := by
    have : ∀ sec ∈ (imgElf 0x1000 0).sections, sec.size ≠ 0 := by decide
    exact this sec h
  rcases img_loaded ⟨h, ha, hz⟩ with rfl | rfl | rfl
  all_goals exact ⟨by decide, by decide, ⟨by decide, by decide⟩, fun h => absurd h (by decide)⟩

theorem img_entry {sym : ElfSym} (h : TableEntry (imgElf 0x1000 0) sym) : sym ∈ imgSyms 0x1000 := by
  have : ∀ tbl ∈ (imgElf 0x1000 0).sections, ∀ sym ∈ tbl.symbols, sym ∈ imgSyms 0x1000 := by decide
  obtain ⟨tbl, h1, _, _, h2⟩ := h
  exact this tbl h1 sym h2

theorem img_packed : allRelative (imgElf 0x1000 0) none = [] := by decide

theorem img_rebasable : Rebasable exEnv {} imgMove (imgElf 0x1000 0) none where
  decode := exMoves _
  place := exPlace
  tls := by decide
  segments := fun seg h _ => img_segment h
  sections := fun sec h ha => img_section h ha
  debug := fun d h => by cases h
  symbols := by
    rintro d (rfl | h) sym hs sec _
    · have : ∀ sym ∈ imgSyms 0x1000, sym.type ≠ .tls ∧ Addressed 0x4000 sym.value ∧ LowRange 0x4000 sym.value sym.size := by decide
      have := this sym (img_entry hs)
      exact ⟨fun h => absurd h this.1, fun _ _ => this.2⟩
    · cases h
  relocations := by
    intro r h
    have : r = imgRel 0x1000 := by
      have : allRelocations (imgElf 0x1000 0) none = [imgRel 0x1000] := by decide
      rw [this] at h
      exact List.mem_singleton.mp h
    rw [this]
    exact ⟨by decide, by decide, fun _ => ⟨by decide, fun ⟨s, h, _⟩ => by cases h⟩, fun _ h => absurd h (by decide), fun h => absurd h (by decide)⟩
  packed := fun o h => absurd h (by rw [img_packed]; exact List.not_mem_nil)
  length := by
    intro sec h
    rcases img_loaded h with rfl | rfl | rfl <;> decide
  pointers := fun o h => absurd h (by rw [img_packed]; exact List.not_mem_nil)
  inside := fun o h => absurd h (by rw [img_packed]; exact List.not_mem_nil)
  code := by
    intro sec h hx
    rcases img_loaded h with rfl | rfl | rfl
    · refine ⟨by decide, by decide, ?_⟩
      intro x hx
      have : ∀ x ∈ disasm exEnv (imgText 0x1000).virt_addr ((imgText 0x1000).data.take (imgText 0x1000).size.toNat),
          (match directTarget x.insn with
            | .ok (some t) => decide (Addressed 0x4000 t) && decide (Branching (exEnv.kind x.insn.id))
            | _ => true) = true := by decide +kernel
      intro _ t ht
      have := this x hx
      rw [ht] at this
      simp only [Bool.and_eq_true, decide_eq_true_eq] at this
      exact ⟨this.1, fun _ _ _ => this.2⟩
    · cases hx
    · cases hx

/-! The conditions on the symbols found can be evaluated. -/

attribute [-instance] BitVec.instDecidableForallBitVec BitVec.instDecidableForallBitVecSucc BitVec.instDecidableExistsBitVec
  BitVec.instDecidableExistsBitVecSucc

instance decSome {α : Type} (o : Option α) (P : α → Prop) [∀ a, Decidable (P a)] : Decidable (∀ a, o = some a → P a) :=
  match o with
  | none => .isTrue (fun _ h => by cases h)
  | some x => if h : P x then .isTrue (fun a e => by cases e; exact h) else .isFalse (fun k => h (k x rfl))

instance decAny {α : Type} (o : Option α) (P : α → Prop) [∀ a, Decidable (P a)] : Decidable (∃ a, o = some a ∧ P a) :=
  match o with
  | none => .isFalse (fun ⟨_, h, _⟩ => by cases h)
  | some x => if h : P x then .isTrue ⟨x, rfl, h⟩ else .isFalse (fun ⟨a, e, k⟩ => by cases e; exact h k)

theorem sizeFor_iff {env : Env} {t : SymTree} {sec : ElfSec} {s : Symbol} {n : Addr} :
    SizeFor env t sec s n ↔ n ∈ sizesFor env t sec s := by
  unfold SizeFor sizesFor
  simp only [List.mem_cons, List.mem_map, List.mem_filter, decide_eq_true_eq]
  constructor
  · rintro (h | h | ⟨z, h1, h2, h3, h4⟩)
    · exact Or.inl h
    · exact Or.inr (Or.inl h)
    · exact Or.inr (Or.inr ⟨z, ⟨h1, h2, h3⟩, h4.symm⟩)
  · rintro (h | h | ⟨z, ⟨h1, h2, h3⟩, h4⟩)
    · exact Or.inl h
    · exact Or.inr (Or.inl h)
    · exact Or.inr (Or.inr ⟨z, h1, h2, h3, h4.symm⟩)

instance decSizes (env : Env) (t : SymTree) (sec : ElfSec) (s : Symbol) (P : Addr → Prop) [∀ n, Decidable (P n)] :
    Decidable (∀ n, SizeFor env t sec s n → P n) :=
  decidable_of_iff (∀ n ∈ sizesFor env t sec s, P n) ⟨fun h n hn => h n (sizeFor_iff.mp hn), fun h n hn => h n (sizeFor_iff.mpr hn)⟩

instance (env : Env) (m : Rebase) (st : AState) (s : Symbol) (sec : ElfSec) (n : Addr) : Decidable (CodeSteady env m st s sec n) :=
  decidable_of_iff _ ⟨fun h => ⟨h⟩, fun h => h.operands⟩

instance (env : Env) (m : Rebase) (st : AState) (s : Symbol) (sec : ElfSec) (n : Addr) : Decidable (DataSteady env m st s sec n) :=
  decidable_of_iff (_ ∧ _ ∧ _ ∧ _) ⟨fun h => ⟨h.1, h.2.1, h.2.2.1, h.2.2.2⟩, fun h => ⟨h.segment, h.bytes, h.start, h.table⟩⟩

instance (env : Env) (m : Rebase) (st : AState) (s : Symbol) (sec : ElfSec) : Decidable (SymbolSteady env m st s sec) :=
  decidable_of_iff (_ ∧ _ ∧ _) ⟨fun h => ⟨h.1, h.2.1, h.2.2⟩, fun h => ⟨h.inside, h.code, h.data⟩⟩

instance (env : Env) (m : Rebase) (st : AState) : Decidable (Steady env m st) :=
  decidable_of_iff (_ ∧ _ ∧ _ ∧ _) ⟨fun h => ⟨h.1, h.2.1, h.2.2.1, h.2.2.2⟩, fun h => ⟨h.page, h.width, h.apart, h.symbols⟩⟩

instance (m : Rebase) (t : SymTree) : Decidable (Anchored m t) := by unfold Anchored; infer_instance

theorem steady_of_decide {env : Env} {fl : AnalyzeFlags} {m : Rebase} {elf : Elf} {dbgsym : Option Elf}
    (h : (match gather env fl elf dbgsym with
      | .ok st => decide (Steady env m st)
      | .error _ => true) = true) : ∀ st, gather env fl elf dbgsym = .ok st → Steady env m st := by
  intro st e
  rw [e] at h
  exact of_decide_eq_true h

theorem img_steady : ∀ st, gather exEnv {} (imgElf 0x1000 0) none = .ok st → Steady exEnv imgMove st :=
  steady_of_decide (by decide +kernel)

theorem img_anchored : Anchored imgMove (imgState 0x1000 0).symbols := by decide +kernel

/-- The moved file, with other contents of the pointer and other contents of the memory. -/
example (j : BitVec 4 × BitVec 8) : ∃ r', analyze (junkEnv j) {} (imgElf 0x5000 7) none = .ok r' ∧
    r'.symbols.map (labelOf 0) = (imgState 0x1000 0).symbols.map (labelOf 0x4000) := by
  have := C100_identifiers_partial exEnv (junkEnv j) rfl {} rfl imgMove (imgElf 0x1000 0) none img_rebasable img_steady _ img_ok img_anchored
  rwa [img_rebased] at this

example (j : BitVec 4 × BitVec 8) : ∃ r', analyze (junkEnv j) {} (imgElf 0x5000 7) none = .ok r' ∧
    r'.symbols.map clearSym = (imgState 0x1000 0).symbols.map (fun s => clearSym (rebaseSymbol false 0x4000 s)) := by
  have := C100_symbols_partial exEnv (junkEnv j) rfl {} rfl imgMove (imgElf 0x1000 0) none img_rebasable img_steady _ img_ok img_anchored
  rwa [img_rebased] at this

example (b : Build) (hash : BitVec 64 → BitVec 32) (deps : Bool) :
    diff b hash (imgState 0x1000 0).symbols (imgState 0x5000 7).symbols deps 0 = .ok [] ∧
    patchableWith b hash (imgState 0x5000 7).symbols (imgState 0x1000 0).symbols deps 0 = .ok true := by
  have := C100_unchanged_partial exEnv exEnv rfl {} rfl imgMove (imgElf 0x1000 0) none img_rebasable img_steady _ img_ok img_anchored
    (imgState 0x5000 7) (by rw [img_rebased]; exact img_moved) b hash deps 0 (by decide)
  exact ⟨this.1, this.2.2.2⟩

/-! ### Where it does not hold -/

/-- The file with a relocation for an indirect function instead. -/
def indRel (b : Addr) : ElfRel where
  offset := b + 0x1000
  type := R_X86_64_IRELATIVE
  addend := b

def indRela (b : Addr) : ElfSec where
  type := .rela
  name := ".rela.dyn"
  virt_addr := 0
  size := 24
  allocate := false
  relocations := [indRel b]

def indElf (b : Addr) (seed : BitVec 8) : Elf where
  entry := b
  segments := [imgLoadText b, imgLoadData b]
  sections := [runTable [], imgText b, imgData b seed, imgBss b, indRela b, runTable (imgSyms b)]

theorem ind_rebased : rebaseElf imgMove (indElf 0x1000 0) = indElf 0x5000 7 := by decide +kernel

/-- The comparison of a file with the moved one. -/
def movedDiff (fl : AnalyzeFlags) (m : Rebase) (elf : Elf) : M (List Addr) := do
  let r ← analyze exEnv fl elf none
  let r' ← analyze exEnv fl (rebaseElf m elf) none
  let x ← diff .debug (fun x => x.setWidth 32) r.symbols r'.symbols false 0
  return x.map (·.address)

theorem movedDiff_ok {fl : AnalyzeFlags} {m : Rebase} {elf : Elf} {l : List Addr} (h : movedDiff fl m elf = .ok l) :
    ∃ r r' x, analyze exEnv fl elf none = .ok r ∧ analyze exEnv fl (rebaseElf m elf) none = .ok r' ∧
      diff .debug (fun x => x.setWidth 32) r.symbols r'.symbols false 0 = .ok x ∧ x.map (·.address) = l := by
  unfold movedDiff at h
  cases h1 : analyze exEnv fl elf none with
  | error e => rw [h1, error_then] at h; cases h
  | ok r =>
    rw [h1, ok_then] at h
    cases h2 : analyze exEnv fl (rebaseElf m elf) none with
    | error e => rw [h2, error_then] at h; cases h
    | ok r' =>
      rw [h2, ok_then] at h
      cases h3 : diff .debug (fun x => x.setWidth 32) r.symbols r'.symbols false 0 with
      | error e => rw [h3, error_then] at h; cases h
      | ok x =>
        rw [h3, ok_then] at h
        exact ⟨r, r', x, rfl, rfl, h3, Except.ok.inj h⟩

theorem ind_loaded {sec : ElfSec} (h : Loaded (indElf 0x1000 0) sec) : Loaded (imgElf 0x1000 0) sec := by
  have : ∀ sec ∈ (indElf 0x1000 0).sections, sec.allocate = true → sec ∈ (imgElf 0x1000 0).sections := by decide
  exact ⟨this sec h.1 h.2.1, h.2⟩

theorem ind_rebasable : Rebasable exEnv { resolve_internal := true } imgMove (indElf 0x1000 0) none where
  decode := exMoves _
  place := exPlace
  tls := by decide
  segments := fun seg h _ => img_segment h
  sections := fun sec h ha => by
    have : ∀ sec ∈ (indElf 0x1000 0).sections, sec.allocate = true → sec ∈ (imgElf 0x1000 0).sections := by decide
    exact img_section (this sec h ha) ha
  debug := fun d h => by cases h
  symbols := by
    rintro d (rfl | h) sym ⟨tbl, h1, _, _, h2⟩ sec _
    · have : ∀ tbl ∈ (indElf 0x1000 0).sections, ∀ sym ∈ tbl.symbols,
          sym.type ≠ .tls ∧ Addressed 0x4000 sym.value ∧ LowRange 0x4000 sym.value sym.size := by decide
      have := this tbl h1 sym h2
      exact ⟨fun h => absurd h this.1, fun _ _ => this.2⟩
    · cases h
  relocations := by
    intro r h
    have : r = indRel 0x1000 := by
      have : allRelocations (indElf 0x1000 0) none = [indRel 0x1000] := by decide
      rw [this] at h
      exact List.mem_singleton.mp h
    rw [this]
    exact ⟨by decide, by decide, fun _ => ⟨by decide, fun ⟨s, h, _⟩ => by cases h⟩, fun _ _ => rfl, fun _ _ _ => by decide⟩
  packed := fun o h => absurd h (by rw [show allRelative (indElf 0x1000 0) none = [] by decide]; exact List.not_mem_nil)
  length := fun sec h => img_rebasable.length sec (ind_loaded h)
  pointers := fun o h => absurd h (by rw [show allRelative (indElf 0x1000 0) none = [] by decide]; exact List.not_mem_nil)
  inside := fun o h => absurd h (by rw [show allRelative (indElf 0x1000 0) none = [] by decide]; exact List.not_mem_nil)
  code := fun sec h hx => img_rebasable.code sec (ind_loaded h) hx

/-- C100 is false without resolved relocations: the address of the resolver of an indirect function is part of the external
identifier, so that the variable is reported although the file has just been moved. With resolved relocations (the file meets
all conditions) nothing is reported. -/
theorem C100_counterexample :
    Rebasable exEnv { resolve_internal := true } imgMove (indElf 0x1000 0) none ∧
    ∃ r r' x, analyze exEnv {} (indElf 0x1000 0) none = .ok r ∧
      analyze exEnv {} (rebaseElf imgMove (indElf 0x1000 0)) none = .ok r' ∧
      diff .debug (fun x => x.setWidth 32) r.symbols r'.symbols false 0 = .ok x ∧ x.map (·.address) = [0x2000] :=
  ⟨ind_rebasable, movedDiff_ok (ok_of_decide (by decide +kernel))⟩

/-- Code that refers to an address in front of all symbols. -/
def frontText (b : Addr) : ElfSec where
  name := ".text"
  virt_addr := b
  size := 6
  executable := true
  data := [0x8b, 0xf0, 0xc3, 0xe8, 0xfb, 0xc3]

def frontElf (b : Addr) (seed : BitVec 8) : Elf where
  entry := b
  segments := [imgLoadText b, imgLoadData b]
  sections := [runTable [], frontText b, imgData b seed, imgBss b, imgRela b, runTable (imgSyms b)]

/-- C100 is false as well for references to something in front of all symbols (such as the header of the file): the address
itself is part of the external identifier. -/
theorem C100_unanchored_counterexample :
    ∃ r r' x, analyze exEnv {} (frontElf 0x1000 0) none = .ok r ∧
      analyze exEnv {} (rebaseElf imgMove (frontElf 0x1000 0)) none = .ok r' ∧
      diff .debug (fun x => x.setWidth 32) r.symbols r'.symbols false 0 = .ok x ∧ x.map (·.address) = [0x1000] :=
  movedDiff_ok (ok_of_decide (by decide +kernel))

end Bean

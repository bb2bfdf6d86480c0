import Verif.Lemmas.RebaseOffsets
import Verif.Props.Rebase
import Verif.Props.FileLinks
/-
C100: the analysis of a file that is linked to another address, with reconstruction of relocations.
-/
namespace Bean
open Tree Spec Props

attribute [-instance] BitVec.instDecidableForallBitVec BitVec.instDecidableForallBitVecSucc BitVec.instDecidableExistsBitVec
  BitVec.instDecidableExistsBitVecSucc

/-- C100: with reconstruction of relocations, the analysis of the moved file succeeds as well and delivers the same symbols,
moved by the distance, apart from the members of relocations that are never set and the identifiers of positions. -/
theorem C100_reconstructed_symbols_partial (env env' : Env) (hj : SameButJunk env env') (hd : SaneDecoder env) (fl : AnalyzeFlags)
    (hrec : fl.reconstruct = true) (m : Rebase) (elf : Elf) (dbgsym : Option Elf) (hr : Rebasable env fl m elf dbgsym)
    (hy : ∀ st, gather env fl elf dbgsym = .ok st → Steady env m st ∧ CodeAnchored env m st)
    (r : AState) (h : analyze env fl elf dbgsym = .ok r) (ha : Anchored m r.symbols) :
    ∃ r', analyze env' fl (rebaseElf m elf) (dbgsym.map (rebaseElf m)) = .ok r' ∧
      r'.symbols.map clearIds = r.symbols.map (fun s => clearIds (rebaseSymbol m.tls m.dist s)) :=
  analyze_reconstructed hj hr hd hrec (fun st hst => (hy st hst).1) (fun st hst => (hy st hst).2) h ha

/-- C100: with reconstruction, the same list of symbols at the moved addresses, with the same identifiers, names, sizes, types,
sections and flags. -/
theorem C100_reconstructed_identifiers_partial (env env' : Env) (hj : SameButJunk env env') (hd : SaneDecoder env) (fl : AnalyzeFlags)
    (hrec : fl.reconstruct = true) (m : Rebase) (elf : Elf) (dbgsym : Option Elf) (hr : Rebasable env fl m elf dbgsym)
    (hy : ∀ st, gather env fl elf dbgsym = .ok st → Steady env m st ∧ CodeAnchored env m st)
    (r : AState) (h : analyze env fl elf dbgsym = .ok r) (ha : Anchored m r.symbols) :
    ∃ r', analyze env' fl (rebaseElf m elf) (dbgsym.map (rebaseElf m)) = .ok r' ∧
      r'.symbols.map (labelOf 0) = r.symbols.map (labelOf m.dist) := by
  obtain ⟨r', h1, h2⟩ := C100_reconstructed_symbols_partial env env' hj hd fl hrec m elf dbgsym hr hy r h ha
  refine ⟨r', h1, ?_⟩
  have h3 := congrArg (List.map (labelOf 0)) h2
  rw [List.map_map, List.map_map] at h3
  have e1 : (labelOf 0 ∘ clearIds) = labelOf 0 := rfl
  have e2 : (labelOf 0 ∘ fun s => clearIds (rebaseSymbol m.tls m.dist s)) = labelOf m.dist := by
    funext s
    show labelOf 0 (clearIds (rebaseSymbol m.tls m.dist s)) = labelOf m.dist s
    unfold labelOf clearIds clearSym rebaseSymbol
    dsimp only
    rw [show (0 : Addr) = 0#64 from rfl, BitVec.add_zero]
  rw [e1, e2] at h3
  exact h3

/-- C100: with reconstruction, no mode of comparison reports a difference between the two files, in neither direction. -/
theorem C100_reconstructed_unchanged_partial (env env' : Env) (hj : SameButJunk env env') (hd : SaneDecoder env) (fl : AnalyzeFlags)
    (hrec : fl.reconstruct = true) (m : Rebase) (elf : Elf) (dbgsym : Option Elf) (hr : Rebasable env fl m elf dbgsym)
    (hy : ∀ st, gather env fl elf dbgsym = .ok st → Steady env m st ∧ CodeAnchored env m st)
    (r : AState) (h : analyze env fl elf dbgsym = .ok r) (ha : Anchored m r.symbols)
    (r' : AState) (h' : analyze env' fl (rebaseElf m elf) (dbgsym.map (rebaseElf m)) = .ok r')
    (b : Build) (hash : BitVec 64 → BitVec 32) (deps : Bool) (mode : Nat) (hm : mode < 4) :
    diff b hash r.symbols r'.symbols deps mode = .ok [] ∧ diff b hash r'.symbols r.symbols deps mode = .ok [] ∧
    patchableWith b hash r.symbols r'.symbols deps mode = .ok true ∧ patchableWith b hash r'.symbols r.symbols deps mode = .ok true := by
  obtain ⟨r1, h1, h2⟩ := C100_reconstructed_symbols_partial env env' hj hd fl hrec m elf dbgsym hr hy r h ha
  cases h'.symm.trans h1
  have same : ∀ s s' : Symbol, clearIds s' = clearIds (rebaseSymbol m.tls m.dist s) → SameIdentity s' s ∧ SameIdentity s s' := by
    intro s s' e
    have e1 : s'.id = s.id := by have := congrArg (fun x : Symbol => x.id) e; exact this
    have e2 : s'.sec = { s.sec with address := rebaseZero m.dist s.sec.address } := by have := congrArg (fun x : Symbol => x.sec) e; exact this
    have e3 : s'.refs.length = s.refs.length := by
      have := congrArg (fun x : Symbol => x.refs.length) e
      exact this.trans (List.length_map _)
    have e4 : s'.rels.length = s.rels.length := by
      have := congrArg (fun x : Symbol => x.rels.length) e
      change (s'.rels.map clearRel).length = ((s.rels.map (rebaseRel m.tls m.dist)).map clearRel).length at this
      simpa only [List.length_map] using this
    unfold SameIdentity SameSection
    rw [e1, e2, e3, e4]
    exact ⟨⟨rfl, rfl, ⟨rfl, rfl, rfl, rfl⟩, rfl, rfl⟩, ⟨rfl, rfl, ⟨rfl, rfl, rfl, rfl⟩, rfl, rfl⟩⟩
  have d1 := diff_none (t := r.symbols) (other := r'.symbols) (fun s hs => by
    have : clearIds (rebaseSymbol m.tls m.dist s) ∈ r'.symbols.map clearIds := by rw [h2]; exact List.mem_map_of_mem hs
    obtain ⟨s', hs', e⟩ := List.mem_map.mp this
    exact ⟨s', hs', (same s s' e).1⟩) b hash deps mode hm
  have d2 := diff_none (t := r'.symbols) (other := r.symbols) (fun s' hs' => by
    have : clearIds s' ∈ r.symbols.map (fun s => clearIds (rebaseSymbol m.tls m.dist s)) := by rw [← h2]; exact List.mem_map_of_mem hs'
    obtain ⟨s, hs, e⟩ := List.mem_map.mp this
    exact ⟨s, hs, (same s s' e.symm).2⟩) b hash deps mode hm
  exact ⟨d1.1, d2.1, d1.2, d2.2⟩

/-! ### Example -/

/-- A function that reads a thread-local value (there is no segment for such values, as for the check of the stack) and loops
over the instructions behind. -/
def fsCode : List (BitVec 8) := [0x64, 0x28, 0, 0, 0, 0x90, 0x0f, 0x85, 0xf9, 0xff, 0xff, 0xff, 0x8b, 0xff, 0xff, 0xff, 0xff, 0xc3]

def fsText (b : Addr) : ElfSec where
  name := ".text"
  virt_addr := b
  size := 18
  executable := true
  data := fsCode

def fsElf (b : Addr) : Elf where
  entry := b
  segments := [{ type := .load, offset := 0x100, virt_addr := b, size := 18, virt_size := 18, executable := true }]
  sections := [runTable [], fsText b, runTable [imgFunc b 18 "main" .global]]

def fsMove : Rebase where
  dist := 0x4000
  tls := false
  data := fun sec => sec.data

theorem fs_rebased : rebaseElf fsMove (fsElf 0x1000) = fsElf 0x5000 := by decide +kernel

theorem rexMoves (d : Addr) : MovesWith rexEnv d := by
  intro a bytes
  show rexDecode (a + d) bytes = (rexDecode a bytes).map (moveInsn rexEnv d)
  have h4 : ∀ v : Addr, a + d + v = a + v + d := by intro v; bv_omega
  unfold rexDecode
  split <;>
    simp [moveInsn, moveOp, rexEnv, exEnv, exKind, exBranch, rexBranch, rexLoad, Branching, h4]

theorem fs_loaded {b : Addr} {sec : ElfSec} (h : Loaded (fsElf b) sec) : sec = fsText b := by
  obtain ⟨h1, h2, _⟩ := h
  have : sec = runTable [] ∨ sec = fsText b ∨ sec = runTable [imgFunc b 18 "main" .global] := by
    simpa [fsElf] using h1
  rcases this with rfl | rfl | rfl
  · cases h2
  · rfl
  · cases h2

theorem fs_rebasable : Rebasable rexEnv { reconstruct := true } fsMove (fsElf 0x1000) none where
  decode := rexMoves _
  place := fun a bytes i h => rexEnv_sane.address h
  tls := by decide
  segments := by
    intro seg h _
    have : seg = { type := .load, offset := 0x100, virt_addr := 0x1000, size := 18, virt_size := 18, executable := true } := by
      simpa [fsElf] using h
    subst this
    exact ⟨by decide, by decide, fun _ => by decide, ⟨by decide, by decide⟩, fun h => absurd h (by decide), fun h => absurd h (by decide)⟩
  sections := by
    intro sec h ha
    have hz : sec.size ≠ 0 := by
      have : ∀ sec ∈ (fsElf 0x1000).sections, sec.size ≠ 0 := by decide
      exact this sec h
    cases fs_loaded ⟨h, ha, hz⟩
    exact ⟨by decide, by decide, ⟨by decide, by decide⟩, fun h => absurd h (by decide)⟩
  debug := fun d h => by cases h
  symbols := by
    rintro d (rfl | h) sym ⟨tbl, h1, _, _, h2⟩ sec _
    · have : ∀ tbl ∈ (fsElf 0x1000).sections, ∀ sym ∈ tbl.symbols,
          sym.type ≠ .tls ∧ Addressed 0x4000 sym.value ∧ LowRange 0x4000 sym.value sym.size := by decide
      have := this tbl h1 sym h2
      exact ⟨fun h => absurd h this.1, fun _ _ => this.2⟩
    · cases h
  relocations := fun r h => absurd h (by rw [show allRelocations (fsElf 0x1000) none = [] by decide]; exact List.not_mem_nil)
  packed := fun o h => absurd h (by rw [show allRelative (fsElf 0x1000) none = [] by decide]; exact List.not_mem_nil)
  length := fun sec h => rfl
  pointers := fun o h => absurd h (by rw [show allRelative (fsElf 0x1000) none = [] by decide]; exact List.not_mem_nil)
  inside := fun o h => absurd h (by rw [show allRelative (fsElf 0x1000) none = [] by decide]; exact List.not_mem_nil)
  code := by
    intro sec h hx
    cases fs_loaded h
    refine ⟨rfl, by decide, fun x hx hgr => ?_⟩
    have : ∀ x ∈ disasm rexEnv (fsText 0x1000).virt_addr ((fsText 0x1000).data.take (fsText 0x1000).size.toNat),
        ¬ (InsGroup.jump ∈ x.insn.groups ∨ InsGroup.call ∈ x.insn.groups) := by decide +kernel
    exact absurd hgr (this x hx)

instance (env : Env) (m : Rebase) (st : AState) : Decidable (CodeAnchored env m st) := by unfold CodeAnchored; infer_instance

theorem anchored_of_decide {env : Env} {fl : AnalyzeFlags} {m : Rebase} {elf : Elf} {dbgsym : Option Elf}
    (h : (match gather env fl elf dbgsym with
      | .ok st => decide (Steady env m st ∧ CodeAnchored env m st)
      | .error _ => true) = true) : ∀ st, gather env fl elf dbgsym = .ok st → Steady env m st ∧ CodeAnchored env m st := by
  intro st e
  rw [e] at h
  exact of_decide_eq_true h

theorem fs_steady : ∀ st, gather rexEnv { reconstruct := true } (fsElf 0x1000) none = .ok st → Steady rexEnv fsMove st ∧ CodeAnchored rexEnv fsMove st :=
  anchored_of_decide (by decide +kernel)

def fsRel (b : Addr) : Rel where
  offset := b + 1
  type := R_X86_64_TPOFF32
  addend := 0x28
  target := 0xf0000000000028
  reconstructed := true
  instruction_offset := 1
  instruction_access := 1

/-- The resulting symbol; the identifiers of positions depend on the address of the function. -/
def fsMain (b : Addr) (v w : BitVec 64) : Symbol where
  address := b
  size := 18
  name := some "main"
  type := .func
  bind := .global
  flags := SYMBOL_ENTRY
  sec := imgSec b ".text" false true 0
  id := { internal := 0x32e272ab866cc0bf, external := 0x3a08f4c31a2f90de }
  refs := [0xf0000000000028, b + 5, b + 0x10]
  rels := [fsRel b, posRel (b + 8) 1 (b + 5), { posRel (b + 0xd) 0xc (b + 0x10) with instruction_offset := 1, instruction_access := 0x11 }]
  offset_ids := [(5, v), (6, v), (12, w), (16, w)]

def fsState (b : Addr) (v w : BitVec 64) : AState where
  symbols := [fsMain b v w]
  sections := [fsText b]
  segments := (fsElf b).segments

theorem fs_ok : analyze rexEnv { reconstruct := true } (fsElf 0x1000) none = .ok (fsState 0x1000 0xaecf11505ce1b009 0x3a832aa21829323e) := by
  exact ok_of_decide (by decide +kernel)

theorem fs_moved : analyze rexEnv { reconstruct := true } (fsElf 0x5000) none = .ok (fsState 0x5000 0xaecf11432352dfc9 0xea36d0c10c15f1fe) := by
  exact ok_of_decide (by decide +kernel)

theorem fs_anchored (v w : BitVec 64) : Anchored fsMove (fsState 0x1000 v w).symbols := by
  intro s hs a ha
  cases List.mem_singleton.mp hs
  have h : a = 0xf0000000000028 ∨ a = 0x1005 ∨ a = 0x1010 := by simpa [fsMain] using ha
  rcases h with rfl | rfl | rfl
  · exact Or.inl ⟨by decide, rfl⟩
  · exact Or.inr ⟨fsMain 0x1000 v w, rfl, by show TLS.is_tls 0x1000 = _; decide⟩
  · exact Or.inr ⟨fsMain 0x1000 v w, rfl, by show TLS.is_tls 0x1000 = _; decide⟩

/-- The moved file, with other contents of the memory. -/
example (j : BitVec 4 × BitVec 8) : ∃ r', analyze { rexEnv with junk := fun _ _ => j } { reconstruct := true } (fsElf 0x5000) none = .ok r' ∧
    r'.symbols.map clearIds = (fsState 0x1000 0xaecf11505ce1b009 0x3a832aa21829323e).symbols.map (fun s => clearIds (rebaseSymbol false 0x4000 s)) := by
  have := C100_reconstructed_symbols_partial rexEnv { rexEnv with junk := fun _ _ => j } rfl rexEnv_sane { reconstruct := true } rfl fsMove
    (fsElf 0x1000) none fs_rebasable fs_steady _ fs_ok (fs_anchored _ _)
  rwa [fs_rebased] at this

example (j : BitVec 4 × BitVec 8) : ∃ r', analyze { rexEnv with junk := fun _ _ => j } { reconstruct := true } (fsElf 0x5000) none = .ok r' ∧
    r'.symbols.map (labelOf 0) = (fsState 0x1000 0xaecf11505ce1b009 0x3a832aa21829323e).symbols.map (labelOf 0x4000) := by
  have := C100_reconstructed_identifiers_partial rexEnv { rexEnv with junk := fun _ _ => j } rfl rexEnv_sane { reconstruct := true } rfl fsMove
    (fsElf 0x1000) none fs_rebasable fs_steady _ fs_ok (fs_anchored _ _)
  rwa [fs_rebased] at this

example (b : Build) (hash : BitVec 64 → BitVec 32) (deps : Bool) :
    diff b hash (fsState 0x1000 0xaecf11505ce1b009 0x3a832aa21829323e).symbols (fsState 0x5000 0xaecf11432352dfc9 0xea36d0c10c15f1fe).symbols deps 1 = .ok [] :=
  (C100_reconstructed_unchanged_partial rexEnv rexEnv rfl rexEnv_sane { reconstruct := true } rfl fsMove (fsElf 0x1000) none fs_rebasable fs_steady
    _ fs_ok (fs_anchored _ _) _ (by rw [fs_rebased]; exact fs_moved) b hash deps 1 (by decide)).1

/-! ### Where it does not hold -/

/-- C100 is false for the identifiers of positions: behind an access to the check value of the stack in a file without
thread-local storage, they depend on the address the file is linked to (the distance between the access and the closest symbol
in front of it counts). All conditions of the theorems above are met. -/
theorem C100_positions_counterexample :
    Rebasable rexEnv { reconstruct := true } fsMove (fsElf 0x1000) none ∧
    ∃ r r' s s', analyze rexEnv { reconstruct := true } (fsElf 0x1000) none = .ok r ∧ Anchored fsMove r.symbols ∧
      analyze rexEnv { reconstruct := true } (rebaseElf fsMove (fsElf 0x1000)) none = .ok r' ∧ s ∈ r.symbols ∧ s' ∈ r'.symbols ∧
      clearIds s' = clearIds (rebaseSymbol false 0x4000 s) ∧ HMap.find s.offset_ids 5 ≠ HMap.find s'.offset_ids 5 :=
  ⟨fs_rebasable, _, _, _, _, fs_ok, fs_anchored _ _, by rw [fs_rebased]; exact fs_moved, List.mem_cons_self, List.mem_cons_self,
    by decide +kernel, by decide⟩

end Bean

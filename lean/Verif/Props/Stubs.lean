import Verif.Lemmas.Stubs
import Verif.Props.Run
import Verif.Props.FindFunctions
import Verif.Props.Rebase
import Verif.Props.Targets
/-
Names of entries for imported functions (C111).
-/
namespace Bean
open Tree Spec Props

theorem stubs_mem {env : Env} {rels : List ElfRel} {steps : List Step} {l : List (Addr × Option String)} (h : Stubs env rels steps l) :
    ∀ e ∈ l, ∃ x ∈ steps, x.insn.address = e.1 := by
  induction h with
  | nil => intro e he; cases he
  | pad x rest l _ _ ih =>
    intro e he
    obtain ⟨y, h1, h2⟩ := ih e he
    exact ⟨y, List.mem_cons_of_mem _ h1, h2⟩
  | stub x pads j rest l sg ix sc disp ac rel sym _ _ _ _ _ _ _ _ _ _ _ _ ih =>
    intro e he
    rcases List.mem_cons.mp he with rfl | he
    · exact ⟨x, List.mem_cons_self, rfl⟩
    · obtain ⟨y, h1, h2⟩ := ih e he
      exact ⟨y, by simp [h1], h2⟩

/-- C111: if attributes are asked for, each entry for an imported function in a section `.plt.*` whose entries have a marker for indirect branches
is present in the result with the name of the function. What is missing: entries without marker. -/
theorem C111_names_partial (env : Env) (fl : AnalyzeFlags) (hfl : fl.hash_attributes = true) (elf : Elf) (dbgsym : Option Elf) (r : AState)
    (h : analyze env fl elf dbgsym = .ok r) (hp : ∀ a bytes i, env.decode a bytes = some i → i.address = a) (hd : DistinctSections elf)
    (hr : ∀ sec, Loaded elf sec → sec.executable = true → sec.virt_addr.toNat + sec.size.toNat < 2 ^ 64)
    (ho : ∀ sec sec', Loaded elf sec → Loaded elf sec' → sec ≠ sec' → sec.executable = true → sec'.executable = true →
      sec.virt_addr.toNat + sec.size.toNat ≤ sec'.virt_addr.toNat ∨ sec'.virt_addr.toNat + sec'.size.toNat ≤ sec.virt_addr.toNat)
    (sec : ElfSec) (hl : Loaded elf sec) (hx : sec.executable = true) (hn : hasPrefix ".plt." (some sec.name) = true)
    (l : List (Addr × Option String))
    (hs : Stubs env (allRelocations elf dbgsym) (disasm env sec.virt_addr (sec.data.take sec.size.toNat)) l) :
    ∀ a n, (a, some n) ∈ l → ∃ s ∈ r.symbols, s.address = a ∧ s.name = some n := by
  unfold analyze at h
  cases hga : gather env fl elf dbgsym with
  | error e => rw [hga] at h; cases h
  | ok st =>
    rw [hga] at h
    obtain ⟨st0, t, hg⟩ := gather_ok hga
    obtain ⟨hs0, _, hok, hf⟩ := gathered_facts hg
    obtain ⟨s1, s2, s3, hi⟩ := identify_ok hok hf h
    intro a n hm
    have hsecs : st0.sections = Tree.ofList (loadedSections elf.sections) := by
      have := hg.sections
      rw [hg.result] at this
      exact this
    have hrels : st0.relocations = Tree.ofList (allRelocations elf dbgsym) := by
      have : st.relocations = _ := congrArg FilePart.relocations (gather_part hga)
      rw [hg.result] at this
      exact this
    have hload : ∀ sec' ∈ st0.sections, Loaded elf sec' := by
      intro sec' hm
      rw [hsecs] at hm
      exact mem_loadedSections.mp (mem_ofList hm)
    have hsec : sec ∈ st0.sections := by
      rw [hsecs]
      obtain ⟨y, y1, y2⟩ := ofList_key (mem_loadedSections.mpr hl)
      have : y = sec := hd y sec (mem_loadedSections.mp (mem_ofList y1)) hl (congrArg BitVec.toNat y2)
      rw [← this]
      exact y1
    have hlab := findFunctions_labels hp hrels hsec (by rw [hsecs]; exact sorted_ofList _) hx (by unfold namesPlt; rw [hfl, hn]; rfl)
      (fun sec' hm hx' => hr sec' (hload sec' hm) hx') hs (by
        intro sec' hm hne hx' _ e he
        obtain ⟨y, y1, y2⟩ := stubs_mem hs e he
        have hlen : (sec.data.take sec.size.toNat).length ≤ sec.size.toNat := by rw [List.length_take]; omega
        have hrng := hr sec hl hx
        have := disasmN_place hp _ sec.virt_addr (sec.data.take sec.size.toNat) (by omega) y y1
        rw [← y2]
        rcases ho sec sec' hl (hload sec' hm) (Ne.symm hne) hx hx' with h | h <;> omega) hs0 hg.found
    obtain ⟨s, x1, x2⟩ := hlab.2 _ hm
    obtain ⟨x1, x3⟩ := find_mem x1
    obtain ⟨y, y1, y2⟩ := addFlags_enlarged (entry := elf.entry) (fs := st0.section_flags) x1
    have y1' : y ∈ st.symbols := by rw [hg.result]; exact y1
    obtain ⟨z, z1, z2, _⟩ := zip_mem_left hi.zip1 y1'
    have gz := y2.trans z2
    obtain ⟨f, e⟩ := hi.ids
    rcases (hashInternal_enlarged hi.ok1 hi.internal).1 z z1 with ⟨w, w1, w2⟩ | ⟨w1, w2⟩
    · have gw := gz.trans w2
      have e3 := hashExternal_closed hi.ok2.sorted hi.external
      refine ⟨setIds f (extSym env s2.global_offset_table s2.symbols s2.symbols w), ?_, gw.address.trans x3, ?_⟩
      · rw [e, e3]
        exact List.mem_map_of_mem (List.mem_map_of_mem w1)
      · show w.name = _
        rw [gw.name]
        exact x2
    · rw [gz.name, x2] at w2
      cases w2

/-! ### Example -/

attribute [-instance] BitVec.instDecidableForallBitVec BitVec.instDecidableForallBitVecSucc BitVec.instDecidableExistsBitVec
  BitVec.instDecidableExistsBitVecSucc

/-- The slots behind the code. -/
def pltGot : ElfSec := { rexData ".got" with virt_addr := 0x1010, size := 16, data := List.replicate 16 0 }

def pltRela (rels : List ElfRel) : ElfSec := { imgRela 0 with relocations := rels }

def pltLoad : ElfSeg := { rexLoadText 0x20 with writeable := true }

/-- A file with a section of entries for imported functions. -/
def pltElf (code : List (BitVec 8)) (rels : List ElfRel) : Elf where
  entry := 0x1000
  segments := [pltLoad]
  sections := [runTable [], { rexText code with name := ".plt.sec" }, pltGot, pltRela rels]

def pltRels : List ElfRel := [pltRel 0x1010 "puts", pltRel 0x1018 "exit"]

theorem plt_loaded {code : List (BitVec 8)} {rels : List ElfRel} {sec : ElfSec} (h : Loaded (pltElf code rels) sec) :
    sec = { rexText code with name := ".plt.sec" } ∨ sec = pltGot := by
  obtain ⟨h1, h2, _⟩ := h
  simp only [pltElf, List.mem_cons, List.not_mem_nil, or_false] at h1
  rcases h1 with rfl | rfl | rfl | rfl
  · cases h2
  · exact Or.inl rfl
  · exact Or.inr rfl
  · cases h2

theorem plt_distinct (rels : List ElfRel) : DistinctSections (pltElf pltSec.data rels) := by
  intro sec sec' h h' e
  revert e
  rcases plt_loaded h with rfl | rfl <;> rcases plt_loaded h' with rfl | rfl
  · intro _; rfl
  · intro e; exact absurd e (by decide +kernel)
  · intro e; exact absurd e (by decide +kernel)
  · intro _; rfl

theorem pltPlace (a : Addr) (bytes : List (BitVec 8)) (i : Insn) (h : pltEnv.decode a bytes = some i) : i.address = a := by
  change pltDecode a bytes = some i at h
  unfold pltDecode at h
  split at h <;> cases h <;> rfl

theorem plt_stubs : Stubs pltEnv pltRels (disasm pltEnv 0x1000 pltSec.data) [(0x1001, some "puts"), (0x1004, some "exit")] := by
  refine .pad _ _ _ rfl (.stub _ [] _ _ _ 0 0 1 0x0c 1 (pltRel 0x1010 "puts") _ rfl ?_ ?_ rfl ?_ ?_ rfl ?_ ?_ ?_ rfl
    (.stub _ [] _ _ _ 0 0 1 0x11 1 (pltRel 0x1018 "exit") _ rfl ?_ ?_ rfl ?_ ?_ rfl ?_ ?_ ?_ rfl .nil)) <;> decide +kernel

example (r : AState) (h : analyze pltEnv { hash_attributes := true } (pltElf pltSec.data pltRels) none = .ok r) :
    (∃ s ∈ r.symbols, s.address = 0x1001 ∧ s.name = some "puts") ∧ ∃ s ∈ r.symbols, s.address = 0x1004 ∧ s.name = some "exit" := by
  have hrels : allRelocations (pltElf pltSec.data pltRels) none = pltRels := by decide +kernel
  have := C111_names_partial pltEnv { hash_attributes := true } rfl (pltElf pltSec.data pltRels) none r h pltPlace (plt_distinct _)
    (by intro sec h _; rcases plt_loaded h with rfl | rfl <;> decide +kernel)
    (by
      intro sec sec' h h' hne hx hx'
      rcases plt_loaded h with rfl | rfl
      · rcases plt_loaded h' with rfl | rfl
        · exact absurd rfl hne
        · cases hx'
      · cases hx)
    { rexText pltSec.data with name := ".plt.sec" } (by decide +kernel) rfl (by decide +kernel) _ (by rw [hrels]; exact plt_stubs)
  exact ⟨this 0x1001 "puts" (by decide), this 0x1004 "exit" (by decide)⟩

/-- The analysis completes. -/
example : ∃ r, analyze pltEnv { hash_attributes := true } (pltElf pltSec.data pltRels) none = .ok r ∧
    decide (r.symbols.map (fun s => (s.address, s.size, s.name)) =
      [(0x1001, 3, some "puts"), (0x1004, 3, some "exit"), (0x1010, 16, none)]) = true := by
  exact ok_such (by decide +kernel)

/-! ### Where it does not hold -/

/-- C111 is false for entries without marker: all of them belong to the first one, which gets the name of the function the last one leads to. The first entry of
the file jumps to `puts`, and the second one to `exit`. -/
theorem C111_unmarked_counterexample :
    ∃ r, analyze pltEnv { hash_attributes := true } (pltElf [0xff, 0x0e, 0x90, 0xff, 0x13] pltRels) none = .ok r ∧
      decide (r.symbols.map (fun s => (s.address, s.size, s.name)) = [(0x1000, 5, some "exit"), (0x1010, 16, none)]) = true := by
  exact ok_such (by decide +kernel)

/-! ### Moved files with names of imported functions -/

def pltMove : Rebase where
  dist := 0x4000
  tls := false
  data := fun sec => sec.data

theorem pltMoves (d : Addr) : MovesWith pltEnv d := by
  intro a bytes
  show pltDecode (a + d) bytes = (pltDecode a bytes).map (moveInsn pltEnv d)
  unfold pltDecode
  split <;> simp [moveInsn, moveOp]

theorem plt_relocations {r : ElfRel} (h : r ∈ allRelocations (pltElf pltSec.data pltRels) none) : r = pltRel 0x1010 "puts" ∨ r = pltRel 0x1018 "exit" := by
  rw [show allRelocations (pltElf pltSec.data pltRels) none = pltRels by decide +kernel] at h
  simpa [pltRels] using h

theorem plt_packed : allRelative (pltElf pltSec.data pltRels) none = [] := by decide +kernel

theorem plt_rebasable : Rebasable pltEnv { hash_attributes := true } pltMove (pltElf pltSec.data pltRels) none where
  decode := pltMoves _
  place := pltPlace
  tls := by decide
  segments := by
    intro seg h _
    rw [List.mem_singleton.mp (show seg ∈ [pltLoad] from h)]
    exact ⟨by decide, by decide, fun _ => by decide, ⟨by decide, by decide⟩, fun h => absurd h (by decide), fun h => absurd h (by decide)⟩
  sections := by
    intro sec h ha
    have hz : sec.size ≠ 0 := by
      have : ∀ sec ∈ (pltElf pltSec.data pltRels).sections, sec.allocate = true → sec.size ≠ 0 := by decide
      exact this sec h ha
    rcases plt_loaded ⟨h, ha, hz⟩ with rfl | rfl
    all_goals exact ⟨by decide, by decide, ⟨by decide, by decide⟩, fun h => absurd h (by decide)⟩
  debug := fun d h => by cases h
  symbols := by
    rintro d (rfl | h) sym ⟨tbl, h1, _, _, h2⟩ sec _
    · have : ∀ tbl ∈ (pltElf pltSec.data pltRels).sections, tbl.symbols = [] := by decide
      rw [this tbl h1] at h2
      cases h2
    · cases h
  relocations := by
    intro r h
    rcases plt_relocations h with rfl | rfl
    all_goals exact ⟨by decide, by decide, fun h => absurd h (by decide), fun h => absurd h (by decide), fun h => absurd h (by decide)⟩
  packed := fun o h => absurd h (by rw [plt_packed]; exact List.not_mem_nil)
  length := fun _ _ => rfl
  pointers := fun o h => absurd h (by rw [plt_packed]; exact List.not_mem_nil)
  inside := fun o h => absurd h (by rw [plt_packed]; exact List.not_mem_nil)
  code := by
    intro sec h hx
    rcases plt_loaded h with rfl | rfl
    · refine ⟨rfl, by decide, ?_⟩
      intro x hx
      have : ∀ x ∈ disasm pltEnv 0x1000 pltSec.data, (match directTarget x.insn with
            | .ok (some t) => decide (Addressed 0x4000 t) && decide (Branching (pltEnv.kind x.insn.id))
            | _ => true) = true := by decide +kernel
      intro _ t ht
      have := this x hx
      rw [ht] at this
      simp only [Bool.and_eq_true, decide_eq_true_eq] at this
      exact ⟨this.1, fun _ _ _ => this.2⟩
    · cases hx

example (r : AState) (h : analyze pltEnv { hash_attributes := true } (pltElf pltSec.data pltRels) none = .ok r) (ha : Anchored pltMove r.symbols) :
    ∃ r', analyze pltEnv { hash_attributes := true } (rebaseElf pltMove (pltElf pltSec.data pltRels)) none = .ok r' ∧
      r'.symbols.map (labelOf 0) = r.symbols.map (labelOf 0x4000) :=
  C100_identifiers_partial pltEnv pltEnv rfl { hash_attributes := true } rfl pltMove (pltElf pltSec.data pltRels) none plt_rebasable
    (steady_of_decide (by decide +kernel)) r h ha

end Bean

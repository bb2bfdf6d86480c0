import Verif.Props.RunTls
import Verif.Props.Stubs
/-
C73 in the presence of a procedure linkage table.
-/
namespace Bean
open Tree Spec

attribute [-instance] BitVec.instDecidableForallBitVec BitVec.instDecidableForallBitVecSucc BitVec.instDecidableExistsBitVec
  BitVec.instDecidableExistsBitVecSucc

/-- A file with a section of entries for imported functions and a table of symbols. -/
def pltSyms (syms : List ElfSym) : Elf where
  entry := 0x1000
  segments := [pltLoad]
  sections := [runTable [], { rexText pltSec.data with name := ".plt.sec" }, pltGot, pltRela pltRels, runTable syms]

theorem pltSyms_loaded {syms : List ElfSym} {sec : ElfSec} (h : Loaded (pltSyms syms) sec) :
    sec = { rexText pltSec.data with name := ".plt.sec" } ∨ sec = pltGot := by
  obtain ⟨h1, h2, _⟩ := h
  simp only [pltSyms, List.mem_cons, List.not_mem_nil, or_false] at h1
  rcases h1 with rfl | rfl | rfl | rfl | rfl
  · cases h2
  · exact Or.inl rfl
  · exact Or.inr rfl
  · cases h2
  · cases h2

def pltVar : ElfSym := imgVar 0x1018 8 "slot" 2

/-- A variable outside of the section keeps its name, although names of imported functions are set. -/
example (r : AState) (h : analyze pltEnv { hash_attributes := true } (pltSyms [pltVar]) none = .ok r) :
    ∃ s ∈ r.symbols, s.address = 0x1018 ∧ 8 ≤ s.size.toNat ∧ s.name = some "slot" := by
  have entry : ∀ d e, Part (pltSyms [pltVar]) none d → TableEntry d e → e = pltVar := by
    rintro d e (rfl | hd) ⟨tbl, h1, _, _, h4⟩
    · exact (by decide : ∀ tbl ∈ (pltSyms [pltVar]).sections, ∀ e ∈ tbl.symbols, e = pltVar) tbl h1 e h4
    · cases hd
  have hno : ¬ PltCode pltEnv { hash_attributes := true } (pltSyms [pltVar]) 0x1018 := by
    rintro ⟨sec, hl, hn, hx, bytes, hb, hk⟩
    rcases pltSyms_loaded hl with rfl | rfl
    · have : bytes = pltSec.data := by
        have e : readBytes pltSec.data 0 pltSec.size = .ok pltSec.data := rfl
        exact (Except.ok.inj (e.symm.trans hb)).symm
      subst this
      rcases hk with hk | ⟨x, hx, hk⟩
      · exact absurd hk (by decide)
      · exact absurd hk ((by decide +kernel : ∀ x ∈ disasm pltEnv 0x1000 pltSec.data, (0x1018 : Addr) ≠ x.insn.address) x hx)
    · cases hx
  obtain ⟨s, h1, h2, h3, h4⟩ := C73_all_partial pltEnv _ (pltSyms [pltVar]) none r h (pltSyms [pltVar]) (Or.inl rfl) pltVar
    (by unfold TableEntry; decide) 0x1018 (Or.inl ⟨pltGot, ⟨⟨2, rfl, rfl⟩, by decide, by decide, by decide⟩, rfl⟩)
    (fun d hd e he => by rw [entry d e hd he]; decide) (fun d hd e he _ => by rw [entry d e hd he]; decide)
    (Or.inr ⟨by decide, hno⟩)
  exact ⟨s, h1, h2, h3, h4 hno "slot" (by decide) rfl (fun d hd e he _ => by rw [entry d e hd he]; exact Or.inr (Or.inr rfl))⟩

example : ∃ r, analyze pltEnv { hash_attributes := true } (pltSyms [pltVar]) none = .ok r ∧
    decide (r.symbols.map (fun s => (s.address, s.size, s.name)) =
      [(0x1001, 3, some "puts"), (0x1004, 3, some "exit"), (0x1010, 8, none), (0x1018, 8, some "slot"), (0x1020, 0, none)]) = true := by
  exact ok_such (by decide +kernel)

/-- **C73** is false for functions in a procedure linkage table: the name of the imported function replaces the declared one. -/
theorem C73_import_counterexample :
    (∃ sym, TableEntry (pltSyms [imgFunc 0x1001 3 "mine" .global]) sym ∧ DefinesAt (pltSyms [imgFunc 0x1001 3 "mine" .global]) sym 0x1001 ∧
      sym.name = some "mine") ∧
    Agree (pltSyms [imgFunc 0x1001 3 "mine" .global]) none 0x1001 "mine" ∧
    ∃ r, analyze pltEnv { hash_attributes := true } (pltSyms [imgFunc 0x1001 3 "mine" .global]) none = .ok r ∧
      decide (r.symbols.map (fun s => (s.address, s.size, s.name)) =
        [(0x1001, 3, some "puts"), (0x1004, 3, some "exit"), (0x1010, 16, none)]) = true := by
  refine ⟨⟨imgFunc 0x1001 3 "mine" .global, by unfold TableEntry; decide, ⟨_, ⟨⟨1, rfl, rfl⟩, by decide, by decide, by decide⟩, rfl⟩, rfl⟩, ?_,
    ok_such (by decide +kernel)⟩
  rintro d (rfl | hd) e ⟨tbl, h1, _, _, h4⟩ _
  · rw [(by decide : ∀ tbl ∈ (pltSyms [imgFunc 0x1001 3 "mine" .global]).sections, ∀ e ∈ tbl.symbols,
      e = imgFunc 0x1001 3 "mine" .global) tbl h1 e h4]
    exact Or.inr (Or.inr rfl)
  · cases hd

end Bean

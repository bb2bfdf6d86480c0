import Verif.Model.Header
import Verif.Props.Targets
import Verif.Model.Diff
/-
C122: only files the library can analyse have symbols, and only debug symbols of the same kind of file are used.
-/
namespace Bean.Props
open Bean Spec

/-- The machines with an analysis. -/
def Known (m : Machine) : Prop := m = .i386 ∨ m = .i486 ∨ m = .x86_64

/-- Both headers are of the same kind of file. -/
structure SameKind (h d : Header) : Prop where
  cls : h.ident_class = d.ident_class
  data : h.ident_data = d.ident_data
  ident : h.ident_version = d.ident_version
  abi : h.ident_abi = d.ident_abi
  abiversion : h.ident_abiversion = d.ident_abiversion
  type : h.type = d.type
  machine : h.machine = d.machine
  version : h.version = d.version

/-- What a build with assertions requires of a file and its debug symbols. -/
structure Suitable (cap : Capstone) (file : Binary) (dbg : Option Binary) : Prop where
  init : cap.init = true
  opens : cap.opens = true
  valid : file.header.valid = true
  cls : file.header.ident_class ≠ 0
  debug : ∀ d, dbg = some d → d.header.valid = true ∧ SameKind file.header d.header

theorem massert_debug {c : Bool} {α : Type} {f : M α} {a : α} : (massert .debug c >>= fun _ => f) = .ok a ↔ c = true ∧ f = .ok a := by
  cases c
  · exact ⟨fun h => (by cases h), fun h => by cases h.1⟩
  · exact ⟨fun h => ⟨rfl, h⟩, fun h => h.2⟩

theorem massert_release {c : Bool} {α : Type} (f : M α) : (massert .release c >>= fun _ => f) = f := by
  cases c <;> rfl

theorem massert_last {c : Bool} : massert .debug c = .ok () ↔ c = true := by
  cases c
  · exact ⟨fun h => (by cases h), fun h => by cases h⟩
  · exact ⟨fun _ => rfl, fun _ => rfl⟩

theorem checkDebug_debug {h : Header} {d : Option Header} :
    checkDebug .debug h d = .ok () ↔ ∀ x, d = some x → x.valid = true ∧ SameKind h x := by
  cases d with
  | none => exact ⟨fun _ x h => (by cases h), fun _ => rfl⟩
  | some x =>
    unfold checkDebug
    simp only [massert_debug, massert_last, beq_iff_eq]
    constructor
    · rintro ⟨h0, h1, h2, h3, h4, h5, h6, h7, h8⟩ y e
      cases e
      exact ⟨h0, h1, h2, h3, h4, h5, h6, h7, h8⟩
    · intro h
      obtain ⟨h0, h1, h2, h3, h4, h5, h6, h7, h8⟩ := h x rfl
      exact ⟨h0, h1, h2, h3, h4, h5, h6, h7, h8⟩

theorem checkDebug_release (h : Header) (d : Option Header) : checkDebug .release h d = .ok () := by
  cases d with
  | none => rfl
  | some x =>
    unfold checkDebug
    simp only [massert_release]
    cases (h.version == x.version) <;> rfl

theorem openHandle_debug {cap : Capstone} {h : Header} : openHandle .debug cap h = .ok () ↔ h.ident_class ≠ 0 ∧ cap.opens = true := by
  unfold openHandle
  rw [massert_debug, bne_iff_ne]
  refine and_congr Iff.rfl ?_
  cases cap.opens
  · exact ⟨fun h => (by cases h), fun h => by cases h⟩
  · exact ⟨fun _ => rfl, fun _ => rfl⟩

theorem bind_unit {f : M Unit} {α : Type} {g : M α} {a : α} : (f >>= fun _ => g) = .ok a ↔ f = .ok () ∧ g = .ok a := by
  cases f with
  | error e => exact ⟨fun h => (by cases h), fun h => by cases h.1⟩
  | ok u => cases u; exact ⟨fun h => ⟨rfl, h⟩, fun h => h.2⟩

theorem prepare_debug {cap : Capstone} {h : Header} {d : Option Header} : prepare .debug cap h d = .ok () ↔
    h.valid = true ∧ (∀ x, d = some x → x.valid = true ∧ SameKind h x) ∧ h.ident_class ≠ 0 ∧ cap.opens = true := by
  unfold prepare
  rw [massert_debug, bind_unit, checkDebug_debug, openHandle_debug]

theorem run_symbols {f : M AState} {t : SymTree} : (do return (← f).symbols) = Except.ok (ε := Fault) t ↔ ∃ r, f = .ok r ∧ t = r.symbols := by
  cases f with
  | error e => exact ⟨fun h => (by cases h), fun ⟨r, h, _⟩ => by cases h⟩
  | ok r => exact ⟨fun h => ⟨r, rfl, by cases h; rfl⟩, fun ⟨r', h, e⟩ => by cases h; rw [e]; rfl⟩

/-- **C122** for builds with assertions and files for the three machines (of both classes): there is a result exactly if the file and its debug symbols are suitable, and it is the one of the analysis. -/
theorem C122_assertions (env : Env) (hb : env.build = .debug) (cap : Capstone) (fl : AnalyzeFlags) (file : Binary)
    (dbg : Option Binary) (hm : Known file.header.machine) (t : SymTree) :
    construct env cap fl file dbg = .ok t ↔
      Suitable cap file dbg ∧ ∃ r, analyze (envFor env file.header) fl file.elf (dbg.map (·.elf)) = .ok r ∧ t = r.symbols := by
  unfold construct
  rw [hb]
  have hu : (match file.header.machine with
      | .i386 => analyzeX86 .debug cap (analyze (envFor env file.header) fl) file dbg
      | .i486 => analyzeX86 .debug cap (analyze (envFor env file.header) fl) file dbg
      | .x86_64 => analyzeX86 .debug cap (analyze (envFor env file.header) fl) file dbg
      | .other _ => noAnalysis .debug) = analyzeX86 .debug cap (analyze (envFor env file.header) fl) file dbg := by
    rcases hm with hm | hm | hm <;> rw [hm]
  cases hi : cap.init with
  | false => exact ⟨fun h => (by cases h), fun h => absurd (hi.symm.trans h.1.init) (by decide)⟩
  | true =>
    simp only [if_true]
    refine Iff.trans (Eq.to_iff (congrArg (· = Except.ok t) hu)) ?_
    unfold analyzeX86
    rw [bind_unit, prepare_debug, run_symbols]
    refine and_congr ⟨fun h => ?_, fun h => ?_⟩ Iff.rfl
    · exact ⟨hi, h.2.2.2, h.1, h.2.2.1, fun d e => h.2.1 d.header (by rw [e]; rfl)⟩
    · refine ⟨h.valid, ?_, h.cls, h.opens⟩
      intro x e
      cases dbg with
      | none => cases e
      | some d => cases e; exact h.debug d rfl

/-- **C122** for builds with assertions: no other machine has a result. -/
theorem C122_machine (env : Env) (hb : env.build = .debug) (cap : Capstone) (fl : AnalyzeFlags) (file : Binary)
    (dbg : Option Binary) (t : SymTree) (h : construct env cap fl file dbg = .ok t) :
    Known file.header.machine ∧
    ∀ d, dbg = some d → file.header.machine = d.header.machine := by
  unfold construct at h
  rw [hb] at h
  have used : ∀ run, analyzeX86 .debug cap run file dbg = .ok t → ∀ d, dbg = some d → file.header.machine = d.header.machine := by
    intro run h d e
    unfold analyzeX86 at h
    rw [bind_unit, prepare_debug] at h
    exact (h.1.2.1 d.header (by rw [e]; rfl)).2.machine
  split at h
  · split at h
    · exact ⟨Or.inl ‹_›, used _ h⟩
    · exact ⟨Or.inr (Or.inl ‹_›), used _ h⟩
    · exact ⟨Or.inr (Or.inr ‹_›), used _ h⟩
    · cases h
  · cases h

/-- **C122** for builds without assertions, as far as it holds: files for the three machines have the result of the analysis, whatever the headers are. -/
theorem C122_release_partial (env : Env) (hb : env.build = .release) (cap : Capstone) (fl : AnalyzeFlags) (file : Binary)
    (dbg : Option Binary) (hm : Known file.header.machine) (hi : cap.init = true) (ho : cap.opens = true) (t : SymTree) :
    construct env cap fl file dbg = .ok t ↔ ∃ r, analyze (envFor env file.header) fl file.elf (dbg.map (·.elf)) = .ok r ∧ t = r.symbols := by
  unfold construct
  have hu : (match file.header.machine with
      | .i386 => analyzeX86 .release cap (analyze (envFor env file.header) fl) file dbg
      | .i486 => analyzeX86 .release cap (analyze (envFor env file.header) fl) file dbg
      | .x86_64 => analyzeX86 .release cap (analyze (envFor env file.header) fl) file dbg
      | .other _ => noAnalysis .release) = analyzeX86 .release cap (analyze (envFor env file.header) fl) file dbg := by
    rcases hm with hm | hm | hm <;> rw [hm]
  rw [hb, hi]
  simp only [if_true]
  refine Iff.trans (Eq.to_iff (congrArg (· = Except.ok t) hu)) ?_
  unfold analyzeX86 prepare openHandle
  rw [massert_release, checkDebug_release, ho]
  simp only [bind, Except.bind, if_true]
  have : (massert .release (file.header.ident_class != 0)) = .ok () := by cases (file.header.ident_class != 0) <;> rfl
  rw [this]
  exact run_symbols

/-- **C122** is false in builds without assertions: each file for another machine (and each file, if capstone cannot be initialised) has an empty result; two of them never
differ, so one can always update the other. -/
theorem C122_empty_counterexample (env : Env) (hb : env.build = .release) (cap : Capstone) (fl : AnalyzeFlags)
    (file file' : Binary) (dbg dbg' : Option Binary) (h : cap.init = false ∨ ((∃ n, file.header.machine = .other n) ∧ ∃ n, file'.header.machine = .other n))
    (xh : BitVec 64 → BitVec 32) (deps : Bool) (mode : Nat) :
    construct env cap fl file dbg = .ok [] ∧ construct env cap fl file' dbg' = .ok [] ∧ patchableWith .release xh [] [] deps mode = .ok true := by
  have one : ∀ (file : Binary) (dbg : Option Binary), cap.init = false ∨ (∃ n, file.header.machine = .other n) → construct env cap fl file dbg = .ok [] := by
    intro file dbg h
    unfold construct
    rw [hb]
    rcases h with h | ⟨n, h⟩
    · rw [h]; rfl
    · rw [h]
      cases cap.init <;> rfl
  refine ⟨one file dbg (h.imp id (·.1)), one file' dbg' (h.imp id (·.2)), ?_⟩
  unfold patchableWith diff
  split <;> rfl

/-! ### Examples -/

def hdrFile : Binary := ⟨{}, runElf runSyms⟩

theorem hdr_ok : construct exEnv {} {} hdrFile none = .ok [runMain, runF] :=
  (C122_assertions exEnv rfl {} {} hdrFile none (.inr (.inr rfl)) _).mpr ⟨⟨rfl, rfl, rfl, by decide, fun d h => by cases h⟩, _, run_ok, rfl⟩

example : hdrFile.header.machine = .x86_64 := by
  rcases (C122_machine exEnv rfl {} {} hdrFile none _ hdr_ok).1 with h | h | h
  · cases h
  · cases h
  · exact h

/-- Another interface of the operating system in the header of the debug symbols: no result. -/
example (t : SymTree) : construct exEnv {} {} hdrFile (some ⟨{ ident_abi := 3 }, runElf []⟩) ≠ .ok t := by
  intro h
  exact absurd (((C122_assertions exEnv rfl {} {} hdrFile _ (.inr (.inr rfl)) t).mp h).1.debug _ rfl).2.abi (by decide)

def relEnv : Env := { exEnv with build := .release }

/-- In a build without assertions debug symbols of a file for another machine are used. -/
example : ∃ t, construct relEnv {} {} hdrFile (some ⟨{ machine := .other 183 }, runElf []⟩) = .ok t := by
  obtain ⟨r, h, _⟩ := ok_such (m := analyze relEnv {} (runElf runSyms) (some (runElf []))) (P := fun _ => true) (by decide +kernel)
  exact ⟨r.symbols, (C122_release_partial relEnv rfl {} {} hdrFile _ (.inr (.inr rfl)) rfl rfl _).mpr ⟨r, h, rfl⟩⟩

example : ∃ file file' : Binary, file.elf.entry ≠ file'.elf.entry ∧ (∃ n, file.header.machine = .other n) ∧ ∃ n, file'.header.machine = .other n :=
  ⟨⟨{ machine := .other 183 }, runElf []⟩, ⟨{ machine := .other 183 }, { runElf [] with entry := 1 }⟩, by decide, ⟨_, rfl⟩, ⟨_, rfl⟩⟩

/-- The symbols of another build of the program: `main` is followed by another function. -/
def foreignSyms : List ElfSym := [runFunc 0x1000 2 "main" .global, runFunc 0x1002 4 "stranger" .global]

/-- **C122** is false in all builds for debug symbols of another build of the same kind of file: nothing tells them apart, and functions of the other file become part of the result. -/
theorem C122_foreign_counterexample :
    SameKind hdrFile.header ({} : Header) ∧ ∃ t, construct exEnv {} {} hdrFile (some ⟨{}, runElf foreignSyms⟩) = .ok t ∧
      decide (∃ s ∈ t, s.address = 0x1002 ∧ s.name = some "stranger") = true ∧
      decide (∀ tbl ∈ hdrFile.elf.sections, ∀ e ∈ tbl.symbols, e.name ≠ some "stranger") = true := by
  refine ⟨⟨rfl, rfl, rfl, rfl, rfl, rfl, rfl, rfl⟩, ?_⟩
  obtain ⟨r, h, h1⟩ := ok_such (m := analyze exEnv {} (runElf runSyms) (some (runElf foreignSyms)))
    (P := fun r => decide (∃ s ∈ r.symbols, s.address = 0x1002 ∧ s.name = some "stranger")) (by decide +kernel)
  exact ⟨r.symbols, (C122_assertions exEnv rfl {} {} hdrFile _ (.inr (.inr rfl)) _).mpr ⟨⟨rfl, rfl, rfl, by decide, fun d h => by cases h; exact ⟨rfl, ⟨rfl, rfl, rfl, rfl, rfl, rfl, rfl, rfl⟩⟩⟩, r, h, rfl⟩,
    h1, by decide +kernel⟩

end Bean.Props

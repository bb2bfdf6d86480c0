import Verif.Lemmas.ClearUse
import Verif.Lemmas.ClearUpdate
import Verif.Props.Run
import Verif.Model.Update
/-
C47: the members of relocations that the constructors do not set.
-/
namespace Bean.Props
open Bean Bean.Spec

/-- The environments differ only in the content of members that are not set. -/
def SameButJunk (env env' : Env) : Prop := { env with junk := env'.junk } = env'

theorem sameButJunk_env0 {env env' : Env} (h : SameButJunk env env') : env0 env = env0 env' := by
  unfold SameButJunk at h
  rw [← h]
  rfl

theorem gather_same {env env' : Env} (h : SameButJunk env env') (fl : AnalyzeFlags) (elf : Elf) (dbgsym : Option Elf) :
    gather env fl elf dbgsym = gather env' fl elf dbgsym := by
  rw [← gather_env0, sameButJunk_env0 h, gather_env0]

theorem ok_then {α β : Type} (a : α) (f : α → M β) : (Except.ok a >>= f) = f a := rfl

theorem error_then {α β : Type} (e : Fault) (f : α → M β) : ((.error e : M α) >>= f) = .error e := rfl

/-- C47: apart from the members themselves the analysis has the same outcome, be it symbols or a failure. -/
theorem C47_analysis_partial (env env' : Env) (hj : SameButJunk env env') (fl : AnalyzeFlags) (hr : fl.reconstruct = false)
    (elf : Elf) (dbgsym : Option Elf) :
    (analyze env fl elf dbgsym).map (fun r => r.symbols.map clearSym) =
      (analyze env' fl elf dbgsym).map (fun r => r.symbols.map clearSym) := by
  unfold analyze
  rw [gather_same hj]
  cases gather env' fl elf dbgsym with
  | error e => rw [error_then, error_then]
  | ok st =>
    have h : (identify env fl st).map clearState = (identify env' fl st).map clearState := by
      rw [identify_clear env fl hr, identify_clear env' fl hr, sameButJunk_env0 hj]
    have h2 : ∀ m : M AState, m.map (fun r => r.symbols.map clearSym) = (m.map clearState).map AState.symbols := by
      intro m
      cases m <;> rfl
    rw [ok_then, ok_then, h2, h2, h]

/-- C47: with reconstruction of relocations the symbols are the same apart from the members and the identifiers of
positions in functions. -/
theorem C47_reconstructed_partial (env env' : Env) (hj : SameButJunk env env') (fl : AnalyzeFlags) (elf : Elf)
    (dbgsym : Option Elf) (r r' : AState) (h : analyze env fl elf dbgsym = .ok r) (h' : analyze env' fl elf dbgsym = .ok r') :
    r.symbols.map clearIds = r'.symbols.map clearIds := by
  unfold analyze at h h'
  rw [← gather_same hj] at h'
  cases hst : gather env fl elf dbgsym with
  | error e => rw [hst] at h; cases h
  | ok st =>
    rw [hst, ok_then] at h h'
    obtain ⟨_, _, hg⟩ := gather_ok hst
    obtain ⟨_, _, hok, hf⟩ := gathered_facts hg
    obtain ⟨s1, s2, s3, hi⟩ := identify_ok hok hf h
    obtain ⟨s1', s2', s3', hi'⟩ := identify_ok hok hf h'
    have q1 : s1 = s1' := by
      rcases hi.first with ⟨f1, e1⟩ | ⟨f1, e1⟩ <;> rcases hi'.first with ⟨f2, e2⟩ | ⟨f2, e2⟩
      · rw [← reconstruct_env0, sameButJunk_env0 hj, reconstruct_env0] at e1
        exact Except.ok.inj (e1.symm.trans e2)
      · rw [f1] at f2; cases f2
      · rw [f1] at f2; cases f2
      · rw [e1, e2]
    subst q1
    have q2 : clearState s2 = clearState s2' := by
      have e := hashInternal_clear env fl s1
      have e' := hashInternal_clear env' fl s1
      rw [hi.internal] at e
      rw [hi'.internal, ← sameButJunk_env0 hj, ← e] at e'
      exact (Except.ok.inj e').symm
    have q3 : clearState s3 = clearState s3' := by
      have e := hashExternal_clear env s2
      have e' := hashExternal_clear env' s2'
      rw [hi.external] at e
      rw [hi'.external, ← sameButJunk_env0 hj, ← q2, ← e] at e'
      exact (Except.ok.inj e').symm
    obtain ⟨f, hr⟩ := hi.ids
    obtain ⟨f', hr'⟩ := hi'.ids
    have q4 : s3.symbols.map clearSym = s3'.symbols.map clearSym := congrArg AState.symbols q3
    have q5 : ∀ (f : Addr → List (Addr × BitVec 64)) (t : SymTree), (t.map (setIds f)).map clearIds = (t.map clearSym).map clearIds := by
      intro f t
      rw [List.map_map, List.map_map]
      refine List.map_congr_left fun s _ => ?_
      unfold Function.comp clearIds clearSym setIds
      simp only [List.map_map]
      congr 1
      refine List.map_congr_left fun r _ => ?_
      unfold Function.comp clearRel
      split
      · rfl
      · rename_i hr
        simp only [hr]
    rw [hr, hr']
    change (s3.symbols.map (setIds f)).map clearIds = (s3'.symbols.map (setIds f')).map clearIds
    rw [q5, q5, q4]

/-- C47: the mapping of two files analysed without reconstruction is the same. -/
theorem C47_map (env env' : Env) (hj : SameButJunk env env') (b : Build) (h : BitVec 64 → BitVec 32) (fl : AnalyzeFlags)
    (hr : fl.reconstruct = false) (names : Bool) (elf1 elf2 : Elf) (dbg1 dbg2 : Option Elf) (r1 r2 r1' r2' : AState)
    (h1 : analyze env fl elf1 dbg1 = .ok r1) (h2 : analyze env fl elf2 dbg2 = .ok r2)
    (h1' : analyze env' fl elf1 dbg1 = .ok r1') (h2' : analyze env' fl elf2 dbg2 = .ok r2') :
    map b h r1.symbols r2.symbols names = map b h r1'.symbols r2'.symbols names := by
  have e1 := C47_analysis_partial env env' hj fl hr elf1 dbg1
  have e2 := C47_analysis_partial env env' hj fl hr elf2 dbg2
  rw [h1, h1'] at e1
  rw [h2, h2'] at e2
  replace e1 : r1.symbols.map clearSym = r1'.symbols.map clearSym := Except.ok.inj e1
  replace e2 : r2.symbols.map clearSym = r2'.symbols.map clearSym := Except.ok.inj e2
  have n : ∀ {env r elf dbg}, analyze env fl elf dbg = .ok r → ∀ s ∈ r.symbols, s.offset_ids = [] := by
    intro env r elf dbg h
    obtain ⟨_, st, _, s1, s2, s3, _, hi⟩ := analyze_ok h
    rcases hi.last with ⟨hl, _⟩ | ⟨_, rfl⟩
    · rw [hr] at hl; cases hl
    · exact hi.noIds
  rw [← map_clear b h r1.symbols r2.symbols names (n h1), ← map_clear b h r1'.symbols r2'.symbols names (n h1')]
  rw [e1, e2]

/-- C47: so are the differences, apart from the members. -/
theorem C47_diff (env env' : Env) (hj : SameButJunk env env') (b : Build) (h : BitVec 64 → BitVec 32) (fl : AnalyzeFlags)
    (hr : fl.reconstruct = false) (deps : Bool) (mode : Nat) (elf1 elf2 : Elf) (dbg1 dbg2 : Option Elf) (r1 r2 r1' r2' : AState)
    (h1 : analyze env fl elf1 dbg1 = .ok r1) (h2 : analyze env fl elf2 dbg2 = .ok r2)
    (h1' : analyze env' fl elf1 dbg1 = .ok r1') (h2' : analyze env' fl elf2 dbg2 = .ok r2') :
    (diff b h r1.symbols r2.symbols deps mode).map (List.map clearSym) =
      (diff b h r1'.symbols r2'.symbols deps mode).map (List.map clearSym) := by
  have e1 := C47_analysis_partial env env' hj fl hr elf1 dbg1
  have e2 := C47_analysis_partial env env' hj fl hr elf2 dbg2
  rw [h1, h1'] at e1
  rw [h2, h2'] at e2
  replace e1 : r1.symbols.map clearSym = r1'.symbols.map clearSym := Except.ok.inj e1
  replace e2 : r2.symbols.map clearSym = r2'.symbols.map clearSym := Except.ok.inj e2
  rw [← diff_clear, ← diff_clear, e1, e2]

/-- C47: an update that treats branches inside of a function like other relocations and does not restrict itself to
branches does the same calls with the same answers, apart from the members and from what is calculated with them. -/
theorem C47_update_partial (env env' : Env) (hj : SameButJunk env env') (b : Build) (h : BitVec 64 → BitVec 32)
    (fl : AnalyzeFlags) (hr : fl.reconstruct = false) (elf1 elf2 : Elf) (dbg1 dbg2 : Option Elf) (r1 r2 r1' r2' : AState)
    (h1 : analyze env fl elf1 dbg1 = .ok r1) (h2 : analyze env fl elf2 dbg2 = .ok r2)
    (h1' : analyze env' fl elf1 dbg1 = .ok r1') (h2' : analyze env' fl elf2 dbg2 = .ok r2')
    (flags : BitVec 32) (hl : (UpdateFlags.ofWord flags).ignore_local_rels = true)
    (ho : (UpdateFlags.ofWord flags).only_branch_rels = false) (cb : Callbacks) (hcb : PlainCallbacks cb)
    (from_base to_base : Addr) :
    (process b h flags cb r1.symbols r2.symbols from_base to_base).1.map plainEvent =
        (process b h flags cb r1'.symbols r2'.symbols from_base to_base).1.map plainEvent ∧
      (process b h flags cb r1.symbols r2.symbols from_base to_base).2 =
        (process b h flags cb r1'.symbols r2'.symbols from_base to_base).2 := by
  have e1 := C47_analysis_partial env env' hj fl hr elf1 dbg1
  have e2 := C47_analysis_partial env env' hj fl hr elf2 dbg2
  rw [h1, h1'] at e1
  rw [h2, h2'] at e2
  replace e1 : r1.symbols.map clearSym = r1'.symbols.map clearSym := Except.ok.inj e1
  replace e2 : r2.symbols.map clearSym = r2'.symbols.map clearSym := Except.ok.inj e2
  unfold process
  simp only [C47_map env env' hj b h fl hr _ elf1 elf2 dbg1 dbg2 r1 r2 r1' r2' h1 h2 h1' h2']
  cases map b h r1'.symbols r2'.symbols (UpdateFlags.ofWord flags).use_symbol_names with
  | error e => exact ⟨rfl, rfl⟩
  | ok mapping => exact processWith_plain hcb rfl rfl rfl rfl rfl rfl e2 hl ho e1

/-! Examples: a file with a pointer in its data. -/

/-- The data, a pointer to the first function. -/
def junkData : ElfSec where
  name := ".data"
  virt_addr := 0x2000
  size := 8
  writeable := true
  data := zeros 8

/-- Its relocation. -/
def junkRela : ElfSec where
  type := .rela
  name := ".rela.dyn"
  virt_addr := 0
  size := 24
  allocate := false
  relocations := [{ offset := 0x2000, type := R_X86_64_RELATIVE, addend := 0x1000 }]

def junkVar : ElfSym where
  value := 0x2000
  size := 8
  name := some "v"
  type := .object
  bind := .global
  shndx := .index 2

def junkElf : Elf where
  entry := 0x1000
  segments := [{ type := .load, offset := 0x1000, virt_addr := 0x1000, size := 6, virt_size := 6, executable := true },
    { type := .load, offset := 0x2000, virt_addr := 0x2000, size := 8, virt_size := 8, writeable := true }]
  sections := [runTable [], runText, junkData, junkRela, runTable (runSyms ++ [junkVar])]

/-- What the two members happen to contain. -/
def junkEnv (j : BitVec 4 × BitVec 8) : Env := { exEnv with junk := fun _ _ => j }

theorem junk_same {j j' : BitVec 4 × BitVec 8} : SameButJunk (junkEnv j) (junkEnv j') := rfl

/-- A relocation is always applied. -/
def junkCallbacks : Callbacks where
  redirect := none
  relocate := some (fun _ _ _ _ => true)
  skipmsg := false

/-- The number of relocations an update of the file to itself changes. -/
def junkCount (flags : BitVec 32) (j : BitVec 4 × BitVec 8) : M (Nat × Option Fault) := do
  let r ← analyze (junkEnv j) {} junkElf none
  let t := process .debug (fun x => x.setWidth 32) flags junkCallbacks r.symbols r.symbols 0x10000 0x20000
  return (t.1.length, t.2)

theorem junk_run {flags : BitVec 32} {j : BitVec 4 × BitVec 8} {n : Nat} (h : junkCount flags j = .ok (n, none)) :
    ∃ r, analyze (junkEnv j) {} junkElf none = .ok r ∧
      (process .debug (fun x => x.setWidth 32) flags junkCallbacks r.symbols r.symbols 0x10000 0x20000).1.length = n ∧
      (process .debug (fun x => x.setWidth 32) flags junkCallbacks r.symbols r.symbols 0x10000 0x20000).2 = none := by
  unfold junkCount at h
  cases hr : analyze (junkEnv j) {} junkElf none with
  | error e => rw [hr] at h; cases h
  | ok r =>
    rw [hr] at h
    have := Except.ok.inj h
    exact ⟨r, rfl, congrArg Prod.fst this, congrArg Prod.snd this⟩

/-- C47: an update that is restricted to branches (`FLAG_ONLY_BRANCH_RELS`) changes the pointer or does not, depending on
what is in memory the constructor of the relocation leaves as it is. -/
theorem C47_counterexample : ∃ r r', SameButJunk (junkEnv (0, 0)) (junkEnv (0, 4)) ∧
    analyze (junkEnv (0, 0)) {} junkElf none = .ok r ∧ analyze (junkEnv (0, 4)) {} junkElf none = .ok r' ∧
    (process .debug (fun x => x.setWidth 32) 4 junkCallbacks r.symbols r.symbols 0x10000 0x20000).1.length = 0 ∧
    (process .debug (fun x => x.setWidth 32) 4 junkCallbacks r'.symbols r'.symbols 0x10000 0x20000).1.length = 1 := by
  have h : junkCount 4 (0, 0) = .ok (0, none) := ok_of_decide (by decide +kernel)
  have h' : junkCount 4 (0, 4) = .ok (1, none) := ok_of_decide (by decide +kernel)
  obtain ⟨r, e1, e2, _⟩ := junk_run h
  obtain ⟨r', e1', e2', _⟩ := junk_run h'
  exact ⟨r, r', rfl, e1, e1', e2, e2'⟩

/-! Files with a pointer in the code. -/

/-- Relocation of a pointer in the code to a position of the same function. -/
def textRela : ElfSec where
  type := .rela
  name := ".rela.dyn"
  virt_addr := 0
  size := 24
  allocate := false
  relocations := [{ offset := 0x1002, type := R_X86_64_RELATIVE, addend := 0x1004 }]

/-- The function; a constant behind the pointer differs between the versions. -/
def textCode (v : BitVec 8) : ElfSec where
  name := ".text"
  virt_addr := 0x1000
  size := 13
  executable := true
  data := [0xc7, 1, 0xc7, 2, 0xc7, 3, 0xc7, 4, 0xc7, 5, 0xc7, v, 0xc3]

def textElf (v : BitVec 8) : Elf where
  entry := 0x1000
  segments := [{ type := .load, offset := 0x1000, virt_addr := 0x1000, size := 13, virt_size := 13, executable := true }]
  sections := [runTable [], textCode v, textRela, runTable [runFunc 0x1000 13 "main" .global]]

/-- Mapping of two versions, and the numbers of identifiers of positions. -/
def textMap (j : BitVec 4 × BitVec 8) : M (List (Addr × Addr) × List Nat) := do
  let r1 ← analyze (junkEnv j) { reconstruct := true } (textElf 1) none
  let r2 ← analyze (junkEnv j) { reconstruct := true } (textElf 2) none
  let m ← map .debug (fun x => x.setWidth 32) r1.symbols r2.symbols false
  return (m, r1.symbols.map (fun s => s.offset_ids.length))

theorem text_run {j : BitVec 4 × BitVec 8} {m : List (Addr × Addr)} {n : List Nat} (h : textMap j = .ok (m, n)) :
    ∃ r1 r2, analyze (junkEnv j) { reconstruct := true } (textElf 1) none = .ok r1 ∧
      analyze (junkEnv j) { reconstruct := true } (textElf 2) none = .ok r2 ∧
      map .debug (fun x => x.setWidth 32) r1.symbols r2.symbols false = .ok m ∧ r1.symbols.map (fun s => s.offset_ids.length) = n := by
  unfold textMap at h
  cases h1 : analyze (junkEnv j) { reconstruct := true } (textElf 1) none with
  | error e => rw [h1] at h; cases h
  | ok r1 =>
    rw [h1, ok_then] at h
    cases h2 : analyze (junkEnv j) { reconstruct := true } (textElf 2) none with
    | error e => rw [h2] at h; cases h
    | ok r2 =>
      rw [h2, ok_then] at h
      cases h3 : map .debug (fun x => x.setWidth 32) r1.symbols r2.symbols false with
      | error e => rw [h3] at h; cases h
      | ok m' =>
        rw [h3, ok_then] at h
        have := Except.ok.inj h
        exact ⟨r1, r2, rfl, rfl, by rw [← show m' = m from congrArg Prod.fst this]; exact h3, congrArg Prod.snd this⟩

/-- C47: with reconstruction of relocations the mapping of two versions contains a position inside of a function or does not,
and the function has identifiers for positions or has none, depending on what is in memory the constructor of the
relocation leaves as it is. -/
theorem C47_map_counterexample : ∃ r1 r2 r1' r2' m m', SameButJunk (junkEnv (0, 0)) (junkEnv (0, 20)) ∧
    analyze (junkEnv (0, 0)) { reconstruct := true } (textElf 1) none = .ok r1 ∧
    analyze (junkEnv (0, 0)) { reconstruct := true } (textElf 2) none = .ok r2 ∧
    analyze (junkEnv (0, 20)) { reconstruct := true } (textElf 1) none = .ok r1' ∧
    analyze (junkEnv (0, 20)) { reconstruct := true } (textElf 2) none = .ok r2' ∧
    map .debug (fun x => x.setWidth 32) r1.symbols r2.symbols false = .ok m ∧
    map .debug (fun x => x.setWidth 32) r1'.symbols r2'.symbols false = .ok m' ∧
    m = [(0x1000, 0x1000)] ∧ m' = [(0x1000, 0x1000), (0x1004, 0x1004)] ∧
    r1.symbols.map (fun s => s.offset_ids.length) = [0, 0] ∧ r1'.symbols.map (fun s => s.offset_ids.length) = [2, 0] := by
  have h : textMap (0, 0) = .ok ([(0x1000, 0x1000)], [0, 0]) := ok_of_decide (by decide +kernel)
  have h' : textMap (0, 20) = .ok ([(0x1000, 0x1000), (0x1004, 0x1004)], [2, 0]) := ok_of_decide (by decide +kernel)
  obtain ⟨r1, r2, e1, e2, e3, e4⟩ := text_run h
  obtain ⟨r1', r2', e1', e2', e3', e4'⟩ := text_run h'
  exact ⟨r1, r2, r1', r2', _, _, junk_same, e1, e2, e1', e2', e3, e3', rfl, rfl, e4, e4'⟩

/-- An update without the restriction changes the pointer in both cases. -/
example : ∃ r r', analyze (junkEnv (0, 0)) {} junkElf none = .ok r ∧ analyze (junkEnv (3, 7)) {} junkElf none = .ok r' ∧
    (process .debug (fun x => x.setWidth 32) 0x10 junkCallbacks r.symbols r.symbols 0x10000 0x20000).1.length = 1 ∧
    (process .debug (fun x => x.setWidth 32) 0x10 junkCallbacks r.symbols r.symbols 0x10000 0x20000).1.map plainEvent =
      (process .debug (fun x => x.setWidth 32) 0x10 junkCallbacks r'.symbols r'.symbols 0x10000 0x20000).1.map plainEvent := by
  obtain ⟨r, h1, h2, _⟩ := junk_run (flags := 0x10) (j := (0, 0)) (n := 1) (ok_of_decide (by decide +kernel))
  obtain ⟨r', h1', _, _⟩ := junk_run (flags := 0x10) (j := (3, 7)) (n := 1) (ok_of_decide (by decide +kernel))
  refine ⟨r, r', h1, h1', h2, ?_⟩
  refine (C47_update_partial _ _ junk_same .debug _ {} rfl junkElf junkElf none none r r r' r' h1 h1 h1' h1' 0x10 (by decide)
    (by decide) junkCallbacks ⟨?_, ?_⟩ _ _).1
  · intro f hf; cases hf
  · intro f hf; cases hf; intros; rfl

/-- The mapping and the differences of the file to itself. -/
example : ∃ r r', analyze (junkEnv (0, 0)) {} junkElf none = .ok r ∧ analyze (junkEnv (3, 7)) {} junkElf none = .ok r' ∧
    map .debug (fun x => x.setWidth 32) r.symbols r.symbols false =
      map .debug (fun x => x.setWidth 32) r'.symbols r'.symbols false ∧
    (diff .debug (fun x => x.setWidth 32) r.symbols r.symbols true 2).map (List.map clearSym) =
      (diff .debug (fun x => x.setWidth 32) r'.symbols r'.symbols true 2).map (List.map clearSym) ∧
    r.symbols.map clearIds = r'.symbols.map clearIds := by
  obtain ⟨r, h1, h2, _⟩ := junk_run (flags := 0x10) (j := (0, 0)) (n := 1) (ok_of_decide (by decide +kernel))
  obtain ⟨r', h1', _, _⟩ := junk_run (flags := 0x10) (j := (3, 7)) (n := 1) (ok_of_decide (by decide +kernel))
  exact ⟨r, r', h1, h1', C47_map _ _ junk_same _ _ {} rfl _ _ _ _ _ _ _ _ _ h1 h1 h1' h1',
    C47_diff _ _ junk_same _ _ {} rfl _ _ _ _ _ _ _ _ _ _ h1 h1 h1' h1', C47_reconstructed_partial _ _ junk_same _ _ _ _ _ h1 h1'⟩

end Bean.Props

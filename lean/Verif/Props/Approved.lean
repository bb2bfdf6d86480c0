import Verif.Spec.Approved
import Verif.Props.Patchable
import Verif.Props.FileData
import Verif.Props.Run
import Verif.Props.Targets
/-
Property theorems C123: what an approved update means for the variables of the running program.
-/
namespace Bean.Props
open Bean Spec

/-- The initial value of a variable (zeros in place of what is subject to relocations): its content in the file, or
zeros. -/
inductive Starts (env : Env) (elf : Elf) (s : Symbol) : List (BitVec 8) → Prop
  | filled (hi : Filled elf s) (hf : DataFits env (gotAddress elf) s) (bytes : List (BitVec 8)) (hb : ContentOf elf s bytes) :
      Starts env elf s (maskBytes env s.rels ((TLS.virt_addr s.address).toNat + gotSkip (gotAddress elf) (TLS.virt_addr s.address))
        (bytes.drop (gotSkip (gotAddress elf) (TLS.virt_addr s.address))))
  | zero (sec : ElfSec) (hs : SectionOf elf s.address sec) (hn : sec.type = .nobits) : Starts env elf s (zeros s.size.toNat)

theorem Variable.blocks {s : Symbol} (h : Variable s) : Blocks s :=
  .inl ⟨h.writeable, h.relro, h.dynamic, h.frames⟩

theorem same_internal {a b : Symbol} (h : SameIdentity a b) : SameInternal a b := ⟨h.1, h.2.2.1⟩

/-- A symbol without counterpart has a representative in the report. -/
theorem unmatched_reported (b : Build) (h : BitVec 64 → BitVec 32) (this other : SymTree) (ho : Ordered this) (deps : Bool)
    (mode : Nat) (hm : mode < 4) (r : SymTree) (hr : diff b h this other deps mode = .ok r) (s : Symbol) (hs : s ∈ this)
    (hz : s.size ≠ 0) (hn : ∀ o ∈ other, ¬ Matches mode o s) : ∃ q ∈ r, SameSection q.sec s.sec := by
  have hso := (ordered_iff_sorted this).mp ho
  have ext : (∀ o ∈ other, ¬ SameIdentity o s) → ∃ q ∈ diff_extended h this other deps, SameIdentity q s :=
    fun hc => diffT_changed (extCmp_lawful h) deps ⟨hs, hz, hc⟩
  obtain ⟨r₀, r₁, h0, h1, m1⟩ := C11_writeable_internal b h this other ho deps
  obtain ⟨r₀', r₂, h0', h2, m2⟩ := C12_executable_extended b h this other ho deps
  rw [h0] at h0'; cases h0'
  have in0 : ∀ q ∈ diff_extended h this other deps, q ∈ r₀ := by
    intro q hq
    simp only [diff, Except.ok.injEq] at h0
    rw [← h0]
    exact (mem_mode0 h hso deps q).mpr hq
  have low : ∀ q, SameIdentity q s → (∀ o ∈ other, ¬ SameInternal o s) → ∀ o ∈ other, ¬ SameInternal o q :=
    fun q hq hc o hm ho => hc o hm ((intCmp_lawful h).trans o q s ho (same_internal hq))
  have weak : (∀ o ∈ other, ¬ SameInternal o s) → ∀ o ∈ other, ¬ SameIdentity o s :=
    fun hc o hm hi => hc o hm (same_internal hi)
  match mode, hm with
  | 0, _ =>
    rw [h0] at hr; cases hr
    obtain ⟨q, hq, e⟩ := ext hn
    exact ⟨q, in0 q hq, e.2.2.1⟩
  | 1, _ =>
    rw [h1] at hr; cases hr
    unfold Matches at hn
    cases hw : s.sec.writeable with
    | true =>
      simp only [hw, if_true] at hn
      obtain ⟨q, hq, e⟩ := ext (weak hn)
      exact ⟨q, (m1 q).mpr ⟨in0 q hq, .inr (low q e hn)⟩, e.2.2.1⟩
    | false =>
      simp only [hw, Bool.false_eq_true, if_false] at hn
      obtain ⟨q, hq, e⟩ := ext hn
      exact ⟨q, (m1 q).mpr ⟨in0 q hq, .inl (e.2.2.1.1.trans hw)⟩, e.2.2.1⟩
  | 2, _ =>
    rw [h2] at hr; cases hr
    unfold Matches at hn
    cases hw : s.sec.executable with
    | true =>
      simp only [hw, if_true] at hn
      obtain ⟨q, hq, e⟩ := ext hn
      exact ⟨q, (m2 q).mpr ⟨in0 q hq, .inl (e.2.2.1.2.1.trans hw)⟩, e.2.2.1⟩
    | false =>
      simp only [hw, Bool.false_eq_true, if_false] at hn
      obtain ⟨q, hq, e⟩ := ext (weak hn)
      exact ⟨q, (m2 q).mpr ⟨in0 q hq, .inr (low q e hn)⟩, e.2.2.1⟩
  | 3, _ =>
    simp only [diff, Except.ok.injEq] at hr; subst hr
    obtain ⟨q, hq, e⟩ := diffT_changed (intCmp_lawful h) deps (s := s) ⟨hs, hz, hn⟩
    exact ⟨q, (mem_mode3 h hso deps q).mpr hq, e.2⟩

/-- Without dependencies everything reported has no counterpart. -/
theorem reported_unmatched (b : Build) (h : BitVec 64 → BitVec 32) (this other : SymTree) (ho : Ordered this)
    (mode : Nat) (hm : mode < 4) (r : SymTree) (hr : diff b h this other false mode = .ok r) (s : Symbol) (hs : s ∈ r) :
    s ∈ this ∧ s.size ≠ 0 ∧ ∀ o ∈ other, ¬ Matches mode o s := by
  have hso := (ordered_iff_sorted this).mp ho
  obtain ⟨r₀, h0, -, hch, -⟩ := C06_diff_api b h this other ho
  obtain ⟨r₀', r₁, h0', h1, m1⟩ := C11_writeable_internal b h this other ho false
  rw [h0] at h0'; cases h0'
  obtain ⟨r₀', r₂, h0', h2, m2⟩ := C12_executable_extended b h this other ho false
  rw [h0] at h0'; cases h0'
  match mode, hm with
  | 0, _ =>
    rw [h0] at hr; cases hr
    exact hch s hs
  | 1, _ =>
    rw [h1] at hr; cases hr
    obtain ⟨a, c⟩ := (m1 s).mp hs
    obtain ⟨d1, d2, d3⟩ := hch s a
    refine ⟨d1, d2, fun o ho hc => ?_⟩
    unfold Matches at hc
    cases hw : s.sec.writeable with
    | true =>
      simp only [hw, if_true] at hc
      rcases c with c | c
      · rw [hw] at c; cases c
      · exact c o ho hc
    | false =>
      simp only [hw, Bool.false_eq_true, if_false] at hc
      exact d3 o ho hc
  | 2, _ =>
    rw [h2] at hr; cases hr
    obtain ⟨a, c⟩ := (m2 s).mp hs
    obtain ⟨d1, d2, d3⟩ := hch s a
    refine ⟨d1, d2, fun o ho hc => ?_⟩
    unfold Matches at hc
    cases hw : s.sec.executable with
    | true =>
      simp only [hw, if_true] at hc
      exact d3 o ho hc
    | false =>
      simp only [hw, Bool.false_eq_true, if_false] at hc
      rcases c with c | c
      · rw [hw] at c; cases c
      · exact c o ho hc
  | 3, _ =>
    simp only [diff, Except.ok.injEq] at hr; subst hr
    obtain ⟨a, -⟩ := (C06_diff_internal_exact h this other ho none).1 s ((mem_mode3 h hso false s).mp hs)
    exact a

theorem diff_total (b : Build) (h : BitVec 64 → BitVec 32) (this other : SymTree) (deps : Bool) (mode : Nat) (hm : mode < 4) :
    ∃ r, diff b h this other deps mode = .ok r := by
  match mode, hm with
  | 0, _ => exact ⟨_, rfl⟩
  | 1, _ => exact ⟨_, rfl⟩
  | 2, _ => exact ⟨_, rfl⟩
  | 3, _ => exact ⟨_, rfl⟩

/-- C123: an update is approved only if each sized symbol that must not change has a counterpart in the old version; without
dependencies this is also sufficient. -/
theorem C123_verdict (b : Build) (h : BitVec 64 → BitVec 32) (new old : SymTree) (ho : Ordered new) (mode : Nat) (hm : mode < 4) :
    (∀ deps, patchableWith b h new old deps mode = .ok true →
      ∀ s ∈ new, s.size ≠ 0 → Blocks s → ∃ o ∈ old, Matches mode o s) ∧
    ((∀ s ∈ new, s.size ≠ 0 → Blocks s → ∃ o ∈ old, Matches mode o s) →
      patchableWith b h new old false mode = .ok true) := by
  constructor
  · intro deps hv s hs hz hb
    obtain ⟨r, hr⟩ := diff_total b h new old deps mode hm
    obtain ⟨v, h1, h2⟩ := C14_patchable_pair b h new old deps mode r hr
    rw [h1] at hv; cases hv
    by_cases hc : ∃ o ∈ old, Matches mode o s
    · exact hc
    · exfalso
      obtain ⟨q, hq, e⟩ := unmatched_reported b h new old ho deps mode hm r hr s hs hz (fun o ho c => hc ⟨o, ho, c⟩)
      exact h2.mp rfl q hq ((Blocks.of_same e).mpr hb)
  · intro hall
    obtain ⟨r, hr⟩ := diff_total b h new old false mode hm
    obtain ⟨v, h1, h2⟩ := C14_patchable_pair b h new old false mode r hr
    rw [h1]
    refine congrArg _ (h2.mpr fun s hs hb => ?_)
    obtain ⟨a, z, n⟩ := reported_unmatched b h new old ho mode hm r hr s hs
    obtain ⟨o, ho, c⟩ := hall s a z hb
    exact n o ho c

theorem counterpart_internal {mode : Nat} {o s : Symbol} (h : Matches mode o s) : SameInternal o s := by
  unfold Matches at h
  split at h
  · exact same_internal h
  · split at h
    · exact h
    · exact same_internal h
  · split at h
    · exact same_internal h
    · exact h
  · exact h

theorem Variable.page {s : Symbol} (h : Variable s) : PageMatters s := by
  refine ⟨h.writeable, ?_⟩
  unfold Section.has
  rw [bne_eq_false_iff_eq, show SECTION_RELRO = (1 : BitVec 16) from rfl]
  refine (and_eq_zero_iff _ _).mpr fun i hi hc => ?_
  have hb : ∀ i < 16, (1 : BitVec 16).getLsbD i = true → i = 0 := by decide
  rw [hb i hi hc]
  exact h.relro

/-- The internal identifier of a variable. -/
theorem starts_identifier {env : Env} {fl : AnalyzeFlags} {elf : Elf} {dbgsym : Option Elf} {r : AState}
    (h : analyze env fl elf dbgsym = .ok r) {s : Symbol} (hs : s ∈ r.symbols) (hx : s.sec.executable = false)
    {c : List (BitVec 8)} (hc : Starts env elf s c) : s.id.internal = env.xxhash (variableInput env fl s c) := by
  cases hc with
  | filled hi hf bytes hb =>
    obtain ⟨bytes', h1, h2⟩ := C37_files env fl elf dbgsym r h s hs hx hi hf
    rw [content_unique hb h1, h2]
    unfold variableInput dataInput
    rfl
  | zero sec hsec hn => exact (C39_files env fl elf dbgsym r h s hs hx sec hsec hn).1

theorem attributes_same {env : Env} {fl : AnalyzeFlags} {o s : Symbol} (hs : SameSection o.sec s.sec)
    (ha : fl.hash_attributes = false ∨ SameAttributes o s) : attributeBytes env fl o = attributeBytes env fl s := by
  unfold attributeBytes
  rcases ha with ha | ha
  · rw [ha]; rfl
  · rw [ha.1, ha.2.1, ha.2.2.1, hs.1, hs.2.1, hs.2.2.1, hs.2.2.2]

/-- C123: if the update is approved, each variable of the new version has a counterpart in the old version with the same
attributes of its section, and, unless the hash takes one for the other, with the same offset in its page, the same
identifying size and the same initial value (outside of what is subject to relocations). -/
theorem C123_kept (env : Env) (fl : AnalyzeFlags) (new old : Elf) (dn d : Option Elf) (rn ro : AState)
    (hn : analyze env fl new dn = .ok rn) (ho : analyze env fl old d = .ok ro)
    (b : Build) (h : BitVec 64 → BitVec 32) (deps : Bool) (mode : Nat) (hm : mode < 4)
    (hv : patchableWith b h rn.symbols ro.symbols deps mode = .ok true)
    (s : Symbol) (hs : s ∈ rn.symbols) (hvar : Variable s) (c : List (BitVec 8)) (hc : Starts env new s c) :
    ∃ o ∈ ro.symbols, SameSection o.sec s.sec ∧ ∀ c', Starts env old o c' →
      fl.hash_attributes = false ∨ SameAttributes o s →
      Told env (variableInput env fl o c') (variableInput env fl s c) →
      (TLS.virt_addr o.address).toNat % 4096 = (TLS.virt_addr s.address).toNat % 4096 ∧ c' = c := by
  obtain ⟨o, hom, hcp⟩ := (C123_verdict b h rn.symbols ro.symbols (C72_wellformed env fl new dn rn hn).1 mode hm).1 deps hv s hs hvar.sized (Variable.blocks hvar)
  obtain ⟨e1, e2⟩ := counterpart_internal hcp
  refine ⟨o, hom, e2, fun c' hc' ha ht => ?_⟩
  have hox : o.sec.executable = false := by rw [e2.2.1]; exact hvar.data
  have i1 := starts_identifier ho hom hox hc'
  have i2 := starts_identifier hn hs hvar.data hc
  have e := ht (by rw [← i1, ← i2]; exact e1)
  unfold variableInput at e
  rw [attributes_same e2 ha] at e
  have e3 := List.append_cancel_right e
  have p := Variable.page hvar
  have p' : PageMatters o := ⟨by rw [e2.1]; exact p.1, by unfold Section.has; rw [e2.2.2.1]; exact p.2⟩
  obtain ⟨hl, hpg⟩ := pageBytes_iff (s := o) (s' := s) ⟨fun _ => p, fun _ => p'⟩
  obtain ⟨e4, e5⟩ := List.append_inj e3 hl
  exact ⟨hpg.mp e4 p', e5⟩

/-- C123: code in the sections for initialisation is kept likewise: it has a counterpart with the same attributes of its
section, and, unless the hash takes one for the other, with the same instructions as far as they are part of the identifier
(see `C36_one_instruction`). -/
theorem C123_init (env : Env) (fl : AnalyzeFlags) (new old : Elf) (dn d : Option Elf) (rn ro : AState)
    (hn : analyze env fl new dn = .ok rn) (ho : analyze env fl old d = .ok ro)
    (b : Build) (h : BitVec 64 → BitVec 32) (deps : Bool) (mode : Nat) (hm : mode < 4)
    (hv : patchableWith b h rn.symbols ro.symbols deps mode = .ok true)
    (s : Symbol) (hs : s ∈ rn.symbols) (hz : s.size ≠ 0) (hi : s.sec.flags.getLsbD 4 = true) (hx : s.sec.executable = true)
    (hf : s.address.toNat + s.size.toNat < 2 ^ 64) (bytes : List (BitVec 8)) (hb : ContentOf new s bytes) :
    ∃ o ∈ ro.symbols, SameSection o.sec s.sec ∧ ∀ bytes', o.address.toNat + o.size.toNat < 2 ^ 64 → ContentOf old o bytes' →
      fl.hash_attributes = false ∨ SameAttributes o s →
      Told env (codeInput env (fileCtx env old o) (disasm env (TLS.virt_addr o.address) bytes') ++ attributeBytes env fl o)
        (codeInput env (fileCtx env new s) (disasm env (TLS.virt_addr s.address) bytes) ++ attributeBytes env fl s) →
      codeInput env (fileCtx env old o) (disasm env (TLS.virt_addr o.address) bytes') =
        codeInput env (fileCtx env new s) (disasm env (TLS.virt_addr s.address) bytes) := by
  obtain ⟨o, hom, hcp⟩ := (C123_verdict b h rn.symbols ro.symbols (C72_wellformed env fl new dn rn hn).1 mode hm).1 deps hv s hs hz
    (.inr hi)
  obtain ⟨e1, e2⟩ := counterpart_internal hcp
  refine ⟨o, hom, e2, fun bytes' hf' hb' ha ht => ?_⟩
  have hox : o.sec.executable = true := by rw [e2.2.1]; exact hx
  have e := ht (by
    rw [← C36_files env fl old d ro ho o hom hox hf' bytes' hb', ← C36_files env fl new dn rn hn s hs hx hf bytes hb]
    exact e1)
  rw [attributes_same e2 ha] at e
  exact List.append_cancel_right e

/-- Code for the initialisation. -/
def initText : ElfSec := { imgText 0x1000 with name := ".init" }

/-- A file with it. -/
def initElf : Elf where
  entry := 0x1000
  segments := [imgLoadText 0x1000]
  sections := [runTable [], initText, runTable [imgFunc 0x1000 3 "main" .global, imgFunc 0x1003 2 "f" .local]]

theorem init_section : SectionOf initElf 0x1000 initText := by
  refine ⟨⟨by simp [initElf], rfl, by decide⟩, Nat.le_refl _, fun sec h hle => ?_⟩
  obtain ⟨h1, h2, _⟩ := h
  have h3 : sec = runTable [] ∨ sec = initText ∨
      sec = runTable [imgFunc 0x1000 3 "main" .global, imgFunc 0x1003 2 "f" .local] := by simpa [initElf] using h1
  rcases h3 with rfl | rfl | rfl
  · exact absurd h2 (by decide)
  · exact .inl rfl
  · exact absurd h2 (by decide)

/-- A file with code for the initialisation meets all the conditions. -/
example : ∃ r s, analyze exEnv {} initElf none = .ok r ∧
    patchableWith .debug (fun _ => 0) r.symbols r.symbols false 0 = .ok true ∧ s ∈ r.symbols ∧ s.size ≠ 0 ∧
    s.sec.flags.getLsbD 4 = true ∧ s.sec.executable = true ∧ s.address.toNat + s.size.toNat < 2 ^ 64 ∧
    ContentOf initElf s [0xe8, 0x01, 0xc3] := by
  obtain ⟨r, h1, h2⟩ := ok_such (m := analyze exEnv {} initElf none)
    (P := fun r => r.symbols.any fun s => decide (s.size = 3 ∧ s.sec.flags.getLsbD 4 = true ∧ s.sec.executable = true ∧
      s.address = 0x1000)) (by decide +kernel)
  obtain ⟨s, hs, h3⟩ := List.any_eq_true.mp h2
  obtain ⟨e1, e2, e3, e4⟩ := of_decide_eq_true h3
  refine ⟨r, s, h1, ?_, hs, by rw [e1]; decide, e2, e3, by rw [e1, e4]; decide, initText, by rw [e4]; exact init_section,
    by rw [e1, e4]; decide, by rw [e1, e4]; decide⟩
  refine (C123_verdict _ _ _ _ (C72_wellformed exEnv {} _ none _ h1).1 0 (by decide)).2 fun q hq _ _ => ?_
  exact ⟨q, hq, rfl, rfl, ⟨rfl, rfl, rfl, rfl⟩, rfl, rfl⟩

theorem img_approved (b : Build) (h : BitVec 64 → BitVec 32) (mode : Nat) (hm : mode < 4) :
    patchableWith b h (imgState 0x5000 7).symbols (imgState 0x1000 0).symbols false mode = .ok true := by
  refine (C123_verdict b h _ _ (C72_wellformed exEnv {} _ none _ img_moved).1 mode hm).2 ?_
  match mode, hm with
  | 0, _ => decide
  | 1, _ => decide
  | 2, _ => decide
  | 3, _ => decide

theorem img_variable : Variable (imgV 0x5000) := ⟨by decide, rfl, rfl, by decide, by decide, by decide⟩

/-- The variable of a file that is loaded somewhere else. -/
example : ∃ o ∈ (imgState 0x1000 0).symbols, SameSection o.sec (imgV 0x5000).sec ∧
    ∀ c', Starts exEnv (imgElf 0x1000 0) o c' → Told exEnv (variableInput exEnv {} o c')
      (variableInput exEnv {} (imgV 0x5000) [0, 0, 0, 0, 0, 0, 0, 0, 1, 2, 3, 4]) →
    c' = [0, 0, 0, 0, 0, 0, 0, 0, 1, 2, 3, 4] := by
  obtain ⟨o, h1, h2, h3⟩ := C123_kept exEnv {} _ _ none none _ _ img_moved img_ok .debug (fun _ => 0) false 0 (by decide)
    (img_approved _ _ 0 (by decide)) (imgV 0x5000) (by decide) img_variable _ (.filled img_filled' img_fits' _ img_content')
  exact ⟨o, h1, h2, fun c' hc ht => (h3 c' hc (.inl rfl) ht).2⟩

/-- C123: the address is not part of this: the update is approved in each mode although the variables are at other addresses
than before. -/
theorem C123_moved_counterexample (b : Build) (h : BitVec 64 → BitVec 32) :
    ∃ (new old : Elf) (rn ro : AState) (s : Symbol), analyze exEnv {} new none = .ok rn ∧ analyze exEnv {} old none = .ok ro ∧
      (∀ mode < 4, patchableWith b h rn.symbols ro.symbols false mode = .ok true) ∧ s ∈ rn.symbols ∧ Variable s ∧
      ∀ o ∈ ro.symbols, o.address ≠ s.address := by
  exact ⟨_, _, _, _, imgV 0x5000, img_moved, img_ok, img_approved b h, by decide, img_variable, by decide⟩

/-- A variable. -/
def someVar (a : Addr) : Symbol := { address := a, size := 4, id := { internal := 7 }, sec := { writeable := true } }

/-- C123: variables of the old version may be missing in the new one: the verdict is in favour of the update. -/
theorem C123_removed_counterexample (b : Build) (h : BitVec 64 → BitVec 32) (mode : Nat) (hm : mode < 4) :
    ∃ new old : SymTree, Ordered new ∧ patchableWith b h new old false mode = .ok true ∧
      ∃ o ∈ old, Variable o ∧ ∀ s ∈ new, ¬ SameSection o.sec s.sec := by
  refine ⟨[], [someVar 0x2000], List.Pairwise.nil, ?_, someVar 0x2000, by decide,
    ⟨by decide, rfl, rfl, by decide, by decide, by decide⟩, by simp⟩
  exact (C123_verdict b h _ _ List.Pairwise.nil mode hm).2 (by simp)

/-- C123: several variables of the new version may share a counterpart, hence there may be more of them than before. -/
theorem C123_shared_counterexample (b : Build) (h : BitVec 64 → BitVec 32) (mode : Nat) (hm : mode < 4) :
    ∃ new old : SymTree, Ordered new ∧ patchableWith b h new old false mode = .ok true ∧
      (∀ s ∈ new, Variable s) ∧ old.length < new.length := by
  have ho : Ordered [someVar 0x2000, someVar 0x3000] := by decide
  refine ⟨[someVar 0x2000, someVar 0x3000], [someVar 0x2000], ho, ?_, ?_, by decide⟩
  · refine (C123_verdict b h _ _ ho mode hm).2 ?_
    match mode, hm with
    | 0, _ => decide
    | 1, _ => decide
    | 2, _ => decide
    | 3, _ => decide
  · intro s hs
    have e : s.size = 4 ∧ s.sec = { writeable := true } := by
      rcases List.mem_cons.mp hs with rfl | hs
      · exact ⟨rfl, rfl⟩
      · rw [List.mem_singleton.mp hs]; exact ⟨rfl, rfl⟩
    obtain ⟨e1, e2⟩ := e
    exact ⟨by rw [e1]; decide, by rw [e2], by rw [e2], by rw [e2]; decide, by rw [e2]; decide, by rw [e2]; decide⟩

end Bean.Props

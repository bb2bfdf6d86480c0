import Verif.Props.Diff
/-
Property theorems C13, C14 and C15: the verdict whether a set of changes can be applied at run time.
-/
namespace Bean.Props
open Bean Spec

/-! ### C14 / C15 -/

theorem and_eq_zero_iff (x c : BitVec 16) : x &&& c = 0#16 ↔ ∀ i < 16, c.getLsbD i = true → x.getLsbD i = false := by
  constructor
  · intro h i hi hc
    have := congrArg (fun v => v.getLsbD i) h
    simpa [hc] using this
  · intro h
    apply BitVec.eq_of_getLsbD_eq
    intro i hi
    cases hc : c.getLsbD i <;> simp [hc, h i hi]

theorem blocks_iff (d : Symbol) :
    Blocks d ↔ (d.sec.writeable && (d.sec.flags &&& patchIgnore) == 0) = true ∨ d.sec.has SECTION_INIT = true := by
  have key : (d.sec.flags &&& patchIgnore) = 0#16 ↔
      (d.sec.flags.getLsbD 0 = false ∧ d.sec.flags.getLsbD 2 = false ∧ d.sec.flags.getLsbD 10 = false) := by
    have hb : ∀ i < 16, patchIgnore.getLsbD i = true ↔ i = 0 ∨ i = 2 ∨ i = 10 := by decide
    rw [and_eq_zero_iff]
    constructor
    · intro h
      exact ⟨h 0 (by omega) (by decide), h 2 (by omega) (by decide), h 10 (by omega) (by decide)⟩
    · rintro ⟨h0, h2, h10⟩ i hi hc
      rcases (hb i hi).mp hc with rfl | rfl | rfl <;> assumption
  have init : (d.sec.flags &&& SECTION_INIT) = 0#16 ↔ d.sec.flags.getLsbD 4 = false := by
    have hb : ∀ i < 16, SECTION_INIT.getLsbD i = true ↔ i = 4 := by decide
    rw [and_eq_zero_iff]
    constructor
    · intro h; exact h 4 (by omega) (by decide)
    · intro h i hi hc
      rw [(hb i hi).mp hc]; exact h
  unfold Blocks Section.has
  rw [Bool.and_eq_true, beq_iff_eq, bne_iff_ne, ne_eq]
  change _ ↔ (_ ∧ d.sec.flags &&& patchIgnore = 0#16) ∨ ¬ (d.sec.flags &&& SECTION_INIT = 0#16)
  rw [key, init, Bool.not_eq_false]

/-- C14: the verdict is positive iff no symbol blocks the update. -/
theorem C14_patchable_iff (l : List Symbol) : patchable l = true ↔ ∀ s ∈ l, ¬ Blocks s := by
  induction l with
  | nil => simp [patchable]
  | cons d l ih =>
    simp only [patchable, List.forall_mem_cons, ← ih]
    rw [blocks_iff]
    cases h1 : (d.sec.writeable && (d.sec.flags &&& patchIgnore) == 0) <;>
      cases h2 : d.sec.has SECTION_INIT <;> simp

/-- a tolerated and a blocking symbol -/
example : ¬ Blocks { address := 1, sec := { writeable := true, flags := SECTION_RELRO } }
    ∧ Blocks { address := 1, sec := { writeable := true, flags := SECTION_EH_FRAME ||| SECTION_INIT } } := by decide

/-- C15: only membership matters; a sublist of a patchable list is patchable; a union is patchable iff both are. -/
theorem C15_patchable_members (l m : List Symbol) :
    ((∀ s, s ∈ l ↔ s ∈ m) → patchable l = patchable m)
    ∧ ((∀ s ∈ m, s ∈ l) → patchable l = true → patchable m = true)
    ∧ (patchable (l ++ m) = (patchable l && patchable m)) := by
  refine ⟨fun h => ?_, fun h hl => ?_, ?_⟩
  · rw [Bool.eq_iff_iff, C14_patchable_iff, C14_patchable_iff]
    exact ⟨fun hl s hs => hl s ((h s).mpr hs), fun hl s hs => hl s ((h s).mp hs)⟩
  · rw [C14_patchable_iff] at *
    exact fun s hs => hl s (h s hs)
  · rw [Bool.eq_iff_iff, Bool.and_eq_true, C14_patchable_iff, C14_patchable_iff, C14_patchable_iff]
    simp only [List.mem_append]
    exact ⟨fun h => ⟨fun s hs => h s (.inl hs), fun s hs => h s (.inr hs)⟩,
      fun h s hs => hs.elim (h.1 s) (h.2 s)⟩

/-- The verdict for a pair of binaries is the criterion applied to the reported symbols. -/
theorem C14_patchable_pair (b : Build) (h : BitVec 64 → BitVec 32) (this other : SymTree) (deps : Bool) (mode : Nat)
    (r : SymTree) (hr : diff b h this other deps mode = .ok r) :
    ∃ v, patchableWith b h this other deps mode = .ok v ∧ (v = true ↔ ∀ s ∈ r, ¬ Blocks s) :=
  ⟨patchable r, by simp [patchableWith, hr, bind, Except.bind, pure, Except.pure], C14_patchable_iff r⟩

/-! ### C13 -/

theorem Blocks.of_same {a b : Symbol} (h : SameSection a.sec b.sec) : Blocks a ↔ Blocks b := by
  unfold Blocks; rw [h.1, h.2.2.1]

/-- C13: without dependency tracking a pair that is patchable in mode `COMPARE_EXTENDED` is patchable in the
three other modes, and a pair that is patchable in one of the mixed modes is patchable by internal ID. -/
theorem C13_mode_monotone (b : Build) (h : BitVec 64 → BitVec 32) (this other : SymTree) (ho : Ordered this) :
    (∀ mode < 4, patchableWith b h this other false 0 = .ok true → patchableWith b h this other false mode = .ok true)
    ∧ (∀ mode < 4, patchableWith b h this other false mode = .ok true →
        patchableWith b h this other false 3 = .ok true) := by
  have hs := (ordered_iff_sorted this).mp ho
  obtain ⟨r₀, r₁, h0, h1, m1⟩ := C11_writeable_internal b h this other ho false
  obtain ⟨r₀', r₂, h0', h2, m2⟩ := C12_executable_extended b h this other ho false
  rw [h0] at h0'; cases h0'
  obtain ⟨r₃, h3⟩ : ∃ r₃, diff b h this other false 3 = .ok r₃ := ⟨_, rfl⟩
  have m3 : ∀ s ∈ r₃, ∃ q ∈ r₀, SameSection q.sec s.sec ∧ ∀ o ∈ other, ¬ SameInternal o q := by
    intro s hm
    have hr := h3
    simp only [diff, Except.ok.injEq] at hr; subst hr
    obtain ⟨hch, -⟩ := (C06_diff_internal_exact h this other ho none).1 s ((mem_mode3 h hs false s).mp hm)
    have hch' : Changed SameIdentity this other s :=
      ⟨hch.1, hch.2.1, fun o hm hsame => hch.2.2 o hm ⟨hsame.1, hsame.2.2.1⟩⟩
    obtain ⟨r, hr0, -, -, hrep, -⟩ := C06_diff_api b h this other ho
    rw [h0] at hr0; cases hr0
    obtain ⟨q, hq, hqs, -⟩ := hrep s hch'
    refine ⟨q, hq, hqs.2.2.1, fun o hm hoq => hch.2.2 o hm ?_⟩
    exact (intCmp_lawful h).trans o q s hoq ⟨hqs.1, hqs.2.2.1⟩
  have pw : ∀ mode r, diff b h this other false mode = .ok r →
      (patchableWith b h this other false mode = .ok true ↔ ∀ s ∈ r, ¬ Blocks s) := by
    intro mode r hr
    obtain ⟨v, hv, hiff⟩ := C14_patchable_pair b h this other false mode r hr
    rw [hv, ← hiff]; simp
  constructor
  · intro mode hm hp
    rw [pw 0 r₀ h0] at hp
    match mode, hm with
    | 0, _ => exact (pw 0 r₀ h0).mpr hp
    | 1, _ => exact (pw 1 r₁ h1).mpr fun s hs => hp s ((m1 s).mp hs).1
    | 2, _ => exact (pw 2 r₂ h2).mpr fun s hs => hp s ((m2 s).mp hs).1
    | 3, _ =>
      refine (pw 3 r₃ h3).mpr fun s hs hb => ?_
      obtain ⟨q, hq, hqs, -⟩ := m3 s hs
      exact hp q hq ((Blocks.of_same hqs).mpr hb)
  · intro mode hm hp
    refine (pw 3 r₃ h3).mpr fun s hs hb => ?_
    obtain ⟨q, hq, hqs, hno⟩ := m3 s hs
    have hbq := (Blocks.of_same hqs).mpr hb
    match mode, hm with
    | 0, _ => exact (pw 0 r₀ h0).mp hp q hq hbq
    | 1, _ => exact (pw 1 r₁ h1).mp hp q ((m1 q).mpr ⟨hq, .inr hno⟩) hbq
    | 2, _ => exact (pw 2 r₂ h2).mp hp q ((m2 q).mpr ⟨hq, .inr hno⟩) hbq
    | 3, _ => exact (pw 3 r₃ h3).mp hp s hs hb

/-- C13: the mixed modes report a subset of the extended mode, with and without dependencies; hence patchable
stays patchable there. -/
theorem C13_mixed_subset (b : Build) (h : BitVec 64 → BitVec 32) (this other : SymTree) (ho : Ordered this)
    (deps : Bool) (mode : Nat) (hm : mode = 1 ∨ mode = 2) :
    ∃ r₀ r, diff b h this other deps 0 = .ok r₀ ∧ diff b h this other deps mode = .ok r ∧ (∀ s ∈ r, s ∈ r₀)
      ∧ (patchable r₀ = true → patchable r = true) := by
  obtain ⟨r₀, r₁, h0, h1, m1⟩ := C11_writeable_internal b h this other ho deps
  obtain ⟨r₀', r₂, h0', h2, m2⟩ := C12_executable_extended b h this other ho deps
  rw [h0] at h0'; cases h0'
  rcases hm with rfl | rfl
  · have hsub : ∀ s ∈ r₁, s ∈ r₀ := fun s hs => ((m1 s).mp hs).1
    exact ⟨r₀, r₁, h0, h1, hsub, (C15_patchable_members r₀ r₁).2.1 hsub⟩
  · have hsub : ∀ s ∈ r₂, s ∈ r₀ := fun s hs => ((m2 s).mp hs).1
    exact ⟨r₀, r₂, h0, h2, hsub, (C15_patchable_members r₀ r₂).2.1 hsub⟩

/-- The restriction to "without dependencies" in C13 is needed: `e1` (address 2) and `e2` (address 3) have the same
identity. The extended comparison enters `e1` as dependency of `z` (changed externally only) and therefore ignores
`e2` with its dependency in an init section. The internal comparison ignores `z`, thus starts with `e2`. -/
theorem C13_dependencies_counterexample (b : Build) (h : BitVec 64 → BitVec 32) :
    ∃ this other : SymTree, Ordered this ∧ DepsLive this ∧ patchableWith b h this other true 0 = .ok true
      ∧ patchableWith b h this other true 3 = .ok false := by
  refine ⟨
    [{ address := 1, size := 1, id := { internal := 1, external := 1 }, deps := [3] },
     { address := 2, size := 1, id := { internal := 2 }, sec := { executable := true }, deps := [4] },
     { address := 3, size := 1, id := { internal := 2 }, sec := { executable := true } },
     { address := 4, size := 1, id := { internal := 3 }, sec := { executable := true, flags := SECTION_INIT } }],
    [{ address := 1, size := 1, id := { internal := 1, external := 2 } },
     { address := 4, size := 1, id := { internal := 3 }, sec := { executable := true, flags := SECTION_INIT } }],
    by decide, by decide, ?_, ?_⟩
  · rw [(C16_hash_irrelevant b h (fun _ => 0) _ _ _ _).2]; rfl
  · rw [(C16_hash_irrelevant b h (fun _ => 0) _ _ _ _).2]; rfl

end Bean.Props

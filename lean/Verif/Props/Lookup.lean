import Verif.Lemmas.Tree
import Verif.Spec.Lookup
/-
Property theorems C03 and C04: `Bean::get` and `Bean::find`.
-/
namespace Bean.Props
open Bean Spec

theorem ordered_iff_sorted (t : List Symbol) : Ordered t ↔ Tree.Sorted t := by
  unfold Ordered Tree.Sorted
  constructor <;> refine List.Pairwise.imp ?_ <;> intro a b h
  · exact BitVec.lt_def.mpr h
  · exact BitVec.lt_def.mp h

/-- C04: `find` yields the closest symbol at or below the address. -/
theorem C04_find_some (t : SymTree) (h : Ordered t) (a : Addr) (s : Symbol) :
    find t a = some s ↔
      s ∈ t ∧ s.address.toNat ≤ a.toNat ∧ ∀ y ∈ t, y.address.toNat ≤ a.toNat → y.address.toNat ≤ s.address.toNat :=
  Tree.floor_eq_some_iff ((ordered_iff_sorted t).mp h)

/-- C04: `find` fails exactly if all symbols start above the address. -/
theorem C04_find_none (t : SymTree) (a : Addr) :
    find t a = none ↔ ∀ y ∈ t, a.toNat < y.address.toNat :=
  Tree.floor_eq_none_iff

/-- C03: a symbol returned by `get` contains the address (for all inputs, also overlapping ones). -/
theorem C03_get_sound (t : SymTree) (a : Addr) (s : Symbol) (h : get t a = some s) : s ∈ t ∧ Covers s a := by
  unfold get at h
  split at h
  · rename_i sym hf
    split at h
    · rename_i hlt
      cases h
      refine ⟨Tree.floor_mem hf, Tree.floor_le hf, ?_⟩
      have : a.toNat < (s.address + s.size).toNat := hlt
      rw [BitVec.toNat_add] at this
      exact Nat.lt_of_lt_of_le this (Nat.mod_le _ _)
    · simp at h
  · simp at h

/-- C03: on disjoint symbols with representable ends, `get` finds the symbol containing the address. -/
theorem C03_get_complete (t : SymTree) (ho : Ordered t) (hd : Disjoint t) (hw : ∀ s ∈ t, NoWrap s) (a : Addr)
    (s : Symbol) : get t a = some s ↔ s ∈ t ∧ Covers s a := by
  refine ⟨C03_get_sound t a s, ?_⟩
  rintro ⟨hs, hc⟩
  have hfl : Tree.floor t a = some s := by
    refine (Tree.floor_eq_some_iff ((ordered_iff_sorted t).mp ho)).mpr ⟨hs, hc.1, ?_⟩
    intro y hy hya
    refine Decidable.byContradiction fun hn => ?_
    have hlt : s.address.toNat < y.address.toNat := Nat.lt_of_not_le hn
    have := hd s hs y hy hlt
    have h1 : y.address.toNat ≤ a.toNat := hya
    have := hc.2
    omega
  have hlt : a < s.address + s.size := by
    have hn := hw s hs
    unfold NoWrap at hn
    rw [BitVec.lt_def, BitVec.toNat_add, Nat.mod_eq_of_lt hn]
    exact hc.2
  unfold get
  rw [hfl]
  simp [hlt]

/-- C03: `get` returns null exactly if no symbol contains the address. -/
theorem C03_get_none (t : SymTree) (ho : Ordered t) (hd : Disjoint t) (hw : ∀ s ∈ t, NoWrap s) (a : Addr) :
    get t a = none ↔ ∀ s ∈ t, ¬ Covers s a := by
  constructor
  · intro h s hs hc
    rw [(C03_get_complete t ho hd hw a s).mpr ⟨hs, hc⟩] at h
    simp at h
  · intro h
    cases hg : get t a with
    | none => rfl
    | some s => have := C03_get_sound t a s hg; exact absurd this.2 (h s this.1)

/-- the hypotheses of C03 are satisfiable: two adjacent symbols and a gap -/
example : ∃ t : SymTree, Ordered t ∧ Disjoint t ∧ (∀ s ∈ t, NoWrap s) ∧ (get t 0x1004).isSome ∧ get t 0x3000 = none :=
  ⟨[{ address := 0x1000, size := 0x10 }, { address := 0x1010, size := 8 }],
    by unfold Ordered; decide, by unfold Disjoint; decide, by unfold NoWrap; decide, by decide, by decide⟩

/-- C03: without disjointness completeness fails: a marker inside of a symbol hides the rest of it. -/
theorem C03_marker_hides : ∃ (t : SymTree) (s : Symbol) (a : Addr),
    Ordered t ∧ s ∈ t ∧ Covers s a ∧ get t a = none :=
  ⟨[{ address := 0x1000, size := 0x10 }, { address := 0x1004 }], { address := 0x1000, size := 0x10 }, 0x1008,
    by unfold Ordered; decide, by decide, by unfold Covers; decide, by decide⟩

/-- C03: a symbol that ends at the top of the address space is never found. -/
theorem C03_wrap_hides : ∃ (t : SymTree) (s : Symbol) (a : Addr),
    Ordered t ∧ Disjoint t ∧ s ∈ t ∧ Covers s a ∧ get t a = none :=
  ⟨[{ address := 0xfffffffffffff000, size := 0x1000 }], { address := 0xfffffffffffff000, size := 0x1000 },
    0xfffffffffffff800, by unfold Ordered; decide, by unfold Disjoint; decide, by decide,
    by unfold Covers; decide, by decide⟩

end Bean.Props

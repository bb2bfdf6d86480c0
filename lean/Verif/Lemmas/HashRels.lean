import Verif.Lemmas.HashBytes
/-
Lemmas about the relocations attached to symbols.
-/
namespace Bean
open Tree Spec

theorem mem_takeWhile_sorted {α : Type} [Keyed α] {t : List α} (h : Sorted t) (to : Addr) (x : α) :
    x ∈ t.takeWhile (fun x => decide (key x < to)) ↔ x ∈ t ∧ key x < to := by
  induction t with
  | nil => simp
  | cons y t ih =>
    rw [List.takeWhile_cons]
    by_cases hy : key y < to
    · rw [if_pos (by simpa using hy), List.mem_cons, List.mem_cons, ih h.tail]
      constructor
      · rintro (rfl | h1)
        · exact ⟨Or.inl rfl, hy⟩
        · exact ⟨Or.inr h1.1, h1.2⟩
      · rintro ⟨rfl | h1, h2⟩
        · exact Or.inl rfl
        · exact Or.inr ⟨h1, h2⟩
    · rw [if_neg (by simpa using hy)]
      constructor
      · intro hx; cases hx
      · rintro ⟨hx, hlt⟩
        rcases List.mem_cons.mp hx with rfl | hx
        · exact absurd hlt hy
        · have := (List.pairwise_cons.mp h).1 x hx
          exact absurd (bv_lt_trans this hlt) hy

/-- The elements visited by the loops over relocations. -/
theorem mem_treeRange {α : Type} [Keyed α] {t : List α} (h : Sorted t) (from_ to : Addr) (x : α) :
    x ∈ treeRange t from_ to ↔ x ∈ t ∧ from_ ≤ key x ∧ key x < to := by
  unfold treeRange
  rw [mem_takeWhile_sorted (List.Pairwise.sublist List.filter_sublist h), List.mem_filter, decide_eq_true_eq, and_assoc]

theorem sorted_treeRange {α : Type} [Keyed α] {t : List α} (h : Sorted t) (from_ to : Addr) :
    Sorted (treeRange t from_ to) :=
  (List.Pairwise.sublist List.filter_sublist h).sublist (List.takeWhile_sublist _)

theorem mem_foldl_insert_distinct {α : Type} [Keyed α] {l t : List α} (ht : Sorted t)
    (hl : l.Pairwise (fun a b => key a ≠ key b)) {y : α} :
    y ∈ l.foldl (fun t x => (Tree.insert t x).1) t ↔ y ∈ t ∨ (y ∈ l ∧ ∀ z ∈ t, key z ≠ key y) := by
  induction l generalizing t with
  | nil => simp
  | cons x l ih =>
    obtain ⟨h1, h2⟩ := List.pairwise_cons.mp hl
    rw [List.foldl_cons, ih (sorted_insert ht x) h2, mem_insert' ht]
    constructor
    · rintro ((h | ⟨rfl, h⟩) | ⟨hy, h⟩)
      · exact Or.inl h
      · exact Or.inr ⟨List.mem_cons_self, h⟩
      · exact Or.inr ⟨List.mem_cons_of_mem _ hy, fun z hz => h z ((mem_insert' ht).mpr (Or.inl hz))⟩
    · rintro (h | ⟨hy, h⟩)
      · exact Or.inl (Or.inl h)
      · rcases List.mem_cons.mp hy with rfl | hy
        · exact Or.inl (Or.inr ⟨rfl, h⟩)
        · refine Or.inr ⟨hy, fun z hz => ?_⟩
          rcases (mem_insert' ht).mp hz with hz | ⟨e, _⟩
          · exact h z hz
          · rw [e]; exact h1 y hy

theorem foldRels_rels (resolve : Bool) {ρ : Type} (f : ρ → Rel) (l : List ρ) (s : Symbol) :
    (l.foldl (fun s r => addRel resolve s (f r)) s).rels = (l.map f).foldl (fun t x => (Tree.insert t x).1) s.rels := by
  induction l generalizing s with
  | nil => rfl
  | cons x l ih => rw [List.foldl_cons, ih]; rfl

/-- `q` is the record of a packed relative relocation at `a` in the section. -/
def RelativeAt (sec : ElfSec) (a : Addr) (q : Rel) : Prop :=
  ∃ bytes, readBytes sec.data (a - sec.virt_addr) 8 = .ok bytes ∧
    q = { offset := a, type := R_X86_64_RELATIVE, addend := leValue bytes, target := leValue bytes }

theorem foldRelative_rels (resolve : Bool) (sec : ElfSec) (l : List Addr) {s s' : Symbol} (hs : Sorted s.rels)
    (hl : l.Pairwise (· ≠ ·)) (h : l.foldlM (addRelative resolve sec) s = .ok s') (q : Rel) :
    q ∈ s'.rels ↔ q ∈ s.rels ∨ (∃ a ∈ l, RelativeAt sec a q ∧ ∀ z ∈ s.rels, z.offset ≠ a) := by
  induction l generalizing s with
  | nil => cases h; simp
  | cons x l ih =>
    obtain ⟨h1, h2⟩ := List.pairwise_cons.mp hl
    rw [List.foldlM_cons] at h
    cases hx : addRelative resolve sec s x with
    | error e => rw [hx] at h; cases h
    | ok s1 =>
      rw [hx] at h
      unfold addRelative at hx
      cases hr : readBytes sec.data (x - sec.virt_addr) 8 with
      | error e => rw [hr] at hx; cases hx
      | ok bytes =>
        rw [hr] at hx
        cases hx
        have hadd := addRel_added resolve hs
          { offset := x, type := R_X86_64_RELATIVE, addend := leValue bytes, target := leValue bytes }
        have hmem : ∀ q, q ∈ (addRel resolve s
            { offset := x, type := R_X86_64_RELATIVE, addend := leValue bytes, target := leValue bytes }).rels ↔
            q ∈ s.rels ∨ (RelativeAt sec x q ∧ ∀ z ∈ s.rels, z.offset ≠ x) := by
          intro q
          show q ∈ (Tree.insert s.rels _).1 ↔ _
          rw [mem_insert' hs]
          refine or_congr Iff.rfl (and_congr ⟨?_, ?_⟩ Iff.rfl)
          · rintro rfl; exact ⟨bytes, hr, rfl⟩
          · rintro ⟨b, hb, rfl⟩
            rw [hr] at hb
            cases hb
            rfl
        rw [ih hadd.sorted h2 h]
        simp only [hmem]
        constructor
        · rintro ((h3 | ⟨h3, h4⟩) | ⟨a, ha, h3, h4⟩)
          · exact Or.inl h3
          · exact Or.inr ⟨x, List.mem_cons_self, h3, h4⟩
          · exact Or.inr ⟨a, List.mem_cons_of_mem _ ha, h3, fun z hz => h4 z (Or.inl hz)⟩
        · rintro (h3 | ⟨a, ha, h3, h4⟩)
          · exact Or.inl (Or.inl h3)
          · rcases List.mem_cons.mp ha with rfl | ha
            · exact Or.inl (Or.inr ⟨h3, h4⟩)
            · refine Or.inr ⟨a, ha, h3, ?_⟩
              rintro z (hz | ⟨⟨b, hb, rfl⟩, _⟩)
              · exact h4 z hz
              · exact h1 a ha

theorem foldRelative_read (resolve : Bool) (sec : ElfSec) (l : List Addr) {s s' : Symbol}
    (h : l.foldlM (addRelative resolve sec) s = .ok s') : ∀ a ∈ l, ∃ q, RelativeAt sec a q := by
  induction l generalizing s with
  | nil => simp
  | cons x l ih =>
    rw [List.foldlM_cons] at h
    cases hx : addRelative resolve sec s x with
    | error e => rw [hx] at h; cases h
    | ok s1 =>
      rw [hx] at h
      intro a ha
      rcases List.mem_cons.mp ha with rfl | ha
      · unfold addRelative at hx
        cases hr : readBytes sec.data (a - sec.virt_addr) 8 with
        | error e => rw [hr] at hx; cases hx
        | ok bytes => exact ⟨_, bytes, hr, rfl⟩
      · exact ih h a ha

theorem addRelocations_read {env : Env} {fl : AnalyzeFlags} {st : AState} {sec : ElfSec} {a : Addr} {s s' : Symbol}
    (hs : Sorted s.rels) (hrel : Sorted st.relative_relocations) (h : addRelocations env fl st sec a s = .ok s')
    {o : Addr} (ho : o ∈ st.relative_relocations) (h1 : s.address ≤ o) (h2 : o < a + s.size) :
    ∃ q, RelativeAt sec o q := by
  have hb := (foldRels_added fl.resolve_internal
    (relOfElf env s.address fl.resolve_internal st.global_offset_table)
    (treeRange st.relocations (TLS.virt_addr s.address) (a + s.size)) hs).base
  unfold addRelocations at h
  refine foldRelative_read _ _ _ h o ((mem_treeRange hrel _ _ _).mpr ⟨ho, ?_, ?_⟩)
  · rw [hb.address]; exact h1
  · rw [hb.size]; exact h2

/-- Exactly the relocations in the range of the symbol are attached; the first one at a location wins. -/
theorem addRelocations_exact {env : Env} {fl : AnalyzeFlags} {st : AState} {sec : ElfSec} {a : Addr} {s s' : Symbol}
    (hs : Sorted s.rels) (hr : Sorted st.relocations) (hrel : Sorted st.relative_relocations)
    (h : addRelocations env fl st sec a s = .ok s') (q : Rel) :
    q ∈ s'.rels ↔ q ∈ s.rels ∨
      (∃ e ∈ st.relocations, TLS.virt_addr s.address ≤ e.offset ∧ e.offset < a + s.size ∧
        q = relOfElf env s.address fl.resolve_internal st.global_offset_table e ∧ ∀ z ∈ s.rels, z.offset ≠ e.offset) ∨
      (∃ o ∈ st.relative_relocations, s.address ≤ o ∧ o < a + s.size ∧ RelativeAt sec o q ∧
        (∀ z ∈ s.rels, z.offset ≠ o) ∧
        ∀ e ∈ st.relocations, TLS.virt_addr s.address ≤ e.offset → e.offset < a + s.size → e.offset ≠ o) := by
  have h1 := foldRels_added fl.resolve_internal
    (relOfElf env s.address fl.resolve_internal st.global_offset_table)
    (treeRange st.relocations (TLS.virt_addr s.address) (a + s.size)) hs
  have hd : ((treeRange st.relocations (TLS.virt_addr s.address) (a + s.size)).map
      (relOfElf env s.address fl.resolve_internal st.global_offset_table)).Pairwise (fun a b => key a ≠ key b) := by
    rw [List.pairwise_map]
    refine (sorted_treeRange hr _ _).imp ?_
    intro x y hxy
    show x.offset ≠ y.offset
    intro e
    have hxy' : x.offset < y.offset := hxy
    rw [e] at hxy'
    exact bv_lt_irrefl _ hxy'
  have h2 : ∀ q, q ∈ ((treeRange st.relocations (TLS.virt_addr s.address) (a + s.size)).foldl
      (fun s1 r => addRel fl.resolve_internal s1
        (relOfElf env s.address fl.resolve_internal st.global_offset_table r)) s).rels ↔ q ∈ s.rels ∨
      (∃ e ∈ st.relocations, TLS.virt_addr s.address ≤ e.offset ∧ e.offset < a + s.size ∧
        q = relOfElf env s.address fl.resolve_internal st.global_offset_table e ∧ ∀ z ∈ s.rels, z.offset ≠ e.offset) := by
    intro q
    rw [foldRels_rels, mem_foldl_insert_distinct hs hd]
    refine or_congr Iff.rfl ?_
    constructor
    · rintro ⟨hq, hz⟩
      obtain ⟨e, he, rfl⟩ := List.mem_map.mp hq
      obtain ⟨h3, h4, h5⟩ := (mem_treeRange hr _ _ _).mp he
      exact ⟨e, h3, h4, h5, rfl, hz⟩
    · rintro ⟨e, h3, h4, h5, rfl, hz⟩
      exact ⟨List.mem_map_of_mem ((mem_treeRange hr _ _ _).mpr ⟨h3, h4, h5⟩), hz⟩
  unfold addRelocations at h
  have hb := h1.base
  have hdr : (treeRange st.relative_relocations
      ((treeRange st.relocations (TLS.virt_addr s.address) (a + s.size)).foldl
      (fun s1 r => addRel fl.resolve_internal s1
        (relOfElf env s.address fl.resolve_internal st.global_offset_table r)) s).address
      (a + ((treeRange st.relocations (TLS.virt_addr s.address) (a + s.size)).foldl
      (fun s1 r => addRel fl.resolve_internal s1
        (relOfElf env s.address fl.resolve_internal st.global_offset_table r)) s).size)).Pairwise (· ≠ ·) := by
    refine (sorted_treeRange hrel _ _).imp ?_
    intro x y hxy e
    subst e
    exact bv_lt_irrefl _ hxy
  rw [foldRelative_rels fl.resolve_internal sec _ h1.sorted hdr h q, h2]
  have hrange : ∀ o, o ∈ treeRange st.relative_relocations
      ((treeRange st.relocations (TLS.virt_addr s.address) (a + s.size)).foldl
      (fun s1 r => addRel fl.resolve_internal s1
        (relOfElf env s.address fl.resolve_internal st.global_offset_table r)) s).address
      (a + ((treeRange st.relocations (TLS.virt_addr s.address) (a + s.size)).foldl
      (fun s1 r => addRel fl.resolve_internal s1
        (relOfElf env s.address fl.resolve_internal st.global_offset_table r)) s).size) ↔
      o ∈ st.relative_relocations ∧ s.address ≤ o ∧ o < a + s.size := by
    intro o
    rw [mem_treeRange hrel, hb.address, hb.size]
    rfl
  rw [or_assoc]
  refine or_congr Iff.rfl (or_congr Iff.rfl ?_)
  constructor
  · rintro ⟨o, ho, hq, hz⟩
    obtain ⟨h3, h4, h5⟩ := (hrange o).mp ho
    refine ⟨o, h3, h4, h5, hq, fun z hzz => hz z ((h2 z).mpr (Or.inl hzz)), fun e he h6 h7 h8 => ?_⟩
    by_cases hex : ∃ z ∈ s.rels, z.offset = e.offset
    · obtain ⟨z, hz1, hz2⟩ := hex
      exact hz z ((h2 z).mpr (Or.inl hz1)) (hz2.trans h8)
    · refine hz _ ((h2 _).mpr (Or.inr ⟨e, he, h6, h7, rfl, fun z hz1 hz2 => hex ⟨z, hz1, hz2⟩⟩)) ?_
      exact h8
  · rintro ⟨o, h3, h4, h5, hq, hz, he⟩
    refine ⟨o, (hrange o).mpr ⟨h3, h4, h5⟩, hq, fun z hzz => ?_⟩
    rcases (h2 z).mp hzz with h6 | ⟨e, h6, h7, h8, rfl, _⟩
    · exact hz z h6
    · exact he e h6 h7 h8

end Bean

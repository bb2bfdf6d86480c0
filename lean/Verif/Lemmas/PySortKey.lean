import Verif.Lemmas.PySort
/-
Sorting by a key with a strict total order.
-/
namespace Bean

/-- A strict total order. -/
structure StrictTotal {κ : Type} (lt : κ → κ → Prop) : Prop where
  irrefl : ∀ a, ¬ lt a a
  trans : ∀ a b c, lt a b → lt b c → lt a c
  total : ∀ a b, ¬ lt a b → ¬ lt b a → a = b

/-- A comparison by a key. -/
def ComparesBy {α κ : Type} (lt : κ → κ → Prop) (key : α → κ) (cmp : α → α → Int) : Prop := ∀ a b, cmp a b < 0 ↔ lt (key a) (key b)

theorem strict_str : StrictTotal (fun a b : Str => a < b) := ⟨str_irrefl, fun _ _ _ => str_trans, fun _ _ => str_eq⟩

section
variable {α κ : Type} {lt : κ → κ → Prop} {key : α → κ} {cmp : α → α → Int}

theorem pyInsert_keyed (hl : StrictTotal lt) (hc : ComparesBy lt key cmp) {x : α} {l : List α}
    (h : l.Pairwise (fun a b => ¬ lt (key b) (key a))) : (pyInsert cmp x l).Pairwise (fun a b => ¬ lt (key b) (key a)) := by
  induction l with
  | nil => exact List.pairwise_singleton _ _
  | cons y l ih =>
    unfold pyInsert
    have hy := List.pairwise_cons.mp h
    split
    · rename_i hx
      rw [hc] at hx
      refine List.pairwise_cons.mpr ⟨fun z hz => ?_, ih hy.2⟩
      rcases List.mem_cons.mp ((pyInsert_perm _ x l).mem_iff.mp hz) with rfl | hz
      · exact fun h' => hl.irrefl _ (hl.trans _ _ _ hx h')
      · exact hy.1 z hz
    · rename_i hx
      rw [hc] at hx
      refine List.pairwise_cons.mpr ⟨fun z hz => ?_, h⟩
      rcases List.mem_cons.mp hz with rfl | hz
      · exact hx
      · intro hzx
        by_cases hyx : lt (key x) (key y)
        · exact hy.1 z hz (hl.trans _ _ _ hzx hyx)
        · rw [hl.total _ _ hyx hx] at hzx
          exact hy.1 z hz hzx

theorem pySorted_keyed (hl : StrictTotal lt) (hc : ComparesBy lt key cmp) (l : List α) :
    (pySorted cmp l).Pairwise (fun a b => ¬ lt (key b) (key a)) := by
  induction l with
  | nil => exact List.Pairwise.nil
  | cons x l ih => exact pyInsert_keyed hl hc ih

theorem pyInsert_keyed_stable [BEq κ] [LawfulBEq κ] (hl : StrictTotal lt) (hc : ComparesBy lt key cmp) (x : α) (l : List α) (k : κ) :
    (pyInsert cmp x l).filter (fun v => key v == k) = (x :: l).filter (fun v => key v == k) := by
  induction l with
  | nil => rfl
  | cons y l ih =>
    unfold pyInsert
    split
    · rename_i hx
      rw [hc] at hx
      rw [List.filter_cons, ih]
      by_cases h : key x = k
      · have hy : key y ≠ k := by
          intro hy
          rw [h, hy] at hx
          exact hl.irrefl _ hx
        simp [h, hy]
      · simp [List.filter_cons, h]
    · rfl

theorem pySorted_keyed_stable [BEq κ] [LawfulBEq κ] (hl : StrictTotal lt) (hc : ComparesBy lt key cmp) (l : List α) (k : κ) :
    (pySorted cmp l).filter (fun v => key v == k) = l.filter (fun v => key v == k) := by
  induction l with
  | nil => rfl
  | cons x l ih => rw [pySorted, pyInsert_keyed_stable hl hc, List.filter_cons, List.filter_cons, ih]

/-- Permutations of a list are sorted alike if different elements have different keys. -/
theorem pySorted_keyed_perm (hl : StrictTotal lt) (hc : ComparesBy lt key cmp) {l l' : List α} (h : l.Perm l')
    (hu : ∀ a ∈ l, ∀ b ∈ l, key a = key b → a = b) : pySorted cmp l = pySorted cmp l' := by
  refine List.Perm.eq_of_pairwise (fun a b ha hb h1 h2 => ?_) (pySorted_keyed hl hc l) (pySorted_keyed hl hc l')
    (((pySorted_perm cmp l).trans h).trans (pySorted_perm cmp l').symm)
  exact hu a ((pySorted_perm cmp l).mem_iff.mp ha) b (h.mem_iff.mpr ((pySorted_perm cmp l').mem_iff.mp hb)) (hl.total _ _ h2 h1)

end

/-- Sorting commutes with a map that does not change comparisons. -/
theorem pySorted_map {α β : Type} {cmp : α → α → Int} {cmp' : β → β → Int} (f : α → β) (h : ∀ a b, cmp' (f a) (f b) = cmp a b) (l : List α) :
    pySorted cmp' (l.map f) = (pySorted cmp l).map f := by
  have ins : ∀ (x : α) (l : List α), pyInsert cmp' (f x) (l.map f) = (pyInsert cmp x l).map f := by
    intro x l
    induction l with
    | nil => rfl
    | cons y l ih =>
      rw [List.map_cons, pyInsert, pyInsert, h, ih]
      split <;> rfl
  induction l with
  | nil => rfl
  | cons x l ih => rw [List.map_cons, pySorted, pySorted, ih, ins]

end Bean

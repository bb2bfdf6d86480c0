import Verif.Spec.ElfVars
/-
The comparison of variables and sorting.
-/
namespace Bean
open Bean.Spec

/-! Texts -/

theorem str_irrefl (a : Str) : ¬ a < a := List.lt_irrefl a

theorem str_trans {a b c : Str} (h : a < b) (h' : b < c) : a < c := List.lt_trans h h'

theorem str_asymm {a b : Str} (h : a < b) : ¬ b < a := List.lt_asymm h

theorem str_eq {a b : Str} (h : ¬ a < b) (h' : ¬ b < a) : a = b :=
  List.le_antisymm (List.not_lt.mp h') (List.not_lt.mp h)

theorem strcmp_neg {a b : Str} : strcmp a b < 0 ↔ a < b := by
  unfold strcmp
  split
  · simpa
  · rename_i h
    split <;> simp [h]

theorem strcmp_zero {a b : Str} : strcmp a b = 0 ↔ a = b := by
  unfold strcmp
  split
  · rename_i h
    refine ⟨fun e => (by cases e), fun e => ?_⟩
    subst e
    exact absurd h (str_irrefl _)
  · rename_i h
    split
    · rename_i h'
      refine ⟨fun e => (by cases e), fun e => ?_⟩
      subst e
      exact absurd h' (str_irrefl _)
    · rename_i h'
      exact ⟨fun _ => str_eq h h', fun _ => rfl⟩

/-! Comparison -/

theorem compareVars_neg {a b : Var} : compareVars a b < 0 ↔ Earlier a b := by
  unfold compareVars Earlier EarlierId ident
  simp only
  split
  · rename_i h
    rw [strcmp_neg]
    simp [h]
  · rename_i h
    have h : a.category = b.category := Classical.not_not.mp h
    have hc : ¬ a.category < b.category := by rw [h]; exact str_irrefl _
    split
    · rename_i hv
      rw [strcmp_neg]
      simp [h, hv, str_irrefl]
    · rename_i hv
      simp only [hc, h, hv]
      constructor
      · intro h; exact .inr ⟨trivial, .inl (by omega)⟩
      · rintro (h | ⟨_, h | h⟩)
        · exact absurd h (str_irrefl _)
        · omega
        · cases h.1

theorem compareVars_zero {a b : Var} : compareVars a b = 0 ↔ ident a = ident b := by
  unfold compareVars ident
  split
  · rename_i h
    rw [strcmp_zero]
    constructor
    · intro e; exact absurd e h
    · intro e; exact congrArg Prod.fst e
  · rename_i h
    have h : a.category = b.category := Classical.not_not.mp h
    split
    · rename_i hv
      rw [strcmp_zero, h, hv]
      constructor
      · intro e; rw [e]
      · intro e; exact congrArg (·.2.2) e
    · rename_i hv
      constructor
      · intro e; exact absurd (by omega) hv
      · intro e; exact absurd (congrArg (·.2.1) e) hv

theorem earlierId_irrefl (a : Str × Int × Str) : ¬ EarlierId a a := by
  rintro (h | ⟨_, h | ⟨_, h⟩⟩)
  · exact str_irrefl _ h
  · omega
  · exact str_irrefl _ h

theorem earlierId_trans {a b c : Str × Int × Str} (h : EarlierId a b) (h' : EarlierId b c) : EarlierId a c := by
  obtain ⟨a1, a2, a3⟩ := a
  obtain ⟨b1, b2, b3⟩ := b
  obtain ⟨c1, c2, c3⟩ := c
  unfold EarlierId at *
  simp only at *
  rcases h with h | ⟨rfl, h⟩ <;> rcases h' with h' | ⟨rfl, h'⟩
  · exact .inl (str_trans h h')
  · exact .inl h
  · exact .inl h'
  · refine .inr ⟨rfl, ?_⟩
    rcases h with h | ⟨rfl, h⟩ <;> rcases h' with h' | ⟨rfl, h'⟩
    · exact .inl (by omega)
    · exact .inl h
    · exact .inl h'
    · exact .inr ⟨rfl, str_trans h h'⟩

theorem earlierId_eq {a b : Str × Int × Str} (h : ¬ EarlierId a b) (h' : ¬ EarlierId b a) : a = b := by
  obtain ⟨a1, a2, a3⟩ := a
  obtain ⟨b1, b2, b3⟩ := b
  unfold EarlierId at *
  simp only [not_or, not_and] at *
  have e1 : a1 = b1 := str_eq h.1 h'.1
  subst e1
  have e2 : a2 = b2 := by
    have := (h.2 rfl).1
    have := (h'.2 rfl).1
    omega
  subst e2
  have e3 : a3 = b3 := str_eq ((h.2 rfl).2 rfl) ((h'.2 rfl).2 rfl)
  rw [e3]

theorem earlierId_asymm {a b : Str × Int × Str} (h : EarlierId a b) : ¬ EarlierId b a :=
  fun h' => earlierId_irrefl _ (earlierId_trans h h')

/-! Sorting -/

theorem pyInsert_perm {α : Type} (cmp : α → α → Int) (x : α) (l : List α) : (pyInsert cmp x l).Perm (x :: l) := by
  induction l with
  | nil => exact .refl _
  | cons y l ih =>
    unfold pyInsert
    split
    · exact (List.Perm.cons y ih).trans (List.Perm.swap x y l)
    · exact .refl _

theorem pySorted_perm {α : Type} (cmp : α → α → Int) (l : List α) : (pySorted cmp l).Perm l := by
  induction l with
  | nil => exact .refl _
  | cons x l ih => exact (pyInsert_perm cmp x _).trans (ih.cons x)

/-- Sorted: nothing comes before something earlier. -/
def InOrder (l : List Var) : Prop := l.Pairwise (fun a b => ¬ Earlier b a)

theorem pyInsert_order {x : Var} {l : List Var} (h : InOrder l) : InOrder (pyInsert compareVars x l) := by
  induction l with
  | nil => exact List.pairwise_singleton _ _
  | cons y l ih =>
    unfold pyInsert
    have hy := List.pairwise_cons.mp h
    split
    · rename_i hc
      rw [compareVars_neg] at hc
      refine List.pairwise_cons.mpr ⟨fun z hz => ?_, ih hy.2⟩
      rcases List.mem_cons.mp ((pyInsert_perm _ x l).mem_iff.mp hz) with rfl | hz
      · exact earlierId_asymm hc
      · exact hy.1 z hz
    · rename_i hc
      rw [compareVars_neg] at hc
      refine List.pairwise_cons.mpr ⟨fun z hz => ?_, h⟩
      rcases List.mem_cons.mp hz with rfl | hz
      · exact hc
      · intro hzx
        have hyz := hy.1 z hz
        by_cases hyx : ident x = ident y
        · exact hyz (by unfold Earlier at *; rwa [← hyx])
        · have : Earlier x y := Classical.byContradiction fun h' => hyx (earlierId_eq h' hc)
          exact hyz (earlierId_trans hzx this)

theorem pySorted_order (l : List Var) : InOrder (pySorted compareVars l) := by
  induction l with
  | nil => exact List.Pairwise.nil
  | cons x l ih => exact pyInsert_order ih

theorem pyInsert_stable (x : Var) (l : List Var) (k : Str × Int × Str) :
    (pyInsert compareVars x l).filter (fun v => ident v == k) = (x :: l).filter (fun v => ident v == k) := by
  induction l with
  | nil => rfl
  | cons y l ih =>
    unfold pyInsert
    split
    · rename_i hc
      rw [compareVars_neg] at hc
      rw [List.filter_cons, ih]
      by_cases hx : ident x = k
      · have hy : ident y ≠ k := by
          intro hy
          unfold Earlier at hc
          rw [hx, hy] at hc
          exact earlierId_irrefl _ hc
        simp [hx, hy]
      · simp [List.filter_cons, hx]
    · rfl

theorem pySorted_stable (l : List Var) (k : Str × Int × Str) :
    (pySorted compareVars l).filter (fun v => ident v == k) = l.filter (fun v => ident v == k) := by
  induction l with
  | nil => rfl
  | cons x l ih =>
    rw [pySorted, pyInsert_stable, List.filter_cons, List.filter_cons, ih]

/-- Sorted lists with the same variables of each identity are equal. -/
theorem order_unique {l l' : List Var} (h : InOrder l) (h' : InOrder l')
    (he : ∀ k, l.filter (fun v => ident v == k) = l'.filter (fun v => ident v == k)) : l = l' := by
  induction l generalizing l' with
  | nil =>
    cases l' with
    | nil => rfl
    | cons y l' =>
      have := he (ident y)
      simp at this
  | cons x l ih =>
    cases l' with
    | nil =>
      have := he (ident x)
      simp at this
    | cons y l' =>
      have hx := List.pairwise_cons.mp h
      have hy := List.pairwise_cons.mp h'
      have mx : x ∈ y :: l' := by
        have := he (ident x)
        have m : x ∈ (y :: l').filter (fun v => ident v == ident x) := by
          rw [← this]; simp
        exact (List.mem_filter.mp m).1
      have my : y ∈ x :: l := by
        have := he (ident y)
        have m : y ∈ (x :: l).filter (fun v => ident v == ident y) := by
          rw [this]; simp
        exact (List.mem_filter.mp m).1
      have e : ident x = ident y := by
        refine earlierId_eq ?_ ?_
        · rcases List.mem_cons.mp mx with rfl | m
          · exact earlierId_irrefl _
          · exact hy.1 x m
        · rcases List.mem_cons.mp my with rfl | m
          · exact earlierId_irrefl _
          · exact hx.1 y m
      have e2 : x = y := by
        have := he (ident x)
        rw [List.filter_cons, List.filter_cons, if_pos (by simp), if_pos (by simp [e])] at this
        exact (List.cons.inj this).1
      subst e2
      rw [ih hx.2 hy.2 fun k => ?_]
      have := he k
      rw [List.filter_cons, List.filter_cons] at this
      split at this
      · exact (List.cons.inj this).2
      · exact this

/-- The result of each stable sort. -/
theorem stable_sort_unique {l r : List Var} (h : InOrder r)
    (he : ∀ k, r.filter (fun v => ident v == k) = l.filter (fun v => ident v == k)) : r = pySorted compareVars l :=
  order_unique h (pySorted_order l) fun k => by rw [he, pySorted_stable]

end Bean

import Verif.Model.Basic
/-
Facts about the sorted-list model of `TreeSet` and the list models of `HashSet` and `HashMap`.
-/
namespace Bean

theorem bv_lt_irrefl (a : Addr) : ¬ a < a := by bv_omega
theorem bv_lt_trans {a b c : Addr} (h : a < b) (h' : b < c) : a < c := by bv_omega
theorem bv_not_lt {a b : Addr} : ¬ a < b ↔ b ≤ a := by bv_omega
theorem bv_not_le {a b : Addr} : ¬ a ≤ b ↔ b < a := by bv_omega
theorem bv_le_refl (a : Addr) : a ≤ a := by bv_omega
theorem bv_le_antisymm {a b : Addr} (h : a ≤ b) (h' : b ≤ a) : a = b := by bv_omega
theorem bv_pos_iff {a : Addr} : a > 0 ↔ a ≠ 0 := by bv_omega

namespace Tree
variable {α : Type} [Keyed α]

theorem Sorted.tail {x : α} {t : List α} (h : Sorted (x :: t)) : Sorted t := (List.pairwise_cons.mp h).2
theorem Sorted.head {x : α} {t : List α} (h : Sorted (x :: t)) : ∀ y ∈ t, key x < key y :=
  (List.pairwise_cons.mp h).1
theorem sorted_nil : Sorted ([] : List α) := List.Pairwise.nil

theorem Sorted.inj {t : List α} (h : Sorted t) : ∀ {x y : α}, x ∈ t → y ∈ t → key x = key y → x = y := by
  induction t with
  | nil => intro x y hx; simp at hx
  | cons z t ih =>
    intro x y hx hy e
    rcases List.mem_cons.mp hx with hx' | hx' <;> rcases List.mem_cons.mp hy with hy' | hy'
    · rw [hx', hy']
    · have := h.head y hy'; rw [← e, hx'] at this; exact absurd this (bv_lt_irrefl _)
    · have := h.head x hx'; rw [e, hy'] at this; exact absurd this (bv_lt_irrefl _)
    · exact ih h.tail hx' hy' e

theorem Sorted.filter {t : List α} (h : Sorted t) (p : α → Bool) : Sorted (t.filter p) :=
  List.Pairwise.filter p h

theorem Sorted.nodup {t : List α} (h : Sorted t) : t.Nodup := by
  refine List.Pairwise.imp ?_ h
  intro a b hab e; subst e; exact bv_lt_irrefl _ hab

/-- Specification of `floor`: the greatest element at or below. -/
theorem floor_eq_some_iff {t : List α} (h : Sorted t) {k : Addr} {s : α} :
    floor t k = some s ↔ s ∈ t ∧ key s ≤ k ∧ ∀ y ∈ t, key y ≤ k → key y ≤ key s := by
  unfold floor
  induction t with
  | nil => simp
  | cons x t ih =>
    have ih := ih h.tail
    by_cases hx : key x ≤ k
    · simp only [List.filter_cons, hx, decide_true, if_true, List.getLast?_cons]
      cases hf : (t.filter (fun x => decide (key x ≤ k))).getLast? with
      | none =>
        have hnil : t.filter (fun x => decide (key x ≤ k)) = [] := by simpa using hf
        have hno : ∀ y ∈ t, ¬ key y ≤ k := by
          intro y hy; have := List.filter_eq_nil_iff.mp hnil y hy; simpa using this
        simp only [Option.getD_none, Option.some.injEq]
        constructor
        · rintro rfl
          refine ⟨List.mem_cons_self, hx, ?_⟩
          intro y hy hyk
          rcases List.mem_cons.mp hy with rfl | hy
          · exact bv_le_refl _
          · exact absurd hyk (hno y hy)
        · rintro ⟨hs, hsk, _⟩
          rcases List.mem_cons.mp hs with rfl | hs
          · rfl
          · exact absurd hsk (hno s hs)
      | some z =>
        rw [hf] at ih
        simp only [Option.getD_some, Option.some.injEq]
        have hzt : z ∈ t := by
          have := List.mem_of_getLast? hf
          exact (List.mem_filter.mp this).1
        have hzk : key z ≤ k := by
          have := List.mem_of_getLast? hf
          simpa using (List.mem_filter.mp this).2
        constructor
        · rintro rfl
          have ⟨_, _, hm⟩ : _ ∧ _ ∧ _ := (ih.mp rfl)
          refine ⟨List.mem_cons_of_mem _ hzt, hzk, ?_⟩
          intro y hy hyk
          rcases List.mem_cons.mp hy with rfl | hy
          · have := h.head z hzt; bv_omega
          · exact hm y hy hyk
        · rintro ⟨hs, hsk, hm⟩
          rcases List.mem_cons.mp hs with rfl | hs
          · have h1 := hm z (List.mem_cons_of_mem _ hzt) hzk
            have h2 := h.head z hzt
            bv_omega
          · have := ih.mpr ⟨hs, hsk, fun y hy => hm y (List.mem_cons_of_mem _ hy)⟩
            simpa using this
    · simp only [List.filter_cons, hx, decide_false]
      simp only [Bool.false_eq_true, if_false]
      rw [ih]
      constructor
      · rintro ⟨hs, hsk, hm⟩
        refine ⟨List.mem_cons_of_mem _ hs, hsk, ?_⟩
        intro y hy hyk
        rcases List.mem_cons.mp hy with rfl | hy
        · exact absurd hyk hx
        · exact hm y hy hyk
      · rintro ⟨hs, hsk, hm⟩
        rcases List.mem_cons.mp hs with rfl | hs
        · exact absurd hsk hx
        · exact ⟨hs, hsk, fun y hy => hm y (List.mem_cons_of_mem _ hy)⟩

theorem floor_eq_none_iff {t : List α} {k : Addr} : floor t k = none ↔ ∀ y ∈ t, k < key y := by
  unfold floor
  rw [List.getLast?_eq_none_iff, List.filter_eq_nil_iff]
  simp only [decide_eq_true_eq, bv_not_le]

theorem floor_mem {t : List α} {k : Addr} {s : α} (h : floor t k = some s) : s ∈ t := by
  unfold floor at h
  exact (List.mem_filter.mp (List.mem_of_getLast? h)).1

theorem floor_le {t : List α} {k : Addr} {s : α} (h : floor t k = some s) : key s ≤ k := by
  unfold floor at h
  simpa using (List.mem_filter.mp (List.mem_of_getLast? h)).2

/-- Exact hits of `floor`. -/
theorem floor_key {t : List α} (h : Sorted t) {s : α} (hs : s ∈ t) : floor t (key s) = some s :=
  (floor_eq_some_iff h).mpr ⟨hs, bv_le_refl _, fun _ _ hy => hy⟩

theorem find_eq_some_iff {t : List α} (h : Sorted t) {k : Addr} {s : α} :
    find t k = some s ↔ s ∈ t ∧ key s = k := by
  unfold find
  constructor
  · intro hf
    exact ⟨List.mem_of_find?_eq_some hf, by simpa using List.find?_some hf⟩
  · rintro ⟨hs, rfl⟩
    cases hf : t.find? (fun x => key x == key s) with
    | none =>
      have := List.find?_eq_none.mp hf s hs
      simp at this
    | some z =>
      have hz := List.mem_of_find?_eq_some hf
      have hk : key z = key s := by simpa using List.find?_some hf
      rw [h.inj hz hs hk]

theorem find_mem {t : List α} {k : Addr} {s : α} (h : find t k = some s) : s ∈ t ∧ key s = k := by
  unfold find at h
  exact ⟨List.mem_of_find?_eq_some h, by simpa using List.find?_some h⟩

theorem find_eq_none_iff {t : List α} {k : Addr} : find t k = none ↔ ∀ y ∈ t, key y ≠ k := by
  unfold find
  rw [List.find?_eq_none]
  simp

theorem ceil_mem {t : List α} {k : Addr} {s : α} (h : ceil t k = some s) : s ∈ t ∧ k ≤ key s := by
  unfold ceil at h
  exact ⟨List.mem_of_find?_eq_some h, by simpa using List.find?_some h⟩

theorem ceil_eq_none_iff {t : List α} {k : Addr} : ceil t k = none ↔ ∀ y ∈ t, key y < k := by
  unfold ceil
  rw [List.find?_eq_none]
  simp only [decide_eq_true_eq, bv_not_le]

theorem ceil_eq_some_iff {t : List α} (h : Sorted t) {k : Addr} {s : α} :
    ceil t k = some s ↔ s ∈ t ∧ k ≤ key s ∧ ∀ y ∈ t, k ≤ key y → key s ≤ key y := by
  unfold ceil
  induction t with
  | nil => simp
  | cons x t ih =>
    have ih := ih h.tail
    by_cases hx : k ≤ key x
    · simp only [List.find?_cons, hx, decide_true, Option.some.injEq]
      constructor
      · rintro rfl
        refine ⟨List.mem_cons_self, hx, ?_⟩
        intro y hy _
        rcases List.mem_cons.mp hy with rfl | hy
        · exact bv_le_refl _
        · have := h.head y hy; bv_omega
      · rintro ⟨hs, hsk, hm⟩
        rcases List.mem_cons.mp hs with rfl | hs
        · rfl
        · have h1 := hm x List.mem_cons_self hx
          have h2 := h.head s hs
          bv_omega
    · simp only [List.find?_cons, hx, decide_false]
      rw [ih]
      constructor
      · rintro ⟨hs, hsk, hm⟩
        refine ⟨List.mem_cons_of_mem _ hs, hsk, ?_⟩
        intro y hy hyk
        rcases List.mem_cons.mp hy with rfl | hy
        · exact absurd hyk hx
        · exact hm y hy hyk
      · rintro ⟨hs, hsk, hm⟩
        rcases List.mem_cons.mp hs with rfl | hs
        · exact absurd hsk hx
        · exact ⟨hs, hsk, fun y hy => hm y (List.mem_cons_of_mem _ hy)⟩

/-- If the key is present, `ceil` is an exact look-up. -/
theorem ceil_key {t : List α} (h : Sorted t) {s : α} (hs : s ∈ t) : ceil t (key s) = some s :=
  (ceil_eq_some_iff h).mpr ⟨hs, bv_le_refl _, fun _ _ hy => hy⟩

theorem mem_insert {t : List α} {x y : α} :
    y ∈ (insert t x).1 ↔ y ∈ t ∨ (y = x ∧ (insert t x).2 = true) := by
  induction t with
  | nil => simp [insert]
  | cons z t ih =>
    unfold insert
    split
    · simp only [List.mem_cons, and_true]; grind
    · split
      · simp
      · simp only [List.mem_cons]; rw [ih]; grind

theorem insert_snd_iff {t : List α} (h : Sorted t) {x : α} :
    (insert t x).2 = true ↔ ∀ y ∈ t, key y ≠ key x := by
  induction t with
  | nil => simp [insert]
  | cons z t ih =>
    have ih := ih h.tail
    unfold insert
    split
    · rename_i hlt
      simp only [true_iff]
      intro y hy
      rcases List.mem_cons.mp hy with rfl | hy
      · bv_omega
      · have := h.head y hy; bv_omega
    · split
      · rename_i he
        simp only [Bool.false_eq_true, false_iff]
        intro hall
        exact hall z List.mem_cons_self he.symm
      · rename_i hn he
        simp only [ih, List.mem_cons, forall_eq_or_imp]
        constructor
        · intro hh; exact ⟨fun e => he e.symm, hh⟩
        · intro hh; exact hh.2

theorem insert_snd_false {t : List α} (h : Sorted t) {x : α} :
    (insert t x).2 = false ↔ ∃ y ∈ t, key y = key x := by
  have := insert_snd_iff h (x := x)
  cases hb : (insert t x).2 <;> simp [hb] at this ⊢ <;> grind

theorem insert_of_present {t : List α} (h : Sorted t) {x y : α} (hy : y ∈ t) (e : key y = key x) :
    (insert t x).1 = t := by
  induction t with
  | nil => simp at hy
  | cons z t ih =>
    unfold insert
    split
    · rename_i hlt
      rcases List.mem_cons.mp hy with rfl | hy
      · bv_omega
      · have := h.head y hy; bv_omega
    · split
      · rfl
      · rename_i hn he
        rcases List.mem_cons.mp hy with rfl | hy
        · exact absurd e.symm he
        · simp only; rw [ih h.tail hy]

theorem sorted_insert {t : List α} (h : Sorted t) (x : α) : Sorted (insert t x).1 := by
  induction t with
  | nil => simp [insert, Sorted]
  | cons z t ih =>
    unfold insert
    split
    · rename_i hlt
      refine List.pairwise_cons.mpr ⟨?_, h⟩
      intro y hy
      rcases List.mem_cons.mp hy with rfl | hy
      · exact hlt
      · exact bv_lt_trans hlt (h.head y hy)
    · split
      · exact h
      · rename_i hn he
        refine List.pairwise_cons.mpr ⟨?_, ih h.tail⟩
        intro y hy
        rcases mem_insert.mp hy with hy | ⟨rfl, _⟩
        · exact h.head y hy
        · bv_omega

/-- Membership after `insert`, in terms of keys only. -/
theorem mem_insert' {t : List α} (h : Sorted t) {x y : α} :
    y ∈ (insert t x).1 ↔ y ∈ t ∨ (y = x ∧ ∀ z ∈ t, key z ≠ key x) := by
  rw [mem_insert, insert_snd_iff h]

theorem sorted_foldl_insert (l : List α) {t : List α} (h : Sorted t) :
    Sorted (l.foldl (fun t x => (insert t x).1) t) := by
  induction l generalizing t with
  | nil => exact h
  | cons x l ih => exact ih (sorted_insert h x)

theorem sorted_ofList (l : List α) : Sorted (ofList l) := sorted_foldl_insert l sorted_nil

theorem mem_foldl_insert_sub {l t : List α} {y : α}
    (hy : y ∈ l.foldl (fun t x => (insert t x).1) t) : y ∈ t ∨ y ∈ l := by
  induction l generalizing t with
  | nil => exact Or.inl hy
  | cons x l ih =>
    rcases ih hy with h | h
    · rcases mem_insert.mp h with h | ⟨rfl, _⟩
      · exact Or.inl h
      · exact Or.inr List.mem_cons_self
    · exact Or.inr (List.mem_cons_of_mem _ h)

theorem mem_ofList {l : List α} {y : α} (hy : y ∈ ofList l) : y ∈ l := by
  rcases mem_foldl_insert_sub hy with h | h
  · simp at h
  · exact h

/-- If keys identify the elements of `l`, conversion to a tree keeps exactly the elements. -/
theorem mem_foldl_insert_iff {l t : List α} (ht : Sorted t)
    (hinj : ∀ x y, (x ∈ t ∨ x ∈ l) → (y ∈ t ∨ y ∈ l) → key x = key y → x = y) {y : α} :
    y ∈ l.foldl (fun t x => (insert t x).1) t ↔ y ∈ t ∨ y ∈ l := by
  induction l generalizing t with
  | nil => simp
  | cons x l ih =>
    have hmem : ∀ z, z ∈ (insert t x).1 ↔ z ∈ t ∨ z = x := by
      intro z
      rw [mem_insert' ht]
      constructor
      · rintro (h | ⟨h, _⟩) <;> simp [h]
      · rintro (h | rfl)
        · exact Or.inl h
        · by_cases hz : z ∈ t
          · exact Or.inl hz
          · refine Or.inr ⟨rfl, ?_⟩
            intro w hw e
            exact hz (hinj w z (Or.inl hw) (Or.inr List.mem_cons_self) e ▸ hw)
    rw [List.foldl_cons, ih (sorted_insert ht x)]
    · rw [hmem]; simp only [List.mem_cons]; grind
    · intro a b ha hb
      refine hinj a b ?_ ?_
      · rw [hmem] at ha; simp only [List.mem_cons]; grind
      · rw [hmem] at hb; simp only [List.mem_cons]; grind

theorem mem_ofList_iff {l : List α} (hinj : ∀ x ∈ l, ∀ y ∈ l, key x = key y → x = y) {y : α} :
    y ∈ ofList l ↔ y ∈ l := by
  unfold ofList
  rw [mem_foldl_insert_iff sorted_nil]
  · simp
  · intro x y hx hy; simp at hx hy; exact hinj x hx y hy

theorem mem_erase {t : List α} {k : Addr} {y : α} : y ∈ erase t k ↔ y ∈ t ∧ key y ≠ k := by
  simp [erase]

theorem sorted_erase {t : List α} (h : Sorted t) (k : Addr) : Sorted (erase t k) := h.filter _

theorem sorted_map_key {t : List α} (h : Sorted t) (f : α → α) (hf : ∀ x, key (f x) = key x) :
    Sorted (t.map f) := by
  unfold Sorted
  rw [List.pairwise_map]
  exact List.Pairwise.imp (fun {a b} hab => by rw [hf, hf]; exact hab) h

theorem sorted_modify {t : List α} (h : Sorted t) (k : Addr) (f : α → α) (hf : ∀ x, key (f x) = key x) :
    Sorted (modify t k f) := by
  refine sorted_map_key h _ ?_
  intro x; split
  · exact hf x
  · rfl

end Tree
end Bean

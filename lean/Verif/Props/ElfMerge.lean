import Verif.Props.ElfVars
/-
C80: merge of symbol table and debug information.
-/
namespace Bean.Props
open Bean Bean.Spec

/-! Merge -/

/-- C80: the assertion that equal entries were merged holds. -/
theorem C80_assertion (s d : List Var) : mergeVars s d ≠ .error .assertion := by
  fun_induction mergeVars s d with
  | case1 => intro h; cases h
  | case2 d ds ih => intro h; exact ih (by cases hm : mergeVars [] ds <;> rw [hm] at h <;> simp_all [Except.map])
  | case3 s ss ih => intro h; exact ih (by cases hm : mergeVars ss [] <;> rw [hm] at h <;> simp_all [Except.map])
  | case4 => intro h; cases h
  | case5 => intro h; cases h
  | case6 s ss d ds _ _ _ ih => intro h; exact ih (by cases hm : mergeVars ss ds <;> rw [hm] at h <;> simp_all [Except.map])
  | case7 s ss d ds hn h0 =>
    rw [compareVars_zero] at h0
    refine absurd ?_ hn
    have e1 : d.value = s.value := congrArg (·.2.1) h0
    have e2 : d.name = s.name := congrArg (·.2.2) h0
    exact ⟨e1, by rw [e2]; exact List.isPrefixOf_iff_prefix.mpr (List.prefix_refl _)⟩
  | case8 s ss d ds _ _ _ ih => intro h; exact ih (by cases hm : mergeVars (s :: ss) ds <;> rw [hm] at h <;> simp_all [Except.map])
  | case9 s ss d ds _ _ _ ih => intro h; exact ih (by cases hm : mergeVars ss (d :: ds) <;> rw [hm] at h <;> simp_all [Except.map])

theorem map_cons_ok {m : Except SummaryError (List Var)} {x : Var} {r : List Var} (h : m.map (x :: ·) = .ok r) :
    ∃ r', m = .ok r' ∧ r = x :: r' := by
  cases m with
  | error e => cases h
  | ok r' => exact ⟨r', rfl, (Except.ok.inj h).symm⟩

/-- The possible origins of a merged list. -/
inductive Merged : List Var → List Var → List Var → Prop
  | nil : Merged [] [] []
  | debug {s ds r : List Var} {d : Var} : Merged s ds r → (∀ x ∈ s.head?, Earlier d x) → Merged s (d :: ds) (d :: r)
  | symbol {ss d r : List Var} {s : Var} : Merged ss d r → (∀ x ∈ d.head?, Earlier s x) → Merged (s :: ss) d (s :: r)
  | both {ss ds r : List Var} {s d v : Var} : Combined s d v → Merged ss ds r → Merged (s :: ss) (d :: ds) (v :: r)

theorem mergeVars_merged {s d r : List Var} (h : mergeVars s d = .ok r) : Merged s d r := by
  fun_induction mergeVars s d generalizing r with
  | case1 => cases h; exact .nil
  | case2 d ds ih =>
    obtain ⟨r', h1, rfl⟩ := map_cons_ok h
    exact .debug (ih h1) (fun x hx => by cases hx)
  | case3 s ss ih =>
    obtain ⟨r', h1, rfl⟩ := map_cons_ok h
    exact .symbol (ih h1) (fun x hx => by cases hx)
  | case4 => cases h
  | case5 => cases h
  | case6 s ss d ds hm hsize hcat ih =>
    obtain ⟨r', h1, rfl⟩ := map_cons_ok h
    exact .both ⟨rfl, hm.1, List.isPrefixOf_iff_prefix.mp hm.2, Classical.not_not.mp hsize, Classical.not_not.mp hcat⟩ (ih h1)
  | case7 => cases h
  | case8 s ss d ds _ _ hlt ih =>
    obtain ⟨r', h1, rfl⟩ := map_cons_ok h
    exact .debug (ih h1) (fun x hx => by cases hx; exact compareVars_neg.mp hlt)
  | case9 s ss d ds _ h0 hlt ih =>
    obtain ⟨r', h1, rfl⟩ := map_cons_ok h
    refine .symbol (ih h1) (fun x hx => ?_)
    cases hx
    rw [compareVars_neg] at hlt
    rw [compareVars_zero] at h0
    exact Classical.byContradiction fun hn => h0 (earlierId_eq hlt hn)

/-- C80: nothing is lost and nothing is invented: each entry of the symbol table is delivered, on its own or with the type of
an entry of the debug information that has its value, size and category and the start of its name; each entry of the debug
information is delivered on its own or in this way; and each variable delivered is one of these. -/
theorem C80_merge (s d r : List Var) (h : mergeVars s d = .ok r) :
    (∀ x ∈ s, x ∈ r ∨ ∃ y ∈ d, ∃ v ∈ r, Combined x y v)
    ∧ (∀ y ∈ d, y ∈ r ∨ ∃ x ∈ s, ∃ v ∈ r, Combined x y v)
    ∧ (∀ v ∈ r, v ∈ s ∨ v ∈ d ∨ ∃ x ∈ s, ∃ y ∈ d, Combined x y v) := by
  have hm := mergeVars_merged h
  clear h
  induction hm with
  | nil => simp
  | @debug s ds r d _ _ ih =>
    obtain ⟨i1, i2, i3⟩ := ih
    refine ⟨fun x hx => ?_, fun y hy => ?_, fun v hv => ?_⟩
    · rcases i1 x hx with h | ⟨y, hy, v, hv, hc⟩
      · exact .inl (List.mem_cons_of_mem _ h)
      · exact .inr ⟨y, List.mem_cons_of_mem _ hy, v, List.mem_cons_of_mem _ hv, hc⟩
    · rcases List.mem_cons.mp hy with rfl | hy
      · exact .inl List.mem_cons_self
      · rcases i2 y hy with h | ⟨x, hx, v, hv, hc⟩
        · exact .inl (List.mem_cons_of_mem _ h)
        · exact .inr ⟨x, hx, v, List.mem_cons_of_mem _ hv, hc⟩
    · rcases List.mem_cons.mp hv with rfl | hv
      · exact .inr (.inl List.mem_cons_self)
      · rcases i3 v hv with h | h | ⟨x, hx, y, hy, hc⟩
        · exact .inl h
        · exact .inr (.inl (List.mem_cons_of_mem _ h))
        · exact .inr (.inr ⟨x, hx, y, List.mem_cons_of_mem _ hy, hc⟩)
  | @symbol ss d r s _ _ ih =>
    obtain ⟨i1, i2, i3⟩ := ih
    refine ⟨fun x hx => ?_, fun y hy => ?_, fun v hv => ?_⟩
    · rcases List.mem_cons.mp hx with rfl | hx
      · exact .inl List.mem_cons_self
      · rcases i1 x hx with h | ⟨y, hy, v, hv, hc⟩
        · exact .inl (List.mem_cons_of_mem _ h)
        · exact .inr ⟨y, hy, v, List.mem_cons_of_mem _ hv, hc⟩
    · rcases i2 y hy with h | ⟨x, hx, v, hv, hc⟩
      · exact .inl (List.mem_cons_of_mem _ h)
      · exact .inr ⟨x, List.mem_cons_of_mem _ hx, v, List.mem_cons_of_mem _ hv, hc⟩
    · rcases List.mem_cons.mp hv with rfl | hv
      · exact .inl List.mem_cons_self
      · rcases i3 v hv with h | h | ⟨x, hx, y, hy, hc⟩
        · exact .inl (List.mem_cons_of_mem _ h)
        · exact .inr (.inl h)
        · exact .inr (.inr ⟨x, List.mem_cons_of_mem _ hx, y, hy, hc⟩)
  | @both ss ds r s d v0 hc0 _ ih =>
    obtain ⟨i1, i2, i3⟩ := ih
    refine ⟨fun x hx => ?_, fun y hy => ?_, fun v hv => ?_⟩
    · rcases List.mem_cons.mp hx with rfl | hx
      · exact .inr ⟨d, List.mem_cons_self, v0, List.mem_cons_self, hc0⟩
      · rcases i1 x hx with h | ⟨y, hy, v, hv, hc⟩
        · exact .inl (List.mem_cons_of_mem _ h)
        · exact .inr ⟨y, List.mem_cons_of_mem _ hy, v, List.mem_cons_of_mem _ hv, hc⟩
    · rcases List.mem_cons.mp hy with rfl | hy
      · exact .inr ⟨s, List.mem_cons_self, v0, List.mem_cons_self, hc0⟩
      · rcases i2 y hy with h | ⟨x, hx, v, hv, hc⟩
        · exact .inl (List.mem_cons_of_mem _ h)
        · exact .inr ⟨x, List.mem_cons_of_mem _ hx, v, List.mem_cons_of_mem _ hv, hc⟩
    · rcases List.mem_cons.mp hv with rfl | hv
      · exact .inr (.inr ⟨s, List.mem_cons_self, d, List.mem_cons_self, hc0⟩)
      · rcases i3 v hv with h | h | ⟨x, hx, y, hy, hc⟩
        · exact .inl (List.mem_cons_of_mem _ h)
        · exact .inr (.inl (List.mem_cons_of_mem _ h))
        · exact .inr (.inr ⟨x, List.mem_cons_of_mem _ hx, y, List.mem_cons_of_mem _ hy, hc⟩)

/-- Not behind, by category and value. -/
def NotBehind (a b : Var) : Prop := a.category < b.category ∨ (a.category = b.category ∧ a.value ≤ b.value)

theorem notBehind_of_earlier {a b : Var} (h : Earlier a b) : NotBehind a b := by
  rcases h with h | ⟨h, h' | ⟨h', _⟩⟩
  · exact .inl h
  · exact .inr ⟨h, Int.le_of_lt h'⟩
  · exact .inr ⟨h, Int.le_of_eq h'⟩

theorem notBehind_trans {a b c : Var} (h : NotBehind a b) (h' : NotBehind b c) : NotBehind a c := by
  rcases h with h | ⟨h, i⟩ <;> rcases h' with h' | ⟨h', i'⟩
  · exact .inl (str_trans h h')
  · exact .inl (h' ▸ h)
  · exact .inl (h ▸ h')
  · exact .inr ⟨h.trans h', by omega⟩

theorem combined_place {s d v : Var} (h : Combined s d v) : v.category = s.category ∧ v.value = s.value ∧
    d.category = s.category ∧ d.value = s.value := by
  obtain ⟨rfl, h1, _, _, h2⟩ := h
  exact ⟨rfl, rfl, h2, h1⟩

/-- C80: the variables are delivered in ascending order of category and value. -/
theorem C80_order (symbols debug r : List Var) (h : variables symbols (some debug) = .ok r) :
    r.Pairwise (fun a b => a.category < b.category ∨ (a.category = b.category ∧ a.value ≤ b.value)) := by
  have hm := mergeVars_merged h
  have hs := (C56_sorted symbols).1
  have hd := (C56_sorted debug).1
  generalize sortuniq symbols = s at hm hs
  generalize sortuniq debug = d at hm hd
  change r.Pairwise NotBehind
  clear h
  have key : r.Pairwise NotBehind ∧ ∀ x : Var, (∀ y ∈ s, NotBehind x y) → (∀ y ∈ d, NotBehind x y) → ∀ v ∈ r, NotBehind x v := by
    induction hm with
    | nil => exact ⟨List.Pairwise.nil, fun x _ _ v hv => by cases hv⟩
    | @debug s ds r d _ hlt ih =>
      have hd' := List.pairwise_cons.mp hd
      obtain ⟨i1, i2⟩ := ih hs hd'.2
      refine ⟨List.pairwise_cons.mpr ⟨i2 d (fun y hy => ?_) (fun y hy => notBehind_of_earlier (hd'.1 y hy)), i1⟩,
        fun x h1 h2 v hv => ?_⟩
      · cases s with
        | nil => cases hy
        | cons z s =>
          have hz := hlt z rfl
          rcases List.mem_cons.mp hy with rfl | hy
          · exact notBehind_of_earlier hz
          · exact notBehind_of_earlier (earlierId_trans hz ((List.pairwise_cons.mp hs).1 y hy))
      · rcases List.mem_cons.mp hv with rfl | hv
        · exact h2 _ List.mem_cons_self
        · exact i2 x h1 (fun y hy => h2 y (List.mem_cons_of_mem _ hy)) v hv
    | @symbol ss d r s _ hlt ih =>
      have hs' := List.pairwise_cons.mp hs
      obtain ⟨i1, i2⟩ := ih hs'.2 hd
      refine ⟨List.pairwise_cons.mpr ⟨i2 s (fun y hy => notBehind_of_earlier (hs'.1 y hy)) (fun y hy => ?_), i1⟩,
        fun x h1 h2 v hv => ?_⟩
      · cases d with
        | nil => cases hy
        | cons z d =>
          have hz := hlt z rfl
          rcases List.mem_cons.mp hy with rfl | hy
          · exact notBehind_of_earlier hz
          · exact notBehind_of_earlier (earlierId_trans hz ((List.pairwise_cons.mp hd).1 y hy))
      · rcases List.mem_cons.mp hv with rfl | hv
        · exact h1 _ List.mem_cons_self
        · exact i2 x (fun y hy => h1 y (List.mem_cons_of_mem _ hy)) h2 v hv
    | @both ss ds r s d v0 hc _ ih =>
      have hs' := List.pairwise_cons.mp hs
      have hd' := List.pairwise_cons.mp hd
      obtain ⟨i1, i2⟩ := ih hs'.2 hd'.2
      obtain ⟨c1, c2, c3, c4⟩ := combined_place hc
      have same : ∀ {a b y : Var}, a.category = b.category → a.value = b.value → NotBehind b y → NotBehind a y := by
        intro a b y e1 e2 h
        unfold NotBehind at *
        rw [e1, e2]
        exact h
      refine ⟨List.pairwise_cons.mpr ⟨i2 v0 (fun y hy => same c1 c2 (notBehind_of_earlier (hs'.1 y hy)))
        (fun y hy => same (c1.trans c3.symm) (c2.trans c4.symm) (notBehind_of_earlier (hd'.1 y hy))), i1⟩, fun x h1 h2 v hv => ?_⟩
      rcases List.mem_cons.mp hv with rfl | hv
      · have := h1 s List.mem_cons_self
        unfold NotBehind at *
        rw [c1, c2]
        exact this
      · exact i2 x (fun y hy => h1 y (List.mem_cons_of_mem _ hy)) (fun y hy => h2 y (List.mem_cons_of_mem _ hy)) v hv
  exact key.1

/-- Decidable form of a successful merge. -/
theorem merge_of_decide {m : Except SummaryError (List Var)} {r : List Var}
    (h : (match m with
      | .ok x => decide (x = r)
      | .error _ => false) = true) : m = .ok r := by
  cases m with
  | error e => cases h
  | ok x => rw [of_decide_eq_true h]

/-- With the hash of a type. -/
def typed (v : Var) (h : String) : Var := { v with hash := some h.toList }

/-- A versioned name is recognised. -/
theorem merge_run : variables [exVar "RW" "environ@GLIBC_2.2.5" 16 8, exVar "R" "k" 0 4]
    (some [typed (exVar "RW" "environ" 16 8) "a1", typed (exVar "RW" "st" 32 4) "b2"]) =
      .ok [exVar "R" "k" 0 4, typed (exVar "RW" "environ@GLIBC_2.2.5" 16 8) "a1", typed (exVar "RW" "st" 32 4) "b2"] := by
  exact merge_of_decide (by decide +kernel)

example : [exVar "R" "k" 0 4, typed (exVar "RW" "environ@GLIBC_2.2.5" 16 8) "a1", typed (exVar "RW" "st" 32 4) "b2"].Pairwise
    (fun a b => a.category < b.category ∨ (a.category = b.category ∧ a.value ≤ b.value)) :=
  C80_order _ _ _ merge_run

/-- C80: a variable that is in both tables with the same name is delivered twice if the debug information has a variable with a
shorter name at the same address. -/
theorem C80_duplicates : variables [exVar "RW" "optind" 16 4]
    (some [typed (exVar "RW" "opt" 16 4) "a1", typed (exVar "RW" "optind" 16 4) "b2"]) =
      .ok [typed (exVar "RW" "optind" 16 4) "a1", typed (exVar "RW" "optind" 16 4) "b2"] := by
  exact merge_of_decide (by decide +kernel)

end Bean.Props

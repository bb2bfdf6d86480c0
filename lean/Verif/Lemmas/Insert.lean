import Verif.Spec.Insert
import Verif.Lemmas.Map
/-
Lemmas about `insertSymbol`: the result at an address is determined by what was there and the arguments.
-/
namespace Bean
open Tree Spec

/-- The symbol at `a.address` after the insertion, for the symbol that was there before. -/
def stepAt (a : InsertArgs) : Option Symbol → Symbol
  | none => newSymbol a
  | some pos =>
    if pos.type = .none ∧ (beanType a.type = .object ∨ beanType a.type = .func) then pos
    else if beanType a.type ≠ .none ∨ pos.type = .unknown then mergeSymbol a pos
    else pos

theorem stepAt_address {a : InsertArgs} {o : Option Symbol} (h : ∀ s, o = some s → s.address = a.address) :
    (stepAt a o).address = a.address := by
  unfold stepAt
  cases o with
  | none => rfl
  | some pos =>
    have := h pos rfl
    simp only
    split
    · exact this
    · split
      · exact this
      · exact this

theorem find_modify_self {t : SymTree} (hs : Sorted t) {k : Addr} {f : Symbol → Symbol}
    (hf : ∀ x, (f x).address = x.address) {pos : Symbol} (hp : Tree.find t k = some pos) :
    Tree.find (Tree.modify t k f) k = some (f pos) := by
  have hs' : Sorted (Tree.modify t k f) := sorted_modify hs k f hf
  rw [find_eq_some_iff hs']
  obtain ⟨hm, hk⟩ := find_mem hp
  refine ⟨?_, ?_⟩
  · unfold Tree.modify
    refine List.mem_map.mpr ⟨pos, hm, ?_⟩
    rw [if_pos hk]
  · change (f pos).address = k
    rw [hf]; exact hk

theorem find_modify_ne {t : SymTree} {k k' : Addr} {f : Symbol → Symbol}
    (hf : ∀ x, (f x).address = x.address) (h : k' ≠ k) :
    Tree.find (Tree.modify t k f) k' = Tree.find t k' := by
  unfold Tree.find Tree.modify
  induction t with
  | nil => rfl
  | cons x t ih =>
    rw [List.map_cons, List.find?_cons, List.find?_cons, ih]
    by_cases hx : key x = k
    · have hf' : key (f x) = k := by change (f x).address = k; rw [hf]; exact hx
      have h1 : (key (f x) == k') = false := by
        rw [beq_eq_false_iff_ne, hf']; exact fun e => h e.symm
      have h2 : (key x == k') = false := by
        rw [beq_eq_false_iff_ne, hx]; exact fun e => h e.symm
      rw [if_pos hx, h1, h2]
    · rw [if_neg hx]

theorem find_insert_self {t : SymTree} (hs : Sorted t) {x : Symbol} (h : Tree.find t x.address = none) :
    Tree.find (Tree.insert t x).1 x.address = some x := by
  rw [find_eq_some_iff (sorted_insert hs x)]
  refine ⟨(mem_insert' hs).mpr (Or.inr ⟨rfl, ?_⟩), rfl⟩
  exact find_eq_none_iff.mp h

theorem find_insert_ne {t : SymTree} (hs : Sorted t) {x : Symbol} {k : Addr} (h : k ≠ x.address) :
    Tree.find (Tree.insert t x).1 k = Tree.find t k := by
  cases hf : Tree.find t k with
  | some y =>
    rw [find_eq_some_iff (sorted_insert hs x)]
    have := find_mem hf
    exact ⟨(mem_insert' hs).mpr (Or.inl this.1), this.2⟩
  | none =>
    rw [find_eq_none_iff] at hf ⊢
    intro y hy
    rcases (mem_insert' hs).mp hy with hy | ⟨rfl, _⟩
    · exact hf y hy
    · exact fun e => h e.symm

theorem insert_present {t : SymTree} (hs : Sorted t) {x pos : Symbol} (h : Tree.find t x.address = some pos) :
    (Tree.insert t x).1 = t :=
  insert_of_present hs (find_mem h).1 (find_mem h).2

/-- The effect of `insertSymbol` in one equation per address. -/
theorem insertSymbol_spec {b : Build} {t t' : SymTree} {a : InsertArgs} (hs : Sorted t)
    (h : insertSymbol b t a = .ok t') :
    Sorted t' ∧ Tree.find t' a.address = some (stepAt a (Tree.find t a.address)) ∧
      ∀ k, k ≠ a.address → Tree.find t' k = Tree.find t k := by
  unfold insertSymbol at h
  replace h := (massert_bind_ok (massert_bind_ok h).2).2
  cases hf : Tree.find t a.address with
  | none =>
    rw [hf] at h
    simp only at h
    cases h
    refine ⟨sorted_insert hs _, ?_, ?_⟩
    · exact find_insert_self (x := newSymbol a) hs hf
    · intro k hk
      exact find_insert_ne (x := newSymbol a) hs hk
  | some pos =>
    rw [hf] at h
    simp only at h
    unfold stepAt
    simp only
    split at h
    · rename_i hc
      cases h
      rw [if_pos hc, insert_present (x := newSymbol a) hs hf]
      exact ⟨hs, hf, fun _ _ => rfl⟩
    · rename_i hc
      rw [if_neg hc]
      split at h
      · rename_i hc2
        rw [if_pos hc2]
        cases hm : mergeCheck b a pos with
        | error e => rw [hm] at h; cases h
        | ok u =>
          rw [hm] at h
          cases h
          refine ⟨sorted_modify hs _ _ (fun _ => rfl), ?_, ?_⟩
          · exact find_modify_self (f := mergeSymbol a) hs (fun _ => rfl) hf
          · intro k hk; exact find_modify_ne (fun _ => rfl) hk
      · rename_i hc2
        rw [if_neg hc2]
        cases h
        exact ⟨hs, hf, fun _ _ => rfl⟩

/-- What becomes of the symbol at one address by a list of insertions. -/
def runAt (k : Addr) (as : List InsertArgs) (o : Option Symbol) : Option Symbol :=
  as.foldl (fun o a => if a.address = k then some (stepAt a o) else o) o

theorem insertAll_spec {b : Build} {as : List InsertArgs} : ∀ {t t' : SymTree}, Sorted t →
    insertAll b t as = .ok t' → Sorted t' ∧ ∀ k, Tree.find t' k = runAt k as (Tree.find t k) := by
  induction as with
  | nil =>
    intro t t' hs h
    cases h
    exact ⟨hs, fun _ => rfl⟩
  | cons a as ih =>
    intro t t' hs h
    unfold insertAll at h
    rw [List.foldlM_cons] at h
    cases h1 : insertSymbol b t a with
    | error e => rw [h1] at h; cases h
    | ok t1 =>
      rw [h1] at h
      obtain ⟨s1, f1, g1⟩ := insertSymbol_spec hs h1
      obtain ⟨s2, f2⟩ := ih s1 (t' := t') h
      refine ⟨s2, fun k => ?_⟩
      rw [f2 k]
      unfold runAt
      rw [List.foldl_cons]
      by_cases hk : a.address = k
      · subst hk; rw [if_pos rfl, f1]
      · rw [if_neg hk, g1 k (fun e => hk e.symm)]

/-- Only insertions at the address matter. -/
theorem runAt_filter (k : Addr) (as : List InsertArgs) (o : Option Symbol) :
    runAt k as o = (as.filter (fun a => a.address == k)).foldl (fun o a => some (stepAt a o)) o := by
  unfold runAt
  induction as generalizing o with
  | nil => rfl
  | cons a as ih =>
    rw [List.foldl_cons, ih, List.filter_cons]
    by_cases hk : a.address = k
    · rw [if_pos hk]
      simp only [hk, beq_self_eq_true, if_true, List.foldl_cons]
    · rw [if_neg hk]
      have : (a.address == k) = false := beq_eq_false_iff_ne.mpr hk
      simp only [this]
      rfl

/-- Induction principle for the symbol at one address. -/
theorem runAt_ind {P : Symbol → Prop} {k : Addr} {as : List InsertArgs} {o : Option Symbol}
    (h0 : ∀ s, o = some s → P s)
    (hstep : ∀ a ∈ as, a.address = k → ∀ o', (∀ s, o' = some s → P s ∧ s.address = k) → P (stepAt a o'))
    (hk : ∀ s, o = some s → s.address = k) :
    ∀ s, runAt k as o = some s → P s ∧ s.address = k := by
  unfold runAt
  induction as generalizing o with
  | nil => intro s hs; exact ⟨h0 s hs, hk s hs⟩
  | cons a as ih =>
    rw [List.foldl_cons]
    by_cases ha : a.address = k
    · rw [if_pos ha]
      refine ih ?_ (fun a' ha' => hstep a' (List.mem_cons_of_mem _ ha')) ?_
      · intro s hs
        cases hs
        exact hstep a (List.mem_cons_self ..) ha o (fun s hs => ⟨h0 s hs, hk s hs⟩)
      · intro s hs
        cases hs
        rw [stepAt_address (fun s hs => (hk s hs).trans ha.symm)]
        exact ha
    · rw [if_neg ha]
      exact ih h0 (fun a' ha' => hstep a' (List.mem_cons_of_mem _ ha')) hk

/-- After the insertion of `a` and further ones the symbol satisfies everything that `stepAt a` establishes and
later steps preserve. -/
theorem runAt_mem {P : Symbol → Prop} {k : Addr} {as : List InsertArgs} {a : InsertArgs} (ha : a ∈ as)
    (hak : a.address = k) {o : Option Symbol} (hk : ∀ s, o = some s → s.address = k)
    (hest : ∀ o', (∀ s, o' = some s → s.address = k) → P (stepAt a o'))
    (hstep : ∀ a' ∈ as, a'.address = k → ∀ s, P s → s.address = k → P (stepAt a' (some s))) :
    ∃ s, runAt k as o = some s ∧ P s ∧ s.address = k := by
  unfold runAt
  induction as generalizing o with
  | nil => cases ha
  | cons x as ih =>
    rw [List.foldl_cons]
    rcases List.mem_cons.mp ha with e | ha'
    · subst e
      rw [if_pos hak]
      have hP : P (stepAt a o) := hest o hk
      have hA : (stepAt a o).address = k := by
        rw [stepAt_address (fun s hs => (hk s hs).trans hak.symm)]; exact hak
      have key : ∀ (as' : List InsertArgs) (s : Symbol), (∀ a' ∈ as', a' ∈ a :: as) → P s → s.address = k →
          ∃ s', as'.foldl (fun o a => if a.address = k then some (stepAt a o) else o) (some s) = some s' ∧ P s' ∧
            s'.address = k := by
        intro as'
        induction as' with
        | nil => intro s _ hp hs; exact ⟨s, rfl, hp, hs⟩
        | cons y as' ih' =>
          intro s hsub hp hs
          rw [List.foldl_cons]
          by_cases hy : y.address = k
          · rw [if_pos hy]
            refine ih' _ (fun a' h' => hsub a' (List.mem_cons_of_mem _ h')) ?_ ?_
            · exact hstep y (hsub y (List.mem_cons_self ..)) hy s hp hs
            · rw [stepAt_address]
              · exact hy
              · intro s' hs'; cases hs'; exact hs.trans hy.symm
          · rw [if_neg hy]
            exact ih' _ (fun a' h' => hsub a' (List.mem_cons_of_mem _ h')) hp hs
      exact key as _ (fun a' h' => List.mem_cons_of_mem _ h') hP hA
    · have hk' : ∀ s, (if x.address = k then some (stepAt x o) else o) = some s → s.address = k := by
        intro s hs
        by_cases hx : x.address = k
        · rw [if_pos hx] at hs
          cases hs
          rw [stepAt_address (fun s hs => (hk s hs).trans hx.symm)]; exact hx
        · rw [if_neg hx] at hs; exact hk s hs
      exact ih ha' hk' (fun a' h' => hstep a' (List.mem_cons_of_mem _ h'))

end Bean

namespace Bean
open Tree Spec

/-- In a release build insertion never fails. -/
theorem insertSymbol_release (t : SymTree) (a : InsertArgs) : ∃ t', insertSymbol .release t a = .ok t' := by
  unfold insertSymbol
  have hm : ∀ c, massert .release c = .ok () := fun c => by cases c <;> rfl
  simp only [hm]
  cases Tree.find t a.address with
  | none => exact ⟨_, rfl⟩
  | some pos =>
    simp only
    split
    · exact ⟨_, rfl⟩
    · split
      · have : mergeCheck .release a pos = .ok () := by
          unfold mergeCheck
          simp only [hm]
          split
          · rfl
          · split <;> rfl
        rw [this]
        exact ⟨_, rfl⟩
      · exact ⟨_, rfl⟩

theorem merge_size {a : InsertArgs} {pos : Symbol} (e : pos.address = a.address) (ha : Fits a) (hp : NoWrap pos) :
    pos.size ≤ (mergeSymbol a pos).size ∧ a.size ≤ (mergeSymbol a pos).size ∧ NoWrap (mergeSymbol a pos) := by
  unfold Fits at ha
  unfold NoWrap at *
  unfold mergeSymbol
  simp only
  rw [e] at hp ⊢
  split <;> rename_i h
  · refine ⟨?_, ?_, ?_⟩ <;> bv_omega
  · refine ⟨?_, ?_, ?_⟩ <;> bv_omega

theorem merge_bind (a : InsertArgs) (pos : Symbol) : pos.bind.code ≤ (mergeSymbol a pos).bind.code := by
  unfold mergeSymbol
  simp only
  split
  · rename_i h; omega
  · exact Int.le_refl _

/-- Size of the symbol after one insertion. -/
theorem stepAt_size {a : InsertArgs} {s : Symbol} (e : s.address = a.address) (ha : Fits a) (hp : NoWrap s) :
    s.size ≤ (stepAt a (some s)).size ∧ NoWrap (stepAt a (some s)) := by
  unfold stepAt
  simp only
  split
  · exact ⟨bv_le_refl _, hp⟩
  · split
    · exact ⟨(merge_size e ha hp).1, (merge_size e ha hp).2.2⟩
    · exact ⟨bv_le_refl _, hp⟩

theorem stepAt_bind (a : InsertArgs) (s : Symbol) : s.bind.code ≤ (stepAt a (some s)).bind.code := by
  unfold stepAt
  simp only
  split
  · exact Int.le_refl _
  · split
    · exact merge_bind a s
    · exact Int.le_refl _

theorem runAt_some {k : Addr} {as : List InsertArgs} {s : Symbol} : ∃ s', runAt k as (some s) = some s' := by
  unfold runAt
  induction as generalizing s with
  | nil => exact ⟨s, rfl⟩
  | cons a as ih =>
    rw [List.foldl_cons]
    by_cases h : a.address = k
    · rw [if_pos h]; exact ih
    · rw [if_neg h]; exact ih

theorem runAt_none {k : Addr} {as : List InsertArgs} (h : ∀ a ∈ as, a.address ≠ k) (o : Option Symbol) :
    runAt k as o = o := by
  unfold runAt
  induction as generalizing o with
  | nil => rfl
  | cons a as ih =>
    rw [List.foldl_cons, if_neg (h a (List.mem_cons_self ..))]
    exact ih (fun a' h' => h a' (List.mem_cons_of_mem _ h')) o

/-- Everything that each step keeps relative to the start value. -/
theorem runAt_rel {R : Symbol → Prop} {k : Addr} {as : List InsertArgs} {s : Symbol} (hs : s.address = k) (h0 : R s)
    (hstep : ∀ a ∈ as, a.address = k → ∀ s', s'.address = k → R s' → R (stepAt a (some s'))) :
    ∃ s', runAt k as (some s) = some s' ∧ R s' ∧ s'.address = k := by
  obtain ⟨s', h'⟩ := runAt_some (k := k) (as := as) (s := s)
  refine ⟨s', h', ?_⟩
  unfold runAt at h'
  induction as generalizing s with
  | nil => cases h'; exact ⟨h0, hs⟩
  | cons a as ih =>
    rw [List.foldl_cons] at h'
    by_cases ha : a.address = k
    · rw [if_pos ha] at h'
      refine ih ?_ ?_ (fun a' h' => hstep a' (List.mem_cons_of_mem _ h')) h'
      · rw [stepAt_address]
        · exact ha
        · intro x hx; cases hx; exact hs.trans ha.symm
      · exact hstep a (List.mem_cons_self ..) ha s hs h0
    · rw [if_neg ha] at h'
      exact ih hs h0 (fun a' h' => hstep a' (List.mem_cons_of_mem _ h')) h'

end Bean

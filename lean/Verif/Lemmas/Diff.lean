import Verif.Model.Diff
import Verif.Spec.Diff
import Verif.Lemmas.Tree
/-
Lemmas about hash sets of symbols and the `diff` template.
-/
namespace Bean
open Spec

/-- What a comparison class has to fulfil: equality is an equivalence and respects the hash. -/
structure Cmp.Lawful (c : Cmp) (same : Symbol → Symbol → Prop) : Prop where
  equal_iff : ∀ a b, c.equal a b = true ↔ same a b
  hash_eq : ∀ a b, same a b → c.hash a = c.hash b
  refl : ∀ a, same a a
  symm : ∀ a b, same a b → same b a
  trans : ∀ a b d, same a b → same b d → same a d

theorem Section.same_iff (a b : Section) : a.same b = true ↔ SameSection a b := by
  simp [Section.same, SameSection, and_assoc]

theorem Symbol.same_iff (a b : Symbol) : a.same b = true ↔ SameIdentity a b := by
  simp only [Symbol.same, SameIdentity, Bool.and_eq_true, beq_iff_eq, Section.same_iff]
  constructor
  · rintro ⟨⟨⟨h1, h2⟩, h3⟩, h4⟩; exact ⟨by rw [h1], by rw [h1], h2, h3, h4⟩
  · rintro ⟨h1, h1', h2, h3, h4⟩
    refine ⟨⟨⟨?_, h2⟩, h3⟩, h4⟩
    cases ha : a.id; cases hb : b.id; simp_all

theorem extCmp_lawful (h : BitVec 64 → BitVec 32) : (extCmp h).Lawful SameIdentity where
  equal_iff a b := Symbol.same_iff a b
  hash_eq a b hs := by simp [extCmp, hs.1, hs.2.1]
  refl a := ⟨rfl, rfl, ⟨rfl, rfl, rfl, rfl⟩, rfl, rfl⟩
  symm a b hs := by unfold SameIdentity SameSection at *; grind
  trans a b d h1 h2 := by unfold SameIdentity SameSection at *; grind

theorem intCmp_lawful (h : BitVec 64 → BitVec 32) : (intCmp h).Lawful SameInternal where
  equal_iff a b := by simp [intCmp, SameInternal, Section.same_iff]
  hash_eq a b hs := by simp [intCmp, hs.1]
  refl a := ⟨rfl, ⟨rfl, rfl, rfl, rfl⟩⟩
  symm a b hs := by unfold SameInternal SameSection at *; grind
  trans a b d h1 h2 := by unfold SameInternal SameSection at *; grind

namespace SymHash
variable {c : Cmp} {same : Symbol → Symbol → Prop}

theorem contains_iff (hc : c.Lawful same) {l : List Symbol} {s : Symbol} :
    contains c l s = true ↔ ∃ y ∈ l, same y s := by
  unfold contains find
  rw [List.find?_isSome]
  constructor
  · rintro ⟨y, hy, hs⟩
    simp only [Bool.and_eq_true] at hs
    exact ⟨y, hy, (hc.equal_iff _ _).mp hs.2⟩
  · rintro ⟨y, hy, hs⟩
    refine ⟨y, hy, ?_⟩
    simp [(hc.equal_iff _ _).mpr hs, hc.hash_eq _ _ hs]

theorem contains_append (hc : c.Lawful same) {l m : List Symbol} {s : Symbol}
    (h : contains c l s = true) : contains c (l ++ m) s = true := by
  rw [contains_iff hc] at *
  obtain ⟨y, hy, hs⟩ := h
  exact ⟨y, List.mem_append_left _ hy, hs⟩

theorem insert_fst_iff (hc : c.Lawful same) {l : List Symbol} {s x : Symbol} :
    contains c (insert c l s).1 x = true ↔ contains c l x = true ∨ same s x := by
  unfold insert
  split
  · rename_i h
    constructor
    · exact Or.inl
    · rintro (h' | h')
      · exact h'
      · rw [contains_iff hc] at *
        obtain ⟨y, hy, hs⟩ := h
        exact ⟨y, hy, hc.trans _ _ _ hs h'⟩
  · simp only [contains_iff hc, List.mem_append, List.mem_singleton]
    constructor
    · rintro ⟨y, hy | rfl, hs⟩
      · exact Or.inl ⟨y, hy, hs⟩
      · exact Or.inr hs
    · rintro (⟨y, hy, hs⟩ | hs)
      · exact ⟨y, Or.inl hy, hs⟩
      · exact ⟨s, Or.inr rfl, hs⟩

theorem contains_foldl (hc : c.Lawful same) {t l : List Symbol} {x : Symbol} :
    contains c (t.foldl (fun l s => (insert c l s).1) l) x = true
      ↔ contains c l x = true ∨ ∃ y ∈ t, same y x := by
  induction t generalizing l with
  | nil => simp
  | cons s t ih =>
    rw [List.foldl_cons, ih, insert_fst_iff hc]
    simp only [List.mem_cons]
    grind

/-- The hash set built from a tree contains exactly the identities in the tree. -/
theorem contains_ofTree (hc : c.Lawful same) {t : List Symbol} {x : Symbol} :
    contains c (ofTree c t) x = true ↔ ∃ y ∈ t, same y x := by
  unfold ofTree
  rw [contains_foldl hc]
  simp [contains, find]

theorem find_mem {l : List Symbol} {s y : Symbol} (h : find c l s = some y) : y ∈ l :=
  List.mem_of_find?_eq_some h

theorem find_same (hc : c.Lawful same) {l : List Symbol} {s y : Symbol} (h : find c l s = some y) : same y s := by
  have := List.find?_some h
  simp only [Bool.and_eq_true] at this
  exact (hc.equal_iff _ _).mp this.2

theorem mem_foldl {t l : List Symbol} {x : Symbol}
    (h : x ∈ t.foldl (fun l s => (insert c l s).1) l) : x ∈ l ∨ x ∈ t := by
  induction t generalizing l with
  | nil => exact Or.inl h
  | cons s t ih =>
    rcases ih h with h | h
    · simp only [insert] at h
      split at h
      · exact Or.inl h
      · rcases List.mem_append.mp h with h | h
        · exact Or.inl h
        · simp at h; subst h; exact Or.inr List.mem_cons_self
    · exact Or.inr (List.mem_cons_of_mem _ h)

theorem mem_ofTree {t : List Symbol} {x : Symbol} (h : x ∈ ofTree c t) : x ∈ t := by
  rcases mem_foldl h with h | h
  · simp at h
  · exact h

end SymHash

/-! ### the recursive `dependencies` function -/
section Dependencies
variable {c : Cmp} {same : Symbol → Symbol → Prop} {symbols : List Symbol}

/-- Symbols visited by `dependencies`. -/
def Eligible (s : Symbol) : Prop := s.size > 0 ∧ s.sec.executable = true

/-- Number of symbols whose identity is not in the result. -/
def remaining (c : Cmp) (symbols r : List Symbol) : Nat :=
  (symbols.filter (fun s => !SymHash.contains c r s)).length

theorem remaining_le (r : List Symbol) : remaining c symbols r ≤ symbols.length :=
  List.length_filter_le _ _

theorem filter_length_mono {α : Type} {p q : α → Bool} (l : List α) (h : ∀ x, p x = true → q x = true) :
    (l.filter p).length ≤ (l.filter q).length := by
  induction l with
  | nil => simp
  | cons x l ih =>
    simp only [List.filter_cons]
    have := h x
    split <;> split <;> simp_all <;> omega

theorem filter_length_lt {α : Type} {p q : α → Bool} {l : List α} {s : α} (h : ∀ x, p x = true → q x = true)
    (hs : s ∈ l) (hp : p s = false) (hq : q s = true) : (l.filter p).length < (l.filter q).length := by
  induction l with
  | nil => simp at hs
  | cons x l ih =>
    have hm := filter_length_mono l h
    simp only [List.filter_cons]
    rcases List.mem_cons.mp hs with rfl | hs
    · simp [hp, hq]; omega
    · have := ih hs
      have := h x
      split <;> split <;> simp_all <;> omega

theorem remaining_append (hc : c.Lawful same) (r m : List Symbol) :
    remaining c symbols (r ++ m) ≤ remaining c symbols r := by
  apply filter_length_mono
  intro x hx
  simp only [Bool.not_eq_true'] at *
  cases h : SymHash.contains c r x
  · rfl
  · rw [SymHash.contains_append hc h] at hx; exact hx

theorem remaining_insert (hc : c.Lawful same) {r : List Symbol} {s : Symbol} (hs : s ∈ symbols)
    (hn : SymHash.contains c r s = false) : remaining c symbols (r ++ [s]) < remaining c symbols r := by
  apply filter_length_lt (s := s) _ hs
  · have : SymHash.contains c (r ++ [s]) s = true := by
      rw [SymHash.contains_iff hc]; exact ⟨s, by simp, hc.refl s⟩
    simp [this]
  · simp [hn]
  · intro x hx
    simp only [Bool.not_eq_true'] at *
    cases h : SymHash.contains c r x
    · rfl
    · rw [SymHash.contains_append hc h] at hx; exact hx

/-- All users at address `d` are in the result. -/
def Done (c : Cmp) (symbols r : List Symbol) (d : Addr) : Prop :=
  ∀ s, Tree.ceil symbols d = some s → Eligible s → SymHash.contains c r s = true

theorem Done.append (hc : c.Lawful same) {r m : List Symbol} {d : Addr} (h : Done c symbols r d) :
    Done c symbols (r ++ m) d := fun s h1 h2 => SymHash.contains_append hc (h s h1 h2)

/-- Summary of a (list of) call(s) with accumulated result. -/
structure Grown (c : Cmp) (symbols : List Symbol) (r r' : List Symbol) (new : List Symbol) : Prop where
  eq : r' = r ++ new
  mem : ∀ s ∈ new, s ∈ symbols
  elig : ∀ s ∈ new, Eligible s
  closed : ∀ s ∈ new, ∀ d ∈ s.deps, Done c symbols r' d
  fresh : ∀ l₁ s l₂, new = l₁ ++ s :: l₂ → SymHash.contains c (r ++ l₁) s = false

theorem Grown.refl (r : List Symbol) : Grown c symbols r r [] where
  eq := by simp
  mem := by simp
  elig := by simp
  closed := by simp
  fresh := by simp

theorem Grown.trans (hc : c.Lawful same) {r r₁ r₂ n₁ n₂ : List Symbol} (h₁ : Grown c symbols r r₁ n₁)
    (h₂ : Grown c symbols r₁ r₂ n₂) : Grown c symbols r r₂ (n₁ ++ n₂) where
  eq := by rw [h₂.eq, h₁.eq, List.append_assoc]
  mem := by
    intro s hs
    rcases List.mem_append.mp hs with hs | hs
    · exact h₁.mem s hs
    · exact h₂.mem s hs
  elig := by
    intro s hs
    rcases List.mem_append.mp hs with hs | hs
    · exact h₁.elig s hs
    · exact h₂.elig s hs
  closed := by
    intro s hs d hd
    rcases List.mem_append.mp hs with hs | hs
    · rw [h₂.eq]; exact (h₁.closed s hs d hd).append hc
    · exact h₂.closed s hs d hd
  fresh := by
    intro l₁ s l₂ he
    rcases List.append_eq_append_iff.mp he with ⟨a, ha, hb⟩ | ⟨a, ha, hb⟩
    · rw [ha]
      have := h₂.fresh a s l₂ hb
      rw [h₁.eq] at this
      rw [← List.append_assoc]; exact this
    · cases a with
      | nil =>
        simp at ha hb
        have := h₂.fresh [] s l₂ (by simp [hb])
        rw [h₁.eq, ha] at this
        simpa using this
      | cons x a =>
        simp at hb
        obtain ⟨rfl, hb⟩ := hb
        exact h₁.fresh l₁ s a ha

theorem insert_eq_of_false {r : List Symbol} {s : Symbol} (h : SymHash.contains c r s = false) :
    SymHash.insert c r s = (r ++ [s], true) := by simp [SymHash.insert, h]

theorem insert_eq_of_true {r : List Symbol} {s : Symbol} (h : SymHash.contains c r s = true) :
    SymHash.insert c r s = (r, false) := by simp [SymHash.insert, h]

/-- One call of `dependencies` with enough fuel. -/
theorem dependencies_spec (hc : c.Lawful same) (n : Nat) (a : Addr) (r : List Symbol)
    (hn : remaining c symbols r ≤ n) :
    ∃ new, Grown c symbols r (dependencies c symbols n a r) new
      ∧ Done c symbols (dependencies c symbols n a r) a := by
  induction n generalizing a r with
  | zero =>
    refine ⟨[], by unfold dependencies; exact Grown.refl r, ?_⟩
    intro s hs _
    unfold dependencies
    cases hcon : SymHash.contains c r s
    · have hmem := (Tree.ceil_mem hs).1
      have := remaining_insert hc hmem hcon
      omega
    · rfl
  | succ n ih =>
    unfold dependencies
    cases hceil : Tree.ceil symbols a with
    | none => exact ⟨[], Grown.refl r, by intro s hs; rw [hceil] at hs; simp at hs⟩
    | some sym =>
      simp only
      by_cases he : (decide (sym.size > 0) && sym.sec.executable) = true
      · rw [if_pos he]
        have helig : Eligible sym := by simpa [Eligible] using he
        cases hcon : SymHash.contains c r sym with
        | true =>
          rw [insert_eq_of_true hcon]
          refine ⟨[], Grown.refl r, ?_⟩
          intro s hs _
          rw [hceil] at hs; cases hs; exact hcon
        | false =>
          rw [insert_eq_of_false hcon]
          simp only [if_true]
          have hmem := (Tree.ceil_mem hceil).1
          have hrem := remaining_insert hc hmem hcon
          -- the loop over the dependencies
          have loop : ∀ (ds : List Addr) (q : List Symbol), remaining c symbols q ≤ n →
              ∃ new, Grown c symbols q (ds.foldl (fun r d => dependencies c symbols n d r) q) new
                ∧ ∀ d ∈ ds, Done c symbols (ds.foldl (fun r d => dependencies c symbols n d r) q) d := by
            intro ds
            induction ds with
            | nil => intro q _; exact ⟨[], Grown.refl q, by simp⟩
            | cons d ds ihds =>
              intro q hq
              obtain ⟨n1, hg1, hd1⟩ := ih d q hq
              have hq1 : remaining c symbols (dependencies c symbols n d q) ≤ n := by
                rw [hg1.eq]; exact Nat.le_trans (remaining_append hc _ _) hq
              obtain ⟨n2, hg2, hd2⟩ := ihds _ hq1
              refine ⟨n1 ++ n2, hg1.trans hc hg2, ?_⟩
              intro d' hd'
              simp only [List.foldl_cons]
              rcases List.mem_cons.mp hd' with rfl | hd'
              · rw [hg2.eq]; exact hd1.append hc
              · exact hd2 d' hd'
          obtain ⟨new, hg, hd⟩ := loop sym.deps (r ++ [sym]) (by omega)
          refine ⟨sym :: new, ?_, ?_⟩
          · constructor
            · rw [hg.eq]; simp
            · intro s hs
              rcases List.mem_cons.mp hs with rfl | hs
              · exact hmem
              · exact hg.mem s hs
            · intro s hs
              rcases List.mem_cons.mp hs with rfl | hs
              · exact helig
              · exact hg.elig s hs
            · intro s hs d hd'
              rcases List.mem_cons.mp hs with rfl | hs
              · exact hd d hd'
              · exact hg.closed s hs d hd'
            · intro l₁ s l₂ he
              cases l₁ with
              | nil => simp at he; rw [← he.1]; simpa using hcon
              | cons x l₁ =>
                simp at he
                obtain ⟨rfl, he⟩ := he
                have := hg.fresh l₁ s l₂ he
                simpa using this
          · intro s hs _
            rw [hceil] at hs; cases hs
            rw [hg.eq]
            apply SymHash.contains_append hc
            rw [SymHash.contains_iff hc]
            exact ⟨sym, by simp, hc.refl sym⟩
      · rw [if_neg he]
        refine ⟨[], Grown.refl r, ?_⟩
        intro s hs hel
        rw [hceil] at hs; cases hs
        exact absurd (by simpa [Eligible] using hel) he

/-- Invariants that are closed under "user of" are kept (for any fuel). -/
theorem dependencies_inv (Q : Symbol → Prop)
    (hstep : ∀ p d q, Q p → d ∈ p.deps → Tree.ceil symbols d = some q → Eligible q → Q q)
    (n : Nat) (a : Addr) (r : List Symbol) (ha : ∀ q, Tree.ceil symbols a = some q → Eligible q → Q q)
    (hr : ∀ s ∈ r, Q s) : ∀ s ∈ dependencies c symbols n a r, Q s := by
  induction n generalizing a r with
  | zero => unfold dependencies; exact hr
  | succ n ih =>
    unfold dependencies
    cases hceil : Tree.ceil symbols a with
    | none => exact hr
    | some sym =>
      simp only
      by_cases he : (decide (sym.size > 0) && sym.sec.executable) = true
      · rw [if_pos he]
        have helig : Eligible sym := by simpa [Eligible] using he
        have hq := ha sym hceil helig
        cases hcon : SymHash.contains c r sym with
        | true => rw [insert_eq_of_true hcon]; exact hr
        | false =>
          rw [insert_eq_of_false hcon]
          simp only [if_true]
          have loop : ∀ (ds : List Addr) (q : List Symbol), (∀ d ∈ ds, d ∈ sym.deps) → (∀ s ∈ q, Q s) →
              ∀ s ∈ ds.foldl (fun r d => dependencies c symbols n d r) q, Q s := by
            intro ds
            induction ds with
            | nil => intro q _ h; exact h
            | cons d ds ihds =>
              intro q hsub h
              refine ihds _ (fun d' hd' => hsub d' (List.mem_cons_of_mem _ hd')) ?_
              exact ih d q (fun z hz hze => hstep sym d z hq (hsub d List.mem_cons_self) hz hze) h
          refine loop sym.deps _ (fun d h => h) ?_
          intro s hs
          rcases List.mem_append.mp hs with hs | hs
          · exact hr s hs
          · simp at hs; subst hs; exact hq
      · rw [if_neg he]; exact hr

theorem dependencies_loop_inv (Q : Symbol → Prop)
    (hstep : ∀ p d q, Q p → d ∈ p.deps → Tree.ceil symbols d = some q → Eligible q → Q q)
    (n : Nat) (p : Symbol) (hp : Q p) (ds : List Addr) (hds : ∀ d ∈ ds, d ∈ p.deps) (r : List Symbol)
    (hr : ∀ s ∈ r, Q s) : ∀ s ∈ ds.foldl (fun r d => dependencies c symbols n d r) r, Q s := by
  induction ds generalizing r with
  | nil => exact hr
  | cons d ds ih =>
    refine ih (fun d' hd' => hds d' (List.mem_cons_of_mem _ hd')) _ ?_
    exact dependencies_inv Q hstep n d r (fun q hq he => hstep p d q hp (hds d List.mem_cons_self) hq he) hr

theorem dependencies_loop_spec (hc : c.Lawful same) (n : Nat) (ds : List Addr) (q : List Symbol)
    (hq : remaining c symbols q ≤ n) :
    ∃ new, Grown c symbols q (ds.foldl (fun r d => dependencies c symbols n d r) q) new
      ∧ ∀ d ∈ ds, Done c symbols (ds.foldl (fun r d => dependencies c symbols n d r) q) d := by
  induction ds generalizing q with
  | nil => exact ⟨[], Grown.refl q, by simp⟩
  | cons d ds ihds =>
    obtain ⟨n1, hg1, hd1⟩ := dependencies_spec hc n d q hq
    have hq1 : remaining c symbols (dependencies c symbols n d q) ≤ n := by
      rw [hg1.eq]; exact Nat.le_trans (remaining_append hc _ _) hq
    obtain ⟨n2, hg2, hd2⟩ := ihds _ hq1
    refine ⟨n1 ++ n2, hg1.trans hc hg2, ?_⟩
    intro d' hd'
    simp only [List.foldl_cons]
    rcases List.mem_cons.mp hd' with rfl | hd'
    · rw [hg2.eq]; exact hd1.append hc
    · exact hd2 d' hd'

end Dependencies

/-! ### the `diff` template -/
section DiffT
variable {c : Cmp} {same : Symbol → Symbol → Prop} {symbols other : List Symbol}

/-- `skip` callback, absent means nothing is skipped. -/
def skipped (skip : Option (Symbol → Bool)) (s : Symbol) : Bool :=
  match skip with | some f => f s | none => false

/-- No element repeats an identity of an earlier one. -/
def Unique (c : Cmp) (r : List Symbol) : Prop :=
  ∀ l₁ s l₂, r = l₁ ++ s :: l₂ → SymHash.contains c l₁ s = false

theorem Unique.nil : Unique c [] := by intro l₁ s l₂ h; simp at h

theorem Unique.grown {r r' new : List Symbol} (h : Unique c r) (hg : Grown c symbols r r' new) : Unique c r' := by
  intro l₁ s l₂ he
  rw [hg.eq] at he
  rcases List.append_eq_append_iff.mp he with ⟨a, ha, hb⟩ | ⟨a, ha, hb⟩
  · rw [ha]; exact hg.fresh a s l₂ hb
  · cases a with
    | nil =>
      simp at ha hb
      have := hg.fresh [] s l₂ (by simp [hb])
      rw [← ha]; simpa using this
    | cons x a =>
      simp at hb
      obtain ⟨rfl, hb⟩ := hb
      exact h l₁ s a ha

theorem Unique.push {r : List Symbol} {s : Symbol} (h : Unique c r) (hn : SymHash.contains c r s = false) :
    Unique c (r ++ [s]) := by
  intro l₁ x l₂ he
  rcases List.append_eq_append_iff.mp he with ⟨a, ha, hb⟩ | ⟨a, ha, hb⟩
  · cases a with
    | nil => simp at ha hb; rw [ha, ← hb.1]; exact hn
    | cons y a => simp at hb
  · cases a with
    | nil => simp at ha hb; rw [← ha, hb.1]; exact hn
    | cons y a =>
      simp at hb
      obtain ⟨rfl, hb⟩ := hb
      exact h l₁ x a ha

theorem Unique.pairwise (hc : c.Lawful same) {r : List Symbol} (h : Unique c r) :
    r.Pairwise (fun a b => ¬ same a b) := by
  rw [List.pairwise_iff_forall_sublist]
  intro a b hab hs
  obtain ⟨l₁, l₂, rfl, ha⟩ : ∃ l₁ l₂, r = l₁ ++ b :: l₂ ∧ a ∈ l₁ := by
    clear h
    induction r with
    | nil => simp at hab
    | cons x r ih =>
      cases hab with
      | cons _ h => obtain ⟨l₁, l₂, rfl, hm⟩ := ih h; exact ⟨x :: l₁, l₂, rfl, List.mem_cons_of_mem _ hm⟩
      | cons_cons _ h =>
        obtain ⟨s, t, rfl⟩ := List.append_of_mem (List.singleton_sublist.mp h)
        exact ⟨a :: s, t, rfl, List.mem_cons_self⟩
  have := h l₁ b l₂ rfl
  have h2 : SymHash.contains c l₁ b = true := (SymHash.contains_iff hc).mpr ⟨a, ha, hs⟩
  rw [h2] at this; simp at this

/-- State of the loop after the symbols `pre`. -/
structure DiffInv (c : Cmp) (same : Symbol → Symbol → Prop) (symbols : List Symbol) (other : List Symbol)
    (deps : Bool) (skip : Option (Symbol → Bool)) (pre r : List Symbol) : Prop where
  unique : Unique c r
  mem : ∀ s ∈ r, s ∈ symbols ∧ s.size ≠ 0
  complete : ∀ s ∈ pre, skipped skip s = false → s.size ≠ 0 → SymHash.contains c other s = false →
    SymHash.contains c r s = true
  closed : deps = true → ∀ s ∈ r, ∀ d ∈ s.deps, Done c symbols r d

theorem diffStep_inv (hc : c.Lawful same) {deps : Bool} {skip : Option (Symbol → Bool)} {pre r : List Symbol}
    {s : Symbol} (hs : s ∈ symbols) (h : DiffInv c same symbols other deps skip pre r) :
    DiffInv c same symbols other deps skip (pre ++ [s]) (diffStep c symbols other deps skip r s) := by
  unfold diffStep
  have hcomp : ∀ r' : List Symbol, (∀ x, SymHash.contains c r x = true → SymHash.contains c r' x = true) →
      (skipped skip s = false → s.size ≠ 0 → SymHash.contains c other s = false →
        SymHash.contains c r' s = true) →
      ∀ x ∈ pre ++ [s], skipped skip x = false → x.size ≠ 0 → SymHash.contains c other x = false →
        SymHash.contains c r' x = true := by
    intro r' hm hx x hx' h1 h2 h3
    rcases List.mem_append.mp hx' with hx' | hx'
    · exact hm x (h.complete x hx' h1 h2 h3)
    · simp at hx'; subst hx'; exact hx h1 h2 h3
  change DiffInv c same symbols other deps skip (pre ++ [s]) (if skipped skip s = true then _ else _)
  by_cases hsk : skipped skip s = true
  · rw [if_pos hsk]
    exact ⟨h.unique, h.mem, hcomp r (fun _ hx => hx) (fun h1 => by simp [hsk] at h1), h.closed⟩
  rw [if_neg hsk]
  by_cases hch : (!SymHash.contains c other s && decide (s.size > 0)) = true
  · rw [if_pos hch]
    simp only [Bool.and_eq_true, Bool.not_eq_true', decide_eq_true_eq] at hch
    cases hcon : SymHash.contains c r s with
    | true =>
      rw [insert_eq_of_true hcon]
      simp only [Bool.false_and, Bool.false_eq_true, if_false]
      exact ⟨h.unique, h.mem, hcomp r (fun _ hx => hx) (fun _ _ _ => hcon), h.closed⟩
    | false =>
      rw [insert_eq_of_false hcon]
      simp only [Bool.true_and]
      have hself : SymHash.contains c (r ++ [s]) s = true :=
        (SymHash.contains_iff hc).mpr ⟨s, by simp, hc.refl s⟩
      have hmem : ∀ x ∈ r ++ [s], x ∈ symbols ∧ x.size ≠ 0 := by
        intro x hx
        rcases List.mem_append.mp hx with hx | hx
        · exact h.mem x hx
        · simp at hx; subst hx; exact ⟨hs, bv_pos_iff.mp hch.2⟩
      cases deps with
      | false =>
        simp only [Bool.false_eq_true, if_false]
        exact ⟨h.unique.push hcon, hmem, hcomp _ (fun _ hx => SymHash.contains_append hc hx) (fun _ _ _ => hself),
          fun hf => by simp at hf⟩
      | true =>
        simp only [if_true]
        obtain ⟨new, hg, hd⟩ := dependencies_loop_spec (symbols := symbols) hc symbols.length s.deps (r ++ [s])
          (remaining_le _)
        refine ⟨(h.unique.push hcon).grown hg, ?_, hcomp _ ?_ ?_, ?_⟩
        · intro x hx
          rw [hg.eq] at hx
          rcases List.mem_append.mp hx with hx | hx
          · exact hmem x hx
          · exact ⟨hg.mem x hx, bv_pos_iff.mp (hg.elig x hx).1⟩
        · intro x hx; rw [hg.eq, List.append_assoc]; exact SymHash.contains_append hc hx
        · intro _ _ _; rw [hg.eq]; exact SymHash.contains_append hc hself
        · intro _ x hx d hd'
          rw [hg.eq] at hx
          rcases List.mem_append.mp hx with hx | hx
          · rcases List.mem_append.mp hx with hx | hx
            · rw [hg.eq, List.append_assoc]; exact (h.closed rfl x hx d hd').append hc
            · simp at hx; subst hx; exact hd d hd'
          · exact hg.closed x hx d hd'
  · rw [if_neg hch]
    refine ⟨h.unique, h.mem, hcomp r (fun _ hx => hx) ?_, h.closed⟩
    intro _ h2 h3
    exfalso; apply hch
    simp [h3]; exact bv_pos_iff.mpr h2

theorem diffT_inv (hc : c.Lawful same) (deps : Bool) (skip : Option (Symbol → Bool)) :
    DiffInv c same symbols other deps skip symbols (diffT c symbols other deps skip) := by
  have gen : ∀ (rest pre r : List Symbol), pre ++ rest = symbols → DiffInv c same symbols other deps skip pre r →
      DiffInv c same symbols other deps skip symbols (rest.foldl (diffStep c symbols other deps skip) r) := by
    intro rest
    induction rest with
    | nil => intro pre r he h; simp at he; subst he; exact h
    | cons s rest ih =>
      intro pre r he h
      refine ih (pre ++ [s]) _ (by simpa using he) (diffStep_inv hc ?_ h)
      rw [← he]; simp
  exact gen symbols [] [] (by simp) ⟨Unique.nil, by simp, by simp, by simp⟩

/-- Soundness: any property of changed symbols that is passed on to users holds for the result. -/
theorem diffT_sound (Q : Symbol → Prop) {deps : Bool} {skip : Option (Symbol → Bool)}
    (hbase : ∀ s ∈ symbols, skipped skip s = false → s.size ≠ 0 → SymHash.contains c other s = false → Q s)
    (hstep : deps = true → ∀ p d q, Q p → d ∈ p.deps → Tree.ceil symbols d = some q → Eligible q → Q q) :
    ∀ s ∈ diffT c symbols other deps skip, Q s := by
  have gen : ∀ (rest r : List Symbol), (∀ s ∈ rest, s ∈ symbols) → (∀ s ∈ r, Q s) →
      ∀ s ∈ rest.foldl (diffStep c symbols other deps skip) r, Q s := by
    intro rest
    induction rest with
    | nil => intro r _ h; exact h
    | cons x rest ih =>
      intro r hsub h
      refine ih _ (fun s hs => hsub s (List.mem_cons_of_mem _ hs)) ?_
      unfold diffStep
      change ∀ s ∈ (if skipped skip x = true then r else _), Q s
      by_cases hsk : skipped skip x = true
      · rw [if_pos hsk]; exact h
      rw [if_neg hsk]
      by_cases hch : (!SymHash.contains c other x && decide (x.size > 0)) = true
      · rw [if_pos hch]
        simp only [Bool.and_eq_true, Bool.not_eq_true', decide_eq_true_eq] at hch
        have hq : Q x := hbase x (hsub x List.mem_cons_self) (by simpa using hsk) (bv_pos_iff.mp hch.2) hch.1
        have hpush : ∀ s ∈ r ++ [x], Q s := by
          intro s hs
          rcases List.mem_append.mp hs with hs | hs
          · exact h s hs
          · simp at hs; subst hs; exact hq
        cases hcon : SymHash.contains c r x with
        | true => rw [insert_eq_of_true hcon]; simpa using h
        | false =>
          rw [insert_eq_of_false hcon]
          cases deps with
          | false => simpa using hpush
          | true =>
            simp only [Bool.and_self, if_true]
            exact dependencies_loop_inv Q (hstep rfl) _ x hq x.deps (fun d hd => hd) _ hpush
      · rw [if_neg hch]; exact h
  exact gen symbols [] (fun s hs => hs) (by simp)

end DiffT
end Bean

namespace Bean
section Term
variable {c : Cmp} {same : Symbol → Symbol → Prop} {symbols : List Symbol}

theorem depCall_exists (hc : c.Lawful same) (n : Nat) (a : Addr) (r : List Symbol)
    (hn : remaining c symbols r ≤ n) : DepCall c symbols (n + 1) a r (dependencies c symbols n a r) := by
  induction n generalizing a r with
  | zero =>
    unfold dependencies
    cases hceil : Tree.ceil symbols a with
    | none => exact .miss hceil
    | some sym =>
      by_cases he : sym.size > 0 ∧ sym.sec.executable = true
      · cases hcon : SymHash.contains c r sym
        · have := remaining_insert hc (Tree.ceil_mem hceil).1 hcon
          omega
        · exact .present hceil he hcon
      · exact .ineligible hceil he
  | succ n ih =>
    unfold dependencies
    cases hceil : Tree.ceil symbols a with
    | none => exact .miss hceil
    | some sym =>
      simp only
      by_cases he : sym.size > 0 ∧ sym.sec.executable = true
      · rw [if_pos (by simpa using he)]
        cases hcon : SymHash.contains c r sym with
        | true => rw [insert_eq_of_true hcon]; exact .present hceil he hcon
        | false =>
          rw [insert_eq_of_false hcon]
          simp only [if_true]
          refine .visit hceil he hcon ?_
          have hrem := remaining_insert hc (Tree.ceil_mem hceil).1 hcon
          have loop : ∀ (ds : List Addr) (q : List Symbol), remaining c symbols q ≤ n →
              DepCalls c symbols (n + 1) ds q (ds.foldl (fun r d => dependencies c symbols n d r) q) := by
            intro ds
            induction ds with
            | nil => intro q _; exact .nil
            | cons d ds ihds =>
              intro q hq
              refine .cons (ih d q hq) (ihds _ ?_)
              obtain ⟨m, hg, _⟩ := dependencies_spec hc n d q hq
              rw [hg.eq]; exact Nat.le_trans (remaining_append hc _ _) hq
          exact loop sym.deps _ (by omega)
      · rw [if_neg (by simpa using he)]; exact .ineligible hceil he

mutual
theorem depCall_det {k₁ k₂ : Nat} {a : Addr} {r r₁ r₂ : List Symbol}
    (h₁ : DepCall c symbols k₁ a r r₁) (h₂ : DepCall c symbols k₂ a r r₂) : r₁ = r₂ := by
  cases h₁ with
  | miss e₁ => cases h₂ <;> simp_all
  | ineligible e₁ n₁ => cases h₂ <;> simp_all
  | present e₁ n₁ p₁ => cases h₂ <;> simp_all
  | visit e₁ n₁ p₁ d₁ =>
    cases h₂ with
    | miss e₂ => simp_all
    | ineligible e₂ n₂ => simp_all
    | present e₂ n₂ p₂ => simp_all
    | visit e₂ n₂ p₂ d₂ =>
      rw [e₁] at e₂
      cases e₂
      exact depCalls_det d₁ d₂
theorem depCalls_det {k₁ k₂ : Nat} {ds : List Addr} {r r₁ r₂ : List Symbol}
    (h₁ : DepCalls c symbols k₁ ds r r₁) (h₂ : DepCalls c symbols k₂ ds r r₂) : r₁ = r₂ := by
  cases h₁ with
  | nil => cases h₂; rfl
  | cons c₁ t₁ =>
    cases h₂ with
    | cons c₂ t₂ =>
      have e := depCall_det c₁ c₂
      subst e
      exact depCalls_det t₁ t₂
end

end Term
end Bean

namespace Bean
open Spec
section Modes
variable {same : Symbol → Symbol → Prop}

theorem foldl_if_insert {α : Type} [Keyed α] (p : α → Bool) (l t : List α) :
    l.foldl (fun r s => if p s = true then (Tree.insert r s).1 else r) t
      = (l.filter p).foldl (fun r s => (Tree.insert r s).1) t := by
  induction l generalizing t with
  | nil => rfl
  | cons x l ih =>
    simp only [List.foldl_cons, List.filter_cons]
    cases h : p x
    · simpa using ih t
    · simpa using ih _

theorem diffT_mem {c : Cmp} (hc : c.Lawful same) {this other : List Symbol} {deps : Bool}
    {skip : Option (Symbol → Bool)} {s : Symbol} (h : s ∈ diffT c this other deps skip) :
    s ∈ this ∧ s.size ≠ 0 := (diffT_inv hc deps skip).mem s h

theorem keys_inj_of_sub {this l : List Symbol} (ho : Tree.Sorted this) (hl : ∀ s ∈ l, s ∈ this) :
    ∀ x ∈ l, ∀ y ∈ l, key x = key y → x = y := fun x hx y hy e => ho.inj (hl x hx) (hl y hy) e

/-- Membership in the results of the four modes. -/
theorem mem_mode0 (h : BitVec 64 → BitVec 32) {this other : List Symbol} (ho : Tree.Sorted this) (deps : Bool)
    (s : Symbol) : s ∈ Tree.ofList (diff_extended h this other deps) ↔ s ∈ diff_extended h this other deps :=
  Tree.mem_ofList_iff (keys_inj_of_sub ho fun _ hs => (diffT_mem (extCmp_lawful h) hs).1)

theorem mem_mode3 (h : BitVec 64 → BitVec 32) {this other : List Symbol} (ho : Tree.Sorted this) (deps : Bool)
    (s : Symbol) : s ∈ Tree.ofList (diff_internal h this other deps) ↔ s ∈ diff_internal h this other deps :=
  Tree.mem_ofList_iff (keys_inj_of_sub ho fun _ hs => (diffT_mem (intCmp_lawful h) hs).1)

theorem mem_modeF (h : BitVec 64 → BitVec 32) {this other : List Symbol} (ho : Tree.Sorted this) (deps : Bool)
    (p : Symbol → Bool) (s : Symbol) :
    s ∈ (diff_extended h this other deps).foldl (fun r s => if p s = true then (Tree.insert r s).1 else r) []
      ↔ s ∈ diff_extended h this other deps ∧ p s = true := by
  rw [foldl_if_insert]
  change s ∈ Tree.ofList _ ↔ _
  rw [Tree.mem_ofList_iff, List.mem_filter]
  exact keys_inj_of_sub ho fun _ hs => (diffT_mem (extCmp_lawful h) (List.mem_filter.mp hs).1).1

/-- The loop body without dependencies. -/
theorem diffStep_nodeps {c : Cmp} {this other : List Symbol} {skip : Option (Symbol → Bool)} (r : List Symbol) (s : Symbol) :
    diffStep c this other false skip r s
      = if skipped skip s = false ∧ SymHash.contains c other s = false ∧ s.size ≠ 0 ∧ SymHash.contains c r s = false
        then r ++ [s] else r := by
  unfold diffStep
  change (if skipped skip s = true then _ else _) = _
  simp only [bv_pos_iff]
  cases h1 : skipped skip s <;> cases h2 : SymHash.contains c other s <;> cases h3 : SymHash.contains c r s <;>
    by_cases h4 : s.size = 0 <;> simp [SymHash.insert, h3, h4]

/-- Without dependencies the representative of an identity is the first symbol in address order. -/
theorem diffT_nodeps_first {c : Cmp} (hc : c.Lawful same) {this other : List Symbol} (ho : Tree.Sorted this)
    (skip : Option (Symbol → Bool)) (s : Symbol) (hs : s ∈ this) (hsk : skipped skip s = false)
    (hsz : s.size ≠ 0) (hno : SymHash.contains c other s = false) :
    ∃ q ∈ diffT c this other false skip, same q s ∧ key q ≤ key s := by
  have gen : ∀ (rest pre r : List Symbol), pre ++ rest = this →
      (∀ q ∈ r, q ∈ pre) →
      (∀ x ∈ pre, skipped skip x = false → x.size ≠ 0 → SymHash.contains c other x = false →
        ∃ q ∈ r, same q x ∧ key q ≤ key x) →
      (∀ x ∈ this, skipped skip x = false → x.size ≠ 0 → SymHash.contains c other x = false →
        ∃ q ∈ rest.foldl (diffStep c this other false skip) r, same q x ∧ key q ≤ key x) := by
    intro rest
    induction rest with
    | nil => intro pre r he _ h; simp at he; subst he; exact h
    | cons x rest ih =>
      intro pre r he hsub h
      have hlt : ∀ q ∈ pre, key q < key x := by
        intro q hq
        have hso := ho
        rw [← he] at hso
        exact (List.pairwise_append.mp hso).2.2 q hq x List.mem_cons_self
      refine ih (pre ++ [x]) _ (by simpa using he) ?_ ?_
      · intro q hq
        rw [diffStep_nodeps] at hq
        split at hq
        · rcases List.mem_append.mp hq with hq | hq
          · exact List.mem_append_left _ (hsub q hq)
          · exact List.mem_append_right _ hq
        · exact List.mem_append_left _ (hsub q hq)
      · intro y hy h1 h2 h3
        have keep : ∀ q ∈ r, q ∈ diffStep c this other false skip r x := by
          intro q hq
          rw [diffStep_nodeps]
          split
          · exact List.mem_append_left _ hq
          · exact hq
        rcases List.mem_append.mp hy with hy | hy
        · obtain ⟨q, hq, hqs⟩ := h y hy h1 h2 h3
          exact ⟨q, keep q hq, hqs⟩
        · simp at hy; subst hy
          cases hcon : SymHash.contains c r y with
          | true =>
            obtain ⟨q, hq, hqs⟩ := (SymHash.contains_iff hc).mp hcon
            exact ⟨q, keep q hq, hqs, by have := hlt q (hsub q hq); bv_omega⟩
          | false =>
            refine ⟨y, ?_, hc.refl y, bv_le_refl _⟩
            rw [diffStep_nodeps, if_pos ⟨h1, h3, h2, hcon⟩]
            simp
  exact gen this [] [] (by simp) (by simp) (by simp) s hs hsk hsz hno

/-! ### The hash function does not matter -/

theorem contains_congr {c c' : Cmp} (hc : c.Lawful same) (hc' : c'.Lawful same) (l : List Symbol) (s : Symbol) :
    SymHash.contains c l s = SymHash.contains c' l s := by
  rw [Bool.eq_iff_iff, SymHash.contains_iff hc, SymHash.contains_iff hc']

theorem insert_congr {c c' : Cmp} (hc : c.Lawful same) (hc' : c'.Lawful same) (l : List Symbol) (s : Symbol) :
    SymHash.insert c l s = SymHash.insert c' l s := by
  unfold SymHash.insert; rw [contains_congr hc hc']

theorem ofTree_congr {c c' : Cmp} (hc : c.Lawful same) (hc' : c'.Lawful same) (t : SymTree) :
    SymHash.ofTree c t = SymHash.ofTree c' t := by
  unfold SymHash.ofTree
  congr 1; funext l s; rw [insert_congr hc hc']

theorem dependencies_congr {c c' : Cmp} (hc : c.Lawful same) (hc' : c'.Lawful same) (symbols : SymTree) (n : Nat)
    (a : Addr) (r : List Symbol) : dependencies c symbols n a r = dependencies c' symbols n a r := by
  induction n generalizing a r with
  | zero => rfl
  | succ n ih =>
    unfold dependencies
    cases Tree.ceil symbols a with
    | none => rfl
    | some sym =>
      simp only [insert_congr hc hc']
      have : (fun r d => dependencies c symbols n d r) = (fun r d => dependencies c' symbols n d r) := by
        funext r d; exact ih d r
      rw [this]

theorem diffT_congr {c c' : Cmp} (hc : c.Lawful same) (hc' : c'.Lawful same) (this other : SymTree) (deps : Bool)
    (skip : Option (Symbol → Bool)) :
    diffT c this (SymHash.ofTree c other) deps skip = diffT c' this (SymHash.ofTree c' other) deps skip := by
  unfold diffT
  rw [ofTree_congr hc hc']
  congr 1
  funext r s
  unfold diffStep
  have : (fun r d => dependencies c this this.length d r) = (fun r d => dependencies c' this this.length d r) := by
    funext r d; exact dependencies_congr hc hc' this _ d r
  simp only [contains_congr hc hc', insert_congr hc hc', this]
  try rfl

theorem diff_congr (b : Build) (h h' : BitVec 64 → BitVec 32) (this other : SymTree) (deps : Bool) (mode : Nat) :
    diff b h this other deps mode = diff b h' this other deps mode := by
  have he : diff_extended h this other deps = diff_extended h' this other deps :=
    diffT_congr (extCmp_lawful h) (extCmp_lawful h') this other deps none
  have hi : diff_internal h this other deps = diff_internal h' this other deps :=
    diffT_congr (intCmp_lawful h) (intCmp_lawful h') this other deps none
  have hci := fun l s => contains_congr (intCmp_lawful h) (intCmp_lawful h') l s
  have hof := ofTree_congr (intCmp_lawful h) (intCmp_lawful h') other
  unfold diff
  simp only [he, hi, hci, hof]

end Modes
end Bean

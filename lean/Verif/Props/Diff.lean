import Verif.Lemmas.Diff
import Verif.Props.Lookup
/-
Property theorems C05 to C13, C16 and C17: comparison of two binaries.
-/
namespace Bean.Props
open Bean Spec

/-! ### C05 -/

theorem diffT_self {c : Cmp} {same : Symbol → Symbol → Prop} (hc : c.Lawful same) (t : SymTree) (deps : Bool)
    (skip : Option (Symbol → Bool)) : diffT c t (SymHash.ofTree c t) deps skip = [] := by
  have : ∀ s ∈ diffT c t (SymHash.ofTree c t) deps skip, False := by
    refine diffT_sound (fun _ => False) ?_ (fun _ _ _ _ h => h.elim)
    intro s hs _ _ hno
    have : SymHash.contains c (SymHash.ofTree c t) s = true :=
      (SymHash.contains_ofTree hc).mpr ⟨s, hs, hc.refl s⟩
    rw [this] at hno; simp at hno
  exact List.eq_nil_iff_forall_not_mem.mpr this

/-- C05: a binary does not differ from itself, whatever mode, dependency setting, build and hash function. -/
theorem C05_self_diff_empty (b : Build) (h : BitVec 64 → BitVec 32) (t : SymTree) (deps : Bool) (mode : Nat)
    (hm : mode < 4) : diff b h t t deps mode = .ok [] ∧ patchableWith b h t t deps mode = .ok true := by
  have he : diff_extended h t t deps = [] := diffT_self (extCmp_lawful h) t deps none
  have hi : diff_internal h t t deps = [] := diffT_self (intCmp_lawful h) t deps none
  have hd : diff b h t t deps mode = .ok [] := by
    match mode, hm with
    | 0, _ => simp [diff, he, Tree.ofList]
    | 1, _ => simp [diff, he]
    | 2, _ => simp [diff, he]
    | 3, _ => simp [diff, hi, Tree.ofList]
  exact ⟨hd, by simp [patchableWith, hd, patchable, bind, Except.bind, pure, Except.pure]⟩

/-! ### C06 -/

/-- C06: exact characterisation of the report without dependencies: changed symbols only, each change is
represented by the lowest symbol of that identity, no identity is reported twice. -/
theorem C06_diff_extended_exact (h : BitVec 64 → BitVec 32) (this other : SymTree) (ho : Ordered this)
    (skip : Option (Symbol → Bool)) :
    (∀ s ∈ diff_extended h this other false skip, Changed SameIdentity this other s ∧ ∀ f, skip = some f → f s = false)
    ∧ (∀ s, Changed SameIdentity this other s → (∀ f, skip = some f → f s = false) →
        ∃ q ∈ diff_extended h this other false skip, SameIdentity q s ∧ q.address.toNat ≤ s.address.toNat)
    ∧ (diff_extended h this other false skip).Pairwise (fun a b => ¬ SameIdentity a b) := by
  have hc := extCmp_lawful h
  refine ⟨?_, ?_, (diffT_inv hc false skip).unique.pairwise hc⟩
  · refine diffT_sound _ ?_ (by simp)
    intro s hs hsk hsz hno
    refine ⟨⟨hs, hsz, ?_⟩, ?_⟩
    · intro o hmem hsame
      have := (SymHash.contains_ofTree hc).mpr ⟨o, hmem, hsame⟩
      rw [this] at hno; simp at hno
    · rintro f rfl; exact hsk
  · rintro s ⟨hs, hsz, hno⟩ hsk
    refine diffT_nodeps_first hc ((ordered_iff_sorted this).mp ho) skip s hs ?_ hsz ?_
    · cases skip with
      | none => rfl
      | some f => exact hsk f rfl
    · cases hcon : SymHash.contains (extCmp h) (SymHash.ofTree (extCmp h) other) s with
      | false => rfl
      | true => obtain ⟨o, hm, hsame⟩ := (SymHash.contains_ofTree hc).mp hcon; exact absurd hsame (hno o hm)

/-- C06: the same for the comparison by internal ID. -/
theorem C06_diff_internal_exact (h : BitVec 64 → BitVec 32) (this other : SymTree) (ho : Ordered this)
    (skip : Option (Symbol → Bool)) :
    (∀ s ∈ diff_internal h this other false skip, Changed SameInternal this other s ∧ ∀ f, skip = some f → f s = false)
    ∧ (∀ s, Changed SameInternal this other s → (∀ f, skip = some f → f s = false) →
        ∃ q ∈ diff_internal h this other false skip, SameInternal q s ∧ q.address.toNat ≤ s.address.toNat)
    ∧ (diff_internal h this other false skip).Pairwise (fun a b => ¬ SameInternal a b) := by
  have hc := intCmp_lawful h
  refine ⟨?_, ?_, (diffT_inv hc false skip).unique.pairwise hc⟩
  · refine diffT_sound _ ?_ (by simp)
    intro s hs hsk hsz hno
    refine ⟨⟨hs, hsz, ?_⟩, ?_⟩
    · intro o hmem hsame
      have := (SymHash.contains_ofTree hc).mpr ⟨o, hmem, hsame⟩
      rw [this] at hno; simp at hno
    · rintro f rfl; exact hsk
  · rintro s ⟨hs, hsz, hno⟩ hsk
    refine diffT_nodeps_first hc ((ordered_iff_sorted this).mp ho) skip s hs ?_ hsz ?_
    · cases skip with
      | none => rfl
      | some f => exact hsk f rfl
    · cases hcon : SymHash.contains (intCmp h) (SymHash.ofTree (intCmp h) other) s with
      | false => rfl
      | true => obtain ⟨o, hm, hsame⟩ := (SymHash.contains_ofTree hc).mp hcon; exact absurd hsame (hno o hm)

/-- C06: `Bean::diff` in the default mode delivers this report in address order. -/
theorem C06_diff_api (b : Build) (h : BitVec 64 → BitVec 32) (this other : SymTree) (ho : Ordered this) :
    ∃ r, diff b h this other false 0 = .ok r ∧ Ordered r
      ∧ (∀ s ∈ r, Changed SameIdentity this other s)
      ∧ (∀ s, Changed SameIdentity this other s → ∃ q ∈ r, SameIdentity q s ∧ q.address.toNat ≤ s.address.toNat)
      ∧ (∀ x ∈ r, ∀ y ∈ r, SameIdentity x y → x = y) := by
  obtain ⟨h1, h2, h3⟩ := C06_diff_extended_exact h this other ho none
  have hs := (ordered_iff_sorted this).mp ho
  refine ⟨_, rfl, (ordered_iff_sorted _).mpr (Tree.sorted_ofList _), ?_, ?_, ?_⟩
  · intro s hm; exact (h1 s ((mem_mode0 h hs false s).mp hm)).1
  · intro s hch
    obtain ⟨q, hq, hqs⟩ := h2 s hch (by simp)
    exact ⟨q, (mem_mode0 h hs false q).mpr hq, hqs⟩
  · intro x hx y hy hsame
    rw [mem_mode0 h hs] at hx hy
    by_cases he : x = y
    · exact he
    · exfalso
      have hsym : SameIdentity y x := (extCmp_lawful h).symm _ _ hsame
      obtain ⟨l₁, l₂, hl⟩ := List.append_of_mem hx
      rw [hl] at hy h3
      obtain ⟨-, h3, h4⟩ := List.pairwise_append.mp h3
      rcases List.mem_append.mp hy with hy | hy
      · exact h4 y hy x List.mem_cons_self hsym
      · rcases List.mem_cons.mp hy with hy | hy
        · exact he hy.symm
        · exact (List.pairwise_cons.mp h3).1 y hy hsame

/-- a pair of binaries with one changed symbol: the hypotheses of C06 are met and the report is not empty -/
example : ∃ this other : SymTree, Ordered this ∧ ∃ s, Changed SameIdentity this other s :=
  ⟨[{ address := 16, size := 4, id := { internal := 1 } }], [{ address := 16, size := 4, id := { internal := 2 } }],
    by decide, { address := 16, size := 4, id := { internal := 1 } }, by decide⟩

/-! ### C07 -/

/-- C07: only sized symbols of this binary are reported, in all modes, with and without dependencies; the
report is in address order. -/
theorem C07_sized_only (b : Build) (h : BitVec 64 → BitVec 32) (this other : SymTree) (deps : Bool) (mode : Nat)
    (r : SymTree) (hr : diff b h this other deps mode = .ok r) :
    Ordered r ∧ ∀ s ∈ r, s ∈ this ∧ s.size ≠ 0 := by
  have fold : ∀ p : Symbol → Bool, ∀ s,
      s ∈ (diff_extended h this other deps).foldl (fun r s => if p s = true then (Tree.insert r s).1 else r) [] →
      s ∈ this ∧ s.size ≠ 0 := by
    intro p s hs
    rw [foldl_if_insert] at hs
    exact diffT_mem (extCmp_lawful h) (List.mem_filter.mp (Tree.mem_ofList hs)).1
  have sorted : ∀ p : Symbol → Bool, Tree.Sorted
      ((diff_extended h this other deps).foldl (fun r s => if p s = true then (Tree.insert r s).1 else r) []) := by
    intro p; rw [foldl_if_insert]; exact Tree.sorted_ofList _
  match mode, hr with
  | 0, hr =>
    simp only [diff, Except.ok.injEq] at hr; subst hr
    exact ⟨(ordered_iff_sorted _).mpr (Tree.sorted_ofList _), fun s hs => diffT_mem (extCmp_lawful h) (Tree.mem_ofList hs)⟩
  | 1, hr =>
    simp only [diff, Except.ok.injEq] at hr; subst hr
    exact ⟨(ordered_iff_sorted _).mpr (sorted _), fold _⟩
  | 2, hr =>
    simp only [diff, Except.ok.injEq] at hr; subst hr
    exact ⟨(ordered_iff_sorted _).mpr (sorted _), fold _⟩
  | 3, hr =>
    simp only [diff, Except.ok.injEq] at hr; subst hr
    exact ⟨(ordered_iff_sorted _).mpr (Tree.sorted_ofList _), fun s hs => diffT_mem (intCmp_lawful h) (Tree.mem_ofList hs)⟩
  | n + 4, hr =>
    cases b
    · simp [diff, massert, bind, Except.bind] at hr
    · simp [diff, massert, bind, Except.bind, pure, Except.pure] at hr
      subst hr; exact ⟨by simp [Ordered], by simp⟩

/-! ### C08 -/

/-- C08: each call of the recursive dependency search returns, with at most `symbols + 1` nested activations,
for arbitrary (cyclic, dangling) dependency entries; and the result used by the model is the only possible
one. Holds for both comparison classes. -/
theorem C08_dependencies_terminate (h : BitVec 64 → BitVec 32) (c : Cmp) (hc : c = extCmp h ∨ c = intCmp h)
    (symbols : SymTree) (address : Addr) (result : List Symbol) :
    DepCall c symbols (symbols.length + 1) address result (dependencies c symbols symbols.length address result)
    ∧ ∀ k r', DepCall c symbols k address result r' → r' = dependencies c symbols symbols.length address result := by
  have main : ∀ same, c.Lawful same →
      DepCall c symbols (symbols.length + 1) address result (dependencies c symbols symbols.length address result) :=
    fun same hl => depCall_exists hl symbols.length address result (remaining_le _)
  have := hc.elim (fun e => main _ (e ▸ extCmp_lawful h)) (fun e => main _ (e ▸ intCmp_lawful h))
  exact ⟨this, fun k r' h' => depCall_det h' this⟩

/-- a cyclic dependency graph: two functions using each other -/
example : (dependencies (extCmp fun _ => 0)
    [{ address := 1, size := 1, id := { internal := 1 }, sec := { executable := true }, deps := [2] },
     { address := 2, size := 1, id := { internal := 2 }, sec := { executable := true }, deps := [1] }] 2 1 []).length = 2 := by
  decide

/-! ### C09 / C10 -/

theorem ceil_of_live {this : SymTree} (ho : Tree.Sorted this) (hl : DepsLive this) {p q : Symbol} {d : Addr}
    (hp : p ∈ this) (hd : d ∈ p.deps) (hq : Tree.ceil this d = some q) : q ∈ this ∧ q.address = d := by
  obtain ⟨z, hz, rfl⟩ := hl p hp d hd
  have : Tree.ceil this (key z) = some z := Tree.ceil_key ho hz
  have e : some q = some z := hq.symm.trans this
  cases e
  exact ⟨hz, rfl⟩

theorem diffT_affected {c : Cmp} {same : Symbol → Symbol → Prop} (hc : c.Lawful same) {this other : SymTree}
    (ho : Tree.Sorted this) (hl : DepsLive this) :
    ∀ s ∈ diffT c this (SymHash.ofTree c other) true none, s ∈ this ∧ Affected same this other s := by
  refine diffT_sound (fun s => s ∈ this ∧ Affected same this other s) ?_ ?_
  · intro s hs _ hsz hno
    refine ⟨hs, .changed ⟨hs, hsz, ?_⟩⟩
    intro o hm hsame
    have := (SymHash.contains_ofTree hc).mpr ⟨o, hm, hsame⟩
    rw [this] at hno; simp at hno
  · rintro - p d q ⟨hp, hpa⟩ hd hq he
    obtain ⟨hqm, hqa⟩ := ceil_of_live ho hl hp hd hq
    exact ⟨hqm, .uses hpa ⟨hqm, hqa ▸ hd, he.2, bv_pos_iff.mp he.1⟩⟩

theorem diffT_closed {c : Cmp} {same : Symbol → Symbol → Prop} (hc : c.Lawful same) {this other : SymTree}
    (ho : Tree.Sorted this) {p q : Symbol} (hp : p ∈ diffT c this (SymHash.ofTree c other) true none)
    (hu : UsedBy this p q) : ∃ r ∈ diffT c this (SymHash.ofTree c other) true none, same r q := by
  have hd := (diffT_inv hc (symbols := this) (other := SymHash.ofTree c other) true none).closed rfl p hp q.address hu.2.1
  exact (SymHash.contains_iff hc).mp (hd q (Tree.ceil_key ho hu.1) ⟨bv_pos_iff.mpr hu.2.2.2, hu.2.2.1⟩)

theorem diffT_changed {c : Cmp} {same : Symbol → Symbol → Prop} (hc : c.Lawful same) {this other : SymTree}
    (deps : Bool) {s : Symbol} (hs : Changed same this other s) :
    ∃ r ∈ diffT c this (SymHash.ofTree c other) deps none, same r s := by
  refine (SymHash.contains_iff hc).mp ((diffT_inv hc deps none).complete s hs.1 rfl hs.2.1 ?_)
  cases hcon : SymHash.contains c (SymHash.ofTree c other) s with
  | false => rfl
  | true => obtain ⟨o, hm, hsame⟩ := (SymHash.contains_ofTree hc).mp hcon; exact absurd hsame (hs.2.2 o hm)

/-- C09: with dependencies only affected symbols are reported (comparison by both IDs). -/
theorem C09_only_affected (b : Build) (h : BitVec 64 → BitVec 32) (this other : SymTree) (ho : Ordered this)
    (hl : DepsLive this) (r : SymTree) (hr : diff b h this other true 0 = .ok r) :
    ∀ s ∈ r, Affected SameIdentity this other s := by
  have hs := (ordered_iff_sorted this).mp ho
  simp only [diff, Except.ok.injEq] at hr; subst hr
  intro s hm
  exact (diffT_affected (extCmp_lawful h) hs hl s ((mem_mode0 h hs true s).mp hm)).2

/-- C09: the same for the comparison by internal ID. -/
theorem C09_only_affected_internal (b : Build) (h : BitVec 64 → BitVec 32) (this other : SymTree)
    (ho : Ordered this) (hl : DepsLive this) (r : SymTree) (hr : diff b h this other true 3 = .ok r) :
    ∀ s ∈ r, Affected SameInternal this other s := by
  have hs := (ordered_iff_sorted this).mp ho
  simp only [diff, Except.ok.injEq] at hr; subst hr
  intro s hm
  exact (diffT_affected (intCmp_lawful h) hs hl s ((mem_mode3 h hs true s).mp hm)).2

/-- C10 (holds in general): each change is represented and each user of a *reported* symbol is represented. -/
theorem C10_report_closed_partial (b : Build) (h : BitVec 64 → BitVec 32) (this other : SymTree)
    (ho : Ordered this) (r : SymTree) (hr : diff b h this other true 0 = .ok r) :
    (∀ s, Changed SameIdentity this other s → ∃ q ∈ r, SameIdentity q s)
    ∧ ∀ p ∈ r, ∀ q, UsedBy this p q → ∃ x ∈ r, SameIdentity x q := by
  have hs := (ordered_iff_sorted this).mp ho
  simp only [diff, Except.ok.injEq] at hr; subst hr
  constructor
  · intro s hch
    obtain ⟨q, hq, e⟩ := diffT_changed (extCmp_lawful h) true hch
    exact ⟨q, (mem_mode0 h hs true q).mpr hq, e⟩
  · intro p hp q hu
    obtain ⟨x, hx, e⟩ := diffT_closed (extCmp_lawful h) hs ((mem_mode0 h hs true p).mp hp) hu
    exact ⟨x, (mem_mode0 h hs true x).mpr hx, e⟩

/-- C10: if no two symbols have the same identity the report contains every affected symbol. Together with
C09 the report is exactly the set of affected symbols. What is missing for the full claim: symbols of equal
identity, see `C10_counterexample`. -/
theorem C10_complete_partial (b : Build) (h : BitVec 64 → BitVec 32) (this other : SymTree) (ho : Ordered this)
    (hu : Distinct SameIdentity this) (r : SymTree) (hr : diff b h this other true 0 = .ok r) :
    ∀ s, Affected SameIdentity this other s → s ∈ r := by
  obtain ⟨h1, h2⟩ := C10_report_closed_partial b h this other ho r hr
  have hsub := (C07_sized_only b h this other true 0 r hr).2
  intro s ha
  induction ha with
  | changed hc =>
    obtain ⟨q, hq, e⟩ := h1 _ hc
    exact hu q (hsub q hq).1 _ hc.1 e ▸ hq
  | uses _ hub ih =>
    obtain ⟨x, hx, e⟩ := h2 _ ih _ hub
    exact hu x (hsub x hx).1 _ hub.1 e ▸ hx

/-- C10: the same for the comparison by internal ID. -/
theorem C10_complete_internal_partial (b : Build) (h : BitVec 64 → BitVec 32) (this other : SymTree)
    (ho : Ordered this) (hu : Distinct SameInternal this) (r : SymTree)
    (hr : diff b h this other true 3 = .ok r) : ∀ s, Affected SameInternal this other s → s ∈ r := by
  have hs := (ordered_iff_sorted this).mp ho
  have hsub := (C07_sized_only b h this other true 3 r hr).2
  simp only [diff, Except.ok.injEq] at hr; subst hr
  intro s ha
  induction ha with
  | changed hc =>
    obtain ⟨q, hq, e⟩ := diffT_changed (intCmp_lawful h) true hc
    have hq' := (mem_mode3 h hs true q).mpr hq
    exact hu q (hsub q hq').1 _ hc.1 e ▸ hq'
  | uses _ hub ih =>
    obtain ⟨x, hx, e⟩ := diffT_closed (intCmp_lawful h) hs ((mem_mode3 h hs true _).mp ih) hub
    have hx' := (mem_mode3 h hs true x).mpr hx
    exact hu x (hsub x hx').1 _ hub.1 e ▸ hx'

/-- Two identical changed functions `f1`, `f2`, each with its own caller; all four are new. -/
def twins : SymTree :=
  [{ address := 1, size := 1, id := { internal := 7 }, sec := { executable := true }, deps := [3] },
   { address := 2, size := 1, id := { internal := 7 }, sec := { executable := true }, deps := [4] },
   { address := 3, size := 1, id := { internal := 8 }, sec := { executable := true } },
   { address := 4, size := 1, id := { internal := 9 }, sec := { executable := true } }]

/-- the old version has the callers but not the twins -/
def twinsOld : SymTree :=
  [{ address := 3, size := 1, id := { internal := 8 }, sec := { executable := true } },
   { address := 4, size := 1, id := { internal := 9 }, sec := { executable := true } }]

/-- C10 is false in general: the caller of the second twin is affected but not represented. -/
theorem C10_counterexample (b : Build) (h : BitVec 64 → BitVec 32) :
    ∃ (this other r : SymTree) (s : Symbol), Ordered this ∧ DepsLive this ∧ diff b h this other true 0 = .ok r
      ∧ Affected SameIdentity this other s ∧ ∀ q ∈ r, ¬ SameIdentity q s := by
  refine ⟨twins, twinsOld, _,
    { address := 4, size := 1, id := { internal := 9 }, sec := { executable := true } },
    by decide, by decide, rfl, ?_, ?_⟩
  · let p : Symbol := { address := 2, size := 1, id := { internal := 7 }, sec := { executable := true }, deps := [4] }
    have hp : Changed SameIdentity twins twinsOld p := by decide
    exact .uses (.changed hp) (by decide)
  · have : diff_extended h twins twinsOld true = diff_extended (fun _ => 0) twins twinsOld true :=
      diffT_congr (extCmp_lawful _) (extCmp_lawful _) _ _ _ _
    rw [this]
    decide

set_option maxRecDepth 4096 in
/-- the hypotheses of C09 and `C10_complete_partial` are met by a binary with a changed function and its caller -/
example : ∃ this other : SymTree, Ordered this ∧ DepsLive this ∧ Distinct SameIdentity this
    ∧ ∃ s, Affected SameIdentity this other s ∧ ¬ Changed SameIdentity this other s := by
  refine ⟨[{ address := 1, size := 1, id := { internal := 7 }, sec := { executable := true }, deps := [3] },
     { address := 3, size := 1, id := { internal := 8 }, sec := { executable := true } }], twinsOld,
     by decide, by decide, by decide,
     { address := 3, size := 1, id := { internal := 8 }, sec := { executable := true } }, ?_, by decide⟩
  exact .uses (p := { address := 1, size := 1, id := { internal := 7 }, sec := { executable := true }, deps := [3] })
    (.changed (by decide)) (by decide)

/-! ### C11 / C12 -/

theorem not_contains_int (h : BitVec 64 → BitVec 32) (other : SymTree) (s : Symbol) :
    (!SymHash.contains (intCmp h) (SymHash.ofTree (intCmp h) other) s) = true ↔ ∀ o ∈ other, ¬ SameInternal o s := by
  rw [Bool.not_eq_true', ← Bool.not_eq_true, SymHash.contains_ofTree (intCmp_lawful h)]
  simp

/-- C11: `COMPARE_WRITEABLE_INTERNAL` (1) in terms of `COMPARE_EXTENDED` (0). -/
theorem C11_writeable_internal (b : Build) (h : BitVec 64 → BitVec 32) (this other : SymTree) (ho : Ordered this)
    (deps : Bool) : ∃ r₀ r₁, diff b h this other deps 0 = .ok r₀ ∧ diff b h this other deps 1 = .ok r₁
      ∧ ∀ s, s ∈ r₁ ↔ s ∈ r₀ ∧ (s.sec.writeable = false ∨ ∀ o ∈ other, ¬ SameInternal o s) := by
  have hs := (ordered_iff_sorted this).mp ho
  refine ⟨_, _, rfl, rfl, fun s => ?_⟩
  rw [mem_modeF h hs, mem_mode0 h hs, Bool.or_eq_true, not_contains_int, Bool.not_eq_true']

/-- C12: `COMPARE_EXECUTABLE_EXTENDED` (2) in terms of `COMPARE_EXTENDED` (0). -/
theorem C12_executable_extended (b : Build) (h : BitVec 64 → BitVec 32) (this other : SymTree) (ho : Ordered this)
    (deps : Bool) : ∃ r₀ r₂, diff b h this other deps 0 = .ok r₀ ∧ diff b h this other deps 2 = .ok r₂
      ∧ ∀ s, s ∈ r₂ ↔ s ∈ r₀ ∧ (s.sec.executable = true ∨ ∀ o ∈ other, ¬ SameInternal o s) := by
  have hs := (ordered_iff_sorted this).mp ho
  refine ⟨_, _, rfl, rfl, fun s => ?_⟩
  rw [mem_modeF h hs, mem_mode0 h hs, Bool.or_eq_true, not_contains_int]

/-- the mixed modes really drop something: a writeable variable with changed external ID only -/
example : ∃ this other : SymTree, Ordered this ∧ ∃ s, Changed SameIdentity this other s ∧ s.sec.writeable = true
    ∧ ∃ o ∈ other, SameInternal o s :=
  ⟨[{ address := 1, size := 1, id := { internal := 7, external := 1 }, sec := { writeable := true } }],
   [{ address := 1, size := 1, id := { internal := 7, external := 2 }, sec := { writeable := true } }], by decide,
   { address := 1, size := 1, id := { internal := 7, external := 1 }, sec := { writeable := true } }, by decide, rfl,
   by decide⟩

/-! ### C16 -/

/-- C16: look-up in a set built from a tree finds an element iff an element of equal identity was inserted. -/
theorem C16_lookup_exact (h : BitVec 64 → BitVec 32) (t : SymTree) (s : Symbol) :
    (SymHash.contains (extCmp h) (SymHash.ofTree (extCmp h) t) s = true ↔ ∃ y ∈ t, SameIdentity y s)
    ∧ (SymHash.contains (intCmp h) (SymHash.ofTree (intCmp h) t) s = true ↔ ∃ y ∈ t, SameInternal y s) :=
  ⟨SymHash.contains_ofTree (extCmp_lawful h), SymHash.contains_ofTree (intCmp_lawful h)⟩

/-- C16: the result of `diff` (and of `patchable`) is the same for all bucket hash functions. -/
theorem C16_hash_irrelevant (b : Build) (h h' : BitVec 64 → BitVec 32) (this other : SymTree) (deps : Bool)
    (mode : Nat) : diff b h this other deps mode = diff b h' this other deps mode
      ∧ patchableWith b h this other deps mode = patchableWith b h' this other deps mode := by
  have := diff_congr b h h' this other deps mode
  exact ⟨this, by unfold patchableWith; rw [this]⟩

/-! ### C17 -/

/-- C17 in a build with assertions: an invalid mode ends in an assertion failure. -/
theorem C17_invalid_mode_partial (h : BitVec 64 → BitVec 32) (this other : SymTree) (deps : Bool) (mode : Nat)
    (hm : 4 ≤ mode) : patchableWith .debug h this other deps mode = .error .assert := by
  match mode, hm with
  | n + 4, _ => rfl

/-- C17 is false in a release build (`NDEBUG`): every pair of binaries is reported as patchable without any
difference, in particular one that is not patchable in any of the four defined modes. -/
theorem C17_counterexample (h : BitVec 64 → BitVec 32) :
    (∀ (this other : SymTree) (deps : Bool) (mode : Nat), 4 ≤ mode →
      diff .release h this other deps mode = .ok [] ∧ patchableWith .release h this other deps mode = .ok true)
    ∧ ∃ this other : SymTree, ∀ deps, ∀ mode < 4, patchableWith .release h this other deps mode = .ok false := by
  constructor
  · intro this other deps mode hm
    match mode, hm with
    | n + 4, _ => exact ⟨rfl, rfl⟩
  · refine ⟨[{ address := 1, size := 1, id := { internal := 7 }, sec := { writeable := true } }], [], ?_⟩
    intro deps mode hm
    rw [(C16_hash_irrelevant .release h (fun _ => 0) _ _ deps mode).2]
    match mode, hm with
    | 0, _ => cases deps <;> rfl
    | 1, _ => cases deps <;> rfl
    | 2, _ => cases deps <;> rfl
    | 3, _ => cases deps <;> rfl

end Bean.Props

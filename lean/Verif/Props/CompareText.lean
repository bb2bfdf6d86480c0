import Verif.Spec.CompareText
import Verif.Props.Compare
import Verif.Props.Listing
import Verif.Lemmas.CodeText
/-
C118: texts in the cells of the comparison of versions. C119: summary of the comparison.
-/
namespace Bean.Props
open Bean Bean.Spec CompareText

/-! ### More verbosity -/

theorem ite_sublist {α : Type} {p q : Prop} [Decidable p] [Decidable q] {l m : List α} (h : p → q) (hl : p → l.Sublist m) :
    (if p then l else []).Sublist (if q then m else []) := by
  by_cases hp : p
  · rw [if_pos hp, if_pos (h hp)]
    exact hl hp
  · rw [if_neg hp]
    exact List.nil_sublist _

theorem flatMap_sublist {α β : Type} {f g : α → List β} (l : List α) (h : ∀ x ∈ l, (f x).Sublist (g x)) : (l.flatMap f).Sublist (l.flatMap g) := by
  induction l with
  | nil => exact List.Sublist.refl _
  | cons x l ih =>
    rw [List.flatMap_cons, List.flatMap_cons]
    exact (h x List.mem_cons_self).append (ih (fun y hy => h y (List.mem_cons_of_mem _ hy)))

theorem cellEntry_more {v w : Nat} (h : v ≤ w) (same success : Bool) (e : Entry) : (cellEntry v same success e).Sublist (cellEntry w same success e) := by
  cases e with
  | patchable b => exact List.Sublist.refl _
  | buildId a r =>
    show (buildIdLines v a r).Sublist (buildIdLines w a r)
    unfold buildIdLines
    refine (ite_sublist (fun hp => ?_) (fun _ => List.Sublist.refl _)).append (ite_sublist (fun hp => by omega) (fun _ => ?_))
    · rcases hp with hp | ⟨hp, hc⟩
      · exact Or.inl (by omega)
      · by_cases hw : w = 1
        · exact Or.inr ⟨hw, hc⟩
        · exact Or.inl (by omega)
    · exact (List.Sublist.refl _).append (ite_sublist (fun hp => ⟨by omega, hp.2⟩) (fun _ => List.Sublist.refl _))
  | category name d =>
    show (addDetails v name d).Sublist (addDetails w name d)
    unfold addDetails
    refine (ite_sublist (fun hp => ?_) (fun _ => List.Sublist.refl _)).append (ite_sublist (fun hp => by omega) (fun _ => ?_))
    · rcases hp with hp | ⟨hp, hc⟩
      · exact Or.inl (by omega)
      · by_cases hw : w = 1
        · exact Or.inr ⟨hw, hc⟩
        · exact Or.inl (by omega)
    · exact ((List.Sublist.refl _).append (ite_sublist (fun hp => by omega) (fun _ => List.Sublist.refl _))).append
        (ite_sublist (fun hp => by omega) (fun _ => List.Sublist.refl _))

theorem hashLines_more {v w : Nat} (h : v ≤ w) (base : Hashes) (x : Str × Str) : (hashLines v base x).Sublist (hashLines w base x) := by
  unfold hashLines
  refine (List.Sublist.refl _).append ?_
  cases base.lookup x.1 with
  | none => exact List.Sublist.refl _
  | some y => exact ite_sublist (fun hp => ⟨by omega, hp.2⟩) (fun _ => List.Sublist.refl _)

theorem debugLines_more {v w : Nat} (h : v ≤ w) (success : Bool) (base obj : HashInfo) :
    (debugLines v success base obj).Sublist (debugLines w success base obj) := by
  unfold debugLines
  by_cases he : obj.hashes.isEmpty = true
  · rw [if_pos he, if_pos he]
    exact List.Sublist.refl _
  · rw [if_neg he, if_neg he]
    refine (ite_sublist (fun hp => ?_) (fun _ => List.Sublist.refl _)).append (ite_sublist (fun hp => by omega) (fun _ => ?_))
    · rcases hp with hp | ⟨hp, hc⟩
      · exact Or.inl (by omega)
      · by_cases hw : w = 1
        · exact Or.inr ⟨hw, hc⟩
        · exact Or.inl (by omega)
    · exact (flatMap_sublist _ (fun x _ => hashLines_more h _ x)).append (List.Sublist.refl _)

theorem entries_ne {v : Nat} {same success : Bool} {result : List Entry} {b : Bool} (h : Entry.patchable b ∈ result) :
    result.flatMap (cellEntry v same success) ≠ [] := by
  intro e
  have := List.flatMap_eq_nil_iff.mp e _ h
  cases this

/-- **C118**, verbosity: every piece of text in a cell is shown for all higher levels of verbosity as well, in the same order. -/
theorem C118_more_partial {v w : Nat} (h : v ≤ w) (same : Bool) (base obj : HashInfo) {result : List Entry} (hr : ProperResult result) :
    (buildCell v same base obj result).Sublist (buildCell w same base obj result) := by
  rcases hr with rfl | ⟨b, hb⟩
  · exact List.Sublist.refl _
  · unfold buildCell
    rw [if_neg (entries_ne hb), if_neg (entries_ne hb)]
    have main := flatMap_sublist result (fun e _ => cellEntry_more h same (hashSuccess base obj) e)
    by_cases hv : v ≥ 1
    · rw [if_pos hv, if_pos (show w ≥ 1 by omega)]
      exact main.append ((debugLines_more h _ _ _).append (List.Sublist.refl _))
    · rw [if_neg hv]
      by_cases hw : w ≥ 1
      · rw [if_pos hw]
        exact main.trans (List.sublist_append_left _ _)
      · rw [if_neg hw]
        exact main

/-- C118: without a verdict, the text for an error is shown without verbosity only. -/
theorem C118_error_counterexample : ∃ result : List Entry, ∀ same base obj, "error".toList ∈ buildCell 0 same base obj result ∧
    ∀ v, 1 < v → "error".toList ∉ (buildCell v same base obj result).take 2 := by
  refine ⟨[.category "data".toList ⟨⟨1, 8⟩, ⟨0, 0⟩, ⟨0, 0⟩, ⟨0, 0⟩, ⟨0, 0⟩⟩], fun same base obj => ⟨List.mem_singleton.mpr rfl, fun v hv => ?_⟩⟩
  have e : ∀ rest : List Str, ([Entry.category "data".toList ⟨⟨1, 8⟩, ⟨0, 0⟩, ⟨0, 0⟩, ⟨0, 0⟩, ⟨0, 0⟩⟩].flatMap (cellEntry v same (hashSuccess base obj)) ++ rest).take 2 =
      ["\n.data".toList, "\n   1: 8B".toList] := by
    intro rest
    rw [List.flatMap_cons]
    show ((addDetails v _ _ ++ _) ++ rest).take 2 = _
    unfold addDetails
    rw [if_pos (Or.inl hv), if_pos hv]
    rfl
  have hne : [Entry.category "data".toList ⟨⟨1, 8⟩, ⟨0, 0⟩, ⟨0, 0⟩, ⟨0, 0⟩, ⟨0, 0⟩⟩].flatMap (cellEntry v same (hashSuccess base obj)) ≠ [] := by
    intro h0
    have := e []
    rw [h0] at this
    cases this
  unfold buildCell
  rw [if_neg hne, if_pos (show v ≥ 1 by omega), e]
  decide +kernel

/-! ### Changes -/

/-- **C118**, changes: with the first level of verbosity a cell names, besides the verdict, exactly what has changed: build identifier, categories, and debug symbols. -/
theorem C118_changes_partial (same : Bool) (base obj : HashInfo) {result : List Entry} {b : Bool} (hb : Entry.patchable b ∈ result) (l : Str) :
    l ∈ buildCell 1 same base obj result ↔
      (∃ x, Entry.patchable x ∈ result ∧ l = verdictText same (x && hashSuccess base obj)) ∨
      (∃ a r, Entry.buildId a r ∈ result ∧ a ≠ r ∧ l = "\n.build-id".toList) ∨
      (∃ name d, Entry.category name d ∈ result ∧ SizeChange d ∧ l = "\n.".toList ++ name) ∨
      (HashConflict base obj ∧ l = debugTitle obj) ∨ l = "\n".toList := by
  have hs : hashSuccess base obj = false ↔ HashConflict base obj := by
    unfold hashSuccess HashConflict
    rw [Bool.or_eq_false_iff, Bool.or_eq_false_iff, List.isEmpty_eq_false_iff, List.isEmpty_eq_false_iff]
    exact and_assoc
  have hd : ∀ d, detailChanged d = true ↔ SizeChange d := by
    intro d
    unfold detailChanged SizeChange
    rw [Bool.or_eq_true, bne_iff_ne, bne_iff_ne]
  have hdebug : l ∈ debugLines 1 (hashSuccess base obj) base obj ↔ HashConflict base obj ∧ l = debugTitle obj := by
    unfold debugLines
    by_cases he : obj.hashes.isEmpty = true
    · rw [if_pos he]
      exact ⟨fun h => absurd h List.not_mem_nil, fun h => absurd (List.isEmpty_iff.mp he) h.1.2.1⟩
    · rw [if_neg he, if_neg (show ¬ 1 > 1 by decide), List.append_nil]
      by_cases hc : hashSuccess base obj = false
      · rw [if_pos (Or.inr ⟨rfl, hc⟩), List.mem_singleton]
        exact ⟨fun h => ⟨hs.mp hc, h⟩, fun h => h.2⟩
      · rw [if_neg (fun h => h.elim (by decide) (fun h => hc h.2))]
        exact ⟨fun h => absurd h List.not_mem_nil, fun h => absurd (hs.mpr h.1) hc⟩
  have hentry : ∀ e, l ∈ cellEntry 1 same (hashSuccess base obj) e ↔
      (∃ x, e = .patchable x ∧ l = verdictText same (x && hashSuccess base obj)) ∨ (∃ a r, e = .buildId a r ∧ a ≠ r ∧ l = "\n.build-id".toList) ∨
      (∃ name d, e = .category name d ∧ SizeChange d ∧ l = "\n.".toList ++ name) := by
    intro e
    cases e with
    | patchable x =>
      rw [cellEntry, List.mem_singleton]
      constructor
      · exact fun h => Or.inl ⟨x, rfl, h⟩
      · rintro (⟨y, e, h⟩ | ⟨_, _, e, _⟩ | ⟨_, _, e, _⟩)
        · cases e; exact h
        · cases e
        · cases e
    | buildId a r =>
      rw [cellEntry, buildIdLines, if_neg (show ¬ 1 > 1 by decide), List.append_nil]
      by_cases hc : a = r
      · rw [if_neg (fun h => h.elim (by decide) (fun h => h.2 hc))]
        constructor
        · exact fun h => absurd h List.not_mem_nil
        · rintro (⟨_, e, _⟩ | ⟨_, _, e, h, _⟩ | ⟨_, _, e, _⟩)
          · cases e
          · cases e; exact absurd hc h
          · cases e
      · rw [if_pos (Or.inr ⟨rfl, hc⟩), List.mem_singleton]
        constructor
        · exact fun h => Or.inr (Or.inl ⟨a, r, rfl, hc, h⟩)
        · rintro (⟨_, e, _⟩ | ⟨_, _, e, _, h⟩ | ⟨_, _, e, _⟩)
          · cases e
          · exact h
          · cases e
    | category name d =>
      rw [cellEntry, addDetails, if_neg (show ¬ 1 > 1 by decide), List.append_nil]
      by_cases hc : SizeChange d
      · rw [if_pos (Or.inr ⟨rfl, (hd d).mpr hc⟩), List.mem_singleton]
        constructor
        · exact fun h => Or.inr (Or.inr ⟨name, d, rfl, hc, h⟩)
        · rintro (⟨_, e, _⟩ | ⟨_, _, e, _⟩ | ⟨_, _, e, _, h⟩)
          · cases e
          · cases e
          · cases e; exact h
      · rw [if_neg (fun h => h.elim (by decide) (fun h => hc ((hd d).mp h.2)))]
        constructor
        · exact fun h => absurd h List.not_mem_nil
        · rintro (⟨_, e, _⟩ | ⟨_, _, e, _⟩ | ⟨_, _, e, h, _⟩)
          · cases e
          · cases e
          · cases e; exact absurd h hc
  unfold buildCell
  rw [if_neg (entries_ne hb), if_pos (Nat.le_refl 1), List.mem_append, List.mem_append, List.mem_singleton, hdebug, List.mem_flatMap]
  constructor
  · rintro (⟨e, he, h⟩ | h | h)
    · rcases (hentry e).mp h with ⟨x, rfl, h'⟩ | ⟨a, r, rfl, h'⟩ | ⟨n, d, rfl, h'⟩
      · exact Or.inl ⟨x, he, h'⟩
      · exact Or.inr (Or.inl ⟨a, r, he, h'⟩)
      · exact Or.inr (Or.inr (Or.inl ⟨n, d, he, h'⟩))
    · exact Or.inr (Or.inr (Or.inr (Or.inl h)))
    · exact Or.inr (Or.inr (Or.inr (Or.inr h)))
  · rintro (⟨x, he, h⟩ | ⟨a, r, he, h⟩ | ⟨n, d, he, h⟩ | h | h)
    · exact Or.inl ⟨_, he, (hentry _).mpr (Or.inl ⟨x, rfl, h⟩)⟩
    · exact Or.inl ⟨_, he, (hentry _).mpr (Or.inr (Or.inl ⟨a, r, rfl, h⟩))⟩
    · exact Or.inl ⟨_, he, (hentry _).mpr (Or.inr (Or.inr ⟨n, d, rfl, h⟩))⟩
    · exact Or.inr (Or.inl h)
    · exact Or.inr (Or.inr h)

theorem flatMap_infix {α β : Type} {f : α → List β} {l : List α} {x : α} (h : x ∈ l) : f x <:+: l.flatMap f := by
  obtain ⟨pre, post, rfl⟩ := List.append_of_mem h
  rw [List.flatMap_append, List.flatMap_cons]
  exact ⟨pre.flatMap f, post.flatMap f, by rw [List.append_assoc]⟩

theorem cell_infix {v : Nat} {same : Bool} {base obj : HashInfo} {result : List Entry} {e : Entry} (h : e ∈ result)
    (hne : cellEntry v same (hashSuccess base obj) e ≠ []) : cellEntry v same (hashSuccess base obj) e <:+: buildCell v same base obj result := by
  have h0 : result.flatMap (cellEntry v same (hashSuccess base obj)) ≠ [] := fun h0 => hne (List.flatMap_eq_nil_iff.mp h0 e h)
  have h1 := flatMap_infix (f := cellEntry v same (hashSuccess base obj)) h
  unfold buildCell
  rw [if_neg h0]
  by_cases hv : v ≥ 1
  · rw [if_pos hv]
    exact h1.trans (List.prefix_append _ _).isInfix
  · rw [if_neg hv]
    exact h1

/-- **C118**, amounts: from the second level on, each category is followed by number and size of its symbols; from the third level on also by those of added and removed
symbols, if their size is not zero, and from the fourth level on before that by those according to the internal identifiers. -/
theorem C118_amounts (v : Nat) (hv : 1 < v) (same : Bool) (base obj : HashInfo) {result : List Entry} {name : Str} {d : Details} (h : Entry.category name d ∈ result) :
    ∃ inner outer, ["\n.".toList ++ name, "\n   ".toList ++ amountText d.total] ++ inner ++ outer <:+: buildCell v same base obj result ∧
      (inner = [] ↔ v ≤ 3 ∨ (d.intAdded.size = 0 ∧ d.intRemoved.size = 0)) ∧ (outer = [] ↔ v = 2 ∨ ¬ SizeChange d) ∧
      (2 < v → d.extAdded.size ≠ 0 → ("\n + ".toList ++ amountText d.extAdded) ∈ outer) ∧
      (2 < v → d.extRemoved.size ≠ 0 → ("\n - ".toList ++ amountText d.extRemoved) ∈ outer) := by
  have hnil : ∀ x y a, amountLine x y a = [] ↔ a.size = 0 := by
    intro x y a
    unfold amountLine
    by_cases ha : a.size = 0
    · rw [if_neg (fun h => h ha)]
      exact ⟨fun _ => ha, fun _ => rfl⟩
    · rw [if_pos ha]
      exact ⟨fun h => (by cases h), fun h => absurd h ha⟩
  have hmem : ∀ x a, a.size ≠ 0 → (x.toList ++ amountText a) ∈ amountLine x "" a := by
    intro x a ha
    unfold amountLine
    rw [if_pos ha, List.mem_singleton]
    rw [show "".toList = ([] : Str) from rfl, List.append_nil]
  have e : cellEntry v same (hashSuccess base obj) (.category name d) = ["\n.".toList ++ name, "\n   ".toList ++ amountText d.total] ++
      (if v > 3 then amountLine "\n(+ " ")" d.intAdded ++ amountLine "\n(- " ")" d.intRemoved else []) ++
      (if v > 2 then amountLine "\n + " "" d.extAdded ++ amountLine "\n - " "" d.extRemoved else []) := by
    rw [cellEntry, addDetails, if_pos (Or.inl hv), if_pos hv]
    rfl
  have hi := cell_infix (v := v) (same := same) (base := base) (obj := obj) h (by rw [e]; exact List.cons_ne_nil _ _)
  rw [e] at hi
  refine ⟨_, _, hi, ?_, ?_, ?_, ?_⟩
  · by_cases h3 : v > 3
    · rw [if_pos h3, List.append_eq_nil_iff, hnil, hnil]
      exact ⟨Or.inr, fun h => h.elim (fun h => by omega) id⟩
    · rw [if_neg h3]
      exact ⟨fun _ => Or.inl (by omega), fun _ => rfl⟩
  · unfold SizeChange
    by_cases h3 : v > 2
    · rw [if_pos h3, List.append_eq_nil_iff, hnil, hnil]
      constructor
      · intro ⟨h1, h2⟩
        exact Or.inr (fun h => h.elim (fun h => h h1) (fun h => h h2))
      · intro h
        rcases h with h | h
        · omega
        · exact ⟨Decidable.byContradiction (fun h1 => h (Or.inl h1)), Decidable.byContradiction (fun h1 => h (Or.inr h1))⟩
    · rw [if_neg h3]
      exact ⟨fun _ => Or.inl (by omega), fun _ => rfl⟩
  · intro h3 ha
    rw [if_pos h3]
    exact List.mem_append_left _ (hmem _ _ ha)
  · intro h3 ha
    rw [if_pos h3]
    exact List.mem_append_right _ (hmem _ _ ha)

theorem hashSuccess_iff (base obj : HashInfo) : hashSuccess base obj = true ↔ ¬ HashConflict base obj := by
  have h : hashSuccess base obj = false ↔ HashConflict base obj := by
    unfold hashSuccess HashConflict
    rw [Bool.or_eq_false_iff, Bool.or_eq_false_iff, List.isEmpty_eq_false_iff, List.isEmpty_eq_false_iff]
    exact and_assoc
  rw [← h, Bool.not_eq_false]

/-- **C118**, verdict: at each level of verbosity the cell contains "update" if the program for differences considers the update to be possible and there is no conflict of
hashes, and "restart" otherwise; in brackets exactly if a version is compared with itself. -/
theorem C118_verdict (v : Nat) (same : Bool) (base obj : HashInfo) {result : List Entry} {x : Bool} (h : Entry.patchable x ∈ result) :
    (x = true → ¬ HashConflict base obj → (if same then "(update)" else "update").toList ∈ buildCell v same base obj result) ∧
    (x = false ∨ HashConflict base obj → (if same then "(restart)" else "restart").toList ∈ buildCell v same base obj result) := by
  have hi : verdictText same (x && hashSuccess base obj) ∈ buildCell v same base obj result :=
    (cell_infix (v := v) (same := same) (base := base) (obj := obj) h (List.cons_ne_nil _ _)).subset List.mem_cons_self
  constructor
  · intro hx hc
    rw [hx, (hashSuccess_iff base obj).mpr hc] at hi
    cases same
    · exact hi
    · exact hi
  · intro hx
    have e : (x && hashSuccess base obj) = false := by
      rcases hx with rfl | hx
      · rfl
      · have : hashSuccess base obj = false := Bool.eq_false_iff.mpr (fun h => (hashSuccess_iff base obj).mp h hx)
        rw [this, Bool.and_false]
    rw [e] at hi
    cases same
    · exact hi
    · exact hi

theorem debugTitle_text (i : HashInfo) :
    debugTitle i = (if i.debug = false then "\n.debug *" else if i.incomplete then "\n.debug !" else "\n.debug").toList := by
  obtain ⟨h, d1, d2, c⟩ := i
  cases d1
  · exact (show "\n.debug".toList ++ " *".toList = "\n.debug *".toList by decide +kernel)
  · cases d2
    · exact (show "\n.debug".toList ++ "".toList = "\n.debug".toList by decide +kernel)
    · exact (show "\n.debug".toList ++ " !".toList = "\n.debug !".toList by decide +kernel)

/-- **C118**, debug symbols: from the second level on all hashes of the version are shown, below a title that marks missing (`*`) and incomplete (`!`) debug symbols; from the
third level on also the hash of the base, if it differs. -/
theorem C118_hashes (v : Nat) (hv : 1 < v) (same : Bool) (base obj : HashInfo) {result : List Entry} {b : Bool} (hb : Entry.patchable b ∈ result) {k x : Str}
    (hk : (k, x) ∈ obj.hashes) (hd : k ≠ "datatypes".toList) (hf : k ≠ "functions".toList) :
    (if obj.debug = false then "\n.debug *" else if obj.incomplete then "\n.debug !" else "\n.debug").toList ∈ buildCell v same base obj result ∧
    ("\n ".toList ++ (k ++ ':' :: x)) ∈ buildCell v same base obj result ∧
    (2 < v → ∀ y, base.hashes.lookup k = some y → y ≠ x → ("\n ".toList ++ (k ++ ':' :: y)) ∈ buildCell v same base obj result) ∧
    (∀ c, obj.comment = some c → ("\n.comment:\n ".toList ++ c) ∈ buildCell v same base obj result) := by
  have hsub : ∀ l, l ∈ debugLines v (hashSuccess base obj) base obj → l ∈ buildCell v same base obj result := by
    intro l hl
    unfold buildCell
    rw [if_neg (entries_ne hb), if_pos (show v ≥ 1 by omega)]
    exact List.mem_append_right _ (List.mem_append_left _ hl)
  have he : ¬ obj.hashes.isEmpty = true := fun h => by
    rw [List.isEmpty_iff.mp h] at hk
    cases hk
  have hn : hashName k = k := by
    unfold hashName
    rw [if_neg hd, if_neg hf]
  obtain ⟨cl, hcl, hdl⟩ : ∃ cl, (∀ c, obj.comment = some c → ("\n.comment:\n ".toList ++ c) ∈ cl) ∧
      debugLines v (hashSuccess base obj) base obj = [debugTitle obj] ++ (obj.hashes.flatMap (hashLines v base.hashes) ++ cl) := by
    unfold debugLines
    rw [if_neg he, if_pos (Or.inl hv), if_pos hv]
    refine ⟨_, fun c hc => ?_, rfl⟩
    rw [hc]
    exact List.mem_cons_self
  have hh : ∀ l, l ∈ hashLines v base.hashes (k, x) → l ∈ buildCell v same base obj result := by
    intro l hl
    apply hsub
    rw [hdl]
    exact List.mem_append_right _ (List.mem_append_left _ (List.mem_flatMap.mpr ⟨_, hk, hl⟩))
  refine ⟨?_, ?_, ?_, ?_⟩
  · rw [← debugTitle_text]
    exact hsub _ (hdl ▸ List.mem_append_left _ List.mem_cons_self)
  · apply hh
    rw [hashLines, hn]
    exact List.mem_cons_self
  · intro h2 y hy hne
    apply hh
    rw [hashLines, hn]
    dsimp only
    rw [hy]
    dsimp only
    rw [if_pos ⟨h2, hne⟩]
    exact List.mem_append_right _ List.mem_cons_self
  · intro c hc
    apply hsub
    rw [hdl]
    exact List.mem_append_right _ (List.mem_append_right _ (hcl c hc))

theorem rename_inj {α : Type} [DecidableEq α] {a b c d k l : α} (hcd : c ≠ d) (hk : k ≠ c ∧ k ≠ d) (hl : l ≠ c ∧ l ≠ d)
    (h : (if k = a then c else if k = b then d else k) = (if l = a then c else if l = b then d else l)) : k = l := by
  grind

/-- C118: the long names of hashes are shortened; names other than the short ones stay different. -/
theorem C118_names {k l : Str} (hk : k ≠ "dt".toList ∧ k ≠ "fn".toList) (hl : l ≠ "dt".toList ∧ l ≠ "fn".toList) : (hashName k = hashName l ↔ k = l) ∧
    hashName "datatypes".toList = "dt".toList ∧ hashName "functions".toList = "fn".toList :=
  ⟨⟨fun h => rename_inj (by decide) hk hl h, fun h => by rw [h]⟩, by decide, by decide⟩

example : hashName "data".toList ≠ hashName "bss".toList := fun h =>
  absurd ((C118_names ⟨by decide, by decide⟩ ⟨by decide, by decide⟩).1.mp h) (by decide)

/-- Data for the examples. -/
def exDetails : Details := ⟨⟨3, 24⟩, ⟨1, 8⟩, ⟨0, 0⟩, ⟨2, 16⟩, ⟨0, 0⟩⟩

/-- A version for the examples. -/
def exInfo (hashes : Hashes) : HashInfo := ⟨hashes, true, false, none⟩

example : "\n.data".toList ∈ buildCell 1 false (exInfo []) (exInfo []) [.patchable true, .buildId ['a'] ['a'], .category "data".toList exDetails] :=
  (C118_changes_partial false (exInfo []) (exInfo []) (b := true) List.mem_cons_self _).mpr
    (Or.inr (Or.inr (Or.inl ⟨_, exDetails, by decide, Or.inl (by decide), rfl⟩)))

example : ∃ inner outer, ["\n.data".toList, "\n   3: 24B".toList] ++ inner ++ outer <:+:
    buildCell 4 false (exInfo []) (exInfo []) [.patchable true, .category "data".toList exDetails] ∧ inner ≠ [] := by
  obtain ⟨inner, outer, h, h1, _⟩ := C118_amounts 4 (by decide) false (exInfo []) (exInfo []) (result := [.patchable true, .category "data".toList exDetails])
    (List.mem_cons_of_mem _ List.mem_cons_self)
  exact ⟨inner, outer, h, fun h0 => absurd (h1.mp h0) (by decide)⟩

example : (buildCell 1 false (exInfo []) (exInfo []) [.patchable true, .category "data".toList exDetails]).Sublist
    (buildCell 3 false (exInfo []) (exInfo []) [.patchable true, .category "data".toList exDetails]) :=
  C118_more_partial (by decide) _ _ _ (Or.inr ⟨true, List.mem_cons_self⟩)

example : "(restart)".toList ∈ buildCell 0 true (exInfo [("data".toList, ['1'])]) (exInfo [("data".toList, ['2'])]) [.patchable true] :=
  (C118_verdict 0 true _ _ (x := true) List.mem_cons_self).2 (Or.inr ⟨by simp [exInfo], by simp [exInfo], rfl⟩)

example : "update".toList ∈ buildCell 3 false (exInfo []) (exInfo []) [.patchable true] :=
  (C118_verdict 3 false _ _ (x := true) List.mem_cons_self).1 rfl (fun h => h.1 rfl)

example : "\n.debug".toList ∈ buildCell 3 false (exInfo []) (exInfo [("data".toList, ['2'])]) [.patchable true] ∧
    "\n data:2".toList ∈ buildCell 3 false (exInfo []) (exInfo [("data".toList, ['2'])]) [.patchable true] := by
  have h := C118_hashes 3 (by decide) false (exInfo []) (exInfo [("data".toList, ['2'])]) (result := [.patchable true]) (b := true) List.mem_cons_self
    (k := "data".toList) (x := ['2']) List.mem_cons_self (by decide) (by decide)
  exact ⟨h.1, h.2.1⟩

/-- C118: added or removed symbols without size are not shown, at no level of verbosity, whatever their number is. -/
theorem C118_size_counterexample (v n m : Nat) (same success : Bool) (name : Str) (t i j : Amount) :
    cellEntry v same success (.category name ⟨t, i, j, ⟨n, 0⟩, ⟨m, 0⟩⟩) = cellEntry v same success (.category name ⟨t, i, j, ⟨0, 0⟩, ⟨0, 0⟩⟩) := rfl

/-- C118: a hash that only the base has leads to a restart, but it is not shown at any level of verbosity: the cell is the same for all values of this hash. -/
theorem C118_hash_counterexample : ∃ obj : HashInfo, ∃ base : Str → HashInfo, ∀ x, HashConflict (base x) obj ∧
    ∀ v same y, buildCell v same (base x) obj [.patchable true] = buildCell v same (base y) obj [.patchable true] := by
  refine ⟨exInfo [("data".toList, ['1'])], fun x => exInfo [("data".toList, ['1']), ("bss".toList, x)], fun x => ⟨⟨by simp [exInfo], by simp [exInfo], rfl⟩, fun v same y => ?_⟩⟩
  rfl

/-! ### Summary -/

/-- **C119**, percentage: the percentage is the share of versions, rounded to the nearest number, and never beyond 100. -/
theorem C119_percent {k n : Nat} (hn : 0 < n) (hk : k ≤ n) :
    2 * (n * percent k n) ≤ 2 * (100 * k) + n ∧ 2 * (100 * k) ≤ 2 * (n * percent k n) + n ∧ percent k n ≤ 100 ∧ percent 0 n = 0 ∧ percent n n = 100 := by
  have hdiv := Nat.div_add_mod (100 * k) n
  have hmod := Nat.mod_lt (100 * k) hn
  have key : 2 * (n * percent k n) ≤ 2 * (100 * k) + n ∧ 2 * (100 * k) ≤ 2 * (n * percent k n) + n := by
    unfold percent
    dsimp only
    have hs : n * (100 * k / n + 1) = n * (100 * k / n) + n := Nat.mul_succ _ _
    split
    · omega
    · split
      · rw [hs]; omega
      · split
        · omega
        · rw [hs]; omega
  have h0 : percent 0 n = 0 := by
    unfold percent
    dsimp only
    rw [Nat.mul_zero, Nat.zero_div, Nat.zero_mod, if_pos (by omega)]
  have h100 : percent n n = 100 := by
    unfold percent
    dsimp only
    rw [Nat.mul_div_cancel _ hn, Nat.mul_mod_left, if_pos (by omega)]
  refine ⟨key.1, key.2, ?_, h0, h100⟩
  apply Decidable.byContradiction
  intro h
  have h1 : n * 101 ≤ n * percent k n := Nat.mul_le_mul_left n (by omega)
  omega

example : percent 2 3 ≤ 100 ∧ 2 * (3 * percent 2 3) ≤ 2 * (100 * 2) + 3 := ⟨(C119_percent (by decide) (by decide)).2.2.1, (C119_percent (by decide) (by decide)).1⟩

/-- C119: "100%" does not mean all versions, and "0%" not none of them. -/
theorem C119_all_counterexample : percent 199 200 = 100 ∧ percent 1 200 = 0 := by decide

/-- **C119**, settings: the end of the sentence tells the settings: it is the same exactly for the same options and mode. -/
theorem C119_settings (s t : CompareOptions) : settingsText (settingsOf s) = settingsText (settingsOf t) ↔
    s.dbgsym = t.dbgsym ∧ s.dependencies = t.dependencies ∧ s.relocations = t.relocations ∧ internalLevel s = internalLevel t := by
  have hlevel : ∀ u : CompareOptions, internalLevel u = 0 ∨ internalLevel u = 1 ∨ internalLevel u = 2 ∨ internalLevel u = 3 := by
    intro u
    unfold internalLevel
    split <;> omega
  have hall : ∀ a b c a' b' c' : Bool, ∀ i j : Fin 4,
      settingsText (settingsOf ⟨a, b, c, i.val⟩) = settingsText (settingsOf ⟨a', b', c', j.val⟩) → a = a' ∧ b = b' ∧ c = c' ∧ i = j := by
    decide +kernel
  have hsame : ∀ u : CompareOptions, settingsOf u = settingsOf ⟨u.dbgsym, u.dependencies, u.relocations, internalLevel u⟩ := by
    intro u
    have hl : internalLevel ⟨u.dbgsym, u.dependencies, u.relocations, internalLevel u⟩ = internalLevel u := by
      rcases hlevel u with h | h | h | h <;> rw [h] <;> rfl
    unfold settingsOf
    rw [hl]
  have hlt : ∀ u : CompareOptions, internalLevel u < 4 := fun u => by rcases hlevel u with h | h | h | h <;> omega
  constructor
  · intro h
    rw [hsame s, hsame t] at h
    obtain ⟨h1, h2, h3, h4⟩ := hall _ _ _ _ _ _ ⟨internalLevel s, hlt s⟩ ⟨internalLevel t, hlt t⟩ h
    exact ⟨h1, h2, h3, congrArg Fin.val h4⟩
  · intro ⟨h1, h2, h3, h4⟩
    rw [hsame s, hsame t, h1, h2, h3, h4]

example : settingsText (settingsOf ⟨true, true, false, 5⟩) =
    " with internal ID comparison, recusive symbol dependency checks and (external?) debug symbols".toList := by decide +kernel

example : settingsText (settingsOf ⟨true, true, false, 5⟩) = settingsText (settingsOf ⟨true, true, false, 3⟩) := (C119_settings _ _).mpr ⟨rfl, rfl, rfl, rfl⟩

theorem blank_cut {a b x y : Str} (ha : ' ' ∉ a) (hb : ' ' ∉ b) (h : a ++ ' ' :: x = b ++ ' ' :: y) : a = b ∧ x = y := by
  induction a generalizing b with
  | nil =>
    cases b with
    | nil => exact ⟨rfl, (List.cons.inj h).2⟩
    | cons c b => exact absurd ((List.cons.inj h).1 ▸ List.mem_cons_self : ' ' ∈ c :: b) hb
  | cons d a ih =>
    cases b with
    | nil => exact absurd ((List.cons.inj h).1 ▸ List.mem_cons_self : ' ' ∈ d :: a) ha
    | cons c b =>
      obtain ⟨h1, h2⟩ := List.cons.inj h
      obtain ⟨h3, h4⟩ := ih (fun hm => ha (List.mem_cons_of_mem _ hm)) (fun hm => hb (List.mem_cons_of_mem _ hm)) h2
      exact ⟨by rw [h1, h3], h4⟩

/-- **C119**, sentence: for an object, the sentence tells the number of possible updates, the number of versions, and the settings. -/
theorem C119_sentence (s t : CompareOptions) (name : Str) (k n k' n' : Nat) : sentence s name k n = sentence t name k' n' ↔
    k = k' ∧ n = n' ∧ s.dbgsym = t.dbgsym ∧ s.dependencies = t.dependencies ∧ s.relocations = t.relocations ∧ internalLevel s = internalLevel t := by
  constructor
  · intro h
    have hw : ∀ m, ' ' ∉ Nat.toDigits 10 m := fun m => digits_word (by decide) (by decide)
    have h := List.append_cancel_left (List.append_cancel_left (List.append_cancel_left h))
    obtain ⟨h1, h⟩ := blank_cut (hw _) (hw _) h
    obtain rfl := numeral_inj (by decide) (by decide) h1
    obtain ⟨h2, h⟩ := blank_cut (hw _) (hw _) (List.append_cancel_left (as := "of ".toList) h)
    obtain rfl := numeral_inj (by decide) (by decide) h2
    have h := List.append_cancel_left (List.append_cancel_left (List.append_cancel_left (as := "versions (".toList) h))
    exact ⟨rfl, rfl, (C119_settings s t).mp h⟩
  · intro ⟨h1, h2, h3⟩
    unfold sentence
    rw [h1, h2, (C119_settings s t).mpr h3]

example : sentence ⟨false, true, false, 0⟩ "libx.so".toList 2 3 =
    "For libx.so, 2 of 3 versions (67%) can be live patched with default (extended) comparison and recusive symbol dependency checks".toList := by decide +kernel

example : sentence ⟨false, true, false, 0⟩ "libx.so".toList 2 3 ≠ sentence ⟨false, true, true, 0⟩ "libx.so".toList 2 3 :=
  fun h => absurd ((C119_sentence _ _ _ _ _ _ _).mp h).2.2.2.2.1 (by decide)

/-- C119: the settings determine the options passed to the program for differences. -/
theorem C119_calls (s t : CompareOptions) (h : settingsText (settingsOf s) = settingsText (settingsOf t)) (a b o : Str) : diffCommand s a b o = diffCommand t a b o := by
  obtain ⟨h1, h2, h3, h4⟩ := (C119_settings s t).mp h
  unfold diffCommand diffFlags
  rw [h1, h2, h3, h4]

example : diffCommand ⟨true, true, false, 5⟩ ['a'] ['b'] ['o'] = diffCommand ⟨true, true, false, 3⟩ ['a'] ['b'] ['o'] := C119_calls _ _ (by decide +kernel) _ _ _

end Bean.Props

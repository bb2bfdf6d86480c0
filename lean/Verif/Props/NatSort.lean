import Verif.Model.NatSort
import Verif.Spec.NatSort
import Verif.Lemmas.PySortKey
import Verif.Props.ListRead
/-
Order of the versions in a comparison (C131).
-/
namespace Bean.Props
open Bean Bean.Spec Bean.NatSort

theorem partsLt_strict : StrictTotal (fun a b => partsLt a b = true) := by
  refine ⟨fun a => ?_, fun a b c => ?_, fun a b => ?_⟩
  · induction a with
    | nil => decide
    | cons x l ih =>
      unfold partsLt
      simp only [Nat.lt_irrefl, decide_false, beq_self_eq_true, str_irrefl, Bool.false_or, Bool.true_and]
      exact ih
  · induction a generalizing b c with
    | nil =>
      intro h1 h2
      cases c with
      | nil => cases b <;> exact absurd h2 (by unfold partsLt; decide)
      | cons z c => rfl
    | cons x a ih =>
      intro h1 h2
      cases b with
      | nil => exact absurd h1 (by unfold partsLt; decide)
      | cons y b =>
        cases c with
        | nil => exact absurd h2 (by unfold partsLt; decide)
        | cons z c =>
          unfold partsLt at h1 h2 ⊢
          simp only [Bool.or_eq_true, Bool.and_eq_true, decide_eq_true_eq, beq_iff_eq] at h1 h2 ⊢
          rcases h1 with h1 | ⟨e1, h1⟩
          · rcases h2 with h2 | ⟨e2, h2⟩
            · exact Or.inl (Nat.lt_trans h1 h2)
            · exact Or.inl (e2 ▸ h1)
          · rcases h2 with h2 | ⟨e2, h2⟩
            · exact Or.inl (e1 ▸ h2)
            · refine Or.inr ⟨e1.trans e2, ?_⟩
              rcases h1 with h1 | ⟨f1, h1⟩
              · rcases h2 with h2 | ⟨f2, h2⟩
                · exact Or.inl (str_trans h1 h2)
                · exact Or.inl (f2 ▸ h1)
              · rcases h2 with h2 | ⟨f2, h2⟩
                · exact Or.inl (f1 ▸ h2)
                · exact Or.inr ⟨f1.trans f2, ih _ _ h1 h2⟩
  · induction a generalizing b with
    | nil =>
      intro h1 _
      cases b with
      | nil => rfl
      | cons y b => exact absurd rfl h1
    | cons x a ih =>
      intro h1 h2
      cases b with
      | nil => exact absurd rfl h2
      | cons y b =>
        unfold partsLt at h1 h2
        simp only [Bool.or_eq_true, Bool.and_eq_true, decide_eq_true_eq, beq_iff_eq, not_or, not_and] at h1 h2
        have e : x.1 = y.1 := by omega
        have f : x.2 = y.2 := str_eq (h1.2 e).1 (h2.2 e.symm).1
        rw [ih b ((h1.2 e).2 f) ((h2.2 e.symm).2 f.symm), Prod.ext e f]

theorem keyLt_strict : StrictTotal (fun a b => keyLt a b = true) := by
  refine ⟨fun a => ?_, fun a b c => ?_, fun a b => ?_⟩
  · unfold keyLt
    simp only [str_irrefl, decide_false, beq_self_eq_true, Bool.false_or, Bool.true_and]
    exact partsLt_strict.irrefl a.2
  · intro h1 h2
    unfold keyLt at h1 h2 ⊢
    simp only [Bool.or_eq_true, Bool.and_eq_true, decide_eq_true_eq, beq_iff_eq] at h1 h2 ⊢
    rcases h1 with h1 | ⟨f1, h1⟩
    · rcases h2 with h2 | ⟨f2, h2⟩
      · exact Or.inl (str_trans h1 h2)
      · exact Or.inl (f2 ▸ h1)
    · rcases h2 with h2 | ⟨f2, h2⟩
      · exact Or.inl (f1 ▸ h2)
      · exact Or.inr ⟨f1.trans f2, partsLt_strict.trans _ _ _ h1 h2⟩
  · intro h1 h2
    unfold keyLt at h1 h2
    simp only [Bool.or_eq_true, Bool.and_eq_true, decide_eq_true_eq, beq_iff_eq, not_or, not_and] at h1 h2
    have f := str_eq h1.1 h2.1
    exact Prod.ext f (partsLt_strict.total _ _ (h1.2 f) (h2.2 f.symm))

theorem natCmp_key : ComparesBy (fun a b => keyLt a b = true) natKey natCmp := by
  intro a b
  unfold natCmp
  split
  · exact ⟨fun _ => by assumption, fun _ => by decide⟩
  · refine ⟨fun h => ?_, fun h => absurd h (by assumption)⟩
    split at h <;> exact absurd h (by decide)

theorem parts_prefix (p l r : List (Nat × Str)) : partsLt (p ++ l) (p ++ r) = partsLt l r := by
  induction p with
  | nil => rfl
  | cons x p ih =>
    rw [List.cons_append, List.cons_append, partsLt]
    simp only [Nat.lt_irrefl, decide_false, beq_self_eq_true, str_irrefl, Bool.false_or, Bool.true_and]
    exact ih

/-- Names with smaller keys come first. -/
theorem sorted_before {dirs : List Str} {a b : Str} (ha : a ∈ dirs) (hb : b ∈ dirs) (h : keyLt (natKey a) (natKey b) = true) : [a, b].Sublist (natSorted dirs) := by
  have ha' := (pySorted_perm natCmp dirs).mem_iff.mpr ha
  have hb' := (pySorted_perm natCmp dirs).mem_iff.mpr hb
  have hp := pySorted_keyed keyLt_strict natCmp_key dirs
  obtain ⟨x, y, e⟩ := List.append_of_mem ha'
  show [a, b].Sublist (pySorted natCmp dirs)
  rw [e] at hb' hp ⊢
  rcases List.mem_append.mp hb' with hx | hx
  · exact absurd h ((List.pairwise_append.mp hp).2.2 b hx a List.mem_cons_self)
  · rcases List.mem_cons.mp hx with hx | hx
    · rw [hx] at h
      exact absurd h (keyLt_strict.irrefl _)
    · exact ((List.singleton_sublist.mpr hx).cons_cons a).trans (List.sublist_append_right x _)

theorem digit_code {c : Char} (h : c.isDigit = true) : ∃ k < 10, c = Nat.digitChar k := by
  have hc : c = Char.ofNat c.toNat := (Char.ofNat_toNat c).symm
  have h1 : 48 ≤ c.toNat ∧ c.toNat ≤ 57 := by
    unfold Char.isDigit at h
    rw [Bool.and_eq_true, decide_eq_true_eq, decide_eq_true_eq] at h
    exact ⟨h.1, h.2⟩
  refine ⟨c.toNat - 48, by omega, ?_⟩
  have key : ∀ k < 10, Char.ofNat (k + 48) = Nat.digitChar k := by decide
  rw [← key (c.toNat - 48) (by omega), show c.toNat - 48 + 48 = c.toNat by omega]
  exact hc

theorem digit_lower {c : Char} (h : c.isDigit = true) : c.toLower = c := by
  obtain ⟨k, hk, rfl⟩ := digit_code h
  have key : ∀ k < 10, (Nat.digitChar k).toLower = Nat.digitChar k := by decide
  exact key k hk

theorem lower_digit (c : Char) : c.toLower.isDigit = c.isDigit := by
  by_cases h : 65 ≤ c.toNat ∧ c.toNat ≤ 90
  · have key : ∀ k < 91, 65 ≤ k → (Char.ofNat k).toLower.isDigit = (Char.ofNat k).isDigit := by decide
    have := key c.toNat (by omega) h.1
    rw [Char.ofNat_toNat] at this
    exact this
  · unfold Char.toLower
    rw [dif_neg (show ¬ (c.val ≥ 'A'.val ∧ c.val ≤ 'Z'.val) from h)]

theorem decValue_numeral {d : Str} (h : ∀ c ∈ d, c.isDigit = true) : decValue d = numeral 10 d := by
  unfold decValue numeral
  generalize 0 = n
  induction d generalizing n with
  | nil => rfl
  | cons c d ih =>
    rw [List.foldl_cons, List.foldl_cons]
    have : c.toNat - '0'.toNat = "0123456789abcdef".toList.idxOf c := by
      obtain ⟨k, hk, rfl⟩ := digit_code (h c List.mem_cons_self)
      have key : ∀ k < 10, (Nat.digitChar k).toNat - '0'.toNat = "0123456789abcdef".toList.idxOf (Nat.digitChar k) := by decide
      exact key k hk
    rw [this]
    exact ih (fun c hc => h c (List.mem_cons_of_mem _ hc)) _

theorem addChar_text {c : Char} (h : c.isDigit = false) (k : Str × List (Str × Str)) : addChar c k = (c :: k.1, k.2) := by
  unfold addChar
  rw [h]
  rfl

theorem addChar_first {c : Char} (h : c.isDigit = true) {k : Str × List (Str × Str)} (hk : k.1 ≠ []) : addChar c k = ([], ([c], k.1) :: k.2) := by
  unfold addChar
  rw [if_pos h, if_neg hk]

theorem addChar_next {c : Char} (h : c.isDigit = true) (x : Str × Str) (l : List (Str × Str)) : addChar c ([], x :: l) = ([], (c :: x.1, x.2) :: l) := by
  unfold addChar
  rw [if_pos h]
  rfl

theorem addChar_last {c : Char} (h : c.isDigit = true) : addChar c ([], []) = ([], [([c], [])]) := by
  unfold addChar
  rw [if_pos h]
  rfl

theorem addChar_ne (c : Char) (k : Str × List (Str × Str)) : addChar c k ≠ ([], []) := by
  intro h
  cases hc : c.isDigit with
  | false => rw [addChar_text hc] at h; cases h
  | true =>
    obtain ⟨t, l⟩ := k
    by_cases ht : t = []
    · rw [ht] at h
      cases l with
      | nil => rw [addChar_last hc] at h; cases h
      | cons x l => rw [addChar_next hc] at h; cases h
    · rw [addChar_first hc ht] at h
      cases h

theorem split_nil {s : Str} (h : splitNums s = ([], [])) : s = [] := by
  cases s with
  | nil => rfl
  | cons c s => exact absurd h (addChar_ne _ _)

theorem split_start {s : Str} (h : NoDigitAtStart s) (h' : (splitNums s).1 = []) : s = [] := by
  cases s with
  | nil => rfl
  | cons c s =>
    rw [splitNums, addChar_text (h c rfl)] at h'
    cases h'

theorem split_number {x : Str} (hx : IsNumber x) {r : Str} (hr : NoDigitAtStart r) : splitNums (x ++ r) = ([], (x, (splitNums r).1) :: (splitNums r).2) := by
  obtain ⟨hne, hd⟩ := hx
  induction x with
  | nil => exact absurd rfl hne
  | cons c x ih =>
    have hc := hd c List.mem_cons_self
    cases x with
    | nil =>
      rw [List.cons_append, List.nil_append, splitNums]
      by_cases ht : (splitNums r).1 = []
      · rw [split_start hr ht]
        exact addChar_last hc
      · exact addChar_first hc ht
    | cons c' x =>
      rw [List.cons_append, splitNums, ih (List.cons_ne_nil _ _) (fun c hc => hd c (List.mem_cons_of_mem _ hc))]
      exact addChar_next hc _ _

theorem split_append {q w : Str} (hq : NoDigitAtEnd q) (hw : (splitNums w).1 = []) : splitNums (q ++ w) = ((splitNums q).1, (splitNums q).2 ++ (splitNums w).2) := by
  induction q with
  | nil => exact Prod.ext hw rfl
  | cons c q ih =>
    rw [List.cons_append, splitNums, splitNums]
    cases q with
    | nil =>
      rw [List.nil_append, addChar_text (hq c rfl), addChar_text (hq c rfl), hw]
      rfl
    | cons c' q =>
      rw [ih (fun x hx => hq x (by rw [List.getLast?_cons_cons]; exact hx))]
      cases hc : c.isDigit with
      | false => rw [addChar_text hc, addChar_text hc]
      | true =>
        cases hk : splitNums (c' :: q) with
        | mk t l =>
          by_cases ht : t = []
          · rw [ht] at hk ⊢
            cases l with
            | nil => exact absurd (split_nil hk) (List.cons_ne_nil _ _)
            | cons x l => rw [List.cons_append, addChar_next hc, addChar_next hc]; rfl
          · rw [addChar_first hc ht, addChar_first hc ht]
            rfl

theorem map_number {x : Str} (hx : IsNumber x) : x.map Char.toLower = x := by
  have : ∀ c ∈ x, c.toLower = id c := fun c hc => digit_lower (hx.2 c hc)
  rw [List.map_congr_left this, List.map_id]

theorem lower_end {p : Str} (h : NoDigitAtEnd p) : NoDigitAtEnd (p.map Char.toLower) := by
  intro c hc
  rw [List.getLast?_map] at hc
  obtain ⟨d, hd, rfl⟩ := Option.map_eq_some_iff.mp hc
  rw [lower_digit]
  exact h d hd

theorem lower_start {p : Str} (h : NoDigitAtStart p) : NoDigitAtStart (p.map Char.toLower) := by
  intro c hc
  rw [List.head?_map] at hc
  obtain ⟨d, hd, rfl⟩ := Option.map_eq_some_iff.mp hc
  rw [lower_digit]
  exact h d hd

theorem key_number {p x r : Str} (hp : NoDigitAtEnd p) (hx : IsNumber x) (hr : NoDigitAtStart r) :
    natKey (p ++ x ++ r) = ((natKey p).1, (natKey p).2 ++ (numeral 10 x, (natKey r).1) :: (natKey r).2) := by
  unfold natKey
  rw [List.map_append, List.map_append, map_number hx, List.append_assoc]
  have h := split_number hx (lower_start hr)
  rw [split_append (lower_end hp) (by rw [h]), h, List.map_append, List.map_cons, decValue_numeral hx.2]

/-- **C131**, order of numbers: of two versions whose names are the same up to a number, ignoring case, the one with the smaller number comes first, whatever follows. -/
theorem C131_numbers (dirs : List Str) (p p' x y r s : Str) (ha : p ++ x ++ r ∈ dirs) (hb : p' ++ y ++ s ∈ dirs) (hs : SameLetters p p') (hp : NoDigitAtEnd p)
    (hp' : NoDigitAtEnd p') (hx : IsNumber x) (hy : IsNumber y) (hr : NoDigitAtStart r) (hs' : NoDigitAtStart s) (h : numeral 10 x < numeral 10 y) :
    [p ++ x ++ r, p' ++ y ++ s].Sublist (natSorted dirs) := by
  refine sorted_before ha hb ?_
  rw [key_number hp hx hr, key_number hp' hy hs', show natKey p = natKey p' by unfold natKey; rw [hs]]
  unfold keyLt
  dsimp only
  rw [parts_prefix, partsLt, decide_eq_true h]
  simp only [beq_self_eq_true, Bool.true_and, Bool.true_or, Bool.or_true]

/-- Version 1.9 comes before 1.10, although the names are in another order. -/
example : ["v1/1.9-1".toList, "v1/1.10".toList].Sublist (natSorted ["v1/1.10".toList, "v1/2".toList, "v1/1.9-1".toList]) :=
  C131_numbers _ "v1/1.".toList "v1/1.".toList ['9'] "10".toList "-1".toList [] (by decide) (by decide) rfl (by unfold NoDigitAtEnd; decide +kernel) (by unfold NoDigitAtEnd; decide +kernel)
    ⟨by decide, by decide⟩ ⟨by decide, by decide⟩ (by unfold NoDigitAtStart; decide +kernel) (by unfold NoDigitAtStart; decide +kernel) (by decide)

theorem natSorted_perm (dirs : List Str) : (natSorted dirs).Perm dirs := pySorted_perm natCmp dirs

theorem plain_lower {t : Str} (h : LowerText t) : t.map Char.toLower = t := by
  rw [List.map_congr_left (fun c hc => show c.toLower = id c from (h c hc).2), List.map_id]

theorem plain_split {t : Str} (h : LowerText t) : splitNums t = (t, []) := by
  induction t with
  | nil => rfl
  | cons c t ih => rw [splitNums, ih (fun c hc => h c (List.mem_cons_of_mem _ hc)), addChar_text (h c List.mem_cons_self).1]

theorem plain_key {t : Str} (h : LowerText t) : natKey t = (t, []) := by
  unfold natKey
  rw [plain_lower h, plain_split h]
  rfl

theorem plain_append {t w : Str} (h : LowerText t) : natKey (t ++ w) = (t ++ (natKey w).1, (natKey w).2) := by
  unfold natKey
  rw [List.map_append, plain_lower h]
  generalize w.map Char.toLower = w
  induction t with
  | nil => rfl
  | cons c t ih =>
    have := ih (fun c hc => h c (List.mem_cons_of_mem _ hc))
    rw [List.cons_append, splitNums, addChar_text (h c List.mem_cons_self).1]
    rw [Prod.mk.injEq] at this
    rw [this.1, this.2]
    rfl

theorem toDigits_number (n : Nat) : IsNumber (Nat.toDigits 10 n) := by
  refine ⟨fun h => ?_, fun c hc => ?_⟩
  · have := Nat.length_toDigits_pos (b := 10) (n := n)
    rw [h] at this
    cases this
  · obtain ⟨k, hk, rfl⟩ := mem_digits (by decide) hc
    have key : ∀ k < 10, (Nat.digitChar k).isDigit = true := by decide
    exact key k hk

theorem version_start {t : Str} (h : LowerText t) (ht : t ≠ []) (w : Str) : NoDigitAtStart (t ++ w) := by
  cases t with
  | nil => exact absurd rfl ht
  | cons c t =>
    intro d hd
    cases hd
    exact (h c List.mem_cons_self).1

/-- Keys of usual names of versions consist of the texts and numbers. -/
theorem separated_key {l : List (Nat × Str)} (hl : Separated l) : natKey (l.flatMap (fun x => Nat.toDigits 10 x.1 ++ x.2)) = ([], l) := by
  induction l with
  | nil => rfl
  | cons x l ih =>
    have hx : LowerText x.2 ∧ (l = [] ∨ x.2 ≠ []) ∧ Separated l := by
      cases l with
      | nil => exact ⟨hl, Or.inl rfl, trivial⟩
      | cons y l => exact ⟨hl.1, Or.inr hl.2.1, hl.2.2⟩
    have hr : NoDigitAtStart (x.2 ++ l.flatMap (fun x => Nat.toDigits 10 x.1 ++ x.2)) := by
      by_cases h2 : x.2 = []
      · rcases hx.2.1 with h | h
        · rw [h, h2]
          intro c hc
          cases hc
        · exact absurd h2 h
      · exact version_start hx.1 h2 _
    have := key_number (p := []) (fun c hc => (by cases hc)) (toDigits_number x.1) hr
    rw [List.flatMap_cons, List.append_assoc]
    rw [List.nil_append] at this
    rw [this, numeral_digits (by decide) (by decide), plain_append hx.1, ih hx.2.2, List.append_nil]
    rfl

theorem version_key {t : Str} {l : List (Nat × Str)} (ht : LowerText t) (hl : Separated l) : natKey (versionName t l) = (t, l) := by
  unfold versionName
  rw [plain_append ht, separated_key hl, List.append_nil]

theorem version_inj {a b : Str} (ha : VersionName a) (hb : VersionName b) (h : natKey a = natKey b) : a = b := by
  obtain ⟨t, l, h1, h2, rfl⟩ := ha
  obtain ⟨u, r, h3, h4, rfl⟩ := hb
  rw [version_key h1 h2, version_key h3 h4] at h
  cases h
  rfl

/-- **C131**, reproducible results: if the names consist of texts without capital letters and numbers without leading zeros, the same versions are compared in each run, whatever the
order of the set. -/
theorem C131_reproducible_partial (dirs dirs' : List Str) (h : dirs.Perm dirs') (hn : ∀ d ∈ dirs, VersionName d) :
    natSorted dirs = natSorted dirs' ∧ ∀ m s o, diffCommands m s o (natSorted dirs) = diffCommands m s o (natSorted dirs') := by
  have : natSorted dirs = natSorted dirs' := pySorted_keyed_perm keyLt_strict natCmp_key h (fun a ha b hb e => version_inj (hn a ha) (hn b hb) e)
  exact ⟨this, fun m s o => by rw [this]⟩

example : natSorted ["p/1.10".toList, "p/1.9".toList] = natSorted ["p/1.9".toList, "p/1.10".toList] := by
  refine (C131_reproducible_partial _ _ (List.Perm.swap _ _ _) (fun d hd => ?_)).1
  rcases List.mem_cons.mp hd with rfl | hd
  · exact ⟨"p/".toList, [(1, ['.']), (10, [])], by unfold LowerText; decide, ⟨by unfold LowerText; decide, by decide, by unfold Separated LowerText; decide⟩, by decide +kernel⟩
  · rw [List.mem_singleton.mp hd]
    exact ⟨"p/".toList, [(1, ['.']), (9, [])], by unfold LowerText; decide, ⟨by unfold LowerText; decide, by decide, by unfold Separated LowerText; decide⟩, by decide +kernel⟩

theorem tie_order {a b : Str} (h : natKey a = natKey b) : natSorted [a, b] = [a, b] := by
  show pyInsert natCmp a [b] = _
  unfold pyInsert
  rw [if_neg]
  intro hc
  have := (natCmp_key b a).mp hc
  rw [h] at this
  exact keyLt_strict.irrefl _ this

/-- C131 does not hold in general: the order of versions whose names differ only in case or in leading zeros of a number is the one of the set. So two runs for the same
directory compare different pairs. -/
theorem C131_ties_counterexample (a b : Str) (hab : a ≠ b)
    (h : SameLetters a b ∨ ∃ p x z r, NoDigitAtEnd p ∧ IsNumber x ∧ NoDigitAtStart r ∧ a = p ++ x ++ r ∧ b = p ++ (List.replicate z '0' ++ x) ++ r) :
    natSorted [a, b] = [a, b] ∧ natSorted [b, a] = [b, a] ∧ linearPairs none (natSorted [a, b]) ≠ linearPairs none (natSorted [b, a]) := by
  have e : natKey a = natKey b := by
    rcases h with h | ⟨p, x, z, r, hp, hx, hr, rfl, rfl⟩
    · unfold natKey
      rw [h]
    · have hz : IsNumber (List.replicate z '0' ++ x) := ⟨fun h => hx.1 (List.append_eq_nil_iff.mp h).2, fun c hc => by
        rcases List.mem_append.mp hc with hc | hc
        · rw [(List.mem_replicate.mp hc).2]
          rfl
        · exact hx.2 c hc⟩
      have hv : numeral 10 (List.replicate z '0' ++ x) = numeral 10 x := by
        clear hz hab
        induction z with
        | zero => rfl
        | succ z ih =>
          rw [List.replicate_succ, List.cons_append]
          exact ih
      rw [key_number hp hx hr, key_number hp hz hr, hv]
  refine ⟨tie_order e, tie_order e.symm, fun h => ?_⟩
  rw [tie_order e, tie_order e.symm] at h
  injection h with h _
  exact hab (congrArg Prod.fst h)

example : natSorted ["1.01".toList, "1.1".toList] = ["1.01".toList, "1.1".toList] ∧ natSorted ["RC1".toList, "rc1".toList] = ["RC1".toList, "rc1".toList] :=
  ⟨(C131_ties_counterexample "1.1".toList "1.01".toList (by decide) (Or.inr ⟨"1.".toList, ['1'], 1, [], by unfold NoDigitAtEnd; decide +kernel, ⟨by decide, by decide⟩,
      fun c hc => (by cases hc), rfl, rfl⟩)).2.1,
    (C131_ties_counterexample "RC1".toList "rc1".toList (by decide) (Or.inl (by unfold SameLetters; decide))).1⟩

theorem lt_append (t : Str) {u : Str} (h : u ≠ []) : t < t ++ u := by
  induction t with
  | nil =>
    cases u with
    | nil => exact absurd rfl h
    | cons c u => exact List.Lex.nil
  | cons c t ih => exact List.Lex.cons ih

/-- What is behind a name belongs to its last text. -/
theorem split_behind (v : Str) {s : Str} (hs : NoDigitAtStart s) (hne : s ≠ []) :
    (∃ t, splitNums v = (t, []) ∧ splitNums (v ++ s) = (t ++ (splitNums s).1, (splitNums s).2)) ∨
    ∃ t l d u, splitNums v = (t, l ++ [(d, u)]) ∧ splitNums (v ++ s) = (t, l ++ (d, u ++ (splitNums s).1) :: (splitNums s).2) := by
  have hs1 : (splitNums s).1 ≠ [] := fun h => hne (split_start hs h)
  induction v with
  | nil => exact Or.inl ⟨[], rfl, rfl⟩
  | cons c v ih =>
    rw [List.cons_append, splitNums, splitNums]
    cases hc : c.isDigit with
    | false =>
      rw [addChar_text hc, addChar_text hc]
      rcases ih with ⟨t, h1, h2⟩ | ⟨t, l, d, u, h1, h2⟩
      · rw [h1, h2]
        exact Or.inl ⟨c :: t, rfl, rfl⟩
      · rw [h1, h2]
        exact Or.inr ⟨c :: t, l, d, u, rfl, rfl⟩
    | true =>
      refine Or.inr ?_
      rcases ih with ⟨t, h1, h2⟩ | ⟨t, l, d, u, h1, h2⟩
      · rw [h1, h2]
        by_cases ht : t = []
        · rw [ht, addChar_last hc, addChar_first hc (by rw [List.nil_append]; exact hs1)]
          exact ⟨[], [], [c], [], rfl, rfl⟩
        · rw [addChar_first hc ht, addChar_first hc (by intro h; exact ht (List.append_eq_nil_iff.mp h).1)]
          exact ⟨[], [], [c], t, rfl, rfl⟩
      · rw [h1, h2]
        by_cases ht : t = []
        · rw [ht]
          cases l with
          | nil =>
            rw [List.nil_append, List.nil_append, addChar_next hc, addChar_next hc]
            exact ⟨[], [], c :: d, u, rfl, rfl⟩
          | cons x l =>
            rw [List.cons_append, List.cons_append, addChar_next hc, addChar_next hc]
            exact ⟨[], (c :: x.1, x.2) :: l, d, u, rfl, rfl⟩
        · rw [addChar_first hc ht, addChar_first hc ht]
          exact ⟨[], ([c], t) :: l, d, u, rfl, rfl⟩

/-- C131 does not hold in general: candidates of a release, such as `1.0~rc1` and `1.0-rc1`, come after the release, as does each other longer name. -/
theorem C131_candidates_counterexample (dirs : List Str) (v s : Str) (hv : v ∈ dirs) (hs : v ++ s ∈ dirs) (hne : s ≠ []) (hd : NoDigitAtStart s) :
    [v, v ++ s].Sublist (natSorted dirs) := by
  refine sorted_before hv hs ?_
  have hne' : s.map Char.toLower ≠ [] := fun h => hne (List.map_eq_nil_iff.mp h)
  have hs1 : (splitNums (s.map Char.toLower)).1 ≠ [] := fun h => hne' (split_start (lower_start hd) h)
  unfold natKey keyLt
  rw [List.map_append]
  dsimp only
  rcases split_behind (v.map Char.toLower) (lower_start hd) hne' with ⟨t, h1, h2⟩ | ⟨t, l, d, u, h1, h2⟩
  · rw [h1, h2]
    dsimp only
    rw [decide_eq_true (lt_append t hs1)]
    rfl
  · rw [h1, h2]
    dsimp only
    rw [List.map_append, List.map_append, parts_prefix, List.map_cons, List.map_cons, partsLt, decide_eq_true (lt_append u hs1)]
    simp only [beq_self_eq_true, Bool.true_and, Bool.true_or, Bool.or_true]

/-- The update from the release to its candidate is shown. -/
example : linearPairs none (natSorted ["1.0~rc1".toList, "1.0".toList]) = [("1.0".toList, "1.0".toList), ("1.0".toList, "1.0~rc1".toList)] := by
  decide +kernel

end Bean.Props

import Verif.Model.CompareExport
/-
C143: the results of the comparison are written to the files given.
-/
namespace Bean.Props

open Bean CompareExport

theorem put_all (c : Str → Str) (names : List Str) (fs : Files) (n : Str) :
    names.foldl (fun g m => put g m (c m)) fs n = if n ∈ names then some (c n) else fs n := by
  induction names generalizing fs with
  | nil => rfl
  | cons m names ih =>
    rw [List.foldl_cons, ih]
    by_cases h : n ∈ names
    · rw [if_pos h, if_pos (List.mem_cons_of_mem _ h)]
    · rw [if_neg h]
      unfold put
      by_cases e : n = m
      · subst e
        rw [if_pos rfl, if_pos List.mem_cons_self]
      · rw [if_neg e, if_neg (by rw [List.mem_cons]; exact not_or.mpr ⟨e, h⟩)]

theorem export_iff (recorded : Format → Str) (uses : List (List Str)) (fs : Files) (n : Str) :
    exportFiles recorded uses fs n = if n ∈ lastUse uses then some (recorded (formatOf n)) else if ∃ u ∈ uses, n ∈ u then some [] else fs n := by
  unfold exportFiles writeAll openAll
  rw [put_all (fun m => recorded (formatOf m)), put_all (fun _ => [])]
  simp only [List.mem_flatten]

/-- **C143**: if the option is used once, the files named have the recorded output in the format of their names, and all other files are as before. -/
theorem C143_files_partial (recorded : Format → Str) (names : List Str) (fs : Files) (n : Str) :
    (n ∈ names → exportFiles recorded [names] fs n = some (recorded (formatOf n))) ∧ (n ∉ names → exportFiles recorded [names] fs n = fs n) := by
  have e : lastUse [names] = names := rfl
  constructor
  · intro h
    rw [export_iff, e, if_pos h]
  · intro h
    rw [export_iff, e, if_neg h, if_neg (by rintro ⟨u, hu, hn⟩; rw [List.mem_singleton.mp hu] at hn; exact h hn)]

/-- C143 for files that are not named by any use of the option, and for a run without the option. -/
theorem C143_others (recorded : Format → Str) (uses : List (List Str)) (fs : Files) (n : Str) (h : ∀ u ∈ uses, n ∉ u) : exportFiles recorded uses fs n = fs n := by
  have hl : n ∉ lastUse uses := by
    unfold lastUse
    split
    · next l hl => exact h l (List.mem_of_getLast? hl)
    · exact List.not_mem_nil
  rw [export_iff, if_neg hl, if_neg (fun ⟨u, hu, hn⟩ => h u hu hn)]

/-- C143 is false if the option is used again: files of all uses but the last are emptied, and nothing is written to them. -/
theorem C143_again_counterexample (recorded : Format → Str) (uses : List (List Str)) (last : List Str) (fs : Files) (n : Str) (h : ∃ u ∈ uses, n ∈ u) (hn : n ∉ last) :
    exportFiles recorded (uses ++ [last]) fs n = some [] := by
  have e : lastUse (uses ++ [last]) = last := by
    unfold lastUse
    rw [List.getLast?_append]
    rfl
  obtain ⟨u, hu, hm⟩ := h
  rw [export_iff, e, if_neg hn, if_pos ⟨u, List.mem_append_left _ hu, hm⟩]

theorem suffix_lower {p e : Str} : lowerStr (p ++ e) = lowerStr p ++ lowerStr e := by
  exact List.map_append

/-- **C143**, formats: names that end in `.htm` or `.html`, in any case, are for HTML, those in `.svg` for SVG, and those in none of the endings `htm`, `html` and `svg` for text. -/
theorem C143_format (p e : Str) :
    (lowerStr e = ".htm".toList ∨ lowerStr e = ".html".toList → formatOf (p ++ e) = .html) ∧ (lowerStr e = ".svg".toList → formatOf (p ++ e) = .svg) ∧
    ((∀ q r, p ++ e = q ++ r → lowerStr r ≠ "htm".toList ∧ lowerStr r ≠ "html".toList ∧ lowerStr r ≠ "svg".toList) → formatOf (p ++ e) = .text) := by
  refine ⟨?_, ?_, ?_⟩
  · intro h
    unfold formatOf
    rw [suffix_lower, if_pos]
    rw [Bool.or_eq_true, List.isSuffixOf_iff_suffix, List.isSuffixOf_iff_suffix]
    rcases h with h | h
    · left
      rw [h]
      exact ⟨lowerStr p ++ ".".toList, by rw [List.append_assoc]; rfl⟩
    · right
      rw [h]
      exact ⟨lowerStr p ++ ".".toList, by rw [List.append_assoc]; rfl⟩
  · intro h
    have last : ∀ (x : Str) (a : Char), (x ++ [a]) <:+ lowerStr (p ++ e) → a = 'g' := by
      rintro x a ⟨t, ht⟩
      rw [suffix_lower, h, ← List.append_assoc] at ht
      have e2 : lowerStr p ++ ".svg".toList = (lowerStr p ++ ".sv".toList) ++ ['g'] := by rw [List.append_assoc]; rfl
      rw [e2] at ht
      have := List.append_inj_right' ht rfl
      exact List.singleton_inj.mp this
    unfold formatOf
    rw [if_neg, if_pos]
    · rw [List.isSuffixOf_iff_suffix, suffix_lower, h]
      exact ⟨lowerStr p ++ ".".toList, by rw [List.append_assoc]; rfl⟩
    · rw [Bool.or_eq_true, List.isSuffixOf_iff_suffix, List.isSuffixOf_iff_suffix]
      rintro (hc | hc)
      · exact absurd (last "ht".toList 'm' hc) (by decide)
      · exact absurd (last "htm".toList 'l' hc) (by decide)
  · intro h
    have no : ∀ x : Str, (∀ q r, p ++ e = q ++ r → lowerStr r ≠ x) → ¬ x <:+ lowerStr (p ++ e) := by
      rintro x hx ⟨t, ht⟩
      obtain ⟨q, r, e1, _, e3⟩ := List.map_eq_append_iff.mp ht.symm
      exact hx q r e1 e3
    unfold formatOf
    rw [if_neg, if_neg]
    · rw [List.isSuffixOf_iff_suffix]
      exact no _ (fun q r e => (h q r e).2.2)
    · rw [Bool.or_eq_true, List.isSuffixOf_iff_suffix, List.isSuffixOf_iff_suffix]
      rintro (hc | hc)
      · exact no _ (fun q r e => (h q r e).1) hc
      · exact no _ (fun q r e => (h q r e).2.1) hc

example : formatOf "out.HTML".toList = .html ∧ formatOf "a.svg".toList = .svg ∧ formatOf "out.txt".toList = .text := by decide +kernel

example : "out.html".toList ∉ ["out.txt".toList] ∧ exportFiles (fun _ => "x".toList) [["out.html".toList], ["out.txt".toList]] (fun _ => none) "out.html".toList = some [] ∧
    exportFiles (fun _ => "x".toList) [["out.html".toList, "out.txt".toList]] (fun _ => none) "out.html".toList = some "x".toList := by decide +kernel

end Bean.Props

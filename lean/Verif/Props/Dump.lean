import Verif.Spec.Tools
import Verif.Model.Run
/-
Printing of symbols (C77, C79).
-/
namespace Bean.Props
open Bean Bean.Spec

/-! ### C77 -/

theorem takeWhile_line {l : Str} (hl : '\n' ∉ l) (rest : Str) :
    (l ++ '\n' :: rest).takeWhile (· != '\n') = l ∧ (l ++ '\n' :: rest).drop l.length = '\n' :: rest := by
  refine ⟨?_, by simp⟩
  rw [List.takeWhile_append_of_pos]
  · simp
  · intro a ha
    have : a ≠ '\n' := fun e => hl (e ▸ ha)
    simpa using this

theorem debugRound_line (pre : Str) {l : Str} (hl : '\n' ∉ l) (hne : l ≠ []) (rest : Str) :
    debugRound pre (l ++ '\n' :: rest) = (pre ++ l ++ ['\n'], rest, true) := by
  unfold debugRound
  simp only [(takeWhile_line hl rest).1, (takeWhile_line hl rest).2, if_neg hne]
  simp

theorem debugRound_end (pre : Str) : debugRound pre [] = ([], [], false) := rfl

theorem debugRound_empty (pre rest : Str) : debugRound pre ('\n' :: rest) = ([], '\n' :: rest, true) := by
  unfold debugRound
  simp

/-- C77 (texts without empty lines): the loop ends after one round per line, and prints each line once with the prefix. -/
theorem C77_lines_partial (pre : Str) (lines : List Str) (hl : ∀ l ∈ lines, l ≠ [] ∧ '\n' ∉ l) (n : Nat)
    (hn : lines.length < n) : debugLoop pre n (joinLines lines) = some (lines.flatMap (fun l => pre ++ l ++ ['\n'])) := by
  induction lines generalizing n with
  | nil =>
    obtain ⟨n, rfl⟩ : ∃ m, n = m + 1 := ⟨n - 1, by simp at hn; omega⟩
    rfl
  | cons l lines ih =>
    obtain ⟨n, rfl⟩ : ∃ m, n = m + 1 := ⟨n - 1, by simp at hn; omega⟩
    have h0 := hl l List.mem_cons_self
    have e : joinLines (l :: lines) = l ++ '\n' :: joinLines lines := by simp [joinLines]
    rw [debugLoop, e, debugRound_line pre h0.2 h0.1]
    simp only [if_true]
    rw [ih (fun x hx => hl x (List.mem_cons_of_mem _ hx)) n (by simp at hn; omega)]
    simp

example : debugLoop "+ ".toList 3 "push\nret\n".toList = some "+ push\n+ ret\n".toList := by decide

/-- The loop with an empty line at its position does not end. -/
theorem hang_here (pre rest : Str) (n : Nat) : debugLoop pre n ('\n' :: rest) = none := by
  induction n with
  | zero => rfl
  | succ n ih =>
    rw [debugLoop, debugRound_empty]
    simp [ih]

theorem hang_after (pre : Str) (n : Nat) (p post : Str) (hp : p = [] ∨ p.getLast? = some '\n') :
    debugLoop pre n (p ++ '\n' :: post) = none := by
  induction n generalizing p with
  | zero => rfl
  | succ n ih =>
    match hp0 : p with
    | [] => exact hang_here pre post (n + 1)
    | c :: cs =>
      rcases hp with h | hp
      · cases h
      by_cases hc : c = '\n'
      · subst hc; exact hang_here pre _ (n + 1)
      -- the first line
      have hmem : '\n' ∈ c :: cs := List.mem_of_getLast? hp
      have hsplit : ∃ l q, c :: cs = l ++ '\n' :: q ∧ '\n' ∉ l ∧ l ≠ [] := by
        obtain ⟨l, q, e, hl⟩ := List.eq_append_cons_of_mem hmem
        refine ⟨l, q, e, hl, fun e0 => ?_⟩
        subst e0
        injection e with e
        exact hc e
      obtain ⟨l, q, e, hl, hne⟩ := hsplit
      have hq : q = [] ∨ q.getLast? = some '\n' := by
        by_cases h0 : q = []
        · exact .inl h0
        · right
          rw [e] at hp
          rw [List.getLast?_append, List.getLast?_cons] at hp
          obtain ⟨x, hx⟩ : ∃ x, q.getLast? = some x := by
            cases hq : q.getLast? with
            | none => exact absurd (List.getLast?_eq_none_iff.mp hq) h0
            | some x => exact ⟨x, rfl⟩
          rw [hx] at hp ⊢
          simpa using hp
      have e2 : c :: cs ++ '\n' :: post = l ++ '\n' :: (q ++ '\n' :: post) := by rw [e]; simp
      rw [e2, debugLoop, debugRound_line pre hl hne]
      simp only [if_true]
      rw [ih q hq]
      rfl

/-- C77 fails for texts with an empty line: the loop does not end. Such texts arise from symbol names with newlines. -/
theorem C77_hang (pre text : Str) (h : HasEmptyLine text) (n : Nat) : debugLoop pre n text = none := by
  obtain ⟨p, post, rfl, hp⟩ := h
  exact hang_after pre n p post hp

example : HasEmptyLine "call <f\n\ng>\n".toList := ⟨"call <f\n".toList, "g>\n".toList, by decide, .inr (by decide)⟩

/-- C77: if the last line has no newline, the output contains a null character. -/
theorem C77_unterminated (pre l : Str) (hl : l ≠ []) (hn : '\n' ∉ l) (n : Nat) :
    debugLoop pre (n + 1) l = some (pre ++ l ++ ['\x00']) := by
  have e : l.takeWhile (· != '\n') = l := by
    have h := List.takeWhile_append_of_pos (p := (· != '\n')) (l₁ := l) (l₂ := [])
      (fun a ha => by
        have : a ≠ '\n' := fun e => hn (e ▸ ha)
        simpa using this)
    simpa using h
  unfold debugLoop debugRound
  simp only [e, if_neg hl, List.drop_length]
  simp

example : "nop".toList ≠ [] ∧ '\n' ∉ "nop".toList := by decide

/-! ### C79 -/

theorem dumpRels_tree (level : Nat) (t : SymTree) (s : Symbol) :
    dumpRels level (some t) s = .ok (if 3 ≤ level then s.rels.map (fun r => Tree.floor t r.target) else []) := by
  unfold dumpRels
  split
  · generalize s.rels = l
    induction l with
    | nil => rfl
    | cons r l ih =>
      rw [List.mapM_cons, ih]
      rfl
  · rfl

theorem mapM_dump (level : Nat) (t l : SymTree) : ∃ r, l.mapM (dumpRels level (some t)) = .ok r := by
  induction l with
  | nil => exact ⟨[], rfl⟩
  | cons s l ih =>
    obtain ⟨r, hr⟩ := ih
    rw [List.mapM_cons, dumpRels_tree, hr]
    exact ⟨_, rfl⟩

/-- C79 (files with symbols): all symbols are printed once, in order, at all levels. -/
theorem C79_print_partial (level : Nat) (symbols : SymTree) (h : symbols ≠ []) : dumpFile level symbols = .ok symbols := by
  unfold dumpFile
  cases hl : symbols.getLast? with
  | none => exact absurd (List.getLast?_eq_none_iff.mp hl) h
  | some s =>
    obtain ⟨r, hr⟩ := mapM_dump level symbols symbols
    simp only [hr]
    rfl

example : ([{ address := 16 }] : SymTree) ≠ [] := by decide

/-- C79 fails for files without symbols, at all levels. -/
theorem C79_empty (level : Nat) : dumpFile level [] = .error .ub := rfl

/-- C79: printing of a single symbol at the highest level without a tree (the default of the parameter) fails if it has
relocations. -/
theorem C79_no_tree (s : Symbol) (h : s.rels ≠ []) : dumpRels 3 none s = .error .ub := by
  unfold dumpRels
  rw [if_pos (Nat.le_refl 3)]
  match hr : s.rels with
  | [] => exact absurd hr h
  | r :: rs => rw [List.mapM_cons]; rfl

example : ({ address := 16, rels := [{ offset := 16, type := 8 }] } : Symbol).rels ≠ [] := by decide

end Bean.Props

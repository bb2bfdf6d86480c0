import Verif.Model.CompareRun
import Verif.Model.Tools
/-
Calls of the program for differences by the comparison of versions (C109).
-/
namespace Bean.Props
open Bean

/-- The settings that are asked for by the options of the script. -/
def settingsFor (s : CompareOptions) (a b o : Str) : Cli where
  deps := s.dependencies
  resolve := s.relocations
  mode := min s.internal 3
  dbgsym := s.dbgsym
  oldBase := if s.dbgsym then some a else none
  newBase := if s.dbgsym then some b else none
  oldPath := some (a ++ ['/'] ++ o)
  newPath := some (b ++ ['/'] ++ o)

theorem parse_path {c : Cli} {x : Str} {rest : List Str} (hx : x.head? ≠ some '-') :
    parseArgs .diffstat c (x :: rest) =
      match c.oldPath, c.newPath with
      | none, _ => parseArgs .diffstat { c with oldPath := some x } rest
      | some _, none => parseArgs .diffstat { c with newPath := some x } rest
      | some _, some _ => parseArgs .diffstat c rest := by
  have hne : ∀ y : Str, x ≠ '-' :: y := by
    rintro y rfl
    exact hx rfl
  have hi : x.take 2 ≠ ['-', 'i'] := by
    intro e
    cases x with
    | nil => cases e
    | cons d x => injection e with e; subst e; exact hx rfl
  have hv : x.take 2 ≠ ['-', 'v'] := by
    intro e
    cases x with
    | nil => cases e
    | cons d x => injection e with e; subst e; exact hx rfl
  have hs : simpleOption .diffstat x = none := by
    unfold simpleOption
    simp [hne]
  have ho : otherArg .diffstat c x = match c.oldPath, c.newPath with
      | none, _ => .ok (.go { c with oldPath := some x })
      | some _, none => .ok (.go { c with newPath := some x })
      | some _, some _ => .ok (.go c) := by
    unfold otherArg
    rw [if_neg hi, if_neg (fun h => hv h.1), if_neg hx]
    cases c.oldPath <;> cases c.newPath <;> rfl
  cases rest with
  | nil =>
    conv => lhs; rw [parseArgs]
    rw [hs]
    dsimp only
    rw [if_neg (hne _), ho]
    cases c.oldPath <;> cases c.newPath <;> rfl
  | cons y rest =>
    conv => lhs; rw [parseArgs]
    rw [hs]
    dsimp only
    rw [if_neg (hne _), ho]
    cases c.oldPath <;> cases c.newPath <;> rfl

theorem joinPath_head {a o : Str} (h : a.head? ≠ some '-') : (joinPath a o).head? ≠ some '-' := by
  cases a with
  | nil => intro e; cases e
  | cons c a => exact h

/-- C109: For all options, the program is called with the settings asked for and the files of the two versions. What is missing: paths that start
with a dash. -/
theorem C109_settings_partial (s : CompareOptions) (a b o : Str) (ha : a.head? ≠ some '-') (hb : b.head? ≠ some '-') :
    parseArgs .diffstat {} (diffCommand s a b o) = .ok (.go (settingsFor s a b o)) ∧ startsWith (.go (settingsFor s a b o)) = true := by
  refine ⟨?_, rfl⟩
  have hj : ∀ x : Str, x ++ ['/'] ++ o = joinPath x o := by intro x; rw [List.append_assoc]; rfl
  have ha := joinPath_head (o := o) ha
  have hb := joinPath_head (o := o) hb
  have key : ∀ c : Cli, c.oldPath = none → c.newPath = none → parseArgs .diffstat c [joinPath a o, joinPath b o] =
      .ok (.go { c with oldPath := some (joinPath a o), newPath := some (joinPath b o) }) := by
    intro c h1 h2
    rw [parse_path ha, h1, h2]
    dsimp only
    rw [parse_path hb]
    dsimp only
    rfl
  have hl : internalLevel s = 0 ∨ internalLevel s = 1 ∨ internalLevel s = 2 ∨ internalLevel s = 3 := by
    unfold internalLevel
    split <;> omega
  have hm : min s.internal 3 = internalLevel s := by
    unfold internalLevel
    split <;> omega
  unfold diffCommand diffFlags settingsFor
  rw [hm, hj, hj]
  obtain ⟨dbg, dep, rel, int⟩ := s
  rcases hl with hl | hl | hl | hl <;> rw [hl] <;> cases dbg <;> cases dep <;> cases rel <;>
    exact key _ rfl rfl

/-- All options. -/
example : parseArgs .diffstat {} (diffCommand ⟨true, true, true, 5⟩ "pkg/1.0".toList "pkg/1.1".toList "lib/x.so".toList) =
    .ok (.go (settingsFor ⟨true, true, true, 5⟩ "pkg/1.0".toList "pkg/1.1".toList "lib/x.so".toList)) :=
  (C109_settings_partial _ _ _ _ (by decide) (by decide)).1

/-- C109: The pairs are those of consecutive versions (the first one with itself), or all pairs. -/
theorem C109_pairs (dirs : List Str) :
    (linearPairs none dirs).map Prod.snd = dirs ∧
    (∀ (i : Nat) p, (linearPairs none dirs)[i]? = some p → dirs[i - 1]? = some p.1) ∧
    (∀ a b, (a, b) ∈ matrixPairs dirs ↔ a ∈ dirs ∧ b ∈ dirs) := by
  have h1 : ∀ (l : Option Str) (dirs : List Str), (linearPairs l dirs).map Prod.snd = dirs := by
    intro l dirs
    induction dirs generalizing l with
    | nil => rfl
    | cons a rest ih => exact congrArg (a :: ·) (ih (some a))
  have h2 : ∀ (x : Str) (dirs : List Str) (i : Nat) p, (linearPairs (some x) dirs)[i]? = some p → (x :: dirs)[i]? = some p.1 := by
    intro x dirs
    induction dirs generalizing x with
    | nil => intro i p h; cases h
    | cons a rest ih =>
      intro i p h
      rw [linearPairs] at h
      cases i with
      | zero => cases h; rfl
      | succ i => exact ih a i p h
  refine ⟨h1 none dirs, ?_, ?_⟩
  · intro i p h
    cases dirs with
    | nil => cases h
    | cons a rest =>
      rw [linearPairs] at h
      cases i with
      | zero => cases h; rfl
      | succ i => exact h2 a rest i p h
  · intro a b
    unfold matrixPairs
    simp [List.mem_flatMap]

example : linearPairs none ["1".toList, "2".toList, "3".toList] = [("1".toList, "1".toList), ("1".toList, "2".toList), ("2".toList, "3".toList)] := rfl

/-- C109: The calls for an object: one per version with its predecessor, or one for each pair of versions. -/
theorem C109_calls_partial (s : CompareOptions) (o : Str) (dirs : List Str) (hd : ∀ a ∈ dirs, a.head? ≠ some '-') :
    ((diffCommands false s o dirs).length = dirs.length ∧
     ∀ (i : Nat) a b, dirs[i - 1]? = some a → dirs[i]? = some b → ∃ c, (diffCommands false s o dirs)[i]? = some c ∧
       parseArgs .diffstat {} c = .ok (.go (settingsFor s a b o))) ∧
    (diffCommands true s o dirs).length = dirs.length * dirs.length ∧
    (∀ a ∈ dirs, ∀ b ∈ dirs, ∃ c ∈ diffCommands true s o dirs, parseArgs .diffstat {} c = .ok (.go (settingsFor s a b o))) ∧
    (∀ c ∈ diffCommands true s o dirs, ∃ a ∈ dirs, ∃ b ∈ dirs, parseArgs .diffstat {} c = .ok (.go (settingsFor s a b o))) := by
  obtain ⟨h1, h2, h3⟩ := C109_pairs dirs
  have hl : (linearPairs none dirs).length = dirs.length := by
    have := congrArg List.length h1
    rwa [List.length_map] at this
  have hset : ∀ a ∈ dirs, ∀ b ∈ dirs, parseArgs .diffstat {} (diffCommand s a b o) = .ok (.go (settingsFor s a b o)) :=
    fun a ha b hb => (C109_settings_partial s a b o (hd a ha) (hd b hb)).1
  refine ⟨⟨?_, ?_⟩, ?_, ?_, ?_⟩
  · unfold diffCommands
    rw [List.length_map]
    exact hl
  · intro i a b ha hb
    have hi : i < (linearPairs none dirs).length := by rw [hl]; exact (List.getElem?_eq_some_iff.mp hb).1
    have hp : (linearPairs none dirs)[i]? = some (linearPairs none dirs)[i] := List.getElem?_eq_getElem hi
    have e1 := h2 i _ hp
    have e2 : dirs[i]? = some (linearPairs none dirs)[i].2 := by
      have := congrArg (fun l => l[i]?) h1
      rw [← this]
      show ((linearPairs none dirs).map Prod.snd)[i]? = _
      rw [List.getElem?_map, hp]
      rfl
    rw [ha] at e1
    rw [hb] at e2
    refine ⟨diffCommand s a b o, ?_, hset a (List.mem_of_getElem? ha) b (List.mem_of_getElem? hb)⟩
    unfold diffCommands
    rw [List.getElem?_map]
    show Option.map _ (linearPairs none dirs)[i]? = _
    rw [hp, Option.some.inj e1, Option.some.inj e2]
    rfl
  · unfold diffCommands matrixPairs
    simp [List.map_const']
  · intro a ha b hb
    exact ⟨_, List.mem_map.mpr ⟨(a, b), (h3 a b).mpr ⟨ha, hb⟩, rfl⟩, hset a ha b hb⟩
  · intro c hc
    obtain ⟨⟨a, b⟩, hp, rfl⟩ := List.mem_map.mp hc
    obtain ⟨ha, hb⟩ := (h3 a b).mp hp
    exact ⟨a, ha, b, hb, hset a ha b hb⟩

example : ∀ a ∈ ["pkg/1.0".toList, "pkg/1.1".toList], a.head? ≠ some '-' := by decide

/-- C109 is false for a base directory whose name starts with a dash (given with a leading dot and slash, which are dropped by `pathlib`): the program takes the files for
unknown options and fails. -/
theorem C109_dash_counterexample (s : CompareOptions) (a b o : Str) (hs : s.dbgsym = false) (hi : s.internal = 0) :
    parseArgs .diffstat {} (diffCommand s ('-' :: 'x' :: a) b o) = .ok .failure := by
  have hl : internalLevel s = 0 := by unfold internalLevel; rw [hi]; rfl
  unfold diffCommand diffFlags joinPath
  rw [hs, hl]
  cases s.dependencies <;> cases s.relocations <;> rfl

example : (⟨false, true, true, 0⟩ : CompareOptions).dbgsym = false := rfl

end Bean.Props

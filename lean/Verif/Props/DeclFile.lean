import Verif.Spec.DeclFile
import Verif.Spec.DwarfParse
import Verif.Props.DebugSym
/-
C120: names of source files.
-/
namespace Bean.Props
open Bean Bean.Spec DeclFile

theorem absolute_head {s : Str} : s.head? = some '/' ↔ AbsoluteName s := by
  cases s with
  | nil => exact ⟨fun h => (by cases h), fun ⟨_, h⟩ => (by cases h)⟩
  | cons c s =>
    constructor
    · intro h
      exact ⟨s, by rw [Option.some.inj h]⟩
    · intro ⟨rest, h⟩
      rw [(List.cons.inj h).1]
      rfl

theorem pathParts_nil : pathParts [] = [] := rfl

theorem posixJoin_parts {a b : Str} (h : ¬ AbsoluteName b) : pathParts (posixJoin a b) = pathParts a ++ pathParts b := by
  unfold posixJoin
  rw [if_neg (fun e => h (absolute_head.mp e))]
  by_cases ha : a = []
  · rw [if_pos (Or.inl ha), ha]
    rfl
  · by_cases hl : a.getLast? = some '/'
    · rw [if_pos (Or.inr hl)]
      obtain ⟨a', rfl⟩ := List.getLast?_eq_some_iff.mp hl
      rw [List.append_assoc]
      show pathParts (a' ++ '/' :: b) = pathParts (a' ++ '/' :: []) ++ _
      rw [pathParts_append, pathParts_append, pathParts_nil, List.append_nil]
    · rw [if_neg (fun e => e.elim ha hl), pathParts_append]

theorem posixJoin_from (a b : Str) (ps : List Str) : partsFrom (pathParts a) b ps ↔ ps = pathParts (posixJoin a b) := by
  unfold partsFrom
  by_cases h : AbsoluteName b
  · have e : posixJoin a b = b := if_pos (absolute_head.mpr h)
    rw [e]
    exact ⟨fun h' => h'.elim (·.2) (fun h' => absurd h h'.1), fun h' => Or.inl ⟨h, h'⟩⟩
  · rw [posixJoin_parts h]
    exact ⟨fun h' => h'.elim (fun h' => absurd h'.1 h) (·.2), fun h' => Or.inr ⟨h, h'⟩⟩

theorem numbered_iff {α : Type} (version : Nat) (l : List α) (i : Nat) (x : α) :
    Numbered version l i x ↔ ∃ k, startIndex version i = some k ∧ l[k]? = some x := by
  have hk : ∀ k : Nat, l[k]? = some x ↔ ∃ pre post, l = pre ++ x :: post ∧ k = pre.length := by
    intro k
    constructor
    · intro h
      obtain ⟨hl, e⟩ := List.getElem?_eq_some_iff.mp h
      refine ⟨l.take k, l.drop (k + 1), ?_, by rw [List.length_take]; omega⟩
      rw [← e, List.getElem_cons_drop, List.take_append_drop]
    · intro ⟨pre, post, e, hk⟩
      rw [e, hk, List.getElem?_append_right (Nat.le_refl _), Nat.sub_self]
      rfl
  unfold Numbered startIndex
  by_cases hv : version ≥ 5
  · rw [if_pos hv, if_neg (show ¬ version < 5 by omega)]
    constructor
    · intro h; exact ⟨i, rfl, (hk i).mpr h⟩
    · intro ⟨k, h1, h2⟩; rw [Option.some.inj h1]; exact (hk k).mp h2
  · rw [if_neg hv, if_pos (show version < 5 by omega)]
    by_cases hi : i = 0
    · rw [if_pos hi]
      exact ⟨fun ⟨_, _, _, h⟩ => by omega, fun ⟨_, h, _⟩ => by cases h⟩
    · rw [if_neg hi]
      constructor
      · intro ⟨pre, post, h1, h2⟩
        exact ⟨i - 1, rfl, (hk _).mpr ⟨pre, post, h1, by omega⟩⟩
      · intro ⟨k, h1, h2⟩
        obtain ⟨pre, post, h3, h4⟩ := (hk k).mp h2
        have := Option.some.inj h1
        exact ⟨pre, post, h3, by omega⟩

theorem declDir_parts {p : LineProgram} {comp : Str} (hc : comp ≠ []) (hd : DottedDirs p) (d : Nat) (ps : List Str) :
    DirParts p comp d ps ↔ ∃ dir, declDir p (some comp) d = some dir ∧ ps = pathParts dir := by
  unfold DirParts declDir
  cases hs : startIndex p.version d with
  | none =>
    have h0 : p.version < 5 ∧ d = 0 := by
      unfold startIndex at hs
      by_cases hv : p.version ≥ 5
      · rw [if_pos hv] at hs; cases hs
      · rw [if_neg hv] at hs
        by_cases h : d = 0
        · exact ⟨by omega, h⟩
        · rw [if_neg h] at hs; cases hs
    dsimp only
    rw [if_neg hc]
    constructor
    · rintro (⟨_, _, h⟩ | ⟨inc, h, _⟩)
      · exact ⟨comp, rfl, h⟩
      · obtain ⟨k, h1, _⟩ := (numbered_iff _ _ _ _).mp h
        rw [hs] at h1
        cases h1
    · intro ⟨dir, h1, h2⟩
      exact Or.inl ⟨h0.1, h0.2, by rw [h2, Option.some.inj h1]⟩
  | some i =>
    have h0 : ¬ (p.version < 5 ∧ d = 0) := by
      intro ⟨h1, h2⟩
      unfold startIndex at hs
      rw [if_neg (show ¬ p.version ≥ 5 by omega), if_pos h2] at hs
      cases hs
    dsimp only
    have hnum : ∀ inc, Numbered p.version p.includes d inc ↔ p.includes[i]? = some inc := by
      intro inc
      rw [numbered_iff, hs]
      exact ⟨fun ⟨k, h1, h2⟩ => by rw [Option.some.inj h1]; exact h2, fun h => ⟨i, rfl, h⟩⟩
    cases hi : p.includes[i]? with
    | none =>
      constructor
      · rintro (⟨h1, h2, _⟩ | ⟨inc, h, _⟩)
        · exact absurd ⟨h1, h2⟩ h0
        · have := (hnum inc).mp h
          rw [hi] at this
          cases this
      · intro ⟨dir, h, _⟩
        cases h
    | some inc =>
      have hinc : ∀ inc', Numbered p.version p.includes d inc' ↔ inc' = inc := by
        intro inc'
        rw [hnum, hi]
        exact ⟨fun h => (Option.some.inj h).symm, fun h => by rw [h]⟩
      have hdir : (if inc.head? = some '.' ∧ comp ≠ [] then some (posixJoin comp inc) else some inc) = some (posixJoin comp inc) := by
        rcases hd inc (List.mem_of_getElem? hi) with h | ⟨rest, h⟩
        · have e : posixJoin comp inc = inc := if_pos (absolute_head.mpr h)
          rw [e]
          split <;> rfl
        · rw [if_pos ⟨by rw [h]; rfl, hc⟩]
      dsimp only
      rw [hdir]
      constructor
      · rintro (⟨h1, h2, _⟩ | ⟨inc', h, h'⟩)
        · exact absurd ⟨h1, h2⟩ h0
        · rw [(hinc inc').mp h] at h'
          exact ⟨_, rfl, (posixJoin_from _ _ _).mp h'⟩
      · intro ⟨dir, h1, h2⟩
        exact Or.inr ⟨inc, (hinc inc).mpr rfl, (posixJoin_from _ _ _).mpr (by rw [h2, Option.some.inj h1])⟩

/-- **C120**, names: for all units with a directory of compilation whose other directories are absolute or start with a dot, the source file of a number is the one according
to the standard, for all versions; numbers without file have no name. -/
theorem C120_file_partial {p : LineProgram} {comp : Str} (hc : comp ≠ []) (hd : DottedDirs p) (i : Nat) (ps : List Str) :
    SourceParts p comp i ps ↔ ∃ file, declFile p (some comp) i = some file ∧ ps = pathParts file := by
  unfold SourceParts declFile
  cases hs : startIndex p.version i with
  | none =>
    constructor
    · intro ⟨f, _, h, _⟩
      obtain ⟨k, h1, _⟩ := (numbered_iff _ _ _ _).mp h
      rw [hs] at h1
      cases h1
    · intro ⟨_, h, _⟩
      cases h
  | some k =>
    have hnum : ∀ f, Numbered p.version p.files i f ↔ p.files[k]? = some f := by
      intro f
      rw [numbered_iff, hs]
      exact ⟨fun ⟨k', h1, h2⟩ => by rw [Option.some.inj h1]; exact h2, fun h => ⟨k, rfl, h⟩⟩
    dsimp only
    cases hf : p.files[k]? with
    | none =>
      constructor
      · intro ⟨f, _, h, _⟩
        have := (hnum f).mp h
        rw [hf] at this
        cases this
      · intro ⟨_, h, _⟩
        cases h
    | some f =>
      dsimp only
      constructor
      · intro ⟨f', dir, h1, h2, h3⟩
        have e := (hnum f').mp h1
        rw [hf] at e
        obtain rfl := Option.some.inj e
        obtain ⟨dt, h4, rfl⟩ := (declDir_parts hc hd _ _).mp h2
        exact ⟨_, by rw [h4]; rfl, (posixJoin_from _ _ _).mp h3⟩
      · intro ⟨file, h1, h2⟩
        obtain ⟨dt, h3, h4⟩ := Option.map_eq_some_iff.mp h1
        exact ⟨f, pathParts dt, (hnum f).mpr hf, (declDir_parts hc hd _ _).mpr ⟨dt, h3, rfl⟩, (posixJoin_from _ _ _).mpr (by rw [h2, h4])⟩

/-- A unit for the examples. -/
def exProgram (version : Nat) : LineProgram := ⟨version, ["/usr/include".toList, "../lib".toList], [("a.c".toList, 0), ("b.h".toList, 1), ("c.h".toList, 2)]⟩

theorem exProgram_dotted (version : Nat) : DottedDirs (exProgram version) := by
  intro d hd
  rcases List.mem_cons.mp hd with rfl | hd
  · exact Or.inl ⟨_, rfl⟩
  · rw [List.mem_singleton.mp hd]
    exact Or.inr ⟨_, rfl⟩

example : SourceParts (exProgram 4) "/home/x".toList 3 ["home".toList, "x".toList, "..".toList, "lib".toList, "c.h".toList] :=
  (C120_file_partial (by decide) (exProgram_dotted 4) _ _).mpr ⟨"/home/x/../lib/c.h".toList, by decide +kernel, by decide +kernel⟩

example : declFile (exProgram 4) (some "/home/x".toList) 1 = some "/home/x/a.c".toList ∧ declFile (exProgram 5) (some "/home/x".toList) 0 = some "/usr/include/a.c".toList := by
  decide +kernel

/-- C120: a relative directory without dot is not seen from the directory of the compilation. -/
theorem C120_relative_counterexample : ∃ p comp i file ps, AbsoluteName comp ∧ declFile p (some comp) i = some file ∧ SourceParts p comp i ps ∧ pathParts file ≠ ps := by
  refine ⟨⟨4, ["src".toList], [("a.h".toList, 1)]⟩, "/home/x".toList, 1, "src/a.h".toList, ["home".toList, "x".toList, "src".toList, "a.h".toList], ⟨_, rfl⟩, by decide +kernel, ?_,
    by decide +kernel⟩
  refine ⟨("a.h".toList, 1), ["home".toList, "x".toList, "src".toList], ⟨[], [], rfl, by decide⟩, Or.inr ⟨"src".toList, ⟨[], [], rfl, by decide⟩, Or.inr ⟨?_, by decide +kernel⟩⟩,
    Or.inr ⟨?_, by decide +kernel⟩⟩
  · exact fun ⟨_, h⟩ => absurd (List.cons.inj h).1 (by decide)
  · exact fun ⟨_, h⟩ => absurd (List.cons.inj h).1 (by decide)

theorem declDir_without {p : LineProgram} (hd : ∀ d ∈ p.includes, AbsoluteName d) {d : Nat} (h0 : p.version < 5 → d ≠ 0) (comp : Str) :
    declDir p none d = declDir p (some comp) d := by
  unfold declDir
  cases hs : startIndex p.version d with
  | none =>
    unfold startIndex at hs
    by_cases hv : p.version ≥ 5
    · rw [if_pos hv] at hs; cases hs
    · rw [if_neg hv, if_neg (h0 (by omega))] at hs; cases hs
  | some i =>
    dsimp only
    cases hi : p.includes[i]? with
    | none => rfl
    | some dir =>
      dsimp only
      rw [if_neg]
      intro ⟨h, _⟩
      have := absolute_head.mpr (hd dir (List.mem_of_getElem? hi))
      rw [h] at this
      exact absurd this (by decide)

/-- **C120**, names without directory of compilation: if all directories are absolute and no file refers to the missing one, the names are still those of the standard. -/
theorem C120_without_partial {p : LineProgram} {comp : Str} (hc : comp ≠ []) (hd : ∀ d ∈ p.includes, AbsoluteName d) (h0 : p.version < 5 → ∀ f ∈ p.files, f.2 ≠ 0) (i : Nat)
    (ps : List Str) : SourceParts p comp i ps ↔ ∃ file, declFile p none i = some file ∧ ps = pathParts file := by
  rw [C120_file_partial hc (fun d h => Or.inl (hd d h))]
  have e : declFile p none i = declFile p (some comp) i := by
    unfold declFile
    cases startIndex p.version i with
    | none => rfl
    | some k =>
      dsimp only
      cases hf : p.files[k]? with
      | none => rfl
      | some f =>
        dsimp only
        rw [declDir_without hd (fun hv => h0 hv f (List.mem_of_getElem? hf)) comp]
  rw [e]

example : SourceParts ⟨4, ["/usr/include".toList], [("a.h".toList, 1)]⟩ "/x".toList 1 ["usr".toList, "include".toList, "a.h".toList] :=
  (C120_without_partial (by decide) (fun d hd => by rw [List.mem_singleton.mp hd]; exact ⟨_, rfl⟩) (fun _ f hf => by rw [List.mem_singleton.mp hf]; decide) _ _).mpr
    ⟨"/usr/include/a.h".toList, by decide +kernel, by decide +kernel⟩

/-- C120: without directory of the compilation there is no name for files in it before version 5, not even for absolute names. -/
theorem C120_directory_counterexample (version : Nat) (h : version < 5) (includes : List Str) (name : Str) :
    declFile ⟨version, includes, [(name, 0)]⟩ none 1 = none := by
  have h1 : startIndex version 1 = some 0 := by
    unfold startIndex
    rw [if_neg (show ¬ version ≥ 5 by omega)]
    rfl
  have h0 : startIndex version 0 = none := by
    unfold startIndex
    rw [if_neg (show ¬ version ≥ 5 by omega)]
    rfl
  have hd : declDir ⟨version, includes, [(name, 0)]⟩ none 0 = none := by
    unfold declDir
    rw [h0]
  unfold declFile
  rw [h1]
  show (declDir ⟨version, includes, [(name, 0)]⟩ none 0).map _ = none
  rw [hd]
  rfl

example : declFile ⟨4, [], [("/tmp/x.c".toList, 0)]⟩ none 1 = none := C120_directory_counterexample 4 (by decide) _ _

/-! ### System headers -/

theorem prefix_cut {a p x r : Str} (ha : '/' ∉ a) (hp : '/' ∉ p) (hr : r = [] ∨ ∃ t, r = '/' :: t) :
    a ++ '/' :: x <+: p ++ r ↔ a = p ∧ '/' :: x <+: r := by
  constructor
  · induction a generalizing p with
    | nil =>
      intro h
      cases p with
      | nil => exact ⟨rfl, h⟩
      | cons c p => exact absurd ((List.cons_prefix_cons.mp h).1 ▸ List.mem_cons_self : '/' ∈ c :: p) hp
    | cons d a ih =>
      intro h
      cases p with
      | nil =>
        rcases hr with rfl | ⟨t, rfl⟩
        · exact absurd (List.prefix_nil.mp h) (List.cons_ne_nil _ _)
        · exact absurd ((List.cons_prefix_cons.mp h).1 ▸ List.mem_cons_self : '/' ∈ d :: a) ha
      | cons c p =>
        obtain ⟨h1, h2⟩ := List.cons_prefix_cons.mp h
        obtain ⟨h3, h4⟩ := ih (fun hm => ha (List.mem_cons_of_mem _ hm)) (fun hm => hp (List.mem_cons_of_mem _ hm)) h2
        exact ⟨by rw [h1, h3], h4⟩
  · intro ⟨h1, h2⟩
    rw [h1]
    exact (List.prefix_append_right_inj p).mpr h2

theorem slashed_start (ps : List Str) : slashed ps = [] ∨ ∃ t, slashed ps = '/' :: t := by
  cases ps with
  | nil => exact Or.inl rfl
  | cons q ps => exact Or.inr ⟨_, rfl⟩

theorem slashed_prefix {ds ps : List Str} (hd : ∀ q ∈ ds, '/' ∉ q) (hp : ∀ q ∈ ps, '/' ∉ q) :
    slashed ds ++ ['/'] <+: slashed ps ↔ ∃ x rest, ps = ds ++ x :: rest := by
  induction ds generalizing ps with
  | nil =>
    cases ps with
    | nil => exact ⟨fun h => absurd (List.prefix_nil.mp h) (List.cons_ne_nil _ _), fun ⟨_, _, h⟩ => by cases h⟩
    | cons q ps => exact ⟨fun _ => ⟨q, ps, rfl⟩, fun _ => ⟨q ++ slashed ps, rfl⟩⟩
  | cons d ds ih =>
    cases ps with
    | nil => exact ⟨fun h => absurd (List.prefix_nil.mp h) (List.cons_ne_nil _ _), fun ⟨_, _, h⟩ => by cases h⟩
    | cons q ps =>
      have hd' := ih (fun x hx => hd x (List.mem_cons_of_mem _ hx)) (fun x hx => hp x (List.mem_cons_of_mem _ hx))
      obtain ⟨x, hx⟩ : ∃ x, slashed ds ++ ['/'] = '/' :: x := by
        rcases slashed_start ds with h | ⟨t, h⟩
        · exact ⟨[], by rw [h]; rfl⟩
        · exact ⟨t ++ ['/'], by rw [h]; rfl⟩
      have e : slashed (d :: ds) ++ ['/'] = '/' :: (d ++ '/' :: x) := by
        show ('/' :: d ++ slashed ds) ++ ['/'] = _
        rw [List.append_assoc, hx]
        rfl
      rw [e]
      show '/' :: (d ++ '/' :: x) <+: '/' :: (q ++ slashed ps) ↔ _
      rw [List.cons_prefix_cons, prefix_cut (hd d List.mem_cons_self) (hp q List.mem_cons_self) (slashed_start ps), ← hx, hd']
      constructor
      · rintro ⟨_, rfl, y, rest, rfl⟩
        exact ⟨y, rest, rfl⟩
      · rintro ⟨y, rest, h⟩
        obtain ⟨h1, h2⟩ := List.cons.inj h
        exact ⟨rfl, h1.symm, y, rest, h2⟩

theorem prefix_colon {p f r : Str} (hp : ':' ∉ p) : p <+: f ++ ':' :: r ↔ p <+: f := by
  constructor
  · intro h
    induction p generalizing f with
    | nil => exact List.nil_prefix
    | cons c p ih =>
      cases f with
      | nil => exact absurd ((List.cons_prefix_cons.mp h).1 ▸ List.mem_cons_self : ':' ∈ c :: p) hp
      | cons d f =>
        obtain ⟨h1, h2⟩ := List.cons_prefix_cons.mp h
        exact List.cons_prefix_cons.mpr ⟨h1, ih (fun hm => hp (List.mem_cons_of_mem _ hm)) h2⟩
  · exact fun h => h.trans (List.prefix_append _ _)

/-- **C120**, system headers: a declaration in a file with an absolute path written plainly counts as one of a system header exactly if the file is within one of the three
directories, with line and column or without them. -/
theorem C120_system_partial {ps : List Str} (hn : ps ≠ []) (hp : ∀ q ∈ ps, '/' ∉ q) (line : Str) (column : Option Str) :
    (inSystem (declText none (some (slashed ps)) (some line) column) = true ↔ SystemHeader ps) ∧
    (inSystem (declText none (some (slashed ps)) none none) = true ↔ SystemHeader ps) := by
  have hdirs : systemDirs = systemParts.map (fun d => slashed d ++ ['/']) := by decide +kernel
  have hslash : ∀ d ∈ systemParts, ∀ q ∈ d, '/' ∉ q := by decide +kernel
  have hcolon : ∀ d ∈ systemParts, ':' ∉ slashed d ++ ['/'] := by decide +kernel
  have hmain : ∀ t : Str, (∀ d ∈ systemParts, slashed d ++ ['/'] <+: t ↔ slashed d ++ ['/'] <+: slashed ps) → (inSystem (some t) = true ↔ SystemHeader ps) := by
    intro t ht
    unfold inSystem SystemHeader
    dsimp only
    rw [hdirs, List.any_map, List.any_eq_true]
    constructor
    · intro ⟨d, hd, h⟩
      exact ⟨d, hd, (slashed_prefix (hslash d hd) hp).mp ((ht d hd).mp (List.isPrefixOf_iff_prefix.mp h))⟩
    · intro ⟨d, hd, h⟩
      exact ⟨d, hd, List.isPrefixOf_iff_prefix.mpr ((ht d hd).mpr ((slashed_prefix (hslash d hd) hp).mpr h))⟩
  constructor
  · obtain ⟨t, ht⟩ : ∃ t, slashed ps = '/' :: t := by
      rcases slashed_start ps with h | h
      · cases ps with
        | nil => exact absurd rfl hn
        | cons q ps => cases h
      · exact h
    have e : ∃ r, declText none (some (slashed ps)) (some line) column = some (slashed ps ++ ':' :: r) := by
      rw [ht]
      cases column with
      | none => exact ⟨line, rfl⟩
      | some c => exact ⟨line ++ '#' :: c, by simp [declText, declStart]⟩
    obtain ⟨r, e⟩ := e
    rw [e]
    exact hmain _ (fun d hd => prefix_colon (hcolon d hd))
  · exact hmain _ (fun _ _ => Iff.rfl)

example : inSystem (declText none (some "/usr/include/sys/x.h".toList) (some "3".toList) none) = true :=
  (C120_system_partial (ps := ["usr".toList, "include".toList, "sys".toList, "x.h".toList]) (by decide) (by decide +kernel) _ none).1.mpr
    ⟨["usr".toList, "include".toList], by decide +kernel, "sys".toList, ["x.h".toList], by decide +kernel⟩

/-- C120: with `..` in the path, which the relative directories of compilers lead to, a system header is not recognised, and another file may be taken for one. -/
theorem C120_dots_counterexample :
    (∃ p comp i file, DottedDirs p ∧ declFile p (some comp) i = some file ∧ SystemHeader (resolveDots (pathParts file)) ∧ inSystem (some file) = false) ∧
    ∃ file, ¬ SystemHeader (resolveDots (pathParts file)) ∧ inSystem (some file) = true := by
  refine ⟨⟨⟨4, ["../../usr/include".toList], [("x.h".toList, 1)]⟩, "/home/x".toList, 1, "/home/x/../../usr/include/x.h".toList, ?_, by decide +kernel, ?_, by decide +kernel⟩,
    "/usr/include/../../home/x.h".toList, ?_, by decide +kernel⟩
  · intro d hd
    rw [List.mem_singleton.mp hd]
    exact Or.inr ⟨_, rfl⟩
  · exact ⟨["usr".toList, "include".toList], by decide +kernel, "x.h".toList, [], by decide +kernel⟩
  · rintro ⟨d, hd, x, rest, h⟩
    have e : resolveDots (pathParts "/usr/include/../../home/x.h".toList) = ["home".toList, "x.h".toList] := by decide +kernel
    rw [e] at h
    have hh : ∀ d ∈ systemParts, d.head? = some "usr".toList := by decide +kernel
    have := hh d hd
    cases d with
    | nil => cases this
    | cons q d =>
      have h1 := (List.cons.inj h).1
      have h2 : q = "usr".toList := Option.some.inj this
      rw [h2] at h1
      exact absurd h1 (by decide)

end Bean.Props

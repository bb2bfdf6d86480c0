import Verif.Spec.FileTree
import Verif.Lemmas.PySortKey
/-
Property theorems C124: the tree of files printed by the comparison of versions.
-/
namespace Bean.Props
open Bean Spec

theorem keys_strict : StrictTotal KeyLt where
  irrefl a h := by
    rcases h with ⟨h1, h2⟩ | ⟨_, h⟩
    · rw [h1] at h2; cases h2
    · exact str_irrefl _ h
  trans a b c h h' := by
    rcases h with ⟨h1, h2⟩ | ⟨h1, h2⟩ <;> rcases h' with ⟨h3, h4⟩ | ⟨h3, h4⟩
    · rw [h2] at h3; cases h3
    · exact .inl ⟨h1, by rw [← h3]; exact h2⟩
    · exact .inl ⟨by rw [h1]; exact h3, h4⟩
    · exact .inr ⟨h1.trans h3, str_trans h2 h4⟩
  total a b h h' := by
    obtain ⟨a1, a2⟩ := a
    obtain ⟨b1, b2⟩ := b
    have e : a1 = b1 := by
      cases a1 <;> cases b1
      · rfl
      · exact absurd (.inl ⟨rfl, rfl⟩) h
      · exact absurd (.inl ⟨rfl, rfl⟩) h'
      · rfl
    subst e
    have e2 : a2 = b2 := str_eq (fun c => h (.inr ⟨rfl, c⟩)) (fun c => h' (.inr ⟨rfl, c⟩))
    rw [e2]

theorem keys_by : ComparesBy KeyLt (fun e : (Bool × Str) × List TreeNode => e.1) (fun a b => compareKeys a.1 b.1) := by
  intro a b
  obtain ⟨⟨a1, a2⟩, _⟩ := a
  obtain ⟨⟨b1, b2⟩, _⟩ := b
  unfold compareKeys KeyLt
  cases a1 <;> cases b1 <;> simp [strcmp_neg]

theorem pathsIn_append (look : Look) (l m : List TreeNode) : pathsIn look (l ++ m) = pathsIn look l ++ pathsIn look m := by
  induction l with
  | nil => rfl
  | cons x l ih => rw [List.cons_append, pathsIn, pathsIn, ih, List.append_assoc]

theorem pathsIn_flatMap {α : Type} (look : Look) (f : α → List TreeNode) (l : List α) :
    pathsIn look (l.flatMap f) = l.flatMap (fun x => pathsIn look (f x)) := by
  induction l with
  | nil => rfl
  | cons x l ih => rw [List.flatMap_cons, pathsIn_append, ih, List.flatMap_cons]

/-- Which files have this look. -/
def Looks (objs : List (List Str)) (look : Look) (pre p : List Str) : Bool :=
  match look with
  | .bold => objs.contains (pre ++ p)
  | .plain => !objs.contains (pre ++ p) && !(p.getLast?.any leftOut)
  | .dim => false

theorem looks_below (objs : List (List Str)) (look : Look) (pre : List Str) (name : Str) (p : List Str) (hp : p ≠ []) :
    Looks objs look pre (name :: p) = Looks objs look (pre ++ [name]) p := by
  unfold Looks
  cases p with
  | nil => exact absurd rfl hp
  | cons x p => cases look <;> simp

mutual
theorem filesOf_nonempty : (n : FsNode) → ∀ p ∈ filesOf n, p ≠ []
  | .file name => by
    intro p hp
    unfold filesOf at hp
    split at hp
    · cases hp
    · rw [List.mem_singleton.mp hp]; simp
  | .other name => by
    intro p hp
    unfold filesOf at hp
    split at hp
    · cases hp
    · rw [List.mem_singleton.mp hp]; simp
  | .dir name link entries => by
    intro p hp
    unfold filesOf at hp
    split at hp
    · cases hp
    · obtain ⟨q, _, rfl⟩ := List.mem_map.mp hp
      simp
end

theorem filesIn_nonempty (l : List FsNode) : ∀ p ∈ filesIn l, p ≠ [] := by
  induction l with
  | nil => intro p hp; cases hp
  | cons n l ih =>
    intro p hp
    rw [filesIn] at hp
    rcases List.mem_append.mp hp with hp | hp
    · exact filesOf_nonempty n p hp
    · exact ih p hp

theorem shownFile_paths (objs : List (List Str)) (look : Look) (hl : look ≠ .dim) (pre : List Str) (name : Str) :
    pathsIn look (shownFile objs (pre ++ [name]) name) = [[name]].filter (Looks objs look pre) := by
  rw [List.filter_cons, List.filter_nil]
  unfold shownFile Looks
  cases h : objs.contains (pre ++ [name]) <;> cases look <;> cases h2 : leftOut name <;>
    simp only [h, h2, pathsIn, pathsOf, List.getLast?_singleton, Option.any_some] <;> first | rfl | exact absurd rfl hl

mutual
theorem shown_paths (lower : Str → Str) (objs : List (List Str)) (look : Look) (hl : look ≠ .dim) (pre : List Str) : (n : FsNode) →
    (pathsIn look (shownNode lower objs pre n)).Perm ((filesOf n).filter (Looks objs look pre))
  | .file name => by
    unfold shownNode filesOf
    split
    · exact .refl _
    · rw [shownFile_paths objs look hl]
  | .other name => by
    unfold shownNode filesOf
    split
    · exact .refl _
    · rw [shownFile_paths objs look hl]
  | .dir name link entries => by
    unfold shownNode filesOf
    cases hh : hiddenName name with
    | true => exact .refl _
    | false =>
      cases link with
      | true => exact .refl _
      | false =>
        have ih := keyed_paths lower objs look hl (pre ++ [name]) entries
        have hs := (pySorted_perm (fun a b : (Bool × Str) × List TreeNode => compareKeys a.1 b.1)
          (keyedNodes lower objs (pre ++ [name]) entries)).flatMap_right (fun x => pathsIn look x.2)
        have hf : ((filesIn entries).map (name :: ·)).filter (Looks objs look pre)
            = ((filesIn entries).filter (Looks objs look (pre ++ [name]))).map (name :: ·) := by
          rw [List.filter_map]
          congr 1
          refine List.filter_congr fun p hp => ?_
          exact looks_below objs look pre name p (filesIn_nonempty entries p hp)
        simp only [Bool.false_eq_true, if_false, Bool.or_false, pathsIn, pathsOf, List.append_nil]
        rw [if_neg (fun h => hl h.symm), List.nil_append, hf, pathsIn_flatMap]
        exact (hs.trans ih).map _

theorem keyed_paths (lower : Str → Str) (objs : List (List Str)) (look : Look) (hl : look ≠ .dim) (pre : List Str) : (l : List FsNode) →
    ((keyedNodes lower objs pre l).flatMap (fun x => pathsIn look x.2)).Perm ((filesIn l).filter (Looks objs look pre))
  | [] => .refl _
  | n :: rest => by
    rw [keyedNodes, filesIn, List.flatMap_cons, List.filter_append]
    exact (shown_paths lower objs look hl pre n).append (keyed_paths lower objs look hl pre rest)
end

theorem walk_paths (lower : Str → Str) (objs : List (List Str)) (look : Look) (hl : look ≠ .dim) (entries : List FsNode) :
    (pathsIn look (walkDirectory lower objs [] entries)).Perm ((filesIn entries).filter (Looks objs look [])) := by
  unfold walkDirectory
  rw [pathsIn_flatMap]
  exact ((pySorted_perm _ _).flatMap_right _).trans (keyed_paths lower objs look hl [] entries)

/-- C124: the highlighted files of the tree are exactly the compared objects among the files that are neither hidden nor behind
a link, each of them once. -/
theorem C124_objects (lower : Str → Str) (objs : List (List Str)) (entries : List FsNode) :
    (pathsIn .bold (walkDirectory lower objs [] entries)).Perm ((filesIn entries).filter (fun p => decide (p ∈ objs))) := by
  refine (walk_paths lower objs .bold (by decide) entries).trans (.of_eq (List.filter_congr fun p _ => ?_))
  unfold Looks
  rw [List.nil_append, List.contains_eq_mem]

theorem leftOut_iff (name : Str) : leftOut name = true ↔ DiffFile name := by
  unfold leftOut DiffFile
  rw [Bool.or_eq_true, List.isSuffixOf_iff_suffix, List.isSuffixOf_iff_suffix]
  exact or_congr ⟨fun ⟨b, h⟩ => ⟨b, h.symm⟩, fun ⟨b, h⟩ => ⟨b, h.symm⟩⟩ ⟨fun ⟨b, h⟩ => ⟨b, h.symm⟩, fun ⟨b, h⟩ => ⟨b, h.symm⟩⟩

open Classical in
/-- C124: the other files of the tree are exactly those that are not compared, neither hidden nor behind a link, and not called
`*.diff` or `*.dsc`. -/
theorem C124_others (lower : Str → Str) (objs : List (List Str)) (entries : List FsNode) :
    (pathsIn .plain (walkDirectory lower objs [] entries)).Perm
      ((filesIn entries).filter (fun p => decide (p ∉ objs ∧ ∀ name, p.getLast? = some name → ¬ DiffFile name))) := by
  refine (walk_paths lower objs .plain (by decide) entries).trans (.of_eq (List.filter_congr fun p _ => ?_))
  unfold Looks
  rw [List.nil_append, List.contains_eq_mem]
  simp only [← leftOut_iff]
  by_cases h : p ∈ objs
  · simp [h]
  · cases hl : p.getLast? with
    | none => simp [h]
    | some name => cases hn : leftOut name <;> simp [h, hn]

theorem filesOf_in {n : FsNode} {l : List FsNode} (h : n ∈ l) {p : List Str} (hp : p ∈ filesOf n) : p ∈ filesIn l := by
  induction l with
  | nil => cases h
  | cons m l ih =>
    rw [filesIn]
    rcases List.mem_cons.mp h with rfl | h
    · exact List.mem_append_left _ hp
    · exact List.mem_append_right _ (ih h)

theorem visible_files {l : List FsNode} {p : List Str} (h : HasFile l p) (hv : ∀ c ∈ p, hiddenName c = false) : p ∈ filesIn l := by
  induction h with
  | top hm =>
    refine filesOf_in hm ?_
    rw [filesOf, hv _ List.mem_cons_self]
    exact List.mem_cons_self
  | inside hm _ ih =>
    refine filesOf_in hm ?_
    rw [filesOf, hv _ List.mem_cons_self]
    exact List.mem_map_of_mem (ih fun c hc => hv c (List.mem_cons_of_mem _ hc))

/-- C124: each compared object of the version is in the tree, unless it or a directory on the way to it is hidden. Missing for the
full property: hidden ones (see `C124_hidden_counterexample`). -/
theorem C124_compared_partial (lower : Str → Str) (objs : List (List Str)) (entries : List FsNode) (p : List Str) (hp : p ∈ objs)
    (h : HasFile entries p) (hv : ∀ c ∈ p, hiddenName c = false) : p ∈ pathsIn .bold (walkDirectory lower objs [] entries) := by
  refine (C124_objects lower objs entries).mem_iff.mpr (List.mem_filter.mpr ⟨visible_files h hv, ?_⟩)
  exact decide_eq_true hp

/-- A version with objects in a directory. -/
def someVersion : List FsNode :=
  [.file "README".toList, .dir "lib".toList false [.file "b.so".toList, .file "a.so".toList, .file "a.diff".toList], .dir "old".toList true [.file "a.so".toList]]

theorem someVersion_file : HasFile someVersion ["lib".toList, "a.so".toList] := by
  refine .inside (entries := [.file "b.so".toList, .file "a.so".toList, .file "a.diff".toList]) ?_ (.top ?_)
  · exact List.mem_cons_of_mem _ List.mem_cons_self
  · exact List.mem_cons_of_mem _ List.mem_cons_self

example : ["lib".toList, "a.so".toList] ∈ pathsIn .bold (walkDirectory id [["lib".toList, "a.so".toList], ["old".toList, "a.so".toList]] [] someVersion) :=
  C124_compared_partial id _ _ _ List.mem_cons_self someVersion_file (by decide)

/-- Directories come first. -/
example : pathsIn .plain (walkDirectory id [["lib".toList, "a.so".toList]] [] someVersion) =
    [["lib".toList, "b.so".toList], ["README".toList]] := by decide +kernel

/-- C124: objects in hidden directories are compared (they are found by the pattern for shared objects) but not in the tree. -/
theorem C124_hidden_counterexample (lower : Str → Str) : ∃ (objs : List (List Str)) (entries : List FsNode) (p : List Str),
    p ∈ objs ∧ HasFile entries p ∧ p ∉ pathsIn .bold (walkDirectory lower objs [] entries) := by
  refine ⟨[[".x".toList, "a.so".toList]], [.dir ".x".toList false [.file "a.so".toList]], [".x".toList, "a.so".toList],
    List.mem_cons_self, .inside List.mem_cons_self (.top List.mem_cons_self), ?_⟩
  intro h
  have h2 := (C124_objects lower _ _).mem_iff.mp h
  revert h2
  decide +kernel

theorem keyed_nodes (lower : Str → Str) (objs : List (List Str)) (pre : List Str) (l : List FsNode) :
    keyedNodes lower objs pre l = l.map (fun n => (nodeKey lower n, shownNode lower objs pre n)) := by
  induction l with
  | nil => rfl
  | cons n l ih => rw [keyedNodes, ih, List.map_cons]

/-- C124: the entries of each directory appear with directories in front of files and otherwise by name, regardless of small and
capital letters. -/
theorem C124_order (lower : Str → Str) (objs : List (List Str)) (pre : List Str) (entries : List FsNode) :
    ∃ rows : List FsNode, rows.Perm entries ∧
      rows.Pairwise (fun a b => ¬ KeyLt (isFileNode b, lower (entryName b)) (isFileNode a, lower (entryName a))) ∧
      walkDirectory lower objs pre entries = rows.flatMap (shownNode lower objs pre) ∧
      ∀ name, hiddenName name = false → shownNode lower objs pre (.dir name false entries) =
        [.node name .dim (walkDirectory lower objs (pre ++ [name]) entries)] := by
  refine ⟨pySorted (fun a b => compareKeys (nodeKey lower a) (nodeKey lower b)) entries, pySorted_perm _ _, ?_, ?_, ?_⟩
  · have hk : ∀ n, (isFileNode n, lower (entryName n)) = nodeKey lower n := by intro n; cases n <;> rfl
    simp only [hk]
    refine pySorted_keyed (key := nodeKey lower) keys_strict ?_ entries
    intro a b
    exact keys_by (nodeKey lower a, []) (nodeKey lower b, [])
  · unfold walkDirectory
    rw [keyed_nodes]
    have hm : ∀ l : List FsNode, pySorted (fun a b : (Bool × Str) × List TreeNode => compareKeys a.1 b.1)
        (l.map (fun n => (nodeKey lower n, shownNode lower objs pre n))) =
        (pySorted (fun a b => compareKeys (nodeKey lower a) (nodeKey lower b)) l).map
          (fun n => (nodeKey lower n, shownNode lower objs pre n)) := by
      have hi : ∀ (x : FsNode) (l : List FsNode), pyInsert (fun a b : (Bool × Str) × List TreeNode => compareKeys a.1 b.1)
          (nodeKey lower x, shownNode lower objs pre x) (l.map (fun n => (nodeKey lower n, shownNode lower objs pre n))) =
          (pyInsert (fun a b => compareKeys (nodeKey lower a) (nodeKey lower b)) x l).map
            (fun n => (nodeKey lower n, shownNode lower objs pre n)) := by
        intro x l
        induction l with
        | nil => rfl
        | cons y l ih =>
          rw [List.map_cons, pyInsert, pyInsert, ih]
          split <;> rfl
      intro l
      induction l with
      | nil => rfl
      | cons x l ih => rw [List.map_cons, pySorted, ih, hi, pySorted]
    rw [hm, List.flatMap_map]
  · intro name hn
    rw [shownNode, hn]
    rfl

end Bean.Props

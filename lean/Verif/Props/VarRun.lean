import Verif.Model.VarRun
import Verif.Props.PyFiles
import Verif.Props.Compare
import Verif.Props.DaemonEnd
import Verif.Props.ElfCache
/-
Results for several files and their use by the comparison of versions (C129).
-/
namespace Bean.Props
open Bean Bean.Spec Bean.PyFiles Bean.VarRun

theorem fileResult_iff (fs : PyFs) (cwd : PyPath) (base : Str) (summary : PyPath → Option SummaryHashes) (name : Str) (r : VarResult) :
    fileResult fs cwd base summary name = some r ↔ summary (fs.resolve (pyJoin cwd name)) = some r.members ∧
      fs.resolve (pyJoin cwd name) = (if base = [] then cwd else fs.resolve (pyJoin cwd base)) ++ r.file := by
  rw [← relativeTo_iff]
  unfold fileResult openedPath baseDir
  cases summary (fs.resolve (pyJoin cwd name)) with
  | none => exact ⟨fun h => (by cases h), fun h => (by cases h.1)⟩
  | some m =>
    cases relativeTo (if base = [] then cwd else fs.resolve (pyJoin cwd base)) (fs.resolve (pyJoin cwd name)) with
    | none => exact ⟨fun h => (by cases h), fun h => (by cases h.2)⟩
    | some f =>
      dsimp only
      constructor
      · intro h
        cases h
        exact ⟨rfl, rfl⟩
      · intro ⟨h1, h2⟩
        rw [Option.some.inj h1, Option.some.inj h2]

/-- **C129**, several files: if all files can be opened, there is a result or failure for each of them, in order. There is a result exactly if the summary succeeds and the file is
below the base directory; it consists of the path from there and the summary. -/
theorem C129_files_partial (fs : PyFs) (cwd : PyPath) (base : Str) (summary : PyPath → Option SummaryHashes) (files : List Str)
    (he : ∀ f ∈ files, fs.exists_ (pyJoin cwd f) = true) :
    ∃ out, listFiles fs cwd base summary files = some out ∧ out.length = files.length ∧
      ∀ (i : Nat) (r : VarResult), out[i]? = some (some r) ↔ ∃ name, files[i]? = some name ∧ summary (fs.resolve (pyJoin cwd name)) = some r.members ∧
        fs.resolve (pyJoin cwd name) = (if base = [] then cwd else fs.resolve (pyJoin cwd base)) ++ r.file := by
  refine ⟨files.map (fileResult fs cwd base summary), ?_, List.length_map _, fun i r => ?_⟩
  · unfold listFiles
    rw [if_pos (List.all_eq_true.mpr he)]
  · rw [List.getElem?_map]
    cases files[i]? with
    | none => exact ⟨fun h => (by cases h), fun ⟨_, h, _⟩ => (by cases h)⟩
    | some name =>
      show some (fileResult fs cwd base summary name) = some (some r) ↔ _
      constructor
      · intro h
        exact ⟨name, rfl, (fileResult_iff fs cwd base summary name r).mp (Option.some.inj h)⟩
      · intro ⟨n, h1, h2⟩
        rw [← Option.some.inj h1] at h2
        rw [(fileResult_iff fs cwd base summary name r).mpr h2]

/-- Two files, of which the second one cannot be analysed. -/
example : ∃ out, listFiles (exPyFs ["/srv/a.so", "/srv/lib/b.so"]) ["srv".toList] [] (fun p => if p = pathParts "/srv/a.so".toList then some [("RW".toList, some "12".toList)] else none)
    ["a.so".toList, "lib/b.so".toList] = some out ∧ out[0]? = some (some ⟨["a.so".toList], [("RW".toList, some "12".toList)]⟩) ∧ out[1]? = some none := by
  exact ⟨_, rfl, by decide +kernel, by decide +kernel⟩

/-- C129 does not hold in general: there is no result for a file outside of the base directory, which is the current directory if not given, whatever the file contains. -/
theorem C129_outside_counterexample (fs : PyFs) (cwd : PyPath) (base : Str) (summary : PyPath → Option SummaryHashes) (name : Str)
    (he : fs.exists_ (pyJoin cwd name) = true) (ho : ¬ (if base = [] then cwd else fs.resolve (pyJoin cwd base)) <+: fs.resolve (pyJoin cwd name)) :
    listFiles fs cwd base summary [name] = some [none] := by
  unfold listFiles
  rw [if_pos (by rw [List.all_cons, he]; rfl)]
  show some [fileResult fs cwd base summary name] = some [none]
  cases h : fileResult fs cwd base summary name with
  | none => rfl
  | some r => exact absurd ⟨r.file, ((fileResult_iff fs cwd base summary name r).mp h).2.symm⟩ ho

/-- A library of the system, from a home directory; and a link out of the base directory. -/
example (summary : PyPath → Option SummaryHashes) :
    listFiles (exPyFs ["/usr/lib/libm.so.6"]) ["home".toList] [] summary ["/usr/lib/libm.so.6".toList] = some [none] ∧
    listFiles ⟨fun _ => true, fun p => if p = pathParts "/v1/libm.so".toList then pathParts "/lib/libm.so.6".toList else p⟩ ["home".toList] "/v1".toList summary
      ["/v1/libm.so".toList] = some [none] :=
  ⟨C129_outside_counterexample _ _ _ _ _ (by decide +kernel) (by decide +kernel), C129_outside_counterexample _ _ _ _ _ (by decide +kernel) (by decide +kernel)⟩

/-- C129 does not hold in general: one missing file prevents the results for all others. -/
theorem C129_missing_counterexample (fs : PyFs) (cwd : PyPath) (base : Str) (summary : PyPath → Option SummaryHashes) (files : List Str) (f : Str) (hf : f ∈ files)
    (he : fs.exists_ (pyJoin cwd f) = false) : listFiles fs cwd base summary files = none ∧ plainFiles fs cwd base summary files = none := by
  have h : listFiles fs cwd base summary files = none := by
    unfold listFiles
    rw [if_neg]
    intro h
    rw [List.all_eq_true.mp h f hf] at he
    cases he
  exact ⟨h, by rw [plainFiles, h]; rfl⟩

example : listFiles (exPyFs ["/a.so"]) [] [] (fun _ => some []) ["a.so".toList, "b.so".toList] = none :=
  (C129_missing_counterexample _ _ _ _ _ "b.so".toList (by decide +kernel) (by decide +kernel)).1

theorem count_flatMap_lines {α : Type} (f : α → Str) (l : List α) (h : ∀ x ∈ l, ∃ t, f x = t ++ ['\n'] ∧ '\n' ∉ t) :
    (l.flatMap (fun x => f x ++ ['\n'])).count '\n' = 2 * l.length := by
  induction l with
  | nil => rfl
  | cons x l ih =>
    obtain ⟨t, ht, hn⟩ := h x List.mem_cons_self
    rw [List.flatMap_cons, List.count_append, ih (fun y hy => h y (List.mem_cons_of_mem _ hy)), ht, List.count_append, List.count_append,
      List.count_eq_zero_of_not_mem hn, List.length_cons]
    show 0 + 1 + 1 + _ = _
    omega

/-- C129: the plain text has two lines for each file, the second of which is empty, in contrast to the answers of the server (C82). -/
theorem C129_lines_counterexample (fs : PyFs) (cwd : PyPath) (base : Str) (summary : PyPath → Option SummaryHashes) (files : List Str)
    (he : ∀ f ∈ files, fs.exists_ (pyJoin cwd f) = true)
    (hn : ∀ p d, summary p = some d → ∀ m ∈ d, '\n' ∉ m.1 ∧ ∀ h, m.2 = some h → '\n' ∉ h) :
    ∃ text, plainFiles fs cwd base summary files = some text ∧ text.count '\n' = 2 * files.length := by
  refine ⟨_, by unfold plainFiles listFiles; rw [if_pos (List.all_eq_true.mpr he)]; rfl, ?_⟩
  rw [count_flatMap_lines, List.length_map]
  intro r hr
  obtain ⟨name, _, e⟩ := List.mem_map.mp hr
  refine C82_one_line _ (fun d hd m hm => ?_)
  cases r with
  | none => cases hd
  | some r =>
    cases hd
    rcases List.mem_cons.mp hm with h | h
    · rw [h]
      exact ⟨(by decide +kernel), fun _ h => (by cases h)⟩
    · exact hn _ _ ((fileResult_iff fs cwd base summary name r).mp e).1 m h

example : ∃ text, plainFiles (exPyFs ["/a.so"]) [] [] (fun _ => some [("RW".toList, some "12".toList)]) ["a.so".toList] = some text ∧ text.count '\n' = 2 :=
  C129_lines_counterexample _ _ _ _ _ (by decide +kernel) (fun p d h m hm => by
    cases h
    rw [List.mem_singleton.mp hm]
    exact ⟨(by decide +kernel), fun h e => by rw [← Option.some.inj e]; decide +kernel⟩)

/-- **C129**, with a cache that is empty at the start: the results are those without cache if files with equal build identifiers are the same file. -/
theorem C129_cache_partial (fs : PyFs) (cwd : PyPath) (base : Str) (args : VarArgs) (buildid : PyPath → Option (Option Str)) (summary : PyPath → Option SummaryHashes)
    (files : List Str) (hv : ∀ p id, buildid p = some id → ValidId id) (hb : ∀ p, buildid p = none → summary p = none)
    (same : ∀ f ∈ files, ∀ g ∈ files, buildid (fs.resolve (pyJoin cwd f)) ≠ none → buildid (fs.resolve (pyJoin cwd f)) = buildid (fs.resolve (pyJoin cwd g)) →
      fs.resolve (pyJoin cwd f) = fs.resolve (pyJoin cwd g)) :
    cachedFiles fs cwd base args buildid summary [] files = listFiles fs cwd base summary files := by
  unfold cachedFiles listFiles
  refine ite_congr rfl (fun _ => congrArg some ?_) (fun _ => rfl)
  rw [C57_partial _ (fun r hr id h => ?_) (fun r hr r' hr' hs => ?_), List.map_map]
  · refine List.map_congr_left (fun f _ => ?_)
    show fresh ⟨args, buildid (openedPath fs cwd f), fileResult fs cwd base summary f⟩ = _
    unfold fresh
    dsimp only
    cases h : buildid (openedPath fs cwd f) with
    | some _ => rfl
    | none =>
      unfold fileResult
      rw [hb _ h]
      rfl
  · obtain ⟨f, _, rfl⟩ := List.mem_map.mp hr
    exact hv _ _ h
  · obtain ⟨f, hf, rfl⟩ := List.mem_map.mp hr
    obtain ⟨g, hg, rfl⟩ := List.mem_map.mp hr'
    obtain ⟨id, h1, h2, _⟩ := hs
    have := same f hf g hg (fun h => by rw [show buildid (fs.resolve (pyJoin cwd f)) = some id from h1] at h; cases h) (Eq.trans h1 h2.symm)
    show fileResult fs cwd base summary f = fileResult fs cwd base summary g
    unfold fileResult openedPath
    rw [this]

/-- C129 does not hold in general with a cache: of two files with the same build identifier, such as a copy, the second one gets the result of the first one with its path, even if it
is outside of the base directory. -/
theorem C129_cache_counterexample (fs : PyFs) (cwd : PyPath) (base : Str) (args : VarArgs) (buildid : PyPath → Option (Option Str)) (summary : PyPath → Option SummaryHashes)
    (f g : Str) (he : ∀ n ∈ [f, g], fs.exists_ (pyJoin cwd n) = true) (id : Option Str) (hf : buildid (fs.resolve (pyJoin cwd f)) = some id)
    (hg : buildid (fs.resolve (pyJoin cwd g)) = some id) (r : VarResult) (hr : listFiles fs cwd base summary [f] = some [some r]) :
    cachedFiles fs cwd base args buildid summary [] [f, g] = some [some r, some r] := by
  have hr' : fileResult fs cwd base summary f = some r := by
    unfold listFiles at hr
    rw [if_pos (by rw [List.all_cons, he f List.mem_cons_self]; rfl)] at hr
    exact List.head_eq_of_cons_eq (Option.some.inj hr)
  unfold cachedFiles
  rw [if_pos (List.all_eq_true.mpr he)]
  refine congrArg some ?_
  simp only [List.map_cons, List.map_nil, getAll, getData, openedPath, hf, hg, hr', List.lookup_nil, List.lookup_cons, beq_self_eq_true]

/-- Identifiers of the examples: the name of the file, shortened. -/
def exVarId (p : PyPath) : Option (Option Str) := some (p.getLast?.map (fun n => if n = "b.so".toList then "bb".toList else "aa".toList))

example : cachedFiles (exPyFs ["/srv/a.so", "/srv/b.so"]) ["srv".toList] [] {} exVarId (fun p => some [("RW".toList, p.getLast?)]) [] ["a.so".toList, "b.so".toList, "a.so".toList] =
    listFiles (exPyFs ["/srv/a.so", "/srv/b.so"]) ["srv".toList] [] (fun p => some [("RW".toList, p.getLast?)]) ["a.so".toList, "b.so".toList, "a.so".toList] := by
  refine C129_cache_partial _ _ _ _ _ _ _ (fun p id h => ?_) (fun p h => (by cases h)) (by decide +kernel)
  unfold exVarId at h
  cases h
  cases p.getLast? with
  | none => exact fun _ h => (by cases h)
  | some n =>
    show ValidId (some (if n = "b.so".toList then "bb".toList else "aa".toList))
    split <;> exact fun _ h => by cases h; decide +kernel

example : cachedFiles (exPyFs ["/srv/a.so", "/srv/b.so"]) ["srv".toList] [] {} exVarId (fun p => some [("RW".toList, p.getLast?)]) [] ["a.so".toList, "b.so".toList, "a.so".toList] =
    some [some ⟨["a.so".toList], [("RW".toList, some "a.so".toList)]⟩, some ⟨["b.so".toList], [("RW".toList, some "b.so".toList)]⟩,
      some ⟨["a.so".toList], [("RW".toList, some "a.so".toList)]⟩] := by
  decide +kernel

/-- A copy outside of the base directory: without cache there is no result for it. -/
example : listFiles (exPyFs ["/srv/a.so", "/tmp/a.so"]) ["srv".toList] [] (fun _ => some []) ["a.so".toList, "/tmp/a.so".toList] = some [some ⟨["a.so".toList], []⟩, none] ∧
    cachedFiles (exPyFs ["/srv/a.so", "/tmp/a.so"]) ["srv".toList] [] {} exVarId (fun _ => some []) [] ["a.so".toList, "/tmp/a.so".toList] =
      some [some ⟨["a.so".toList], []⟩, some ⟨["a.so".toList], []⟩] :=
  ⟨by decide +kernel, C129_cache_counterexample _ _ _ _ _ _ _ _ (by decide +kernel) (some "aa".toList) (by decide +kernel) (by decide +kernel) _ (by decide +kernel)⟩

/-- The hashes among the members of a summary. -/
def HashMember (m : SummaryHashes) (k h : Str) : Prop := (k, some h) ∈ m

theorem hashesFrom_one (r : VarResult) (rest : List (Option VarResult)) :
    hashesFrom (some (some r :: rest)) = r.members.filterMap (fun m => m.2.map (fun h => (m.1, h))) := rfl

theorem hashes_mem (m : SummaryHashes) (k h : Str) : (k, h) ∈ m.filterMap (fun m => m.2.map (fun h => (m.1, h))) ↔ HashMember m k h := by
  rw [List.mem_filterMap]
  constructor
  · intro ⟨x, hx, e⟩
    obtain ⟨k', o⟩ := x
    cases o with
    | none => cases e
    | some h' => cases e; exact hx
  · intro hm
    exact ⟨_, hm, rfl⟩

theorem hashes_nodup {m : SummaryHashes} (hm : (m.map (·.1)).Nodup) : ((m.filterMap (fun m => m.2.map (fun h => (m.1, h)))).map (·.1)).Nodup := by
  refine hm.sublist ?_
  clear hm
  induction m with
  | nil => exact .slnil
  | cons x m ih =>
    obtain ⟨k, o⟩ := x
    cases o with
    | none => exact .cons _ ih
    | some h => exact .cons_cons _ ih

theorem hashes_lookup {l : Hashes} (hl : (l.map (·.1)).Nodup) (k v : Str) : l.lookup k = some v ↔ (k, v) ∈ l := by
  induction l with
  | nil => simp
  | cons p l ih =>
    rw [List.map_cons, List.nodup_cons] at hl
    rw [List.lookup_cons, List.mem_cons]
    cases hk : k == p.1 with
    | true =>
      have hk := eq_of_beq hk
      dsimp only
      constructor
      · intro e
        exact Or.inl (by rw [hk, ← Option.some.inj e])
      · rintro (e | e)
        · rw [← e]
        · exact absurd (List.mem_map.mpr ⟨_, e, hk⟩) hl.1
    | false =>
      have hk := ne_of_beq_false hk
      dsimp only
      rw [ih hl.2]
      constructor
      · exact Or.inr
      · rintro (e | e)
        · exact absurd (congrArg Prod.fst e) hk
        · exact e

/-- The version in the directory `a` has the object `o`, and links do not lead out of the directory; its summary with debug symbols is `m`. -/
structure VersionAt (fs : PyFs) (cwd : PyPath) (summary : Bool → PyPath → Option SummaryHashes) (a o : Str) (m : SummaryHashes) : Prop where
  named : a ≠ []
  present : fs.exists_ (pyJoin cwd (a ++ '/' :: o)) = true
  inside : fs.resolve (pyJoin cwd a) <+: fs.resolve (pyJoin cwd (a ++ '/' :: o))
  summary : summary true (fs.resolve (pyJoin cwd (a ++ '/' :: o))) = some m
  keys : (m.map (·.1)).Nodup
  hashed : ∃ k h, HashMember m k h

theorem version_hash {fs : PyFs} {cwd : PyPath} {summary : Bool → PyPath → Option SummaryHashes} {a o : Str} {m : SummaryHashes}
    (h : VersionAt fs cwd summary a o m) (diff : Str → Str → List DiffMember) :
    (versionTools fs cwd false summary diff o).hash a = m.filterMap (fun m => m.2.map (fun h => (m.1, h))) := by
  obtain ⟨rel, hrel⟩ := h.inside
  have hr : fileResult fs cwd a (summary true) (a ++ '/' :: o) = some ⟨rel, m⟩ :=
    (fileResult_iff _ _ _ _ _ _).mpr ⟨h.summary, by rw [if_neg h.named]; exact hrel.symm⟩
  show hashesFrom (listFiles fs cwd a (summary true) [a ++ '/' :: o]) = _
  unfold listFiles
  rw [if_pos (by rw [List.all_cons, h.present]; rfl)]
  show hashesFrom (some [fileResult fs cwd a (summary true) (a ++ '/' :: o)]) = _
  rw [hr]
  rfl

/-- **C129**, comparison of versions: with debug symbols, and if links do not lead out of the directories, an update between two versions is offered only if the program for
differences allows it and both summaries have the same hashes. -/
theorem C129_compare_partial (fs : PyFs) (cwd : PyPath) (summary : Bool → PyPath → Option SummaryHashes) (diff : Str → Str → List DiffMember) (a b o : Str)
    (m n : SummaryHashes) (ha : VersionAt fs cwd summary a o m) (hb : VersionAt fs cwd summary b o n) (v : Bool) (hs : Says (diff a b) v) :
    verdict (versionTools fs cwd false summary diff o) a b = some true ↔ v = true ∧ ∀ k h, HashMember m k h ↔ HashMember n k h := by
  have ea := version_hash ha diff
  have eb := version_hash hb diff
  have ne : ∀ {m : SummaryHashes}, (∃ k h, HashMember m k h) → m.filterMap (fun m => m.2.map (fun h => (m.1, h))) ≠ [] := by
    intro m ⟨k, h, hm⟩ e
    have := (hashes_mem m k h).mpr hm
    rw [e] at this
    cases this
  rw [C83_update_partial (versionTools fs cwd false summary diff o) a b v hs (by rw [ea]; exact ne ha.hashed) (by rw [eb]; exact ne hb.hashed)
    (by rw [ea]; exact hashes_nodup ha.keys) (by rw [eb]; exact hashes_nodup hb.keys), ea, eb]
  refine and_congr_right (fun _ => ?_)
  have look : ∀ {m : SummaryHashes}, (m.map (·.1)).Nodup → ∀ k h, (m.filterMap (fun m => m.2.map (fun h => (m.1, h)))).lookup k = some h ↔ HashMember m k h := by
    intro m hm k h
    rw [← hashes_mem]
    exact hashes_lookup (hashes_nodup hm) k h
  constructor
  · intro h k x
    rw [← look ha.keys, ← look hb.keys, h k]
  · intro h k
    apply Option.ext
    intro x
    rw [look ha.keys, look hb.keys, h k x]

/-- C129 does not hold in general: without debug symbols (option `-N`) the variables do not matter for versions outside of the current directory. Every update the program for
differences allows is offered, whatever their summaries are. -/
theorem C129_compare_counterexample (fs : PyFs) (cwd : PyPath) (summary : Bool → PyPath → Option SummaryHashes) (diff : Str → Str → List DiffMember) (a b o : Str)
    (he : fs.exists_ (pyJoin cwd (a ++ '/' :: o)) = true) (ho : ¬ cwd <+: fs.resolve (pyJoin cwd (a ++ '/' :: o))) (hs : Says (diff a b) true) :
    verdict (versionTools fs cwd true summary diff o) a b = some true := by
  refine C83_missing _ a b hs (Or.inl ?_)
  show hashesFrom (listFiles fs cwd [] (summary false) [a ++ '/' :: o]) = []
  rw [C129_outside_counterexample fs cwd [] (summary false) (a ++ '/' :: o) he (by rw [if_pos rfl]; exact ho)]
  rfl

/-- Versions of the examples, with different variables. -/
def exVarSummary (_ : Bool) (p : PyPath) : Option SummaryHashes :=
  some [("buildid".toList, none), ("RW".toList, some (if p.head? = some "v1".toList then "aa".toList else "bb".toList))]

example : verdict (versionTools (exPyFs ["/v1/x", "/v2/x"]) ["home".toList] false exVarSummary (fun _ _ => [.patchable true]) "x".toList) "/v1".toList "/v2".toList ≠ some true := by
  rw [Ne, C129_compare_partial (exPyFs ["/v1/x", "/v2/x"]) ["home".toList] exVarSummary (fun _ _ => [.patchable true]) "/v1".toList "/v2".toList "x".toList [("buildid".toList, none), ("RW".toList, some "aa".toList)]
    [("buildid".toList, none), ("RW".toList, some "bb".toList)]
    ⟨(by decide), (by decide +kernel), (by decide +kernel), (by decide +kernel), (by decide +kernel), _, _, List.mem_cons_of_mem _ List.mem_cons_self⟩
    ⟨(by decide), (by decide +kernel), (by decide +kernel), (by decide +kernel), (by decide +kernel), _, _, List.mem_cons_of_mem _ List.mem_cons_self⟩ true rfl]
  intro ⟨_, h⟩
  exact absurd ((h "RW".toList "aa".toList).mp (List.mem_cons_of_mem _ List.mem_cons_self)) (by unfold HashMember; decide +kernel)

example : verdict (versionTools (exPyFs ["/v1/x", "/v2/x"]) ["home".toList] true exVarSummary (fun _ _ => [.patchable true]) "x".toList) "/v1".toList "/v2".toList = some true :=
  C129_compare_counterexample _ _ _ _ _ _ _ (by decide +kernel) (by decide +kernel) rfl

end Bean.Props

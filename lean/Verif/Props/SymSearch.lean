import Verif.Model.SymSearch
import Verif.Spec.Detail
import Verif.Props.Download
import Verif.Props.PyFiles
/-
C136: the search for debug symbols answers for each file.
-/
namespace Bean.Props

open Bean Bean.PyFiles Bean.Spec

/-- The query is for the file: it is in the format ELF and below the root, with this link and build identifier. -/
def QueryOf (cwd root : PyPath) (f : SearchFile) (q : SymQuery) : Prop :=
  f.elf = true ∧ q.root = root ∧ f.path.place cwd = root ++ (q.parent ++ [q.name]) ∧ q.buildid = dbgBuildId f.secs ∧
    q.cache = ".debug-cache".toList ∧ ∃ link, dbgLink f.secs = some link ∧ q.link = link.filter (· ≠ [])

theorem relOf_iff {cwd root : PyPath} {f : SearchFile} {rel : PyPath × Str} :
    relOf cwd root f = some rel ↔ f.elf = true ∧ f.path.place cwd = root ++ (rel.1 ++ [rel.2]) := by
  unfold relOf
  cases f.elf with
  | false => exact ⟨fun h => (by cases h), fun h => (by cases h.1)⟩
  | true =>
    rw [if_pos rfl]
    cases hr : relativeTo root (f.path.place cwd) with
    | none =>
      refine ⟨fun h => (by cases h), fun h => ?_⟩
      rw [(relativeTo_iff _ _ _).mpr h.2] at hr
      cases hr
    | some l =>
      have e := (relativeTo_iff _ _ _).mp hr
      rw [e]
      dsimp only
      rcases List.eq_nil_or_concat l with rfl | ⟨l, x, rfl⟩
      · refine ⟨fun h => (by cases h), fun h => ?_⟩
        have := congrArg List.length h.2
        simp only [List.length_append, List.length_nil, List.length_cons] at this
        omega
      · obtain ⟨r1, r2⟩ := rel
        simp

theorem queryFor_of {cwd root : PyPath} {rel : PyPath × Str} {f : SearchFile} {link : Option Str} (h : relOf cwd root f = some rel)
    (hl : dbgLink f.secs = some link) : QueryOf cwd root f (queryFor root rel link f.secs) :=
  ⟨(relOf_iff.mp h).1, rfl, (relOf_iff.mp h).2, rfl, rfl, link, hl, rfl⟩

theorem render_slash (desc : List (BitVec 8)) : ∀ c ∈ desc.flatMap renderByte, c ≠ '/' := by
  have h : ∀ n, n < 16 → hexDigit n ≠ '/' := by decide
  intro c hc
  obtain ⟨b, _, hb⟩ := List.mem_flatMap.mp hc
  have hlt : b.toNat < 256 := b.isLt
  unfold renderByte at hb
  rcases List.mem_cons.mp hb with rfl | hb
  · exact h _ (by omega)
  · rcases List.mem_cons.mp hb with rfl | hb
    · exact h _ (by omega)
    · cases hb

theorem buildid_slash {secs : List DbgSec} {id : Str} (h : dbgBuildId secs = some id) : ∀ c ∈ id, c ≠ '/' := by
  obtain ⟨_, s, _, _, hs, _⟩ := List.findSome?_eq_some_iff.mp h
  unfold sectionBuildId at hs
  split at hs
  · obtain ⟨n, _, rfl⟩ := Option.map_eq_some_iff.mp hs
    exact render_slash n.desc
  · cases hs

theorem pyJoin_relative {p : PyPath} {s : Str} (h : ∀ c ∈ s, c ≠ '/') : pyJoin p s = p ++ pathParts s := by
  unfold pyJoin
  rw [if_neg]
  intro e
  cases s with
  | nil => cases e
  | cons c r => exact h c List.mem_cons_self (Option.some.inj e)

/-- No path of a query for a file is confused with the message. -/
theorem message_place {cwd root : PyPath} {f : SearchFile} {q : SymQuery} (hq : QueryOf cwd root f q) {p : SymPath} (hp : p ∈ symPaths q) :
    p.text ≠ "no debug file found".toList := by
  obtain ⟨-, -, -, hb, hc, -⟩ := hq
  unfold symPaths at hp
  rcases List.mem_append.mp hp with hp | hp
  · obtain ⟨l, _, rfl⟩ := List.mem_map.mp hp
    intro e
    have := congrArg List.head? e
    exact absurd this (by unfold SymPath.text; simp)
  · cases hi : cacheId q with
    | none => rw [hi] at hp; cases hp
    | some id =>
      rw [hi] at hp
      rw [List.mem_singleton.mp hp, hc]
      have hs : ∀ c ∈ id, c ≠ '/' := buildid_slash (hb.symm.trans (cacheId_some hi).1)
      have e1 : (cacheFile ".debug-cache".toList id).parts =
          ".debug-cache".toList :: withDebug (".build-id".toList :: (pathParts (id.take 2) ++ pathParts (id.drop 2))) := by
        unfold cacheFile
        dsimp only
        rw [pyJoin_relative (fun c h => hs c (List.mem_of_mem_drop h)), pyJoin_relative (fun c h => hs c (List.mem_of_mem_take h))]
        rw [show pathParts ".debug-cache".toList = [".debug-cache".toList] by decide +kernel]
        rw [List.append_assoc]
        rfl
      intro e
      have h2 := congrArg List.head? e
      unfold SymPath.text at h2
      rw [e1, if_neg (by unfold cacheFile; dsimp only; decide)] at h2
      cases hw : withDebug (".build-id".toList :: (pathParts (id.take 2) ++ pathParts (id.drop 2))) with
      | nil => rw [hw] at h2; exact absurd h2 (by decide)
      | cons x l =>
        rw [hw, List.intercalate_cons_cons] at h2
        exact absurd h2 (by simp)

/-- The places of a query are searched in the files, or there is none. -/
def Answers (cwd : PyPath) (fs : FileSys) (q : SymQuery) (line : Str) : Prop :=
  (∃ before p after, symPaths q = before ++ p :: after ∧ (∀ x ∈ before, fs (x.place cwd) = none) ∧ (fs (p.place cwd)).isSome ∧ line = p.text) ∨
    ((∀ p ∈ symPaths q, fs (p.place cwd) = none) ∧ line = "no debug file found".toList)

theorem find_answers (net : Str → Answer) (cwd : PyPath) (q : SymQuery) (fs : FileSys) :
    Answers cwd fs q (resultLine (findSymbols net cwd q false fs).path) ∧ (findSymbols net cwd q false fs).files = fs ∧ (findSymbols net cwd q false fs).asked = [] := by
  rcases find_cases net cwd q false fs with ⟨p, h1, h2⟩ | ⟨h1, ⟨h2, -⟩ | ⟨id, -, h3, -⟩⟩
  · obtain ⟨hp, before, after, e, hb⟩ := List.find?_eq_some_iff_append.mp h1
    rw [h2]
    exact ⟨.inl ⟨before, p, after, e, fun x hx => by simpa using hb x hx, hp, rfl⟩, rfl, rfl⟩
  · rw [h2]
    exact ⟨.inr ⟨h1, rfl⟩, rfl, rfl⟩
  · cases h3

/-- **C136**, without downloads: if the program ends, each file has exactly one line, in the order of the arguments: the first of its places at which there is a file, or
a message if and only if there is none. No address is requested and no file is changed. -/
theorem C136_lines (net : Str → Answer) (cwd root : PyPath) (files : List SearchFile) (fs : FileSys) (h : (searchRun net cwd root false false files fs).ended = true) :
    AllMatch (fun f line => ∃ q, QueryOf cwd root f q ∧ Answers cwd fs q line) files (searchRun net cwd root false false files fs).lines ∧
      (searchRun net cwd root false false files fs).asked = [] ∧ (searchRun net cwd root false false files fs).files = fs := by
  induction files with
  | nil => exact ⟨⟨rfl, fun i a b h => (by cases h)⟩, rfl, rfl⟩
  | cons f rest ih =>
    unfold searchRun at h ⊢
    cases h1 : relOf cwd root f with
    | none => rw [h1] at h; cases h
    | some rel =>
      cases h2 : dbgLink f.secs with
      | none => rw [h1, h2] at h; cases h
      | some link =>
        rw [h1, h2] at h
        obtain ⟨h3, h4, h5⟩ := find_answers net cwd (queryFor root rel link f.secs) fs
        dsimp only at h ⊢
        rw [h4] at h ⊢
        obtain ⟨h6, h7, h8⟩ := ih h
        rw [h5, h7]
        refine ⟨⟨?_, fun i a b ha hb => ?_⟩, rfl, h8⟩
        · exact congrArg (· + 1) h6.1
        · cases i with
          | zero =>
            have e1 : f = a := Option.some.inj ha
            have e2 : resultLine (findSymbols net cwd (queryFor root rel link f.secs) false fs).path = b := Option.some.inj hb
            rw [← e1, ← e2]
            exact ⟨_, queryFor_of h1 h2, h3⟩
          | succ i => exact h6.2 i a b ha hb

/-- **C136**, without downloads: the line of a file is the message if and only if there is no file at any of its places. -/
theorem C136_message (net : Str → Answer) (cwd root : PyPath) (files : List SearchFile) (fs : FileSys) (h : (searchRun net cwd root false false files fs).ended = true)
    (i : Nat) (f : SearchFile) (hf : files[i]? = some f) : ∃ q line, QueryOf cwd root f q ∧ (searchRun net cwd root false false files fs).lines[i]? = some line ∧
      (line = "no debug file found".toList ↔ ∀ p ∈ symPaths q, fs (p.place cwd) = none) := by
  obtain ⟨⟨h1, h2⟩, -, -⟩ := C136_lines net cwd root files fs h
  obtain ⟨hi, -⟩ := List.getElem?_eq_some_iff.mp hf
  have hl : i < (searchRun net cwd root false false files fs).lines.length := by omega
  have he := List.getElem?_eq_getElem hl
  obtain ⟨q, hq, ha⟩ := h2 i f _ hf he
  refine ⟨q, _, hq, he, ?_⟩
  rcases ha with ⟨before, p, after, e1, _, e3, e4⟩ | ⟨e1, e2⟩
  · have hp : p ∈ symPaths q := by rw [e1]; exact List.mem_append_right _ List.mem_cons_self
    refine ⟨fun e => absurd (e4.symm.trans e) (message_place hq hp), fun e => ?_⟩
    rw [e p hp] at e3
    cases e3
  · exact ⟨fun _ => e1, fun _ => e2⟩

/-- The program ends without exception exactly if all files have the format ELF, are below the directory and have a readable debug link. -/
theorem C136_ends (net : Str → Answer) (cwd root : PyPath) (verbose online : Bool) (files : List SearchFile) (fs : FileSys) :
    (searchRun net cwd root verbose online files fs).ended = true ↔ ∀ f ∈ files, f.elf = true ∧ (∃ rel, rel ≠ [] ∧ f.path.place cwd = root ++ rel) ∧ dbgLink f.secs ≠ none := by
  induction files generalizing fs with
  | nil => exact ⟨fun _ f hf => (by cases hf), fun _ => rfl⟩
  | cons f rest ih =>
    unfold searchRun
    have hrel : (∃ rel, relOf cwd root f = some rel) ↔ f.elf = true ∧ ∃ rel, rel ≠ [] ∧ f.path.place cwd = root ++ rel := by
      constructor
      · rintro ⟨rel, h⟩
        exact ⟨(relOf_iff.mp h).1, rel.1 ++ [rel.2], by simp, (relOf_iff.mp h).2⟩
      · rintro ⟨h1, rel, h2, h3⟩
        rcases List.eq_nil_or_concat rel with rfl | ⟨l, x, rfl⟩
        · exact absurd rfl h2
        · exact ⟨(l, x), relOf_iff.mpr ⟨h1, by rw [h3, List.concat_eq_append]⟩⟩
    cases h1 : relOf cwd root f with
    | none =>
      refine ⟨fun h => (by cases h), fun h => ?_⟩
      obtain ⟨rel, hr⟩ := hrel.mpr ⟨(h f List.mem_cons_self).1, (h f List.mem_cons_self).2.1⟩
      rw [h1] at hr
      cases hr
    | some rel =>
      have hr := hrel.mp ⟨rel, h1⟩
      cases h2 : dbgLink f.secs with
      | none => exact ⟨fun h => (by cases h), fun h => absurd h2 (h f List.mem_cons_self).2.2⟩
      | some link =>
        dsimp only
        rw [ih]
        refine ⟨fun h g hg => ?_, fun h g hg => h g (List.mem_cons_of_mem _ hg)⟩
        rcases List.mem_cons.mp hg with rfl | hg
        · exact ⟨hr.1, hr.2, by rw [h2]; exact fun e => (by cases e)⟩
        · exact h g hg

/-- A search never removes a file. -/
theorem find_keeps (net : Str → Answer) (cwd : PyPath) (q : SymQuery) (online : Bool) (fs : FileSys) (p : PyPath) (h : (fs p).isSome) :
    ((findSymbols net cwd q online fs).files p).isSome := by
  rcases find_cases net cwd q online fs with ⟨p1, _, h2⟩ | ⟨h1, ⟨h2, -⟩ | ⟨id, h3, -, h2⟩⟩
  · rw [h2]; exact h
  · rw [h2]; exact h
  · rw [h2]
    have hne : p ≠ (cacheFile q.cache id).place cwd := by
      intro e
      rw [e, h1 _ (cache_last h3)] at h
      cases h
    rw [fetch_other net cwd _ id services fs p hne]
    exact h

theorem find_exists (net : Str → Answer) (cwd : PyPath) (q : SymQuery) (online : Bool) (fs : FileSys) (p : SymPath) (h : (findSymbols net cwd q online fs).path = some p) :
    p ∈ symPaths q ∧ ((findSymbols net cwd q online fs).files (p.place cwd)).isSome := by
  rcases find_cases net cwd q online fs with ⟨p1, h1, h2⟩ | ⟨h1, ⟨h2, -⟩ | ⟨id, h3, -, h2⟩⟩
  · rw [h2] at h ⊢
    rw [← Option.some.inj h]
    exact ⟨List.mem_of_find?_eq_some h1, by simpa using List.find?_some h1⟩
  · rw [h2] at h; cases h
  · rw [h2] at h ⊢
    rcases fetch_spec net cwd (cacheFile q.cache id) id services fs with ⟨h5, _⟩ | ⟨_, _, _, data, _, _, _, h5, _, h6⟩
    · rw [h5] at h; cases h
    · rw [h5] at h
      rw [← Option.some.inj h, h6]
      exact ⟨cache_last h3, rfl⟩

theorem run_keeps (net : Str → Answer) (cwd root : PyPath) (verbose online : Bool) (files : List SearchFile) (fs : FileSys) (p : PyPath) (h : (fs p).isSome) :
    ((searchRun net cwd root verbose online files fs).files p).isSome := by
  induction files generalizing fs with
  | nil => exact h
  | cons f rest ih =>
    unfold searchRun
    cases relOf cwd root f with
    | none => exact h
    | some rel =>
      cases dbgLink f.secs with
      | none => exact h
      | some link => exact ih _ (find_keeps net cwd _ online fs p h)

/-- **C136**, with or without downloads: each line is the message, or the path of a file that is there when the program ends, at one of the places for the file of this line. -/
theorem C136_exists (net : Str → Answer) (cwd root : PyPath) (online : Bool) (files : List SearchFile) (fs : FileSys)
    (h : (searchRun net cwd root false online files fs).ended = true) :
    AllMatch (fun f line => ∃ q, QueryOf cwd root f q ∧ (line = "no debug file found".toList ∨
      ∃ p ∈ symPaths q, line = p.text ∧ ((searchRun net cwd root false online files fs).files (p.place cwd)).isSome)) files
      (searchRun net cwd root false online files fs).lines := by
  induction files generalizing fs with
  | nil => exact ⟨rfl, fun i a b h => (by cases h)⟩
  | cons f rest ih =>
    unfold searchRun at h ⊢
    cases h1 : relOf cwd root f with
    | none => rw [h1] at h; cases h
    | some rel =>
      cases h2 : dbgLink f.secs with
      | none => rw [h1, h2] at h; cases h
      | some link =>
        rw [h1, h2] at h
        dsimp only at h ⊢
        have h6 := ih _ h
        refine ⟨congrArg (· + 1) h6.1, fun i a b ha hb => ?_⟩
        cases i with
        | zero =>
          have e1 : f = a := Option.some.inj ha
          have e2 : resultLine (findSymbols net cwd (queryFor root rel link f.secs) online fs).path = b := Option.some.inj hb
          rw [← e1, ← e2]
          refine ⟨_, queryFor_of h1 h2, ?_⟩
          cases hp : (findSymbols net cwd (queryFor root rel link f.secs) online fs).path with
          | none => exact .inl rfl
          | some p =>
            obtain ⟨h7, h8⟩ := find_exists net cwd _ online fs p hp
            exact .inr ⟨p, h7, rfl, run_keeps net cwd root false online rest _ _ h8⟩
        | succ i => exact h6.2 i a b ha hb

/-- C136 is false if a file is not below the directory (which is given without symbolic links): then the program ends with an exception, and all files behind it get no line. -/
theorem C136_outside_counterexample (net : Str → Answer) (cwd root : PyPath) (online : Bool) (before : List SearchFile) (f : SearchFile) (rest : List SearchFile) (fs : FileSys)
    (hf : ¬ root <+: f.path.place cwd) :
    (searchRun net cwd root false online (before ++ f :: rest) fs).lines.length ≤ before.length ∧ (searchRun net cwd root false online (before ++ f :: rest) fs).ended = false := by
  have h1 : relOf cwd root f = none := by
    cases hr : relOf cwd root f with
    | none => rfl
    | some rel => exact absurd ⟨_, (relOf_iff.mp hr).2.symm⟩ hf
  induction before generalizing fs with
  | nil =>
    rw [List.nil_append]
    unfold searchRun
    rw [h1]
    exact ⟨Nat.le_refl 0, rfl⟩
  | cons g l ih =>
    rw [List.cons_append]
    unfold searchRun
    cases relOf cwd root g with
    | none => exact ⟨Nat.zero_le _, rfl⟩
    | some rel =>
      cases dbgLink g.secs with
      | none => exact ⟨Nat.zero_le _, rfl⟩
      | some link =>
        dsimp only
        obtain ⟨h2, h3⟩ := ih (findSymbols net cwd (queryFor root rel link g.secs) online fs).files
        exact ⟨Nat.succ_le_succ h2, h3⟩

/-- **C136**, details: the option for details only adds lines. -/
theorem C136_verbose (net : Str → Answer) (cwd root : PyPath) (online : Bool) (files : List SearchFile) (fs : FileSys) :
    (searchRun net cwd root false online files fs).lines.Sublist (searchRun net cwd root true online files fs).lines ∧
      (searchRun net cwd root true online files fs).asked = (searchRun net cwd root false online files fs).asked ∧
      (searchRun net cwd root true online files fs).files = (searchRun net cwd root false online files fs).files ∧
      (searchRun net cwd root true online files fs).ended = (searchRun net cwd root false online files fs).ended := by
  induction files generalizing fs with
  | nil => exact ⟨List.Sublist.refl _, rfl, rfl, rfl⟩
  | cons f rest ih =>
    unfold searchRun
    cases relOf cwd root f with
    | none => exact ⟨List.Sublist.refl _, rfl, rfl, rfl⟩
    | some rel =>
      cases dbgLink f.secs with
      | none => exact ⟨List.nil_sublist _, rfl, rfl, rfl⟩
      | some link =>
        dsimp only
        obtain ⟨h1, h2, h3, h4⟩ := ih (findSymbols net cwd (queryFor root rel link f.secs) online fs).files
        refine ⟨?_, by rw [h2], h3, h4⟩
        exact (h1.cons_cons _).trans ((List.sublist_append_right _ _).trans (List.sublist_append_right _ _))

def searchTool : SearchFile where
  path := ⟨false, ["bin".toList, "tool".toList]⟩
  secs := [⟨".gnu_debuglink".toList, "tool.dbg\x00\x00\x00\x00abcd".toList, ⟨false, []⟩⟩]

def searchLib : SearchFile where
  path := ⟨true, ["srv".toList, "lib".toList, "x.so".toList]⟩

def searchFs : FileSys := fun p => if p = ["srv".toList, "bin".toList, ".debug".toList, "tool.dbg".toList] then some "ELF".toList else none

example : (searchRun (fun _ => .failed) ["srv".toList] ["srv".toList] false false [searchLib, searchTool] searchFs).ended = true ∧
    (searchRun (fun _ => .failed) ["srv".toList] ["srv".toList] false false [searchLib, searchTool] searchFs).lines =
      ["no debug file found".toList, "/srv/bin/.debug/tool.dbg".toList] := by
  decide +kernel

example : (searchRun (fun _ => .failed) ["srv".toList] ["srv".toList] true false [searchTool] searchFs).lines =
    ["".toList, "ELF bin/tool".toList, "  - base: /srv".toList, "  - debug_link: tool.dbg".toList, "/srv/bin/.debug/tool.dbg".toList] := by
  decide +kernel

/-- A file is downloaded for the first and found for the second argument. -/
def searchBuild : SearchFile where
  path := ⟨true, ["usr".toList, "bin".toList, "tool".toList]⟩
  secs := [⟨".note".toList, [], ⟨true, [⟨some "GNU", NT_GNU_BUILD_ID, [0x01, 0x23, 0x45, 0x67, 0x89, 0xab, 0xcd, 0xef, 0x01, 0x23, 0x45, 0x67, 0x89, 0xab, 0xcd, 0xef, 0x01, 0x23, 0x45, 0x67]⟩]⟩⟩]

example : (searchRun dlNet dlCwd [] false true [searchBuild, searchBuild] (fun _ => none)).ended = true ∧
    (searchRun dlNet dlCwd [] false true [searchBuild, searchBuild] (fun _ => none)).asked.length = 3 ∧
    (searchRun dlNet dlCwd [] false true [searchBuild, searchBuild] (fun _ => none)).lines =
      List.replicate 2 ".debug-cache/.build-id/01/23456789abcdef0123456789abcdef01234567.debug".toList := by
  decide +kernel

/-- The file outside of the directory comes first: there is no line for the second one, although its debug symbols are there. -/
example : ¬ ["srv".toList] <+: SymPath.place ["srv".toList] searchBuild.path ∧
    (searchRun (fun _ => .failed) ["srv".toList] ["srv".toList] false false [searchBuild, searchTool] searchFs).lines = [] := by
  decide +kernel

end Bean.Props

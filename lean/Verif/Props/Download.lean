import Verif.Model.Download
import Verif.Props.DebugSym
/-
C127: debug symbols are downloaded only if needed, and those in the cache are the ones that were asked for.
-/
namespace Bean.Props
open Bean Bean.Spec Bean.PyFiles

/-- The requests a service is known to answer: `/buildid/…/debuginfo` at the name of the server. -/
def DocumentedUrl (id url : Str) : Prop :=
  ∃ server, '/' ∉ server ∧ url = "https://".toList ++ server ++ "/buildid/".toList ++ id ++ "/debuginfo".toList

/-! ### Requests -/

theorem fetch_spec (net : Str → Answer) (cwd : PyPath) (target : SymPath) (id : Str) (l : List Str) (fs : FileSys) :
    ((fetch net cwd target id l fs).path = none ∧ (∀ s ∈ l, ∀ data, net (requestUrl s id) ≠ .full data) ∧
        (fetch net cwd target id l fs).asked = l.map (fun s => requestUrl s id) ∧
        ((fetch net cwd target id l fs).files (target.place cwd) = fs (target.place cwd) ∨
          ∃ s ∈ l, ∃ got, net (requestUrl s id) = .broken got ∧ (fetch net cwd target id l fs).files (target.place cwd) = some got)) ∨
      ∃ before s after data, l = before ++ s :: after ∧ (∀ s ∈ before, ∀ data, net (requestUrl s id) ≠ .full data) ∧
        net (requestUrl s id) = .full data ∧ (fetch net cwd target id l fs).path = some target ∧
        (fetch net cwd target id l fs).asked = (before ++ [s]).map (fun s => requestUrl s id) ∧
        (fetch net cwd target id l fs).files (target.place cwd) = some data := by
  induction l generalizing fs with
  | nil => exact Or.inl ⟨rfl, by simp, rfl, Or.inl rfl⟩
  | cons s l ih =>
    rw [fetch]
    cases hs : net (requestUrl s id) with
    | failed =>
      dsimp only
      rcases ih fs with ⟨h1, h2, h3, h4⟩ | ⟨before, s', after, data, h1, h2, h3, h4, h5, h6⟩
      · refine Or.inl ⟨h1, ?_, by rw [h3]; rfl, ?_⟩
        · intro x hx data hd
          rcases List.mem_cons.mp hx with rfl | hx
          · rw [hs] at hd; cases hd
          · exact h2 x hx data hd
        · rcases h4 with h4 | ⟨x, hx, got, h5, h6⟩
          · exact Or.inl h4
          · exact Or.inr ⟨x, List.mem_cons_of_mem _ hx, got, h5, h6⟩
      · refine Or.inr ⟨s :: before, s', after, data, by rw [h1]; rfl, ?_, h3, h4, by rw [h5]; rfl, h6⟩
        intro x hx data hd
        rcases List.mem_cons.mp hx with rfl | hx
        · rw [hs] at hd; cases hd
        · exact h2 x hx data hd
    | broken got =>
      dsimp only
      rcases ih (fs.write (target.place cwd) got) with ⟨h1, h2, h3, h4⟩ | ⟨before, s', after, data, h1, h2, h3, h4, h5, h6⟩
      · refine Or.inl ⟨h1, ?_, by rw [h3]; rfl, Or.inr ?_⟩
        · intro x hx data hd
          rcases List.mem_cons.mp hx with rfl | hx
          · rw [hs] at hd; cases hd
          · exact h2 x hx data hd
        · rcases h4 with h4 | ⟨x, hx, got, h5, h6⟩
          · exact ⟨s, List.mem_cons_self, got, hs, by rw [h4]; exact if_pos rfl⟩
          · exact ⟨x, List.mem_cons_of_mem _ hx, got, h5, h6⟩
      · refine Or.inr ⟨s :: before, s', after, data, by rw [h1]; rfl, ?_, h3, h4, by rw [h5]; rfl, h6⟩
        intro x hx data hd
        rcases List.mem_cons.mp hx with rfl | hx
        · rw [hs] at hd; cases hd
        · exact h2 x hx data hd
    | full data =>
      refine Or.inr ⟨[], s, l, data, rfl, by simp, hs, rfl, rfl, if_pos rfl⟩

theorem fetch_other (net : Str → Answer) (cwd : PyPath) (target : SymPath) (id : Str) (l : List Str) (fs : FileSys) (p : PyPath)
    (hp : p ≠ target.place cwd) : (fetch net cwd target id l fs).files p = fs p := by
  induction l generalizing fs with
  | nil => rfl
  | cons s l ih =>
    rw [fetch]
    cases net (requestUrl s id) with
    | failed => exact ih fs
    | broken got => exact (ih _).trans (if_neg hp)
    | full data => exact if_neg hp

theorem find_cases (net : Str → Answer) (cwd : PyPath) (q : SymQuery) (online : Bool) (fs : FileSys) :
    (∃ p, (symPaths q).find? (fun p => (fs (p.place cwd)).isSome) = some p ∧ findSymbols net cwd q online fs = ⟨some p, [], fs⟩) ∨
      ((∀ p ∈ symPaths q, fs (p.place cwd) = none) ∧
        ((findSymbols net cwd q online fs = ⟨none, [], fs⟩ ∧ (online = false ∨ cacheId q = none)) ∨
          ∃ id, cacheId q = some id ∧ online = true ∧
            findSymbols net cwd q online fs = fetch net cwd (cacheFile q.cache id) id services fs)) := by
  rw [findSymbols]
  cases h : (symPaths q).find? (fun p => (fs (p.place cwd)).isSome) with
  | some p => exact Or.inl ⟨p, rfl, rfl⟩
  | none =>
    refine Or.inr ⟨fun p hp => ?_, ?_⟩
    · have := List.find?_eq_none.mp h p hp
      simpa using this
    · cases hc : cacheId q with
      | none => exact Or.inl ⟨rfl, Or.inr rfl⟩
      | some id =>
        cases online with
        | false => exact Or.inl ⟨rfl, Or.inl rfl⟩
        | true => exact Or.inr ⟨id, rfl, rfl, rfl⟩

theorem cacheId_some {q : SymQuery} {id : Str} (h : cacheId q = some id) : q.buildid = some id ∧ id ≠ [] ∧ q.cache ≠ [] := by
  unfold cacheId at h
  split at h
  · split at h
    · cases h
    · next h1 h2 => cases h; exact ⟨h1, by simp, h2⟩
  · cases h

theorem cache_last {q : SymQuery} {id : Str} (h : cacheId q = some id) : cacheFile q.cache id ∈ symPaths q := by
  unfold symPaths
  rw [h]
  exact List.mem_append_right _ List.mem_cons_self

/-- C127: no service is asked unless this is allowed, the build identifier is known and there is no file at any of the places; then the services are
asked in turn for this identifier until one of them delivers the file. -/
theorem C127_asked (net : Str → Answer) (cwd : PyPath) (q : SymQuery) (online : Bool) (fs : FileSys) :
    ((findSymbols net cwd q online fs).asked ≠ [] →
      online = true ∧ (∀ p ∈ symPaths q, fs (p.place cwd) = none) ∧
        ∃ id, q.buildid = some id ∧ id ≠ [] ∧ ∃ rest, (findSymbols net cwd q online fs).asked ++ rest =
          ["https://debuginfod.debian.net/buildid/".toList ++ id ++ "/debuginfo".toList,
            "https://debuginfod.ubuntu.com/buildid/".toList ++ id ++ "/debuginfo".toList,
            "https://debuginfod.elfutils.org//buildid/".toList ++ id ++ "/debuginfo".toList] ∧
          ∀ before url, (findSymbols net cwd q online fs).asked = before ++ [url] → ∀ u ∈ before, ∀ data, net u ≠ .full data) ∧
    ((findSymbols net cwd q online fs).asked = [] → (findSymbols net cwd q online fs).files = fs) := by
  rcases find_cases net cwd q online fs with ⟨p, _, h⟩ | ⟨h1, ⟨h, _⟩ | ⟨id, h2, h3, h⟩⟩
  · rw [h]
    exact ⟨fun h => absurd rfl h, fun _ => rfl⟩
  · rw [h]
    exact ⟨fun h => absurd rfl h, fun _ => rfl⟩
  · rw [h]
    have h4 := fetch_spec net cwd (cacheFile q.cache id) id services fs
    have hall : services.map (fun s => requestUrl s id) =
        ["https://debuginfod.debian.net/buildid/".toList ++ id ++ "/debuginfo".toList,
          "https://debuginfod.ubuntu.com/buildid/".toList ++ id ++ "/debuginfo".toList,
          "https://debuginfod.elfutils.org//buildid/".toList ++ id ++ "/debuginfo".toList] := by
      unfold services requestUrl
      simp only [List.map_cons, List.map_nil]
      refine List.cons_eq_cons.mpr ⟨?_, List.cons_eq_cons.mpr ⟨?_, List.cons_eq_cons.mpr ⟨?_, rfl⟩⟩⟩ <;> rfl
    refine ⟨fun _ => ⟨h3, h1, id, (cacheId_some h2).1, (cacheId_some h2).2.1, ?_⟩, fun he => ?_⟩
    · rw [← hall]
      rcases h4 with ⟨_, h5, h6, _⟩ | ⟨before, s, after, data, h5, h6, h7, _, h8, _⟩
      · refine ⟨[], by rw [h6, List.append_nil], fun before url hb u hu data hd => ?_⟩
        rw [h6] at hb
        have hu' : u ∈ services.map (fun s => requestUrl s id) := by rw [hb]; exact List.mem_append_left _ hu
        obtain ⟨s, hs, rfl⟩ := List.mem_map.mp hu'
        exact h5 s hs data hd
      · refine ⟨after.map (fun s => requestUrl s id), by rw [h8, ← List.map_append, h5]; simp, fun before' url hb u hu data hd => ?_⟩
        rw [h8, List.map_append, List.map_cons, List.map_nil] at hb
        obtain ⟨hb1, _⟩ := List.append_inj' hb rfl
        rw [← hb1] at hu
        obtain ⟨s, hs, rfl⟩ := List.mem_map.mp hu
        exact h6 s hs data hd
    · rcases h4 with ⟨_, _, h6, _⟩ | ⟨before, s, after, data, _, _, _, _, h8, _⟩
      · rw [h6] at he; cases he
      · rw [h8] at he
        simp at he

/-- C127: if services were asked, the file that is delivered has the contents one of them gave, and if none is delivered, no service gave the file. Only
this file is changed. -/
theorem C127_content (net : Str → Answer) (cwd : PyPath) (q : SymQuery) (online : Bool) (fs : FileSys)
    (ha : (findSymbols net cwd q online fs).asked ≠ []) :
    (∀ p, (findSymbols net cwd q online fs).path = some p →
      ∃ url data, url ∈ (findSymbols net cwd q online fs).asked ∧ net url = .full data ∧
        (findSymbols net cwd q online fs).files (p.place cwd) = some data ∧
        ∀ r, r ≠ p.place cwd → (findSymbols net cwd q online fs).files r = fs r) ∧
    ((findSymbols net cwd q online fs).path = none →
      ∀ url ∈ (findSymbols net cwd q online fs).asked, ∀ data, net url ≠ .full data) := by
  rcases find_cases net cwd q online fs with ⟨p, _, h⟩ | ⟨h1, ⟨h, _⟩ | ⟨id, h2, h3, h⟩⟩
  · rw [h] at ha; exact absurd rfl ha
  · rw [h] at ha; exact absurd rfl ha
  · rw [h]
    rcases fetch_spec net cwd (cacheFile q.cache id) id services fs with ⟨h4, h5, h6, _⟩ | ⟨before, s, after, data, _, _, h7, h8, h9, h10⟩
    · refine ⟨fun p hp => ?_, fun _ url hu data hd => ?_⟩
      · rw [h4] at hp; cases hp
      · rw [h6] at hu
        obtain ⟨s, hs, rfl⟩ := List.mem_map.mp hu
        exact h5 s hs data hd
    · refine ⟨fun p hp => ?_, fun hn => ?_⟩
      · rw [h8] at hp
        cases hp
        exact ⟨_, data, by rw [h9]; exact List.mem_map.mpr ⟨s, by simp, rfl⟩, h7, h10,
          fun r hr => fetch_other net cwd _ id services fs r hr⟩
      · rw [h8] at hn; cases hn

/-- C127: a file that was found or downloaded is found again without any request. -/
theorem C127_again (net net' : Str → Answer) (cwd : PyPath) (q : SymQuery) (online online' : Bool) (fs : FileSys) (p : SymPath)
    (h : (findSymbols net cwd q online fs).path = some p) :
    ∃ p', p'.place cwd = p.place cwd ∧
      findSymbols net' cwd q online' (findSymbols net cwd q online fs).files = ⟨some p', [], (findSymbols net cwd q online fs).files⟩ := by
  rcases find_cases net cwd q online fs with ⟨p1, h1, h2⟩ | ⟨h1, ⟨h2, _⟩ | ⟨id, h3, h4, h2⟩⟩
  · rw [h2] at h ⊢
    cases h
    refine ⟨p, rfl, ?_⟩
    dsimp only
    rw [findSymbols, h1]
  · rw [h2] at h; cases h
  · rw [h2] at h ⊢
    rcases fetch_spec net cwd (cacheFile q.cache id) id services fs with ⟨h5, _⟩ | ⟨_, _, _, data, _, _, _, h5, _, h6⟩
    · rw [h5] at h; cases h
    · rw [h5] at h
      cases h
      have hsome : ∃ p', (symPaths q).find? (fun p => ((fetch net cwd (cacheFile q.cache id) id services fs).files (p.place cwd)).isSome) =
          some p' := by
        cases hf : (symPaths q).find? (fun p => ((fetch net cwd (cacheFile q.cache id) id services fs).files (p.place cwd)).isSome) with
        | some p' => exact ⟨p', rfl⟩
        | none =>
          have := List.find?_eq_none.mp hf _ (cache_last h3)
          rw [h6] at this
          exact absurd rfl this
      obtain ⟨p', hp'⟩ := hsome
      refine ⟨p', ?_, by rw [findSymbols, hp']⟩
      have h7 := List.find?_some hp'
      have h8 := List.mem_of_find?_eq_some hp'
      by_cases he : p'.place cwd = (cacheFile q.cache id).place cwd
      · exact he
      · rw [fetch_other net cwd _ id services fs _ he, h1 p' h8] at h7
        cases h7

theorem cacheFile_parts {cache id : Str} (h1 : IsName (id.take 2)) (h2 : IsName (id.drop 2)) (hd : '.' ∉ id) :
    (cacheFile cache id).parts = pathParts cache ++ [".build-id".toList] ++ [id.take 2] ++ [id.drop 2 ++ ".debug".toList] := by
  show withDebug _ = _
  rw [pyJoin_name h1, pyJoin_name h2, withDebug_append, pyStem_plain (fun h => hd (List.mem_of_mem_drop h))]

/-- C127: files of different identifiers have different places in the cache; identifiers consist of at least three hexadecimal digits. -/
theorem C127_distinct (cwd : PyPath) (cache id id' : Str) (h : ∀ i ∈ [id, id'], 3 ≤ i.length ∧ ∀ c ∈ i, c ∈ "0123456789abcdef".toList)
    (he : (cacheFile cache id).place cwd = (cacheFile cache id').place cwd) : id = id' := by
  have key : ∀ i ∈ [id, id'], IsName (i.take 2) ∧ IsName (i.drop 2) ∧ '.' ∉ i := by
    intro i hi
    obtain ⟨h1, h2⟩ := h i hi
    have hs : '/' ∉ i := fun hm => absurd (h2 _ hm) (by decide)
    have hd : '.' ∉ i := fun hm => absurd (h2 _ hm) (by decide)
    refine ⟨⟨?_, fun hm => hs (List.mem_of_mem_take hm), fun e => hd ?_⟩, ⟨?_, fun hm => hs (List.mem_of_mem_drop hm), fun e => hd ?_⟩, hd⟩
    · intro e
      have := congrArg List.length e
      rw [List.length_take, List.length_nil] at this
      omega
    · exact List.mem_of_mem_take (i := 2) (by rw [e]; exact List.mem_cons_self)
    · intro e
      have := congrArg List.length e
      rw [List.length_drop, List.length_nil] at this
      omega
    · exact List.mem_of_mem_drop (i := 2) (by rw [e]; exact List.mem_cons_self)
  obtain ⟨a1, a2, a3⟩ := key id List.mem_cons_self
  obtain ⟨b1, b2, b3⟩ := key id' (List.mem_cons_of_mem _ List.mem_cons_self)
  have hp : (cacheFile cache id).parts = (cacheFile cache id').parts := by
    unfold SymPath.place at he
    have hab : (cacheFile cache id).absolute = (cacheFile cache id').absolute := rfl
    rw [hab] at he
    split at he
    · exact he
    · exact List.append_cancel_left he
  rw [cacheFile_parts a1 a2 a3, cacheFile_parts b1 b2 b3] at hp
  obtain ⟨hp1, hp2⟩ := List.append_inj' hp rfl
  obtain ⟨_, hp3⟩ := List.append_inj' hp1 rfl
  have e1 : id.take 2 = id'.take 2 := List.singleton_inj.mp hp3
  have e2 : id.drop 2 = id'.drop 2 := List.append_cancel_right (List.singleton_inj.mp hp2)
  rw [← List.take_append_drop 2 id, e1, e2, List.take_append_drop]

/-! ### Examples -/

def dlQuery : SymQuery where
  root := []
  parent := ["usr".toList, "bin".toList]
  name := "tool".toList
  link := none
  buildid := some "0123456789abcdef0123456789abcdef01234567".toList

def dlUrl (service : String) : Str := requestUrl service.toList "0123456789abcdef0123456789abcdef01234567".toList

/-- The first service fails, the connection to the second one is lost, the third one delivers the file. -/
def dlNet (u : Str) : Answer :=
  if u = dlUrl "https://debuginfod.ubuntu.com" then .broken "ELF".toList
  else if u = dlUrl "https://debuginfod.elfutils.org/" then .full "ELF and more".toList
  else .failed

def dlCwd : PyPath := ["home".toList]

def dlCache : PyPath := ["home".toList, ".debug-cache".toList, ".build-id".toList, "01".toList, "23456789abcdef0123456789abcdef01234567.debug".toList]

example : (findSymbols dlNet dlCwd dlQuery true (fun _ => none)).path.map (fun p => p.place dlCwd) = some dlCache ∧
    (findSymbols dlNet dlCwd dlQuery true (fun _ => none)).asked.length = 3 ∧
    (findSymbols dlNet dlCwd dlQuery true (fun _ => none)).files dlCache = some "ELF and more".toList := by
  decide +kernel

/-- The second search needs no service. -/
example : ∃ p p', (findSymbols dlNet dlCwd dlQuery true (fun _ => none)).path = some p ∧ p'.place dlCwd = p.place dlCwd ∧
    (findSymbols (fun _ => .failed) dlCwd dlQuery false (findSymbols dlNet dlCwd dlQuery true (fun _ => none)).files).path = some p' := by
  obtain ⟨p, hp⟩ : ∃ p, (findSymbols dlNet dlCwd dlQuery true (fun _ => none)).path = some p := by
    refine Option.isSome_iff_exists.mp ?_
    decide +kernel
  obtain ⟨p', h1, h2⟩ := C127_again dlNet (fun _ => .failed) dlCwd dlQuery true false (fun _ => none) p hp
  exact ⟨p, p', hp, h1, by rw [h2]⟩

example : ∀ i ∈ ["0123".toList, "0124".toList], 3 ≤ i.length ∧ ∀ c ∈ i, c ∈ "0123456789abcdef".toList := by decide

/-- C127 does not hold in general: what was received from services whose connections were lost stays in the cache and is delivered by the next search, although
no service ever gave the file. -/
theorem C127_broken_counterexample : ∃ (net : Str → Answer) (fs : FileSys) (p : SymPath), (∀ u data, net u ≠ .full data) ∧ (∀ r, fs r = none) ∧
    (findSymbols net dlCwd dlQuery true fs).path = none ∧
    (findSymbols net dlCwd dlQuery false (findSymbols net dlCwd dlQuery true fs).files).path = some p ∧
    (findSymbols net dlCwd dlQuery true fs).files (p.place dlCwd) = some "ELF".toList := by
  refine ⟨fun _ => .broken "ELF".toList, fun _ => none, cacheFile ".debug-cache".toList "0123456789abcdef0123456789abcdef01234567".toList,
    fun u data h => (by cases h), fun _ => rfl, ?_, ?_, ?_⟩
  · decide +kernel
  · decide +kernel
  · decide +kernel

/-- C127 does not hold in general: every downloaded file makes the summary of variables fail, whatever the base directory is. -/
theorem C127_summary_counterexample (net : Str → Answer) (cwd root : PyPath) (q : SymQuery) (online : Bool) (fs : FileSys) (p : SymPath)
    (hc : q.cache = ".debug-cache".toList) (ha : (findSymbols net cwd q online fs).asked ≠ [])
    (h : (findSymbols net cwd q online fs).path = some p) : debugMember root p = none := by
  rcases find_cases net cwd q online fs with ⟨p1, h1, h2⟩ | ⟨h1, ⟨h2, _⟩ | ⟨id, h3, h4, h2⟩⟩
  · rw [h2] at ha; exact absurd rfl ha
  · rw [h2] at ha; exact absurd rfl ha
  · rw [h2] at h
    rcases fetch_spec net cwd (cacheFile q.cache id) id services fs with ⟨h5, _⟩ | ⟨_, _, _, data, _, _, _, h5, _, h6⟩
    · rw [h5] at h; cases h
    · rw [h5] at h
      cases h
      rw [debugMember, if_neg]
      show ¬ decide (q.cache.head? = some '/') = true
      rw [hc]
      decide

/-- C127 does not hold in general: the last service is asked with two slashes behind the name of the server. -/
theorem C127_url_counterexample : ∃ u ∈ (findSymbols (fun _ => .failed) dlCwd dlQuery true (fun _ => none)).asked,
    ¬ DocumentedUrl "0123456789abcdef0123456789abcdef01234567".toList u := by
  refine ⟨dlUrl "https://debuginfod.elfutils.org/", by decide +kernel, ?_⟩
  rintro ⟨server, h1, h2⟩
  unfold dlUrl requestUrl at h2
  have h3 := List.append_cancel_right (List.append_cancel_right (List.append_cancel_right h2))
  have h4 : "https://debuginfod.elfutils.org/".toList = "https://".toList ++ "debuginfod.elfutils.org/".toList := by decide
  rw [h4] at h3
  rw [← List.append_cancel_left h3] at h1
  exact h1 (by decide)

end Bean.Props

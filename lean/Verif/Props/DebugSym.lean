import Verif.Spec.DebugSym
import Verif.Props.BuildId
/-
Property theorems C49, C50 and C74: search for debug symbols.
-/
namespace Bean
open Spec

theorem slashes_cons (root p : Str) (ps : List Str) : slashes root (p :: ps) = slashes (root ++ '/' :: p) ps := rfl
theorem slashes_nil (root : Str) : slashes root [] = root := rfl

theorem tryPaths_nil_some {fs : Fs} {l : List Str} (hl : ∀ p ∈ l, p.length ≤ 4096) {p : Str} :
    (tryPaths fs [] l).1 = some p ↔ FirstIn fs.exists_ l p := by
  induction l with
  | nil =>
    constructor
    · intro h; cases h
    · rintro ⟨pre, post, h, _⟩
      cases pre <;> cases h
  | cons q rest ih =>
    have hq : ([] ++ q).take PATH_MAX = q := List.take_of_length_le (hl q List.mem_cons_self)
    simp only [tryPaths]
    rw [hq]
    by_cases he : fs.exists_ q = true
    · rw [if_pos he]
      constructor
      · intro h
        cases h
        exact ⟨[], rest, rfl, he, fun _ h => (by cases h)⟩
      · rintro ⟨pre, post, h1, h2, h3⟩
        cases pre with
        | nil => injection h1 with h1 _; rw [h1]
        | cons x xs =>
          injection h1 with h1 _
          have := h3 x List.mem_cons_self
          rw [← h1, he] at this
          cases this
    · rw [if_neg he, ih (fun p hp => hl p (List.mem_cons_of_mem _ hp))]
      have he' : fs.exists_ q = false := by simpa using he
      constructor
      · rintro ⟨pre, post, h1, h2, h3⟩
        exact ⟨q :: pre, post, by rw [h1]; rfl, h2,
          fun x hx => (List.mem_cons.mp hx).elim (fun e => e ▸ he') (h3 x)⟩
      · rintro ⟨pre, post, h1, h2, h3⟩
        cases pre with
        | nil => injection h1 with h1 _; rw [h1] at he; exact absurd h2 he
        | cons x xs =>
          injection h1 with _ h1
          exact ⟨xs, post, h1, h2, fun y hy => h3 y (List.mem_cons_of_mem _ hy)⟩

theorem tryPaths_none {fs : Fs} {l : List Str} (hl : ∀ p ∈ l, p.length ≤ 4096) :
    ((tryPaths fs [] l).1 = none ↔ ∀ p ∈ l, fs.exists_ p = false) ∧ ((tryPaths fs [] l).1 = none → (tryPaths fs [] l).2 = []) := by
  induction l with
  | nil => exact ⟨⟨fun _ _ h => (by cases h), fun _ => rfl⟩, fun _ => rfl⟩
  | cons q rest ih =>
    obtain ⟨i1, i2⟩ := ih (fun p hp => hl p (List.mem_cons_of_mem _ hp))
    have hq : ([] ++ q).take PATH_MAX = q := List.take_of_length_le (hl q List.mem_cons_self)
    simp only [tryPaths]
    rw [hq]
    by_cases he : fs.exists_ q = true
    · rw [if_pos he]
      refine ⟨⟨fun h => (by cases h), fun h => ?_⟩, fun h => (by cases h)⟩
      rw [h q List.mem_cons_self] at he
      cases he
    · rw [if_neg he]
      refine ⟨i1.trans ⟨fun h p hp => (List.mem_cons.mp hp).elim (fun e => e ▸ (by simpa using he)) (h p),
        fun h p hp => h p (List.mem_cons_of_mem _ hp)⟩, i2⟩

theorem cString_eq {id rest : Str} (h : '\x00' ∉ id) : cString (id ++ '\x00' :: rest) = id :=
  cText_append (fun _ hc e => h (e ▸ hc))

theorem buildIdPaths_text {root value id : Str} (h : HasText value id) (h1 : id.length ≠ 1) :
    buildIdPaths root value = if id = [] then [] else
      [root ++ "/usr/lib/debug/".toList ++ ".build-id/".toList ++ id.take 2 ++ '/' :: id.drop 2 ++ ".debug".toList] := by
  obtain ⟨rest, rfl, hz⟩ := h
  unfold buildIdPaths available
  match id, h1, hz with
  | [], _, _ => rfl
  | [_], h1, _ => exact absurd rfl h1
  | x :: y :: r, _, hz =>
    have hx : x ≠ '\x00' := fun e => hz (e ▸ List.mem_cons_self)
    have hr : '\x00' ∉ r := fun e => hz (List.mem_cons_of_mem _ (List.mem_cons_of_mem _ e))
    have c : ((x :: y :: r ++ '\x00' :: rest).head? != some '\x00') = true := by simpa using hx
    rw [if_pos c, if_neg (by simp)]
    have hd : (x :: y :: r ++ '\x00' :: rest).drop 2 = r ++ '\x00' :: rest := rfl
    rw [hd, cString_eq hr]
    show [slashes root _] = _
    simp [slashes]

/-- The places of the code are the documented ones. -/
theorem paths_places {root dir file value id : Str} {link : Option Str} (h : HasText value id) (h1 : id.length ≠ 1) :
    linkPaths root dir link ++ buildIdPaths root value ++ defaultPaths root dir file = places root dir file link id := by
  rw [buildIdPaths_text h h1]
  unfold places
  cases link <;> simp [linkPaths, defaultPaths, debugDirs, slashes]

/-- C49: the search delivers the first file that exists in the documented order of places, and nothing if none of them
exists. Then a further search is possible. -/
theorem C49_first (fs : Fs) (ds : DebugSymbol) (hs : ds.stream = []) (dir file : Str) (hd : ds.dir = some dir)
    (hf : ds.file = some file) (link : Option Str) (value id : Str) (hid : HasText value id) (hlen : id.length ≠ 1)
    (hmax : ∀ p ∈ places ds.root dir file link id, p.length ≤ 4096) :
    (∀ p, (debugFind fs ds link value).1 = some p ↔ FirstIn fs.exists_ (places ds.root dir file link id) p) ∧
    ((debugFind fs ds link value).1 = none ↔ ∀ p ∈ places ds.root dir file link id, fs.exists_ p = false) ∧
    ((debugFind fs ds link value).1 = none → (debugFind fs ds link value).2 = ds) := by
  have e : debugFind fs ds link value =
      ((tryPaths fs [] (places ds.root dir file link id)).1,
       { ds with stream := (tryPaths fs [] (places ds.root dir file link id)).2 }) := by
    unfold debugFind
    rw [hd, hf, hs]
    simp only
    rw [paths_places hid hlen]
  rw [e]
  obtain ⟨t1, t2⟩ := tryPaths_none (fs := fs) hmax
  refine ⟨fun p => tryPaths_nil_some hmax, t1, fun h => ?_⟩
  show ({ ds with stream := _ } : DebugSymbol) = ds
  rw [t2 h]
  cases ds
  cases hs
  rfl

/-- A file system with these files. -/
def exFs (files : List String) : Fs where
  absolute := fun p => some p
  isDir := fun _ => true
  exists_ := fun p => decide (String.ofList p ∈ files)

/-- The search for the library `/lib/libx.so`. -/
def exDs : DebugSymbol where
  dir := some "lib".toList
  file := some "libx.so".toList

/-- The buffer of the identifier `0aff`. -/
def exId : Str := "0aff".toList ++ List.replicate 37 '\x00'

theorem exId_text : HasText exId "0aff".toList := ⟨List.replicate 36 '\x00', by decide, by decide⟩

/-- The debug link is preferred to the build identifier. -/
example : (debugFind (exFs ["/usr/lib/debug/.build-id/0a/ff.debug", "/lib/.debug/x.dbg"]) exDs (some "x.dbg".toList) exId).1 =
    some "/lib/.debug/x.dbg".toList :=
  ((C49_first _ exDs rfl _ _ rfl rfl (some "x.dbg".toList) exId _ exId_text (by decide) (by decide)).1 _).mpr
    ⟨["/lib/x.dbg".toList], _, rfl, by decide, by decide⟩

/-- C49: the stream is not emptied after a successful search, therefore the same search fails afterwards although the file
still exists: the first place is appended to the previous result. -/
theorem C49_again :
    let fs := exFs ["/lib/x.dbg"]
    (debugFind fs exDs (some "x.dbg".toList) exId).1 = some "/lib/x.dbg".toList ∧
    (debugFind fs (debugFind fs exDs (some "x.dbg".toList) exId).2 (some "x.dbg".toList) exId).1 = none := by
  decide +kernel

theorem hasDebug_iff {sec : DbgSec} : HasDebug sec ↔ sec.name.take 7 = ".debug_".toList := by
  constructor
  · rintro ⟨rest, h⟩
    rw [h]
    rfl
  · intro h
    exact ⟨sec.name.drop 7, by rw [← h]; exact (List.take_append_drop 7 sec.name).symm⟩

theorem link_not_debug {sec : DbgSec} (h : sec.name = ".gnu_debuglink".toList) : ¬ HasDebug sec := by
  rw [hasDebug_iff, h]
  decide

/-- Sections without debug information. -/
theorem debugSections_plain {fs : Fs} {ds : DebugSymbol} {secs : List DbgSec} (h : ∀ s ∈ secs, ¬ HasDebug s) (l0 : Option Str) :
    ∃ link, debugSections fs ds l0 secs = .ok (none, link, ds) ∧
      ((∀ s ∈ secs, s.name ≠ ".gnu_debuglink".toList) ∧ link = l0 ∨ link ≠ none ∧ LinkOf secs link) := by
  induction secs generalizing l0 with
  | nil => exact ⟨l0, rfl, Or.inl ⟨fun _ h => (by cases h), rfl⟩⟩
  | cons s rest ih =>
    simp only [debugSections]
    have hr : ∀ x ∈ rest, ¬ HasDebug x := fun x hx => h x (List.mem_cons_of_mem _ hx)
    by_cases hl : s.name = ".gnu_debuglink".toList
    · rw [if_pos hl]
      obtain ⟨link, e, h2⟩ := ih hr (some (cString s.data))
      refine ⟨link, e, Or.inr ?_⟩
      rcases h2 with ⟨h2, rfl⟩ | ⟨h2, h3⟩
      · exact ⟨fun h => (by cases h), [], s, rest, rfl, hl, rfl, h2⟩
      · refine ⟨h2, ?_⟩
        cases link with
        | none => exact absurd rfl h2
        | some l =>
          obtain ⟨pre, q, post, e1, e2, e3, e4⟩ := h3
          exact ⟨s :: pre, q, post, by rw [e1]; rfl, e2, e3, e4⟩
    · rw [if_neg hl, if_neg (fun e => h s List.mem_cons_self (hasDebug_iff.mpr e))]
      obtain ⟨link, e, h2⟩ := ih hr l0
      refine ⟨link, e, ?_⟩
      rcases h2 with ⟨h2, rfl⟩ | ⟨h2, h3⟩
      · exact Or.inl ⟨fun x hx => (List.mem_cons.mp hx).elim (fun e => e ▸ hl) (h2 x), rfl⟩
      · refine Or.inr ⟨h2, ?_⟩
        cases link with
        | none => exact absurd rfl h2
        | some l =>
          obtain ⟨pre, q, post, e1, e2, e3, e4⟩ := h3
          exact ⟨s :: pre, q, post, by rw [e1]; rfl, e2, e3, e4⟩

/-- A section with debug information. -/
theorem debugSections_self {fs : Fs} {ds : DebugSymbol} (hs : ds.stream = []) {dir file : Str} (hd : ds.dir = some dir)
    (hf : ds.file = some file) (hlen : (ds.root ++ '/' :: dir ++ '/' :: file).length ≤ 4096)
    (hex : fs.exists_ (ds.root ++ '/' :: dir ++ '/' :: file) = true) {secs : List DbgSec} (h : ∃ s ∈ secs, HasDebug s)
    (l0 : Option Str) :
    ∃ link ds', debugSections fs ds l0 secs = .ok (some (ds.root ++ '/' :: dir ++ '/' :: file), link, ds') := by
  induction secs generalizing l0 with
  | nil => obtain ⟨_, h, _⟩ := h; cases h
  | cons s rest ih =>
    simp only [debugSections]
    have rest_of : ¬ HasDebug s → ∃ x ∈ rest, HasDebug x := by
      intro hn
      obtain ⟨x, hx, hd⟩ := h
      rcases List.mem_cons.mp hx with rfl | hx
      · exact absurd hd hn
      · exact ⟨x, hx, hd⟩
    by_cases hl : s.name = ".gnu_debuglink".toList
    · rw [if_pos hl]
      exact ih (rest_of (link_not_debug hl)) _
    · rw [if_neg hl]
      by_cases hb : s.name.take 7 = ".debug_".toList
      · rw [if_pos hb, hd, hf, hs]
        have e : (([] : Str) ++ [] ++ slashes ds.root [dir, file]).take PATH_MAX = ds.root ++ '/' :: dir ++ '/' :: file :=
          List.take_of_length_le hlen
        simp only
        rw [e, if_pos hex]
        exact ⟨_, _, rfl⟩
      · rw [if_neg hb]
        exact ih (rest_of (fun hd => hb (hasDebug_iff.mp hd))) _

/-- C49: the search for the debug symbols of a binary delivers the binary itself if it contains debug information, and
otherwise the first existing place for its (last) debug link and its build identifier. -/
theorem C49_binary (b : Build) (junk : Str) (fs : Fs) (ds : DebugSymbol) (hs : ds.stream = []) (dir file : Str)
    (hd : ds.dir = some dir) (hf : ds.file = some file) (hlen : (ds.root ++ '/' :: dir ++ '/' :: file).length ≤ 4096)
    (hex : fs.exists_ (ds.root ++ '/' :: dir ++ '/' :: file) = true) (secs : List DbgSec) :
    ((∃ s ∈ secs, HasDebug s) → ∃ ds', debugFindElf b junk fs ds true secs =
      .ok (some (ds.root ++ '/' :: dir ++ '/' :: file), ds')) ∧
    ((∀ s ∈ secs, ¬ HasDebug s) → ∀ value, buildIdOf b junk (some (secs.map (·.notes))) = .ok value →
      ∃ link, LinkOf secs link ∧ debugFindElf b junk fs ds true secs = .ok (debugFind fs ds link value)) := by
  constructor
  · intro h
    obtain ⟨link, ds', e⟩ := debugSections_self hs hd hf hlen hex h none
    refine ⟨ds', ?_⟩
    unfold debugFindElf
    rw [if_pos rfl, e]
    rfl
  · intro h value hv
    obtain ⟨link, e, h2⟩ := debugSections_plain (fs := fs) (ds := ds) h none
    refine ⟨link, ?_, ?_⟩
    · rcases h2 with ⟨h2, rfl⟩ | ⟨_, h2⟩
      · exact h2
      · exact h2
    · unfold debugFindElf
      rw [if_pos rfl, e]
      simp only [bind, Except.bind]
      rw [hv]
      rfl

/-- The sections of a binary with a debug link and perhaps debug information. -/
def exDbg (name : String) : List DbgSec :=
  [{ name := ".gnu_debuglink".toList, data := "x.dbg".toList ++ ['\x00', 'y'], notes := { isNote := false, notes := [] } },
   { name := name.toList, data := [], notes := { isNote := false, notes := [] } }]

example : ∃ ds', debugFindElf .debug exId (exFs ["/lib/libx.so", "/lib/x.dbg"]) exDs true (exDbg ".debug_info") =
    .ok (some "/lib/libx.so".toList, ds') :=
  (C49_binary .debug exId (exFs ["/lib/libx.so", "/lib/x.dbg"]) exDs rfl _ _ rfl rfl (by decide) (by decide)
    (exDbg ".debug_info")).1 ⟨_, List.mem_cons_of_mem _ List.mem_cons_self, "info".toList, rfl⟩

/-! C50: comparison with tools/dbgsym.py -/

theorem splitSlash_ne (s : Str) : splitSlash s ≠ [] := by
  cases s with
  | nil => simp [splitSlash]
  | cons c r =>
    simp only [splitSlash]
    split
    · simp
    · split <;> simp

theorem splitSlash_append (a b : Str) : splitSlash (a ++ '/' :: b) = splitSlash a ++ splitSlash b := by
  induction a with
  | nil => simp [splitSlash]
  | cons c r ih =>
    rw [List.cons_append]
    simp only [splitSlash]
    rw [ih]
    split
    · rfl
    · cases hs : splitSlash r with
      | nil => exact absurd hs (splitSlash_ne r)
      | cons p ps => rfl

theorem splitSlash_name {s : Str} (h : '/' ∉ s) : splitSlash s = [s] := by
  induction s with
  | nil => rfl
  | cons c r ih =>
    simp only [splitSlash]
    rw [if_neg (fun e : c = '/' => h (e ▸ List.mem_cons_self)), ih (fun e => h (List.mem_cons_of_mem _ e))]

theorem pathParts_append (a b : Str) : pathParts (a ++ '/' :: b) = pathParts a ++ pathParts b := by
  unfold pathParts
  rw [splitSlash_append, List.filter_append]

theorem pathParts_name {s : Str} (h : IsName s) : pathParts s = [s] := by
  unfold pathParts
  rw [splitSlash_name h.2.1]
  have : (s != [] && s != ['.']) = true := by
    have h1 := h.1
    have h2 := h.2.2
    simp [h1, h2]
  rw [List.filter_cons, if_pos this, List.filter_nil]

theorem pathParts_slashes (root : Str) (ps : List Str) :
    pathParts (slashes root ps) = pathParts root ++ ps.flatMap pathParts := by
  induction ps generalizing root with
  | nil => rw [slashes_nil, List.flatMap_nil, List.append_nil]
  | cons p ps ih => rw [slashes_cons, ih, pathParts_append, List.flatMap_cons, List.append_assoc]

theorem pyJoin_name {p : PyPath} {s : Str} (h : IsName s) : pyJoin p s = p ++ [s] := by
  unfold pyJoin
  rw [if_neg, pathParts_name h]
  intro e
  cases s with
  | nil => cases e
  | cons c r =>
    have e : c = '/' := Option.some.inj e
    exact h.2.1 (e ▸ List.mem_cons_self)

theorem pyStem_plain {n : Str} (h : '.' ∉ n) : pyStem n = n := by
  unfold pyStem
  simp only
  rw [if_neg (fun c => h c.2.2)]

theorem withDebug_append (l : PyPath) (n : Str) : withDebug (l ++ [n]) = l ++ [pyStem n ++ ".debug".toList] := by
  induction l with
  | nil => rfl
  | cons p l ih =>
    cases l with
    | nil => rfl
    | cons q l =>
      show p :: withDebug (q :: l ++ [n]) = _
      rw [ih]
      rfl

theorem isName_debug {n : Str} (h : '/' ∉ n) : IsName (n ++ ".debug".toList) := by
  refine ⟨by simp, ?_, ?_⟩
  · intro e
    rcases List.mem_append.mp e with e | e
    · exact h e
    · exact absurd e (by decide)
  · intro e
    have := congrArg List.length e
    simp at this

theorem places_parts {root dir file id : Str} {link : Option Str} (hid : id.length ≠ 1) (hz : '\x00' ∉ id) :
    places root dir file link id =
      linkPaths root dir link ++ (if id = [] then [] else
        [slashes root ["usr/lib/debug".toList, ".build-id".toList, id.take 2, id.drop 2 ++ ".debug".toList]]) ++
        defaultPaths root dir file := by
  rw [← paths_places (value := id ++ '\x00' :: []) ⟨[], rfl, hz⟩ hid, buildIdPaths_text ⟨[], rfl, hz⟩ hid]
  congr 2
  split
  · rfl
  · simp [slashes]

/-- C50: the library and the tool look for debug symbols at the same places in the same order, if the name of the file has no
dot and there is no debug link or the file is in the root directory. The identifier has more than two digits. -/
theorem C50_agree_partial (root dir file : Str) (link : Option Str) (id : Str) (hfile : IsName file) (hdot : '.' ∉ file)
    (hid : id = [] ∨ (3 ≤ id.length ∧ '.' ∉ id ∧ '/' ∉ id ∧ '\x00' ∉ id)) (hlink : ∀ l, link = some l → IsName l ∧ dir = []) :
    (places root dir file link id).map pathParts =
      pyPaths (pathParts root) (pathParts dir) file link (if id = [] then none else some id) := by
  have hz : '\x00' ∉ id := by
    rcases hid with rfl | h
    · exact List.not_mem_nil
    · exact h.2.2.2
  have hl1 : id.length ≠ 1 := by
    rcases hid with rfl | h
    · decide
    · omega
  have hfd := isName_debug hfile.2.1
  have hdbg : IsName ".debug".toList := by unfold IsName; decide
  have hpd : pathParts ".debug".toList = [".debug".toList] := pathParts_name hdbg
  have hpb : pathParts ".build-id".toList = [".build-id".toList] := pathParts_name (by unfold IsName; decide)
  have e1 : (linkPaths root dir link).map pathParts = pyLink (pathParts root) (pathParts dir) link := by
    cases link with
    | none => rfl
    | some l =>
      obtain ⟨hl, rfl⟩ := hlink l rfl
      have e0 : pathParts [] = [] := rfl
      simp only [linkPaths, pyLink, debugDirs, List.map_cons, List.map_nil, List.map_append, pathParts_slashes,
        List.flatMap_cons, List.flatMap_nil, pathParts_name hl, hpd, pyJoin_name hl, e0, List.nil_append, List.append_nil,
        List.append_assoc]
  have e3 : (defaultPaths root dir file).map pathParts =
      [withDebug (pathParts root ++ pathParts dir ++ [file]),
        withDebug (pathParts root ++ pathParts dir ++ [".debug".toList] ++ [file])] ++
      debugDirs.map (fun d => withDebug (pathParts root ++ pathParts d ++ pathParts dir ++ [file])) ++
      [pathParts root ++ pathParts dir ++ [".debug".toList] ++ [file]] ++
      debugDirs.map (fun d => pathParts root ++ pathParts d ++ pathParts dir ++ [file]) := by
    simp only [withDebug_append, pyStem_plain hdot]
    simp only [defaultPaths, debugDirs, List.map_cons, List.map_nil, List.map_append, pathParts_slashes, List.flatMap_cons,
        List.flatMap_nil, pathParts_name hfile, pathParts_name hfd, hpd, List.append_nil, List.append_assoc]
  rw [places_parts hl1 hz, List.map_append, List.map_append, e1, e3]
  unfold pyPaths
  congr 2
  rcases hid with rfl | ⟨h3, hd, hs, _⟩
  · rfl
  · have hne : id ≠ [] := by rintro rfl; simp at h3
    rw [if_neg hne, if_neg hne]
    match id, h3, hd, hs with
    | x :: y :: z :: r, _, hd, hs =>
      have n1 : IsName [x, y] := by
        refine ⟨by simp, fun e => hs ?_, by simp⟩
        rcases List.mem_cons.mp e with rfl | e
        · exact List.mem_cons_self
        · rw [List.mem_singleton.mp e]
          exact List.mem_cons_of_mem _ List.mem_cons_self
      have hs2 : '/' ∉ z :: r := fun e => hs (List.mem_cons_of_mem _ (List.mem_cons_of_mem _ e))
      have hd2 : '.' ∉ z :: r := fun e => hd (List.mem_cons_of_mem _ (List.mem_cons_of_mem _ e))
      have n2 : IsName (z :: r) := ⟨by simp, hs2, fun e => hd2 (by rw [e]; exact List.mem_cons_self)⟩
      have t : (x :: y :: z :: r).take 2 = [x, y] := rfl
      have d : (x :: y :: z :: r).drop 2 = z :: r := rfl
      simp only [pyBuildId, debugDirs, List.map_cons, List.map_nil, t, d, pyJoin_name n1, pyJoin_name n2, withDebug_append,
        pyStem_plain hd2]
      simp only [pathParts_slashes, List.flatMap_cons, List.flatMap_nil, pathParts_name n1, pathParts_name (isName_debug hs2),
        hpb, List.append_nil, List.append_assoc]

example : (places "/srv".toList "lib".toList "ld".toList none "0aff".toList).map pathParts =
    pyPaths ["srv".toList] ["lib".toList] "ld".toList none (some "0aff".toList) :=
  C50_agree_partial "/srv".toList "lib".toList "ld".toList none "0aff".toList (by unfold IsName; decide) (by decide)
    (Or.inr (by decide)) (fun _ h => by cases h)

/-- C50: the debug link below the global directory is not found by the library, since the slash behind the directory is
missing, but by the tool. -/
theorem C50_link :
    (debugFind (exFs ["/usr/lib/debug/lib/x.dbg"]) exDs (some "x.dbg".toList) exId).1 = none ∧
    pyFind (fun p => p == pathParts "/usr/lib/debug/lib/x.dbg".toList) [] ["lib".toList] "libx.so".toList (some "x.dbg".toList)
      (some "0aff".toList) = some (pathParts "/usr/lib/debug/lib/x.dbg".toList) := by
  decide +kernel

/-- C50: instead, the library takes a file of another directory. -/
theorem C50_wrong_file :
    (debugFind (exFs ["/usr/lib/debug/lib/x.dbg", "/usr/lib/debug/libx.dbg"]) exDs (some "x.dbg".toList) exId).1 =
      some "/usr/lib/debug/libx.dbg".toList := by
  decide +kernel

/-- C50: the tool replaces the suffix of the name, the library appends one: the debug symbols `libx.so.debug` are found by
the library only. -/
theorem C50_suffix :
    (debugFind (exFs ["/lib/libx.so.debug"]) exDs none exId).1 = some "/lib/libx.so.debug".toList ∧
    pyFind (fun p => p == pathParts "/lib/libx.so.debug".toList) [] ["lib".toList] "libx.so".toList none
      (some "0aff".toList) = none := by
  decide +kernel

/-! C74 -/

/-- C74: the root directory is the given one without the slashes at its end, so no path below it has a double slash there. What is
not a directory is ignored. -/
theorem C74_root (fs : Fs) (r p : Str) (hr : r ≠ []) (hs : r ≠ ['/']) (habs : fs.absolute r = some p) :
    (fs.isDir p = true → (∃ n, p = debugRoot fs (some r) ++ List.replicate n '/') ∧ (debugRoot fs (some r)).getLast? ≠ some '/') ∧
    (fs.isDir p = false → debugRoot fs (some r) = []) := by
  have e : debugRoot fs (some r) = if fs.isDir p then stripEnd p else [] := by
    unfold debugRoot
    simp only [habs]
    rw [if_neg (by rintro (h | h) <;> contradiction)]
  constructor
  · intro hd
    rw [e, if_pos hd]
    unfold stripEnd
    constructor
    · refine ⟨(p.reverse.takeWhile (· == '/')).length, ?_⟩
      have h1 : p.reverse.takeWhile (· == '/') = List.replicate (p.reverse.takeWhile (· == '/')).length '/' := by
        refine List.eq_replicate_iff.mpr ⟨rfl, fun b hb => ?_⟩
        exact eq_of_beq (List.all_eq_true.mp (List.all_takeWhile (l := p.reverse) (p := (· == '/'))) b hb)
      have h2 := congrArg List.reverse (List.takeWhile_append_dropWhile (p := (· == '/')) (l := p.reverse))
      rw [List.reverse_append, List.reverse_reverse, h1, List.reverse_replicate] at h2
      exact h2.symm
    · rw [List.getLast?_reverse]
      intro h
      have := List.head?_dropWhile_not (· == '/') p.reverse
      rw [h] at this
      exact absurd this (by decide)
  · intro hd
    rw [e, hd]
    rfl

example : debugRoot (exFs []) (some "/srv/a//".toList) = "/srv/a".toList := by
  decide +kernel

theorem takeWhile_name {f rest : Str} (h : '/' ∉ f) : (f ++ '/' :: rest).takeWhile (· != '/') = f := by
  induction f with
  | nil => rfl
  | cons c f ih =>
    have hc : (c != '/') = true := by
      have : c ≠ '/' := fun e => h (e ▸ List.mem_cons_self)
      simpa using this
    rw [List.cons_append, List.takeWhile_cons, if_pos hc, ih (fun e => h (List.mem_cons_of_mem _ e))]

theorem pathSplit_eq {d f : Str} (h : '/' ∉ f) : pathSplit (d ++ '/' :: f) = (d, f) := by
  have hr : (d ++ '/' :: f).reverse = f.reverse ++ '/' :: d.reverse := by simp
  have hf : '/' ∉ f.reverse := fun e => h (List.mem_reverse.mp e)
  unfold pathSplit
  rw [hr, takeWhile_name hf]
  simp only [List.reverse_reverse]
  have : (d ++ '/' :: f).length - f.length - 1 = d.length := by
    rw [List.length_append, List.length_cons]
    omega
  rw [this, List.take_left]

theorem pathParts_dropSlash (s : Str) : pathParts (s.dropWhile (· == '/')) = pathParts s := by
  induction s with
  | nil => rfl
  | cons c s ih =>
    rw [List.dropWhile_cons]
    split
    · rename_i hc
      have : c = '/' := by simpa using hc
      subst this
      rw [ih]
      have := pathParts_append [] s
      rw [List.nil_append] at this
      rw [this]
      rfl
    · rfl

theorem relativeDir_below {root d : Str} (h : Below root d) : pathParts (root ++ '/' :: relativeDir root d) = pathParts d := by
  unfold relativeDir
  have ht : d.take root.length = root := by
    rcases h with rfl | ⟨rel, rfl⟩
    · exact List.take_length
    · exact List.take_left
  simp only
  rw [if_pos ht, pathParts_append, pathParts_dropSlash]
  rcases h with rfl | ⟨rel, rfl⟩
  · rw [List.drop_length]
    exact List.append_nil _
  · rw [List.drop_left, pathParts_append]
    have := pathParts_append [] rel
    rw [List.nil_append] at this
    rw [this]
    rfl

/-- C74: debug symbols of a file below the root directory are looked for in the directory of the file. -/
theorem C74_directory_partial (fs : Fs) (path : Str) (root : Option Str) (d f : Str) (hp : path ≠ [])
    (habs : fs.absolute path = some (d ++ '/' :: f)) (hex : fs.exists_ (d ++ '/' :: f) = true) (hf : '/' ∉ f)
    (hb : Below (debugRoot fs root) d) :
    ∃ dir, (debugSymbol fs (some path) root).dir = some dir ∧ (debugSymbol fs (some path) root).file = some f ∧
      (debugSymbol fs (some path) root).root = debugRoot fs root ∧
      pathParts (debugRoot fs root ++ '/' :: dir) = pathParts d := by
  refine ⟨relativeDir (debugRoot fs root) d, ?_⟩
  unfold debugSymbol
  simp only
  rw [if_neg hp, habs]
  simp only
  rw [if_pos hex, pathSplit_eq hf]
  exact ⟨rfl, rfl, rfl, relativeDir_below hb⟩

example : ∃ dir, (debugSymbol (exFs ["/srv/a/lib/x"]) (some "/srv/a/lib/x".toList) (some "/srv/a/".toList)).dir = some dir ∧
    pathParts ("/srv/a".toList ++ '/' :: dir) = pathParts "/srv/a/lib".toList := by
  obtain ⟨dir, h1, _, _, h2⟩ := C74_directory_partial (exFs ["/srv/a/lib/x"]) "/srv/a/lib/x".toList (some "/srv/a/".toList)
    "/srv/a/lib".toList "x".toList (by decide) rfl (by decide) (by decide) (Or.inr ⟨"lib".toList, by decide⟩)
  exact ⟨dir, h1, h2⟩

/-- C74: a file in a directory whose name only starts like the root directory is looked for in a wrong directory: the debug
symbols of another file are found. -/
theorem C74_sibling :
    let fs := exFs ["/srv/abc/x", "/srv/abc/x.debug", "/srv/a/bc/x.debug"]
    let ds := debugSymbol fs (some "/srv/abc/x".toList) (some "/srv/a".toList)
    (debugFind fs ds none (List.replicate 41 '\x00')).1 = some "/srv/a/bc/x.debug".toList := by
  decide +kernel

end Bean

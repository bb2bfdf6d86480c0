import Verif.Spec.PyFiles
import Verif.Props.BuildId
import Verif.Props.DebugSym
/-
C116: build identifiers and debug links in both languages. C117: files of the Python tools.
-/
namespace Bean.Props
open Bean Bean.Spec PyFiles

/-! ### Build identifier -/

theorem pyIsBuildId_iff {n : Note} (h : UsualNote n) : pyIsBuildId n = true ↔ IsBuildId n := by
  unfold pyIsBuildId IsBuildId NT_GNU_BUILD_ID
  rw [Bool.and_eq_true, beq_iff_eq, beq_iff_eq]
  constructor
  · intro ⟨h1, _⟩
    exact ⟨(h h1).1, h1⟩
  · intro ⟨h1, h2⟩
    obtain ⟨h3, h4, h5⟩ := h h2
    refine ⟨h2, ?_⟩
    unfold noteSize
    rw [h1]
    have : roundUp4 (nameBytes (some "GNU")) = 4 := by decide +kernel
    rw [this]
    unfold roundUp4
    omega

theorem sectionBuildId_spec {s : DbgSec} (h : UsualSection s) :
    (sectionBuildId s.notes = none ∧ NoSectionId s.notes) ∨ ∃ d, sectionBuildId s.notes = some (d.flatMap renderByte) ∧ SectionId s.notes d := by
  unfold sectionBuildId
  by_cases hn : s.notes.isNote = true
  · rw [if_pos hn]
    have hu := (h hn).2.2
    cases hf : s.notes.notes.find? pyIsBuildId with
    | none =>
      refine Or.inl ⟨rfl, fun _ n hm hb => ?_⟩
      have := List.find?_eq_none.mp hf n hm
      exact this ((pyIsBuildId_iff (hu n hm)).mpr hb)
    | some n =>
      obtain ⟨hp, pre, post, e, hpre⟩ := List.find?_eq_some_iff_append.mp hf
      have hm : ∀ m ∈ pre, m ∈ s.notes.notes := fun m hm => e ▸ List.mem_append_left _ hm
      have hnm : n ∈ s.notes.notes := e ▸ List.mem_append_right _ List.mem_cons_self
      refine Or.inr ⟨n.desc, rfl, hn, pre, n, post, e, (pyIsBuildId_iff (hu n hnm)).mp hp, rfl, fun m hmm hb => ?_⟩
      have := hpre m hmm
      rw [(pyIsBuildId_iff (hu m (hm m hmm))).mpr hb] at this
      cases this
  · rw [if_neg hn]
    exact Or.inl ⟨rfl, fun h => absurd h hn⟩

theorem noId_not {s : NoteSec} {d : List (BitVec 8)} (h : NoSectionId s) (h' : SectionId s d) : False := by
  obtain ⟨h1, pre, n, post, e, hb, _⟩ := h'
  exact h h1 n (e ▸ List.mem_append_right _ List.mem_cons_self) hb

theorem elfSection_usual {s : DbgSec} (h : UsualSection s) (acc : Option Str) : elfSection acc s =
    match sectionBuildId s.notes with
    | some t => some t
    | none => acc := by
  unfold elfSection
  by_cases hc : s.name = ".gnu_debuglink".toList ∨ s.name = ".comment".toList
  · rw [if_pos hc]
    have hn : ¬ s.notes.isNote = true := by
      intro hn
      rcases hc with hc | hc
      · exact (h hn).1 hc
      · exact (h hn).2.1 hc
    unfold sectionBuildId
    rw [if_neg hn]
  · rw [if_neg hc]
    rfl

theorem elfFold_spec {secs : List DbgSec} (h : ∀ s ∈ secs, UsualSection s) (acc : Option Str) :
    ((∀ s ∈ secs, NoSectionId s.notes) ∧ secs.foldl elfSection acc = acc) ∨
    ∃ d, FileId (secs.map (·.notes)) d ∧ secs.foldl elfSection acc = some (d.flatMap renderByte) := by
  induction secs generalizing acc with
  | nil => exact Or.inl ⟨fun _ hs => absurd hs List.not_mem_nil, rfl⟩
  | cons s secs ih =>
    rw [List.foldl_cons, elfSection_usual (h s List.mem_cons_self)]
    have ih := ih (fun x hx => h x (List.mem_cons_of_mem _ hx))
    rcases ih (match sectionBuildId s.notes with | some t => some t | none => acc) with ⟨h1, h2⟩ | ⟨d, ⟨pre, x, post, e, h3, h4⟩, h2⟩
    · rw [h2]
      rcases sectionBuildId_spec (h s List.mem_cons_self) with ⟨h3, h4⟩ | ⟨d, h3, h4⟩
      · rw [h3]
        exact Or.inl ⟨fun x hx => (List.mem_cons.mp hx).elim (fun e => e ▸ h4) (h1 x), rfl⟩
      · rw [h3]
        refine Or.inr ⟨d, ⟨[], s.notes, secs.map (·.notes), rfl, h4, fun x hx => ?_⟩, rfl⟩
        obtain ⟨y, hy, rfl⟩ := List.mem_map.mp hx
        exact h1 y hy
    · exact Or.inr ⟨d, ⟨s.notes :: pre, x, post, by rw [List.map_cons, e]; rfl, h3, h4⟩, h2⟩

/-- Text of the build identifier of the C++ code, if there is one. -/
def cppBuildId (v : List Char) : Option Str := if cText v = [] then none else some (cText v)

theorem render_ne {d : List (BitVec 8)} (h : d ≠ []) : d.flatMap renderByte ≠ [] := by
  cases d with
  | nil => exact absurd rfl h
  | cons x d => rw [List.flatMap_cons]; exact fun e => List.cons_ne_nil _ _ (List.append_eq_nil_iff.mp e).1

theorem cpp_none {b : Build} {junk : List Char} (hj : junk.length = 41) {secs : List NoteSec} {v : List Char} (h : buildIdOf b junk (some secs) = .ok v)
    (hn : ∀ s ∈ secs, NoSectionId s) : cppBuildId v = none := if_pos ((C48_text b junk hj secs v h).2.1 hn).1

theorem cpp_some {b : Build} {junk : List Char} (hj : junk.length = 41) {secs : List NoteSec} {v : List Char} (h : buildIdOf b junk (some secs) = .ok v)
    {d : List (BitVec 8)} (hd : FileId secs d) (h1 : 1 ≤ d.length) (h2 : d.length ≤ 20) : cppBuildId v = some (d.flatMap renderByte) := by
  have hc : (clearFirst junk).length = buildIdSize := by
    unfold clearFirst buildIdSize
    rw [List.length_cons, List.length_tail, hj]
  have e : cText v = d.flatMap renderByte := by
    rcases (sections_ok hc h).2 with ⟨hn, _⟩ | ⟨d', u, hd', hu, e⟩
    · exact absurd hn (fileId_not hd)
    · rw [fileId_unique hd hd', e]
      refine bufferWrite_text ?_ (render_nonzero _)
      rw [render_length, hu, fileId_unique hd' hd]
      unfold buildIdSize
      omega
  unfold cppBuildId
  rw [e, if_neg (render_ne (fun hnil => by rw [hnil] at h1; exact absurd h1 (by decide)))]

theorem fileId_length {secs : List DbgSec} (h : ∀ s ∈ secs, UsualSection s) {d : List (BitVec 8)} (hd : FileId (secs.map (·.notes)) d) :
    17 ≤ d.length ∧ d.length ≤ 20 := by
  obtain ⟨pre, x, post, e, ⟨hn, pre', n, post', e', hb, hdesc, _⟩, _⟩ := hd
  obtain ⟨s, hs, rfl⟩ := List.mem_map.mp (e ▸ List.mem_append_right _ List.mem_cons_self : x ∈ secs.map (·.notes))
  have := ((h s hs hn).2.2 n (e' ▸ List.mem_append_right _ List.mem_cons_self) hb.2).2
  rwa [hdesc] at this

/-- **C116**, build identifier: for files with identifiers of the usual size both languages read the same text; the search for debug symbols on its own (`dbgsym.py`) if
only one section has an identifier. -/
theorem C116_buildid_partial (b : Build) (junk : List Char) (hj : junk.length = 41) {secs : List DbgSec} (h : ∀ s ∈ secs, UsualSection s) {v : List Char}
    (hv : buildIdOf b junk (some (secs.map (·.notes))) = .ok v) :
    elfBuildId secs = cppBuildId v ∧ (AtMostOne HasId secs → dbgBuildId secs = cppBuildId v) := by
  have main : elfBuildId secs = cppBuildId v := by
    rcases elfFold_spec h none with ⟨h1, h2⟩ | ⟨d, h1, h2⟩
    · unfold elfBuildId
      rw [h2, cpp_none hj hv]
      intro s hs
      obtain ⟨x, hx, rfl⟩ := List.mem_map.mp hs
      exact h1 x hx
    · unfold elfBuildId
      obtain ⟨l1, l2⟩ := fileId_length h h1
      rw [h2, cpp_some hj hv h1 (by omega) l2]
  refine ⟨main, fun hone => ?_⟩
  unfold dbgBuildId
  cases hf : secs.findSome? (fun s => sectionBuildId s.notes) with
  | none =>
    have hnone := List.findSome?_eq_none_iff.mp hf
    rw [cpp_none hj hv]
    intro s hs
    obtain ⟨x, hx, rfl⟩ := List.mem_map.mp hs
    rcases sectionBuildId_spec (h x hx) with ⟨_, h4⟩ | ⟨d, h3, _⟩
    · exact h4
    · have := hnone x hx
      rw [h3] at this
      cases this
  | some t =>
    obtain ⟨pre, s, post, e, hs, _⟩ := List.findSome?_eq_some_iff.mp hf
    have hmem : s ∈ secs := e ▸ List.mem_append_right _ List.mem_cons_self
    rcases sectionBuildId_spec (h s hmem) with ⟨h3, _⟩ | ⟨d, h3, h4⟩
    · rw [h3] at hs; cases hs
    · rw [h3] at hs
      obtain rfl := Option.some.inj hs
      have hd : FileId (secs.map (·.notes)) d := by
        refine ⟨pre.map (·.notes), s.notes, post.map (·.notes), by rw [e, List.map_append]; rfl, h4, fun x hx => ?_⟩
        obtain ⟨y, hy, rfl⟩ := List.mem_map.mp hx
        rcases sectionBuildId_spec (h y (e ▸ List.mem_append_right _ (List.mem_cons_of_mem _ hy))) with ⟨_, h6⟩ | ⟨d', _, h6⟩
        · exact h6
        · obtain ⟨mid, post', rfl⟩ := List.append_of_mem hy
          exact absurd ⟨⟨d, h4⟩, ⟨d', h6⟩⟩ (hone pre s mid y post' e)
      obtain ⟨l1, l2⟩ := fileId_length h hd
      rw [cpp_some hj hv hd (by omega) l2]

/-! ### Debug link -/

theorem decodeAscii_ok {s : DbgSec} (h : AsciiSection s) : decodeAscii s.data = some (cString s.data) :=
  if_pos (List.all_eq_true.mpr (fun c hc => decide_eq_true (h c hc)))

theorem elfLinks_spec {secs : List DbgSec} (h : ∀ s ∈ secs, s.name = ".gnu_debuglink".toList ∨ s.name = ".comment".toList → AsciiSection s) (acc : Option Str) :
    ∃ link, elfLinks acc secs = some link ∧ ((∀ s ∈ secs, s.name ≠ ".gnu_debuglink".toList) ∧ link = acc ∨ link ≠ none ∧ LinkOf secs link) := by
  induction secs generalizing acc with
  | nil => exact ⟨acc, rfl, Or.inl ⟨fun _ hs => absurd hs List.not_mem_nil, rfl⟩⟩
  | cons s secs ih =>
    have ih := ih (fun x hx => h x (List.mem_cons_of_mem _ hx))
    rw [elfLinks]
    have later : ∀ link, link ≠ none ∧ LinkOf secs link → link ≠ none ∧ LinkOf (s :: secs) link := by
      intro link ⟨h1, h2⟩
      refine ⟨h1, ?_⟩
      cases link with
      | none => exact absurd rfl h1
      | some l =>
        obtain ⟨pre, q, post, e1, e2, e3, e4⟩ := h2
        exact ⟨s :: pre, q, post, by rw [e1]; rfl, e2, e3, e4⟩
    by_cases hl : s.name = ".gnu_debuglink".toList
    · rw [if_pos hl, decodeAscii_ok (h s List.mem_cons_self (Or.inl hl))]
      obtain ⟨link, e, h2⟩ := ih (some (cString s.data))
      refine ⟨link, e, Or.inr ?_⟩
      rcases h2 with ⟨h2, rfl⟩ | h2
      · exact ⟨fun h => (by cases h), [], s, secs, rfl, hl, rfl, h2⟩
      · exact later link h2
    · rw [if_neg hl]
      have hstep : ∃ link, elfLinks acc secs = some link ∧ ((∀ x ∈ s :: secs, x.name ≠ ".gnu_debuglink".toList) ∧ link = acc ∨ link ≠ none ∧ LinkOf (s :: secs) link) := by
        obtain ⟨link, e, h2⟩ := ih acc
        refine ⟨link, e, ?_⟩
        rcases h2 with ⟨h2, rfl⟩ | h2
        · exact Or.inl ⟨fun x hx => (List.mem_cons.mp hx).elim (fun e => e ▸ hl) (h2 x), rfl⟩
        · exact Or.inr (later link h2)
      by_cases hc : s.name = ".comment".toList
      · rw [if_pos hc, decodeAscii_ok (h s List.mem_cons_self (Or.inr hc))]
        exact hstep
      · rw [if_neg hc]
        exact hstep

theorem linkOf_unique {secs : List DbgSec} {a b : Option Str} (ha : LinkOf secs a) (hb : LinkOf secs b) : a = b := by
  induction secs with
  | nil =>
    cases a with
    | none =>
      cases b with
      | none => rfl
      | some l => obtain ⟨pre, s, post, e, _⟩ := hb; cases pre <;> cases e
    | some l => obtain ⟨pre, s, post, e, _⟩ := ha; cases pre <;> cases e
  | cons x secs ih =>
    cases a with
    | none =>
      cases b with
      | none => rfl
      | some l =>
        obtain ⟨pre, s, post, e, h2, _⟩ := hb
        exact absurd h2 (ha s (e ▸ List.mem_append_right _ List.mem_cons_self))
    | some l =>
      cases b with
      | none =>
        obtain ⟨pre, s, post, e, h2, _⟩ := ha
        exact absurd h2 (hb s (e ▸ List.mem_append_right _ List.mem_cons_self))
      | some m =>
        obtain ⟨pre, s, post, e, h2, h3, h4⟩ := ha
        obtain ⟨pre', s', post', e', h2', h3', h4'⟩ := hb
        cases pre with
        | nil =>
          injection e with e1 e2
          cases pre' with
          | nil =>
            injection e' with e1' e2'
            rw [h3, h3', ← e1, e1']
          | cons y pre' =>
            injection e' with e1' e2'
            exact absurd h2' (h4 s' (by rw [← e2, e2']; exact List.mem_append_right _ List.mem_cons_self))
        | cons y pre =>
          injection e with e1 e2
          cases pre' with
          | nil =>
            injection e' with e1' e2'
            exact absurd h2 (h4' s (by rw [← e2', e2]; exact List.mem_append_right _ List.mem_cons_self))
          | cons z pre' =>
            injection e' with e1' e2'
            exact ih ⟨pre, s, post, e2, h2, h3, h4⟩ ⟨pre', s', post', e2', h2', h3', h4'⟩

theorem linkOf_of {secs : List DbgSec} {link : Option Str} (h : (∀ s ∈ secs, s.name ≠ ".gnu_debuglink".toList) ∧ link = none ∨ link ≠ none ∧ LinkOf secs link) :
    LinkOf secs link := by
  rcases h with ⟨h, rfl⟩ | ⟨_, h⟩
  · exact h
  · exact h

/-- **C116**, debug link: for files with ASCII texts and without debug information both languages read the same link; the search for debug symbols on its own if only one
section has a link. -/
theorem C116_link_partial (fs : Fs) (ds : DebugSymbol) {secs : List DbgSec} (hd : ∀ s ∈ secs, ¬ HasDebug s)
    (h : ∀ s ∈ secs, s.name = ".gnu_debuglink".toList ∨ s.name = ".comment".toList → AsciiSection s) :
    ∃ link, debugSections fs ds none secs = .ok (none, link, ds) ∧ elfLink secs = some link ∧
      (AtMostOne (fun s => s.name = ".gnu_debuglink".toList) secs → dbgLink secs = some link) := by
  obtain ⟨link, e, h1⟩ := debugSections_plain (fs := fs) (ds := ds) hd none
  obtain ⟨link', e', h2⟩ := elfLinks_spec h none
  have hlink := linkOf_of h1
  obtain rfl := linkOf_unique hlink (linkOf_of h2)
  refine ⟨link, e, e', fun hone => ?_⟩
  have hd : ∀ secs : List DbgSec, (∀ s ∈ secs, s.name = ".gnu_debuglink".toList → AsciiSection s) → AtMostOne (fun s => s.name = ".gnu_debuglink".toList) secs →
      ∃ l, dbgLink secs = some l ∧ LinkOf secs l := by
    intro secs ha ho
    induction secs with
    | nil => exact ⟨none, rfl, fun _ hs => absurd hs List.not_mem_nil⟩
    | cons s secs ih =>
      rw [dbgLink]
      by_cases hl : s.name = ".gnu_debuglink".toList
      · rw [if_pos hl, decodeAscii_ok (ha s List.mem_cons_self hl)]
        refine ⟨_, rfl, [], s, secs, rfl, hl, rfl, fun q hq hqn => ?_⟩
        obtain ⟨mid, post, rfl⟩ := List.append_of_mem hq
        exact ho [] s mid q post rfl ⟨hl, hqn⟩
      · rw [if_neg hl]
        obtain ⟨l, h1, h2⟩ := ih (fun x hx => ha x (List.mem_cons_of_mem _ hx)) (fun pre a mid b post e => ho (s :: pre) a mid b post (by rw [e]; rfl))
        refine ⟨l, h1, ?_⟩
        cases l with
        | none => exact fun x hx => (List.mem_cons.mp hx).elim (fun e => e ▸ hl) (h2 x)
        | some t =>
          obtain ⟨pre, q, post, e1, e2, e3, e4⟩ := h2
          exact ⟨s :: pre, q, post, by rw [e1]; rfl, e2, e3, e4⟩
  obtain ⟨l, h3, h4⟩ := hd secs (fun s hs hn => h s hs (Or.inl hn)) hone
  rw [h3, linkOf_unique h4 hlink]

/-! ### Examples and limits of C116 -/

/-- A section with notes. -/
def exNoteSec (name : String) (n : Nat) (x : BitVec 8) : DbgSec := ⟨name.toList, [], ⟨true, [⟨some "GNU", 3, List.replicate n x⟩]⟩⟩

/-- A section with text. -/
def exTextSec (name data : String) : DbgSec := ⟨name.toList, data.toList, ⟨false, []⟩⟩

theorem exNoteSec_usual : UsualSection (exNoteSec ".note.gnu.build-id" 20 0xab) := by
  intro _
  refine ⟨by decide, by decide, fun n hn => ?_⟩
  rw [List.mem_singleton.mp hn]
  exact fun _ => ⟨rfl, by decide, by decide⟩

theorem exTextSec_usual (name data : String) : UsualSection (exTextSec name data) := fun h => (by cases h)

example : elfBuildId [exTextSec ".text" "", exNoteSec ".note.gnu.build-id" 20 0xab] =
    cppBuildId ((List.replicate 20 (0xab : BitVec 8)).flatMap renderByte ++ ['\x00']) := by
  refine (C116_buildid_partial .debug (List.replicate 41 'x') (by decide) (fun s hs => ?_) ?_).1
  · rcases List.mem_cons.mp hs with rfl | hs
    · exact exTextSec_usual _ _
    · rw [List.mem_singleton.mp hs]
      exact exNoteSec_usual
  · rfl

/-- C116: an identifier of 16 bytes (MD5, UUID) is read by the library but not by the tools. -/
theorem C116_size_counterexample : ∃ secs v, buildIdOf .release (List.replicate 41 'x') (some (secs.map (·.notes))) = .ok v ∧
    FileId (secs.map (·.notes)) (List.replicate 16 0xab) ∧ cppBuildId v ≠ none ∧ elfBuildId secs = none ∧ dbgBuildId secs = none := by
  refine ⟨[exNoteSec ".note.gnu.build-id" 16 0xab], _, rfl, ?_, by decide +kernel, by decide +kernel, by decide +kernel⟩
  exact ⟨[], _, [], rfl, ⟨rfl, [], _, [], rfl, ⟨rfl, rfl⟩, rfl, fun _ h => absurd h List.not_mem_nil⟩, fun _ h => absurd h List.not_mem_nil⟩

/-- C116: with identifiers in two sections the library and the variables take the last one, the search for debug symbols on its own the first one. -/
theorem C116_two_counterexample : ∃ secs v, (∀ s ∈ secs, ∀ n ∈ s.notes.notes, UsualNote n) ∧
    buildIdOf .debug (List.replicate 41 'x') (some (secs.map (·.notes))) = .ok v ∧ elfBuildId secs = cppBuildId v ∧ dbgBuildId secs ≠ cppBuildId v := by
  refine ⟨[exNoteSec ".note.a" 20 1, exNoteSec ".note.b" 20 2], _, fun s hs n hn => ?_, rfl, by decide +kernel, by decide +kernel⟩
  rcases List.mem_cons.mp hs with rfl | hs
  · rw [List.mem_singleton.mp hn]
    exact fun _ => ⟨rfl, by decide, by decide⟩
  · rw [List.mem_singleton.mp hs] at hn
    rw [List.mem_singleton.mp hn]
    exact fun _ => ⟨rfl, by decide, by decide⟩

/-- C116: a note of another owner with number 3 and the same size is taken for an identifier by the tools only, also with a longer name and a shorter content. -/
theorem C116_owner_counterexample : ∀ p ∈ [("abc", 20), ("abcd", 16)], ∃ secs v,
    (∃ s ∈ secs, ∃ n ∈ s.notes.notes, n.name = some p.1 ∧ n.desc.length = p.2) ∧ buildIdOf .debug (List.replicate 41 '\x00') (some (secs.map (·.notes))) = .ok v ∧
    cppBuildId v = none ∧ elfBuildId secs ≠ none ∧ dbgBuildId secs ≠ none := by
  intro p hp
  rcases List.mem_cons.mp hp with rfl | hp
  · exact ⟨[⟨".note.x".toList, [], ⟨true, [⟨some "abc", 3, List.replicate 20 1⟩]⟩⟩], _, ⟨_, List.mem_cons_self, _, List.mem_cons_self, rfl, rfl⟩, rfl, by decide +kernel,
      by decide +kernel, by decide +kernel⟩
  · rw [List.mem_singleton.mp hp]
    exact ⟨[⟨".note.x".toList, [], ⟨true, [⟨some "abcd", 3, List.replicate 16 1⟩]⟩⟩], _, ⟨_, List.mem_cons_self, _, List.mem_cons_self, rfl, rfl⟩, rfl, by decide +kernel,
      by decide +kernel, by decide +kernel⟩

example : ∃ link, debugSections (exFs []) exDs none [exTextSec ".comment" "GCC", exTextSec ".gnu_debuglink" "x.dbg\x00\x00"] = .ok (none, link, exDs) ∧
    elfLink [exTextSec ".comment" "GCC", exTextSec ".gnu_debuglink" "x.dbg\x00\x00"] = some link ∧ link = some "x.dbg".toList := by
  obtain ⟨link, h1, h2, _⟩ := C116_link_partial (exFs []) exDs (secs := [exTextSec ".comment" "GCC", exTextSec ".gnu_debuglink" "x.dbg\x00\x00"])
    (fun s hs hd => by
      obtain ⟨rest, hd⟩ := hd
      rcases List.mem_cons.mp hs with rfl | hs
      · exact absurd (congrArg (List.take 7) hd) (by rw [List.take_append_of_le_length (by decide)]; decide +kernel)
      · rw [List.mem_singleton.mp hs] at hd
        exact absurd (congrArg (List.take 7) hd) (by rw [List.take_append_of_le_length (by decide)]; decide +kernel))
    (fun s hs _ => by
      rcases List.mem_cons.mp hs with rfl | hs
      · unfold AsciiSection; decide +kernel
      · rw [List.mem_singleton.mp hs]; unfold AsciiSection; decide +kernel)
  refine ⟨link, h1, h2, ?_⟩
  have h3 : elfLink [exTextSec ".comment" "GCC", exTextSec ".gnu_debuglink" "x.dbg\x00\x00"] = some (some "x.dbg".toList) := by decide +kernel
  exact Option.some.inj (h2.symm.trans h3)

/-- C116: the library reads a link with other characters than ASCII, the tools fail, even if such a character is only in the comment of the compiler. -/
theorem C116_ascii_counterexample :
    (∃ secs link, debugSections (exFs []) exDs none secs = .ok (none, some link, exDs) ∧ elfLink secs = none ∧ dbgLink secs = none) ∧
    ∃ secs link, debugSections (exFs []) exDs none secs = .ok (none, some link, exDs) ∧ elfLink secs = none ∧ dbgLink secs = some (some link) :=
  ⟨⟨[exTextSec ".gnu_debuglink" "ä.dbg\x00"], "ä.dbg".toList, by rfl, by decide +kernel, by decide +kernel⟩,
    ⟨[exTextSec ".gnu_debuglink" "x.dbg\x00", exTextSec ".comment" "© C\x00"], "x.dbg".toList, by rfl, by decide +kernel, by decide +kernel⟩⟩

/-! ### C117: files -/

theorem pyJoin_absolute {s : Str} (h : AbsoluteName s) (p : PyPath) : pyJoin p s = pathParts s := by
  obtain ⟨rest, rfl⟩ := h
  rfl

/-- **C117**, file: the name is looked up in the current directory, then below the base directory; an absolute name is never looked up below the base directory. -/
theorem C117_file_partial (fs : PyFs) (cwd : PyPath) (root file : Str) :
    (∀ p, elfPath fs cwd root file = some p ↔ FirstIn fs.exists_ [pyJoin cwd file, pyJoin (pyJoin cwd root) file] p) ∧
    (AbsoluteName file → ∀ p, elfPath fs cwd root file = some p ↔ p = pathParts file ∧ fs.exists_ p = true) := by
  have key : ∀ p, elfPath fs cwd root file = some p ↔ FirstIn fs.exists_ [pyJoin cwd file, pyJoin (pyJoin cwd root) file] p := by
    intro p
    unfold elfPath
    by_cases h1 : fs.exists_ (pyJoin cwd file) = true
    · rw [if_pos h1]
      constructor
      · intro h
        exact ⟨[], _, by rw [← Option.some.inj h]; rfl, Option.some.inj h ▸ h1, fun _ hq => absurd hq List.not_mem_nil⟩
      · intro ⟨pre, post, e, _, h3⟩
        cases pre with
        | nil => injection e with e _; rw [e]
        | cons x pre =>
          injection e with e _
          have := h3 x List.mem_cons_self
          rw [← e, h1] at this
          cases this
    · rw [if_neg h1]
      by_cases h2 : fs.exists_ (pyJoin (pyJoin cwd root) file) = true
      · rw [if_pos h2]
        constructor
        · intro h
          refine ⟨[pyJoin cwd file], [], by rw [← Option.some.inj h]; rfl, Option.some.inj h ▸ h2, fun q hq => ?_⟩
          rw [List.mem_singleton.mp hq]
          exact Bool.eq_false_iff.mpr h1
        · intro ⟨pre, post, e, h3, _⟩
          match pre, e with
          | [], e => injection e with e _; rw [← e] at h3; exact absurd h3 h1
          | [x], e => injection e with _ e; injection e with e _; rw [e]
          | x :: y :: pre, e => injection e with _ e; injection e with _ e; cases pre <;> cases e
      · rw [if_neg h2]
        constructor
        · intro h; cases h
        · intro ⟨pre, post, e, h3, _⟩
          match pre, e with
          | [], e => injection e with e _; rw [← e] at h3; exact absurd h3 h1
          | [x], e => injection e with _ e; injection e with e _; rw [← e] at h3; exact absurd h3 h2
          | x :: y :: pre, e => injection e with _ e; injection e with _ e; cases pre <;> cases e
  refine ⟨key, fun ha p => ?_⟩
  unfold elfPath
  rw [pyJoin_absolute ha, pyJoin_absolute ha]
  by_cases h : fs.exists_ (pathParts file) = true
  · rw [if_pos h]
    exact ⟨fun e => ⟨(Option.some.inj e).symm, Option.some.inj e ▸ h⟩, fun ⟨e, _⟩ => by rw [e]⟩
  · rw [if_neg h, if_neg h]
    exact ⟨fun e => (by cases e), fun ⟨e, h'⟩ => absurd (e ▸ h') h⟩

/-- A file system for the examples, without symbolic links. -/
def exPyFs (files : List String) : PyFs := ⟨fun p => (files.map (fun f => pathParts f.toList)).contains p, id⟩

example : elfPath (exPyFs ["/srv/lib/x"]) ["home".toList] "/srv".toList "lib/x".toList = some (pathParts "/srv/lib/x".toList) :=
  ((C117_file_partial _ _ _ _).1 _).mpr ⟨[pathParts "/home/lib/x".toList], [], by decide +kernel, by decide +kernel, by decide +kernel⟩

/-- C117: the absolute name of a library within the base directory is not found, in contrast to the search for its debug symbols. -/
theorem C117_base_counterexample : ∃ fs : PyFs, ∃ root file, fs.exists_ (pathParts (root ++ file)) = true ∧ AbsoluteName root ∧
    ∀ cwd, elfPath fs cwd root file = none := by
  refine ⟨exPyFs ["/srv/lib/x"], "/srv".toList, "/lib/x".toList, by decide +kernel, ⟨_, rfl⟩, fun cwd => ?_⟩
  have ha : AbsoluteName "/lib/x".toList := ⟨"lib/x".toList, rfl⟩
  unfold elfPath
  rw [pyJoin_absolute ha, pyJoin_absolute ha]
  decide +kernel

theorem relativeTo_iff (root p rel : PyPath) : relativeTo root p = some rel ↔ p = root ++ rel := by
  induction root generalizing p with
  | nil => exact ⟨fun h => Option.some.inj h, fun h => congrArg some h⟩
  | cons r root ih =>
    cases p with
    | nil => exact ⟨fun h => (by cases h), fun h => (by cases h)⟩
    | cons q p =>
      rw [relativeTo]
      by_cases h : r = q
      · rw [if_pos h, ih, h]
        exact ⟨fun e => by rw [e]; rfl, fun e => (List.cons.inj e).2⟩
      · rw [if_neg h]
        exact ⟨fun e => (by cases e), fun e => absurd (List.cons.inj e).1.symm h⟩

/-- **C117**, debug symbols: for a file within the base directory there is no failure; debug symbols are used only if asked for by `-d`; then they are in the file itself if it has
debug information, and otherwise, with `-D`, in the first place that exists. -/
theorem C117_debug_partial (fs : PyFs) (root parent : PyPath) (name : Str) (d : PyDebug) :
    ∃ r, debugFile fs root (fs.resolve root ++ (parent ++ [name])) d = some r ∧
      ∀ p, r = some p ↔ d.dbgsym = true ∧
        ((d.embedded = true ∧ p = fs.resolve root ++ (parent ++ [name])) ∨
         (d.embedded = false ∧ d.extern = true ∧ FirstIn fs.exists_ (pyPaths (fs.resolve root) parent name d.link d.buildid) p)) := by
  unfold debugFile
  cases hd : d.dbgsym with
  | false => exact ⟨none, rfl, fun p => ⟨fun h => (by cases h), fun h => (by cases h.1)⟩⟩
  | true =>
    rw [if_pos rfl]
    cases he : d.embedded with
    | true =>
      exact ⟨_, rfl, fun p => ⟨fun h => ⟨rfl, Or.inl ⟨rfl, (Option.some.inj h).symm⟩⟩, fun h => h.2.elim (fun h => by rw [h.2]) (fun h => (by cases h.1))⟩⟩
    | false =>
      rw [if_neg (by decide)]
      cases hx : d.extern with
      | false =>
        exact ⟨none, rfl, fun p => ⟨fun h => (by cases h), fun h => h.2.elim (fun h => (by cases h.1)) (fun h => (by cases h.2.1))⟩⟩
      | true =>
        rw [if_pos rfl]
        unfold externFile
        rw [(relativeTo_iff _ _ _).mpr rfl]
        dsimp only
        rw [List.getLast?_append, List.dropLast_concat]
        refine ⟨_, rfl, fun p => ?_⟩
        unfold pyFind
        rw [List.find?_eq_some_iff_append]
        constructor
        · intro ⟨h1, pre, post, h2, h3⟩
          exact ⟨rfl, Or.inr ⟨rfl, rfl, pre, post, h2, h1, fun q hq => by have := h3 q hq; simpa using this⟩⟩
        · intro ⟨_, h⟩
          rcases h with ⟨h, _⟩ | ⟨_, _, pre, post, h2, h1, h3⟩
          · cases h
          · exact ⟨h1, pre, post, h2, fun q hq => by rw [h3 q hq]; rfl⟩

example : debugFile (exPyFs ["/srv/lib/x.debug"]) ["srv".toList] (pathParts "/srv/lib/x".toList) ⟨true, true, false, none, none⟩ =
    some (some (pathParts "/srv/lib/x.debug".toList)) := by
  obtain ⟨r, h1, h2⟩ := C117_debug_partial (exPyFs ["/srv/lib/x.debug"]) ["srv".toList] ["lib".toList] "x".toList ⟨true, true, false, none, none⟩
  have h3 := (h2 (pathParts "/srv/lib/x.debug".toList)).mpr ⟨rfl, Or.inr ⟨rfl, rfl, [], _, rfl, by decide +kernel, fun _ h => absurd h List.not_mem_nil⟩⟩
  rw [h3] at h1
  exact h1

/-- C117: external debug symbols alone (`-D`, "implies -d") are not used, although they exist. -/
theorem C117_extern_counterexample : ∃ fs root path p, fs.exists_ p = true ∧
    debugFile fs root path ⟨true, true, false, none, none⟩ = some (some p) ∧ debugFile fs root path ⟨false, true, false, none, none⟩ = some none :=
  ⟨exPyFs ["/srv/lib/x.debug"], ["srv".toList], pathParts "/srv/lib/x".toList, pathParts "/srv/lib/x.debug".toList, by decide +kernel, by decide +kernel, by decide +kernel⟩

/-- C117: for every file outside of the base directory, by default the current directory, the search for external debug symbols fails, wherever they are, and with it the
whole analysis of the file. -/
theorem C117_outside_counterexample (fs : PyFs) (root path : PyPath) (link buildid : Option Str) (h : ¬ fs.resolve root <+: path) :
    debugFile fs root path ⟨true, true, false, link, buildid⟩ = none ∧ debugFile fs root path ⟨false, true, false, link, buildid⟩ = some none := by
  refine ⟨?_, rfl⟩
  show externFile fs root path link buildid = none
  unfold externFile
  cases hr : relativeTo (fs.resolve root) path with
  | none => rfl
  | some rel => exact absurd ⟨rel, ((relativeTo_iff _ _ _).mp hr).symm⟩ h

example : ¬ (exPyFs ["/lib/x", "/lib/x.debug"]).resolve ["home".toList] <+: pathParts "/lib/x".toList := by decide +kernel

/-- **C117**, variables: the file whose debug information is read is the given one, if there is no base directory or the file is within. -/
theorem C117_dwarf_partial (exists_ : Str → Bool) (realpath : Str → Str) (root file : Str) (he : exists_ (realpath file) = true)
    (hr : root = [] ∨ root <+: realpath file) : dwarfPath exists_ realpath root file = some (realpath file) := by
  have hreal : dwarfReal exists_ realpath root file = realpath file := if_pos he
  have hstrip : root ++ dwarfStrip root (realpath file) = realpath file := by
    unfold dwarfStrip
    rcases hr with rfl | ⟨rest, hr⟩
    · rw [if_neg (fun h => h.1 rfl), List.nil_append]
    · by_cases h0 : root = []
      · rw [if_neg (fun h => h.1 h0), h0, List.nil_append]
      · rw [if_pos ⟨h0, rest, hr⟩, ← hr, List.drop_left]
  unfold dwarfPath
  rw [hreal, hstrip, if_pos he]

example : dwarfPath (fun p => p == "/srv/lib/x".toList) id "/srv".toList "/srv/lib/x".toList = some "/srv/lib/x".toList :=
  C117_dwarf_partial _ _ _ _ (by decide +kernel) (Or.inr (by decide +kernel))

/-- C117: for an existing file outside of the base directory, another file is read, and a name relative to the base directory is not found because of the missing slash,
although the hashes of variables (`ElfVar`) find it. -/
theorem C117_dwarf_counterexample :
    (∃ exists_ root file p, exists_ file = true ∧ dwarfPath exists_ id root file = some p ∧ p ≠ file) ∧
    ∃ fs : PyFs, ∃ cwd root file p, elfPath fs cwd root file = some p ∧ dwarfPath (fun s => fs.exists_ (pathParts s)) id root file = none :=
  ⟨⟨fun p => p == "/lib/x".toList || p == "/srv/lib/x".toList, "/srv".toList, "/lib/x".toList, "/srv/lib/x".toList, by decide +kernel, by decide +kernel, by decide +kernel⟩,
    ⟨exPyFs ["/srv/lib/x"], ["home".toList], "/srv".toList, "lib/x".toList, pathParts "/srv/lib/x".toList, by decide +kernel, by decide +kernel⟩⟩

end Bean.Props

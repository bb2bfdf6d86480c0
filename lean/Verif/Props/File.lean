import Verif.Spec.File
import Verif.Props.DebugSym
import Verif.Props.Run
/-
Property theorems C102: opening of files.
-/
namespace Bean.Props
open Bean Spec

theorem resolve_meant {disk : Disk} {path q : Str} {root : Option Str} (h : Meant disk path root q) (hl : q.length ≤ PATH_MAX)
    (hr : root ≠ some []) : resolvePath disk path root = .ok q := by
  unfold resolvePath
  rcases h with ⟨h1, rfl⟩ | ⟨h1, r, rfl, ⟨r', h2, h3⟩, h4⟩
  · rw [h1, List.take_of_length_le hl]
  · rw [h1]
    dsimp only
    rcases h2 with rfl | ⟨rfl, h2⟩
    · rw [List.getLast?_concat]
      dsimp only
      rw [if_pos rfl, List.append_nil, List.append_assoc, List.singleton_append, ← h3, List.take_of_length_le hl, if_pos h4]
    · cases hg : List.getLast? r with
      | none => exact absurd (congrArg some (List.getLast?_eq_none_iff.mp hg)) hr
      | some c =>
        dsimp only
        have hc : ¬ c = '/' := fun e => h2 (by rw [hg, e])
        simp only [if_neg hc]
        rw [List.append_assoc, List.singleton_append, ← h3, List.take_of_length_le hl, if_pos h4]

/-- The path that is opened is the one that is meant, or the given one. -/
theorem resolve_only {disk : Disk} {path q : Str} {root : Option Str} (h : resolvePath disk path root = .ok q)
    (hl : path.length ≤ PATH_MAX) (hl' : ∀ r, root = some r → r.length + 1 + path.length ≤ PATH_MAX) :
    q = path ∨ Meant disk path root q := by
  unfold resolvePath at h
  rw [List.take_of_length_le hl] at h
  cases he : disk.exists_ path <;> rw [he] at h
  · cases root with
    | none => exact .inl (Except.ok.inj h).symm
    | some r =>
      dsimp only at h
      cases hg : List.getLast? r with
      | none => rw [hg] at h; cases h
      | some c =>
        rw [hg] at h
        dsimp only at h
        have hb : BelowRoot r path ((r ++ if c = '/' then [] else ['/']) ++ path) := by
          by_cases hc : c = '/'
          · obtain ⟨r', hr'⟩ := List.getLast?_eq_some_iff.mp hg
            refine ⟨r', .inl (by rw [hr', hc]), ?_⟩
            rw [if_pos hc, List.append_nil, hr', hc, List.append_assoc, List.singleton_append]
          · refine ⟨r, .inr ⟨rfl, fun e => hc (Option.some.inj (hg.symm.trans e))⟩, ?_⟩
            rw [if_neg hc, List.append_assoc, List.singleton_append]
        have hlen : ((r ++ if c = '/' then [] else ['/']) ++ path).length ≤ PATH_MAX := by
          have := hl' r rfl
          by_cases hc : c = '/'
          · rw [if_pos hc]; simp only [List.length_append, List.length_nil]; omega
          · rw [if_neg hc]; simp only [List.length_append, List.length_cons, List.length_nil]; omega
        rw [List.take_of_length_le hlen] at h
        by_cases hx : disk.exists_ ((r ++ if c = '/' then [] else ['/']) ++ path) = true
        · rw [if_pos hx] at h
          rw [← Except.ok.inj h]
          exact .inr (.inr ⟨he, r, rfl, hb, hx⟩)
        · rw [if_neg hx] at h
          exact .inl (Except.ok.inj h).symm
  · cases root <;> exact .inl (Except.ok.inj h).symm

theorem readContent_ready {i img : Image} {ign : Bool} : readContent i ign = .ready img ↔
    i = img ∧ 16 ≤ i.size ∧ i.identValid = true ∧ i.dataSupported = true ∧ i.classSupported = true ∧
      i.valid (if !ign then i.size else 2 ^ 64 - 1) = true := by
  have hsz : (if (!ign) = true then i.size else 2 ^ 64 - 1) = (if ign = true then 2 ^ 64 - 1 else i.size) := by cases ign <;> rfl
  rw [hsz]
  unfold readContent
  have hi : (decide (i.size < identSize) || !i.identValid) = true ↔ ¬ (16 ≤ i.size ∧ i.identValid = true) := by
    rw [Bool.or_eq_true, decide_eq_true_iff]
    show i.size < 16 ∨ _ ↔ _
    cases i.identValid <;> simp
  by_cases c1 : (decide (i.size < identSize) || !i.identValid) = true
  · rw [if_pos c1]
    exact ⟨fun h => (by cases h), fun h => absurd ⟨h.2.1, h.2.2.1⟩ (hi.mp c1)⟩
  rw [if_neg c1]
  have c1 := Classical.not_not.mp (fun h => c1 (hi.mpr h))
  cases c2 : i.dataSupported
  · simp
  cases c3 : i.classSupported
  · simp
  rw [if_neg (by decide), if_neg (by decide)]
  cases c4 : i.valid (if ign = true then 2 ^ 64 - 1 else i.size)
  · rw [if_pos (by decide)]
    exact ⟨fun h => (by cases h), fun h => absurd h.2.2.2.2.2 (by decide)⟩
  · rw [if_neg (by decide)]
    exact ⟨fun h => ⟨Opened.ready.inj h, c1.1, c1.2, rfl, rfl, rfl⟩, fun h => congrArg _ h.1⟩

/-- Opening succeeds exactly for accepted files. -/
theorem elfFile_ready {disk : Disk} {q : Str} {ign : Bool} {img : Image} :
    elfFile disk { text := q } ign = .ok (.ready img) ↔ Accepted disk q (!ign) img := by
  unfold elfFile mapFile Accepted
  rw [if_pos rfl]
  cases hr : disk.read q with
  | none => simp
  | some i =>
    by_cases h0 : i.size = 0
    · simp only [if_pos h0]
      constructor
      · intro h; cases h
      · rintro ⟨h, h', -⟩
        cases Option.some.inj h
        omega
    · simp only [if_neg h0]
      constructor
      · intro h
        obtain ⟨rfl, h'⟩ := readContent_ready.mp (Except.ok.inj h)
        exact ⟨rfl, h'⟩
      · rintro ⟨h, h'⟩
        cases Option.some.inj h
        exact congrArg _ (readContent_ready.mpr ⟨rfl, h'⟩)

/-- A living path is never undefined: the file is accepted or the program ends. -/
theorem elfFile_died {disk : Disk} {q : Str} {ign : Bool} (h : ∀ img, ¬ Accepted disk q (!ign) img) :
    elfFile disk { text := q } ign = .ok .died := by
  cases he : elfFile disk { text := q } ign with
  | error e =>
    unfold elfFile mapFile at he
    rw [if_pos rfl] at he
    cases hr : disk.read q <;> rw [hr] at he
    · cases he
    · dsimp only at he
      split at he <;> simp_all
  | ok o =>
    cases o with
    | died => rfl
    | ready img => exact absurd (elfFile_ready.mp he) (h img)

/-- C102: without debug symbols, the file that is meant by path and root is analysed, and nothing else happens. -/
theorem C102_plain_partial (env : Env) (b : Build) (junk : Str) (disk : Disk) (path q : Str) (fl : AnalyzeFlags) (root : Option Str)
    (img : Image) (hq : Meant disk path root q) (hl : q.length ≤ 4096) (hr : root ≠ some []) (ha : Accepted disk q true img) :
    beanFile env b junk disk path false fl root = (analyze env fl img.elf none).map .ready := by
  unfold beanFile
  rw [resolve_meant hq hl hr]
  dsimp only
  rw [elfFile_ready.mpr ha]
  dsimp only
  rw [if_neg (by decide)]
  dsimp only [Option.map]
  cases analyze env fl img.elf none <;> rfl

/-- C102: a file that is too small, has no valid header or is not supported ends the program before any analysis. -/
theorem C102_refused (env : Env) (b : Build) (junk : Str) (disk : Disk) (path q : Str) (dbg : Bool) (fl : AnalyzeFlags)
    (root : Option Str) (hq : Meant disk path root q) (hl : q.length ≤ 4096) (hr : root ≠ some [])
    (ha : ∀ img, ¬ Accepted disk q true img) : ∃ o, beanFile env b junk disk path dbg fl root = .ok o ∧ o matches .died := by
  unfold beanFile
  rw [resolve_meant hq hl hr]
  dsimp only
  rw [elfFile_died ha]
  exact ⟨_, rfl, rfl⟩

theorem debugSymbols_none {b : Build} {junk : Str} {disk : Disk} {p : Str} {root : Option Str} {img : Image} {d : Option Image}
    (h : debugSymbols b junk disk p root img = .ok (.ready d)) : d = none := by
  unfold debugSymbols searchDebug at h
  cases hf : debugFindElf b junk disk.toFs (debugSymbol disk.toFs (some p) root) img.searchable img.sections with
  | error e => rw [hf] at h; cases h
  | ok o =>
    obtain ⟨o, ds⟩ := o
    rw [hf] at h
    cases o with
    | none =>
      dsimp only at h
      by_cases hn : disk.nullText = true
      · rw [if_pos hn] at h; cases h; rfl
      · rw [if_neg hn] at h; cases h
    | some t =>
      dsimp only [elfFile, mapFile] at h
      rw [if_neg (by decide)] at h
      cases h

/-- C102: whatever is reported belongs to an accepted file at the given path or below the root. Separate debug symbols never contribute to
it, even if they are asked for. -/
theorem C102_only (env : Env) (b : Build) (junk : Str) (disk : Disk) (path : Str) (dbg : Bool) (fl : AnalyzeFlags) (root : Option Str)
    (hd : ∀ p, disk.read p ≠ none → disk.exists_ p = true) (hl : path.length ≤ 4096)
    (hl' : ∀ r, root = some r → r.length + 1 + path.length ≤ 4096) (r : AState)
    (h : beanFile env b junk disk path dbg fl root = .ok (.ready r)) :
    ∃ q img, Meant disk path root q ∧ Accepted disk q true img ∧ analyze env fl img.elf none = .ok r := by
  unfold beanFile at h
  cases hp : resolvePath disk path root with
  | error e => rw [hp] at h; cases h
  | ok q =>
    rw [hp] at h
    dsimp only at h
    cases he : elfFile disk { text := q } false with
    | error e => rw [he] at h; cases h
    | ok o =>
      rw [he] at h
      cases o with
      | died => cases h
      | ready img =>
        have ha := elfFile_ready.mp he
        have hm : Meant disk path root q := by
          rcases resolve_only hp hl hl' with rfl | hm
          · exact .inl ⟨hd _ (by rw [ha.1]; exact Option.some_ne_none _), rfl⟩
          · exact hm
        refine ⟨q, img, hm, ha, ?_⟩
        dsimp only at h
        cases hx : (if dbg = true then debugSymbols b junk disk q root img else .ok (.ready none)) with
        | error e => rw [hx] at h; cases h
        | ok o =>
          rw [hx] at h
          cases o with
          | died => cases h
          | ready d =>
            have hn : d = none := by
              by_cases hc : dbg = true
              · rw [if_pos hc] at hx; exact debugSymbols_none hx
              · rw [if_neg hc] at hx; cases hx; rfl
            subst hn
            dsimp only [Option.map] at h
            cases hz : analyze env fl img.elf none with
            | error e => rw [hz] at h; cases h
            | ok s => rw [hz] at h; cases h; rfl

/-- C102: if debug symbols are asked for and there are none, the result is the same as without (if null pointers can be printed). -/
theorem C102_nothing_found_partial (env : Env) (b : Build) (junk : Str) (disk : Disk) (path q : Str) (fl : AnalyzeFlags)
    (root : Option Str) (img : Image) (hq : Meant disk path root q) (hl : q.length ≤ 4096) (hr : root ≠ some [])
    (ha : Accepted disk q true img) (hn : disk.nullText = true) (ds : DebugSymbol)
    (hf : debugFindElf b junk disk.toFs (debugSymbol disk.toFs (some q) root) img.searchable img.sections = .ok (none, ds)) :
    beanFile env b junk disk path true fl root = beanFile env b junk disk path false fl root := by
  unfold beanFile
  rw [resolve_meant hq hl hr]
  dsimp only
  rw [elfFile_ready.mpr ha]
  dsimp only
  rw [if_pos rfl, if_neg (by decide), debugSymbols, searchDebug, hf]
  dsimp only
  rw [if_pos hn]

/-- C102 does not hold with debug symbols: whenever a debug file is found, its path is read from an object that does not exist any more. -/
theorem C102_debug_counterexample (env : Env) (b : Build) (junk : Str) (disk : Disk) (path q : Str) (fl : AnalyzeFlags)
    (root : Option Str) (img : Image) (hq : Meant disk path root q) (hl : q.length ≤ 4096) (hr : root ≠ some [])
    (ha : Accepted disk q true img) (p : Str) (ds : DebugSymbol)
    (hf : debugFindElf b junk disk.toFs (debugSymbol disk.toFs (some q) root) img.searchable img.sections = .ok (some p, ds)) :
    beanFile env b junk disk path true fl root = .error .ub := by
  unfold beanFile
  rw [resolve_meant hq hl hr]
  dsimp only
  rw [elfFile_ready.mpr ha]
  dsimp only
  rw [if_pos rfl, debugSymbols, searchDebug, hf]
  rfl

/-- C102 does not hold for an empty root: for a missing file, the character before its text is read. -/
theorem C102_root_counterexample (env : Env) (b : Build) (junk : Str) (disk : Disk) (path : Str) (dbg : Bool) (fl : AnalyzeFlags)
    (h : disk.exists_ path = false) : beanFile env b junk disk path dbg fl (some []) = .error .ub := by
  unfold beanFile resolvePath
  rw [h]
  rfl

/-! Examples: a program below a root, with and without a debug file beside it, and a file that is too small. -/

def exImage : Image where
  size := 64
  valid := fun n => decide (64 ≤ n)
  elf := runElf runSyms

def exTiny : Image where
  size := 8
  valid := fun _ => true
  elf := runElf runSyms

/-- Files at `/r/bin/a` and `/r/x`, and those of the list. -/
def exDisk (more : List Str) : Disk where
  absolute := fun p => if p.head? = some '/' then some p else none
  isDir := fun p => p == "/r".toList
  exists_ := fun p => p == "/r/bin/a".toList || p == "/r/x".toList || more.contains p
  read := fun p => if p = "/r/bin/a".toList then some exImage else if p = "/r/x".toList then some exTiny
    else if more.contains p then some exImage else none

theorem exDisk_meant (more : List Str) (h : more.contains "bin/a".toList = false) :
    Meant (exDisk more) "bin/a".toList (some "/r".toList) "/r/bin/a".toList :=
  .inr ⟨by unfold exDisk; dsimp only; rw [h]; decide, _, rfl,
    ⟨"/r".toList, .inr ⟨rfl, by decide⟩, by decide⟩, by unfold exDisk; simp⟩

theorem exDisk_accepted (more : List Str) : Accepted (exDisk more) "/r/bin/a".toList true exImage :=
  ⟨by unfold exDisk; dsimp only; rw [if_pos rfl], by decide, rfl, rfl, rfl, by decide⟩

/-- `C102_plain_partial` -/
example : beanFile exEnv .debug [] (exDisk []) "bin/a".toList false {} (some "/r".toList) =
    .ok (.ready (runState [runMain, runF])) := by
  rw [C102_plain_partial exEnv .debug [] (exDisk []) _ _ {} _ _ (exDisk_meant [] rfl) (by decide) (by decide) (exDisk_accepted []), show exImage.elf = runElf runSyms from rfl,
    run_ok]
  rfl

/-- `C102_refused` -/
example : ∃ o, beanFile exEnv .debug [] (exDisk []) "/r/x".toList true {} none = .ok o ∧ o matches .died :=
  C102_refused exEnv .debug [] (exDisk []) _ _ true {} none (.inl ⟨by decide, rfl⟩) (by decide) (by decide)
    (fun img h => by
      have e : exTiny = img := Option.some.inj h.1
      have := h.2.1
      rw [← e] at this
      exact absurd this (by decide))

/-- `C102_nothing_found_partial` and, with it, the hypotheses of `C102_only` with debug symbols. -/
theorem exDisk_nothing : beanFile exEnv .debug [] (exDisk []) "bin/a".toList true {} (some "/r".toList) =
    .ok (.ready (runState [runMain, runF])) := by
  have hf : ∃ ds, debugFindElf .debug [] (exDisk []).toFs (debugSymbol (exDisk []).toFs (some "/r/bin/a".toList) (some "/r".toList))
      exImage.searchable exImage.sections = .ok (none, ds) := ⟨_, rfl⟩
  obtain ⟨ds, hf⟩ := hf
  rw [C102_nothing_found_partial exEnv .debug [] (exDisk []) _ _ {} _ _ (exDisk_meant [] rfl) (by decide) (by decide)
    (exDisk_accepted []) rfl ds hf,
    C102_plain_partial exEnv .debug [] (exDisk []) _ _ {} _ _ (exDisk_meant [] rfl) (by decide) (by decide) (exDisk_accepted []), show exImage.elf = runElf runSyms from rfl,
    run_ok]
  rfl

example : ∃ q img, Meant (exDisk []) "bin/a".toList (some "/r".toList) q ∧ Accepted (exDisk []) q true img ∧
    analyze exEnv {} img.elf none = .ok (runState [runMain, runF]) :=
  C102_only exEnv .debug [] (exDisk []) _ true {} _
    (fun p h => by
      by_cases h1 : p = "/r/bin/a".toList
      · rw [h1]; decide
      by_cases h2 : p = "/r/x".toList
      · rw [h2]; decide
      · exact absurd (by show (if _ then _ else _) = none; rw [if_neg h1, if_neg h2]; rfl) h)
    (by decide) (fun r h => by rw [← Option.some.inj h]; decide) _ exDisk_nothing

/-- `C102_debug_counterexample`: the debug file `/r/bin/a.debug` is found. -/
example : beanFile exEnv .debug [] (exDisk ["/r/bin/a.debug".toList]) "bin/a".toList true {} (some "/r".toList) = .error .ub := by
  have hf : ∃ ds, debugFindElf .debug [] (exDisk ["/r/bin/a.debug".toList]).toFs
      (debugSymbol (exDisk ["/r/bin/a.debug".toList]).toFs (some "/r/bin/a".toList) (some "/r".toList))
      exImage.searchable exImage.sections = .ok (some "/r/bin/a.debug".toList, ds) := ⟨_, rfl⟩
  obtain ⟨ds, hf⟩ := hf
  exact C102_debug_counterexample exEnv .debug [] _ _ _ {} _ _ (exDisk_meant _ (by decide)) (by decide) (by decide)
    (exDisk_accepted _) _ ds hf

/-- `C102_root_counterexample` -/
example : beanFile exEnv .debug [] (exDisk []) "bin/a".toList false {} (some []) = .error .ub :=
  C102_root_counterexample exEnv .debug [] (exDisk []) _ false {} (by decide)

end Bean.Props

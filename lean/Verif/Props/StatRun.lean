import Verif.Model.StatRun
import Verif.Props.TwoFiles
import Verif.Props.StatText
import Verif.Props.CompareRun
import Verif.Props.VarRun
/-
The summary of differences between two files, and its use by the comparison of versions (C133).
-/
namespace Bean.Props
open Bean Bean.Spec Bean.TwoFiles Bean.StatRun Bean.PyFiles Bean.VarRun

theorem simple_same (arg : Str) : simpleOption .diffstat arg = simpleOption .update arg := by
  unfold simpleOption
  simp only [reduceCtorEq, and_false, if_false, or_false, or_true]

theorem other_same {c d : Cli} {arg : Str} (h : otherArg .diffstat c arg = .ok (.go d)) : otherArg .update c arg = .ok (.go d) := by
  unfold otherArg at h ⊢
  by_cases hi : arg.take 2 = ['-', 'i']
  · rw [if_pos hi] at h ⊢
    exact h
  · rw [if_neg hi] at h ⊢
    rw [if_neg (fun e => e.2 rfl)] at h
    by_cases hd : arg.head? = some '-'
    · rw [if_pos hd] at h
      cases h
    · rw [if_neg hd] at h ⊢
      rw [if_neg]
      · exact h
      · rintro ⟨e, -⟩
        cases arg with
        | nil => cases e
        | cons x xs => exact hd (congrArg some (List.cons.inj e).1)

/-- Arguments that are accepted by the program for summaries mean the same for the program for updates. -/
theorem args_same : ∀ (n : Nat) (args : List Str) (c d : Cli), args.length ≤ n → parseArgs .diffstat c args = .ok (.go d) → parseArgs .update c args = .ok (.go d)
  | _, [], _, _, _, h => h
  | _, [arg], c, d, _, h => by
    unfold parseArgs at h ⊢
    rw [simple_same] at h
    cases hs : simpleOption .update arg with
    | some f => rw [hs] at h; exact h
    | none =>
      rw [hs] at h
      dsimp only at h ⊢
      by_cases hb : arg = ['-', 'b']
      · rw [if_pos hb] at h ⊢
        exact h
      · rw [if_neg hb] at h ⊢
        exact other_same h
  | 0, _ :: _ :: _, _, _, hn, _ => absurd hn (by simp)
  | n + 1, arg :: value :: rest, c, d, hn, h => by
    have hn1 : (value :: rest).length ≤ n := by simp only [List.length_cons] at hn ⊢; omega
    have hn2 : rest.length ≤ n := by simp only [List.length_cons] at hn ⊢; omega
    unfold parseArgs at h ⊢
    rw [simple_same] at h
    cases hs : simpleOption .update arg with
    | some f =>
      rw [hs] at h
      exact args_same n _ _ _ hn1 h
    | none =>
      rw [hs] at h
      dsimp only at h ⊢
      by_cases hb : arg = ['-', 'b']
      · rw [if_pos hb] at h ⊢
        cases hbase : baseOption c (some value) with
        | failure => rw [hbase] at h; cases h
        | go c2 =>
          rw [hbase] at h
          exact args_same n _ _ _ hn2 h
      · rw [if_neg hb] at h ⊢
        cases ho : otherArg .diffstat c arg with
        | error e => rw [ho] at h; cases h
        | ok r =>
          cases r with
          | failure => rw [ho] at h; cases h
          | go c2 =>
            rw [ho] at h
            rw [other_same ho]
            exact args_same n _ _ _ hn1 h

/-- What the program did before it wrote a summary. -/
theorem stat_steps {env : Env} {b : Build} {h : BitVec 64 → BitVec 32} {word : Bool → Str} {junk : Str} {ids : Str × Str} {disk : Disk} {args : List Str} {out : Str}
    (hr : statRun env b h word junk ids disk args = .ok (some out)) :
    ∃ c p old new io im va vb s, parseArgs .diffstat {} args = .ok (.go c) ∧ startsWith (.go c) = true ∧ c.oldPath = some p ∧ openTwo env b junk disk c = .ok (.ready (old, new)) ∧
      binaryOf disk p c.oldBase = .ok (.ready io) ∧ binaryOf disk (newName c p) (newRoot c) = .ok (.ready im) ∧
      buildIdOf b ids.1 (some (io.sections.map (·.notes))) = .ok va ∧ buildIdOf b ids.2 (some (im.sections.map (·.notes))) = .ok vb ∧
      summaryOf b h old.symbols new.symbols (cText va) (cText vb) c.resolve c.deps c.mode = .ok s ∧ out = summaryText word s := by
  unfold statRun at hr
  split at hr
  · cases hr
  · cases hr
  · rename_i c hc
    by_cases hs : startsWith (.go c) = true
    · rw [if_pos hs] at hr
      unfold printSummary at hr
      split at hr
      · cases hr
      · cases hr
      · cases hr
      · rename_i p old new hp ho
        split at hr
        · cases hr
        · cases hr
        · rename_i va vb hi
          split at hr
          · cases hr
          · rename_i s hsum
            unfold bothIds at hi
            split at hi
            · rename_i io im h1 h2
              split at hi
              · cases hi
              · rename_i xa ha
                split at hi
                · cases hi
                · rename_i xb hb
                  have e := Except.ok.inj hi
                  injection e with e
                  injection e with e1 e2
                  unfold idOf at ha hb
                  split at ha
                  · cases ha
                  · rename_i ya hya
                    split at hb
                    · cases hb
                    · rename_i yb hyb
                      refine ⟨c, p, old, new, io, im, ya, yb, s, hc, hs, hp, ho, h1, h2, hya, hyb, ?_, (Option.some.inj (Except.ok.inj hr)).symm⟩
                      rw [← e1, ← e2, ← Except.ok.inj ha, ← Except.ok.inj hb] at hsum
                      exact hsum
            · cases hi
            · cases hi
            · cases hi
    · rw [if_neg hs] at hr
      cases hr

/-- **C133**: whenever the program for summaries writes one, the program for updates ends with a verdict for the same arguments, whatever they are; and the summary, as it is read by
the comparison of versions, contains the same verdict. -/
theorem C133_agree {word : Bool → Str} {value : Bool → Json} (hw : BoolText word value) (env : Env) (b : Build) (h : BitVec 64 → BitVec 32) (junk : Str) (ids : Str × Str)
    (hj : ids.1.length = 41 ∧ ids.2.length = 41) (disk : Disk) (args : List Str) (out : Str) (hr : statRun env b h word junk ids disk args = .ok (some out)) :
    ∃ p, updateRun env b h junk disk args = .ok (.verdict p) ∧ (∃ ms, readJson out = some (.obj ms) ∧ ms.lookup "patchable".toList = some (value p)) ∧
      ∀ base obj, cellVerdict (diffMembers (execJson (some out))) base obj = some (p && (base.isEmpty || obj.isEmpty || dictEq base obj)) := by
  obtain ⟨c, -, old, new, io, im, va, vb, s, hc, hs, -, ho, -, -, ha, hb, hsum, rfl⟩ := stat_steps hr
  obtain ⟨p, hp, -⟩ := C107_verdict hw hj.1 hj.2 ha hb hsum [] []
  refine ⟨p, ?_, ?_, fun base obj => ?_⟩
  · unfold updateRun
    rw [args_same _ args {} c (Nat.le_refl _) hc]
    dsimp only
    rw [if_pos hs, ho]
    dsimp only
    rw [hp]
  · have hs' : s.patchable = p ∧ s.oldId = cText va ∧ s.newId = cText vb := by
      unfold summaryOf at hsum
      rw [hp] at hsum
      rw [← Except.ok.inj hsum]
      exact ⟨rfl, rfl, rfl⟩
    refine ⟨_, (C107_read hw s hj.1 hj.2 ha hb hs'.2.1 hs'.2.2).1, ?_⟩
    unfold summaryMembers
    rw [List.lookup_cons_self, hs'.1]
  · obtain ⟨q, hq, e⟩ := C107_verdict hw hj.1 hj.2 ha hb hsum base obj
    rw [hp] at hq
    rw [Except.ok.inj hq]
    exact e

/-- **C133**, contents: without debug symbols, the summary is about the file that is meant by the first name and directory and the one that is meant by the second name and directory.
It contains the verdict, the settings of the options, the build identifiers of both files, and the numbers and sizes of their symbols. -/
theorem C133_contents_partial {word : Bool → Str} {value : Bool → Json} (hw : BoolText word value) (env : Env) (b : Build) (h : BitVec 64 → BitVec 32) (junk : Str) (ids : Str × Str)
    (hj : ids.1.length = 41 ∧ ids.2.length = 41) (disk : Disk) (args : List Str) (p old new : Str) (io im : Image) (hs : "-s".toList ∉ options args) (hp : (files args)[0]? = some p)
    (ho : Meant disk p (bases args)[0]? old) (hn : Meant disk (((files args)[1]?).getD p) (secondBase args) new) (hl : old.length ≤ 4096 ∧ new.length ≤ 4096) (hb : [] ∉ bases args)
    (hio : Accepted disk old true io) (him : Accepted disk new true im) (out : Str) (hr : statRun env b h word junk ids disk args = .ok (some out)) :
    ∃ ro rn v va vb, analyze env (flagsOf args) io.elf none = .ok ro ∧ analyze env (flagsOf args) im.elf none = .ok rn ∧
      patchableWith b h rn.symbols ro.symbols (decide ("-d".toList ∈ options args)) (modeLetters args) = .ok v ∧
      buildIdOf b ids.1 (some (io.sections.map (·.notes))) = .ok va ∧ buildIdOf b ids.2 (some (im.sections.map (·.notes))) = .ok vb ∧
      readJson out = some (.obj (summaryMembers word value
        { patchable := v, resolve := decide ("-r".toList ∈ options args), dependencies := decide ("-d".toList ∈ options args), mode := modeLetters args,
          oldId := cText va, newId := cText vb, stat := statOf h ro.symbols rn.symbols (decide ("-d".toList ∈ options args)) })) := by
  obtain ⟨c, p', ao, an, jo, jm, va, vb, s, hc, hst, hp', hopen, hbo, hbn, ha, hb', hsum, rfl⟩ := stat_steps hr
  obtain ⟨h1, h2, h3, h4, h5, h6, -, -, -, h7, -, h8, h9, h10, h11, -⟩ := C75_settings .diffstat args c hc
  have hpp : p' = p := Option.some.inj (hp'.symm.trans (h8.trans hp))
  rw [hpp] at hp' hbo hbn
  have root : ∀ i : Nat, (bases args)[i]? ≠ some [] := fun i e => hb (List.mem_of_getElem? e)
  have root2 : secondBase args ≠ some [] := by
    unfold secondBase
    intro e
    rcases Option.or_eq_some_iff.mp e with e | ⟨-, e⟩
    · exact root 1 e
    · exact root 0 e
  have hf : cliFlags c = flagsOf args := by
    unfold cliFlags flagsOf
    rw [bool_decide h3, bool_decide h4, bool_decide h5, bool_decide h6]
  have eb : newRoot c = secondBase args := by
    unfold secondBase newRoot
    rw [← h10, ← h11]
    cases c.newBase <;> rfl
  have ep : newName c p = ((files args)[1]?).getD p := by
    unfold newName
    rw [← h9]
    cases c.newPath <;> rfl
  have hg : c.dbgsym = false := by
    rw [bool_decide h2]
    exact decide_eq_false hs
  have e1 : beanFile env b junk disk p false (flagsOf args) (bases args)[0]? = (analyze env (flagsOf args) io.elf none).map .ready :=
    C102_plain_partial env b junk disk p old _ _ io ho hl.1 (root 0) hio
  have e2 : beanFile env b junk disk (((files args)[1]?).getD p) false (flagsOf args) (secondBase args) = (analyze env (flagsOf args) im.elf none).map .ready :=
    C102_plain_partial env b junk disk _ new _ _ im hn hl.2 root2 him
  have hjo : jo = io := by
    unfold binaryOf at hbo
    rw [h10, resolve_meant ho hl.1 (root 0)] at hbo
    exact Opened.ready.inj (Except.ok.inj (hbo.symm.trans (elfFile_ready.mpr hio)))
  have hjm : jm = im := by
    unfold binaryOf at hbn
    rw [ep, eb, resolve_meant hn hl.2 root2] at hbn
    exact Opened.ready.inj (Except.ok.inj (hbn.symm.trans (elfFile_ready.mpr him)))
  rw [hjo] at ha
  rw [hjm] at hb'
  unfold openTwo at hopen
  rw [hp'] at hopen
  dsimp only at hopen
  rw [ep, eb, hf, hg, h10, e1, e2] at hopen
  cases hro : analyze env (flagsOf args) io.elf none with
  | error e => rw [hro] at hopen; cases hopen
  | ok ro =>
    cases hrn : analyze env (flagsOf args) im.elf none with
    | error e => rw [hro, hrn] at hopen; cases hopen
    | ok rn =>
      rw [hro, hrn] at hopen
      have hpair := Prod.mk.inj (Opened.ready.inj (Except.ok.inj hopen))
      rw [← hpair.1, ← hpair.2, bool_decide h1, bool_decide h4, h7] at hsum
      unfold summaryOf at hsum
      cases hv : patchableWith b h rn.symbols ro.symbols (decide ("-d".toList ∈ options args)) (modeLetters args) with
      | error e => rw [hv] at hsum; cases hsum
      | ok v =>
        rw [hv] at hsum
        have hsum := (Except.ok.inj hsum).symm
        refine ⟨ro, rn, v, va, vb, rfl, rfl, hv, ha, hb', ?_⟩
        rw [hsum]
        exact (C107_read hw _ hj.1 hj.2 ha hb' rfl rfl).1

/-- Without debug symbols, both files are opened and analysed. -/
theorem open_plain {env : Env} {bld : Build} {junk : Str} {disk : Disk} {c : Cli} {p q : Str} {io im : Image} (hp : c.oldPath = some p) (hq : c.newPath = some q)
    (hg : c.dbgsym = false) (hob : c.oldBase = none) (hnb : c.newBase = none) (he : disk.exists_ p = true ∧ disk.exists_ q = true)
    (hl : p.length ≤ 4096 ∧ q.length ≤ 4096) (hio : Accepted disk p true io) (him : Accepted disk q true im) :
    openTwo env bld junk disk c = (do
      let ro ← analyze env (cliFlags c) io.elf none
      let rn ← analyze env (cliFlags c) im.elf none
      return .ready (ro, rn)) ∧
    binaryOf disk p c.oldBase = .ok (.ready io) ∧ binaryOf disk (newName c p) (newRoot c) = .ok (.ready im) := by
  have hn : newName c p = q := by unfold newName; rw [hq]
  have hr : newRoot c = none := by unfold newRoot; rw [hnb, hob]
  have e1 : beanFile env bld junk disk p false (cliFlags c) none = (analyze env (cliFlags c) io.elf none).map .ready :=
    C102_plain_partial env bld junk disk p p _ none io (.inl ⟨he.1, rfl⟩) hl.1 (fun e => by cases e) hio
  have e2 : beanFile env bld junk disk q false (cliFlags c) none = (analyze env (cliFlags c) im.elf none).map .ready :=
    C102_plain_partial env bld junk disk q q _ none im (.inl ⟨he.2, rfl⟩) hl.2 (fun e => by cases e) him
  refine ⟨?_, ?_, ?_⟩
  · unfold openTwo
    rw [hp]
    dsimp only
    rw [hn, hr, hg, hob, e1, e2]
    cases analyze env (cliFlags c) io.elf none with
    | error e => rfl
    | ok ro => cases analyze env (cliFlags c) im.elf none <;> rfl
  · unfold binaryOf
    rw [hob, resolve_meant (.inl ⟨he.1, rfl⟩) hl.1 (fun e => by cases e)]
    exact elfFile_ready.mpr hio
  · unfold binaryOf
    rw [hn, hr, resolve_meant (.inl ⟨he.2, rfl⟩) hl.2 (fun e => by cases e)]
    exact elfFile_ready.mpr him

/-- **C133**: without debug symbols, the cell of the table for two versions of an object shows an update exactly if the analysis of both files succeeds, the update is possible for them
with the settings of the script, and the hashes of their variables (if there are any) are the same. What is missing: directories that start with a dash, paths with more than 4096
characters, and ends of the program without defined behaviour. -/
theorem C133_cell_partial {word : Bool → Str} {value : Bool → Json} (hw : BoolText word value) (env : Env) (bld : Build) (h : BitVec 64 → BitVec 32) (junk : Str) (ids : Str × Str)
    (hj : ids.1.length = 41 ∧ ids.2.length = 41) (disk : Disk) (s : CompareOptions) (hs : s.dbgsym = false) (a b o : Str) (ha : a.head? ≠ some '-') (hb : b.head? ≠ some '-')
    (io im : Image) (he : disk.exists_ (a ++ '/' :: o) = true ∧ disk.exists_ (b ++ '/' :: o) = true)
    (hl : (a ++ '/' :: o).length ≤ 4096 ∧ (b ++ '/' :: o).length ≤ 4096) (hio : Accepted disk (a ++ '/' :: o) true io) (him : Accepted disk (b ++ '/' :: o) true im)
    (out : Option Str) (hr : statRun env bld h word junk ids disk (diffCommand s a b o) = .ok out) (base obj : Hashes)
    (nb : (base.map (·.1)).Nodup) (no : (obj.map (·.1)).Nodup) :
    cellVerdict (diffMembers (execJson out)) base obj = some true ↔
      (∃ ro rn, analyze env { resolve_internal := s.relocations } io.elf none = .ok ro ∧ analyze env { resolve_internal := s.relocations } im.elf none = .ok rn ∧
        patchableWith bld h rn.symbols ro.symbols s.dependencies (min s.internal 3) = .ok true) ∧
      (base ≠ [] → obj ≠ [] → ∀ k, base.lookup k = obj.lookup k) := by
  obtain ⟨hparse, hst⟩ := C109_settings_partial s a b o ha hb
  have hpath : ∀ x : Str, x ++ ['/'] ++ o = x ++ '/' :: o := fun x => by rw [List.append_assoc]; rfl
  obtain ⟨eo, e1, e2⟩ := open_plain (env := env) (bld := bld) (junk := junk) (disk := disk) (c := settingsFor s a b o) (p := a ++ '/' :: o) (q := b ++ '/' :: o) (io := io) (im := im)
    (congrArg some (hpath a)) (congrArg some (hpath b)) hs (by unfold settingsFor; rw [hs]; rfl) (by unfold settingsFor; rw [hs]; rfl) he hl hio him
  rw [show cliFlags (settingsFor s a b o) = { resolve_internal := s.relocations } from rfl] at eo
  have hd : (base.isEmpty || obj.isEmpty || dictEq base obj) = true ↔ (base ≠ [] → obj ≠ [] → ∀ k, base.lookup k = obj.lookup k) := by
    rw [Bool.or_eq_true, Bool.or_eq_true, List.isEmpty_iff, List.isEmpty_iff, dictEq_iff nb no]
    constructor
    · rintro ((h | h) | h) h1 h2
      · exact absurd h h1
      · exact absurd h h2
      · exact h
    · intro h
      by_cases h1 : base = []
      · exact .inl (.inl h1)
      · by_cases h2 : obj = []
        · exact .inl (.inr h2)
        · exact .inr (h h1 h2)
  cases hro : analyze env { resolve_internal := s.relocations } io.elf none with
  | error e =>
    exfalso
    unfold statRun at hr
    rw [hparse] at hr
    dsimp only at hr
    rw [if_pos hst] at hr
    unfold printSummary at hr
    rw [show openTwo env bld junk disk (settingsFor s a b o) = .error e from by rw [eo, hro]; rfl,
      show (settingsFor s a b o).oldPath = some (a ++ '/' :: o) from congrArg some (hpath a)] at hr
    dsimp only at hr
    cases hr
  | ok ro =>
    cases hrn : analyze env { resolve_internal := s.relocations } im.elf none with
    | error e =>
      exfalso
      unfold statRun at hr
      rw [hparse] at hr
      dsimp only at hr
      rw [if_pos hst] at hr
      unfold printSummary at hr
      rw [show openTwo env bld junk disk (settingsFor s a b o) = .error e from by rw [eo, hro, hrn]; rfl,
        show (settingsFor s a b o).oldPath = some (a ++ '/' :: o) from congrArg some (hpath a)] at hr
      dsimp only at hr
      cases hr
    | ok rn =>
      have hopen : openTwo env bld junk disk (settingsFor s a b o) = .ok (.ready (ro, rn)) := by
        rw [eo, hro, hrn]
        rfl
      cases out with
      | none =>
        exfalso
        unfold statRun at hr
        rw [hparse] at hr
        dsimp only at hr
        rw [if_pos hst] at hr
        unfold printSummary at hr
        rw [hopen, show (settingsFor s a b o).oldPath = some (a ++ '/' :: o) from congrArg some (hpath a)] at hr
        dsimp only at hr
        unfold bothIds at hr
        rw [e1, e2] at hr
        dsimp only at hr
        split at hr
        · cases hr
        · rename_i heq
          split at heq
          · cases heq
          · split at heq <;> cases heq
        · split at hr <;> cases hr
      | some t =>
        obtain ⟨c, -, old, new, jo, jm, va, vb, sm, hc, -, -, ho, -, -, hva, hvb, hsum, rfl⟩ := stat_steps hr
        have hc : settingsFor s a b o = c := CliEnd.go.inj (Except.ok.inj (hparse.symm.trans hc))
        rw [← hc, hopen] at ho
        have hpair := Prod.mk.inj (Opened.ready.inj (Except.ok.inj ho))
        rw [← hpair.1, ← hpair.2, ← hc] at hsum
        obtain ⟨p, hp, e⟩ := C107_verdict hw hj.1 hj.2 hva hvb hsum base obj
        rw [e, show (some (p && (base.isEmpty || obj.isEmpty || dictEq base obj)) = some true) = ((p && (base.isEmpty || obj.isEmpty || dictEq base obj)) = true) from by rw [Option.some.injEq],
          Bool.and_eq_true, hd]
        refine and_congr_left (fun _ => ?_)
        constructor
        · rintro rfl
          exact ⟨ro, rn, rfl, rfl, hp⟩
        · rintro ⟨ro', rn', h1, h2, h3⟩
          rw [← Except.ok.inj h1, ← Except.ok.inj h2] at h3
          exact Except.ok.inj (hp.symm.trans h3)

/-- **C133** for the hashes that are delivered by the program for variables with debug symbols: an update between two versions is shown exactly if both files can be analysed, the update
is possible for them with the settings of the script, and both summaries of variables have the same hashes. -/
theorem C133_versions_partial {word : Bool → Str} {value : Bool → Json} (hw : BoolText word value) (env : Env) (bld : Build) (h : BitVec 64 → BitVec 32) (junk : Str) (ids : Str × Str)
    (hj : ids.1.length = 41 ∧ ids.2.length = 41) (disk : Disk) (s : CompareOptions) (hs : s.dbgsym = false) (a b o : Str) (ha : a.head? ≠ some '-') (hb : b.head? ≠ some '-')
    (io im : Image) (he : disk.exists_ (a ++ '/' :: o) = true ∧ disk.exists_ (b ++ '/' :: o) = true)
    (hl : (a ++ '/' :: o).length ≤ 4096 ∧ (b ++ '/' :: o).length ≤ 4096) (hio : Accepted disk (a ++ '/' :: o) true io) (him : Accepted disk (b ++ '/' :: o) true im)
    (out : Str → Str → Option Str) (hr : statRun env bld h word junk ids disk (diffCommand s a b o) = .ok (out a b))
    (fs : PyFs) (cwd : PyPath) (summary : Bool → PyPath → Option SummaryHashes) (m n : SummaryHashes) (hva : VersionAt fs cwd summary a o m) (hvb : VersionAt fs cwd summary b o n) :
    verdict (versionTools fs cwd false summary (fun x y => diffMembers (execJson (out x y))) o) a b = some true ↔
      (∃ ro rn, analyze env { resolve_internal := s.relocations } io.elf none = .ok ro ∧ analyze env { resolve_internal := s.relocations } im.elf none = .ok rn ∧
        patchableWith bld h rn.symbols ro.symbols s.dependencies (min s.internal 3) = .ok true) ∧
      ∀ k x, HashMember m k x ↔ HashMember n k x := by
  have ea := version_hash hva (fun x y => diffMembers (execJson (out x y)))
  have eb := version_hash hvb (fun x y => diffMembers (execJson (out x y)))
  have ne : ∀ {m : SummaryHashes}, (∃ k h, HashMember m k h) → m.filterMap (fun m => m.2.map (fun h => (m.1, h))) ≠ [] := by
    intro m ⟨k, h, hm⟩ e
    have := (hashes_mem m k h).mpr hm
    rw [e] at this
    cases this
  have look : ∀ {m : SummaryHashes}, (m.map (·.1)).Nodup → ∀ k h, (m.filterMap (fun m => m.2.map (fun h => (m.1, h)))).lookup k = some h ↔ HashMember m k h := by
    intro m hm k h
    rw [← hashes_mem]
    exact hashes_lookup (hashes_nodup hm) k h
  unfold verdict
  rw [ea, eb]
  show cellVerdict (diffMembers (execJson (out a b))) _ _ = some true ↔ _
  rw [C133_cell_partial hw env bld h junk ids hj disk s hs a b o ha hb io im he hl hio him (out a b) hr _ _ (hashes_nodup hva.keys) (hashes_nodup hvb.keys)]
  refine and_congr_right (fun _ => ?_)
  constructor
  · intro hh k x
    rw [← look hva.keys, ← look hvb.keys, hh (ne hva.hashed) (ne hvb.hashed) k]
  · intro hh _ _ k
    apply Option.ext
    intro x
    rw [look hva.keys, look hvb.keys, hh k x]

/-- C133: if the old file exists but is refused, there is no verdict for the pair of versions. -/
theorem C133_failure {word : Bool → Str} (env : Env) (bld : Build) (h : BitVec 64 → BitVec 32) (junk : Str) (ids : Str × Str) (disk : Disk) (s : CompareOptions) (hs : s.dbgsym = false)
    (a b o : Str) (ha : a.head? ≠ some '-') (hb : b.head? ≠ some '-') (he : disk.exists_ (a ++ '/' :: o) = true) (hl : (a ++ '/' :: o).length ≤ 4096)
    (hn : ∀ img, ¬ Accepted disk (a ++ '/' :: o) true img) :
    ∃ out, statRun env bld h word junk ids disk (diffCommand s a b o) = .ok out ∧ ∀ base obj, cellVerdict (diffMembers (execJson out)) base obj = none := by
  obtain ⟨hparse, hst⟩ := C109_settings_partial s a b o ha hb
  have hpath : (settingsFor s a b o).oldPath = some (a ++ '/' :: o) := congrArg some (by rw [List.append_assoc]; rfl)
  refine ⟨none, ?_, fun base obj => C107_failure base obj none (.inl rfl)⟩
  obtain ⟨r, hr, hd⟩ := C102_refused env bld junk disk (a ++ '/' :: o) (a ++ '/' :: o) (settingsFor s a b o).dbgsym (cliFlags (settingsFor s a b o)) (settingsFor s a b o).oldBase
    (.inl ⟨he, rfl⟩) hl (by unfold settingsFor; rw [hs]; intro e; cases e) hn
  have ho : openTwo env bld junk disk (settingsFor s a b o) = .ok .died := by
    unfold openTwo
    rw [hpath]
    dsimp only
    rw [hr]
    cases r with
    | died => rfl
    | ready x => cases hd
  unfold statRun
  rw [hparse]
  dsimp only
  rw [if_pos hst]
  unfold printSummary
  rw [hpath, ho]

/-- Contents of the buffers in the examples. -/
def exIds : Str × Str := (List.replicate 41 'x', List.replicate 41 'y')

/-- Two versions of `bin/a` with the same contents, below `/r` and `/s`. -/
theorem ex_summary : ∃ out, statRun exEnv .debug (fun _ => 0) boolWord [] exIds (exDisk ["/r/bin/a".toList, "/s/bin/a".toList]) (diffCommand {} "/r".toList "/s".toList "bin/a".toList) =
    .ok (some out) := by
  obtain ⟨hparse, hst⟩ := C109_settings_partial {} "/r".toList "/s".toList "bin/a".toList (by decide) (by decide)
  obtain ⟨eo, e1, e2⟩ := open_plain (env := exEnv) (bld := .debug) (junk := []) (disk := exDisk ["/r/bin/a".toList, "/s/bin/a".toList])
    (c := settingsFor {} "/r".toList "/s".toList "bin/a".toList) (p := "/r/bin/a".toList) (q := "/s/bin/a".toList) (io := exImage) (im := exImage) rfl rfl rfl rfl rfl (by decide) (by decide)
    ⟨by unfold exDisk; rfl, by decide, rfl, rfl, rfl, by decide⟩ ⟨by unfold exDisk; rfl, by decide, rfl, rfl, rfl, by decide⟩
  rw [show exImage.elf = runElf runSyms from rfl, show cliFlags (settingsFor {} "/r".toList "/s".toList "bin/a".toList) = {} from rfl, run_ok] at eo
  have eo : openTwo exEnv .debug [] (exDisk ["/r/bin/a".toList, "/s/bin/a".toList]) (settingsFor {} "/r".toList "/s".toList "bin/a".toList) =
    .ok (.ready (runState [runMain, runF], runState [runMain, runF])) := eo
  have hi : ∀ j, idOf .debug j exImage = .ok (cString (clearFirst j)) := fun j => rfl
  unfold statRun
  rw [hparse]
  dsimp only
  rw [if_pos hst]
  unfold printSummary
  rw [eo, show (settingsFor {} "/r".toList "/s".toList "bin/a".toList).oldPath = some "/r/bin/a".toList from rfl]
  dsimp only
  unfold bothIds
  rw [e1, e2]
  dsimp only
  rw [hi, hi]
  dsimp only
  unfold summaryOf
  rw [(C05_self_diff_empty .debug (fun _ => 0) (runState [runMain, runF]).symbols _ _ (by decide)).2]
  exact ⟨_, rfl⟩

/-- The program for updates accepts the same arguments. -/
example : ∃ out p, updateRun exEnv .debug (fun _ => 0) [] (exDisk ["/r/bin/a".toList, "/s/bin/a".toList]) (diffCommand {} "/r".toList "/s".toList "bin/a".toList) = .ok (.verdict p) ∧
    ∃ ms, readJson out = some (.obj ms) ∧ ms.lookup "patchable".toList = some (.bool p) := by
  obtain ⟨out, ho⟩ := ex_summary
  obtain ⟨p, hp, hm, -⟩ := C133_agree .words exEnv .debug (fun _ => 0) [] exIds ⟨rfl, rfl⟩ _ _ out ho
  exact ⟨out, p, hp, hm⟩

/-- Contents of the summary. -/
example : ∃ out v st, readJson out = some (.obj (summaryMembers boolWord .bool { patchable := v, resolve := false, dependencies := false, mode := 0, oldId := [], newId := [], stat := st })) ∧
    statRun exEnv .debug (fun _ => 0) boolWord [] exIds (exDisk ["/r/bin/a".toList, "/s/bin/a".toList]) (diffCommand {} "/r".toList "/s".toList "bin/a".toList) = .ok (some out) := by
  obtain ⟨out, ho⟩ := ex_summary
  obtain ⟨ro, rn, v, va, vb, -, -, -, ha, hb, hm⟩ := C133_contents_partial .words exEnv .debug (fun _ => 0) [] exIds ⟨rfl, rfl⟩ (exDisk ["/r/bin/a".toList, "/s/bin/a".toList])
    (diffCommand {} "/r".toList "/s".toList "bin/a".toList) "/r/bin/a".toList "/r/bin/a".toList "/s/bin/a".toList exImage exImage (by decide) rfl (.inl ⟨by decide, rfl⟩) (.inl ⟨by decide, rfl⟩)
    (by decide) (by decide) ⟨by unfold exDisk; rfl, by decide, rfl, rfl, rfl, by decide⟩ ⟨by unfold exDisk; rfl, by decide, rfl, rfl, rfl, by decide⟩ out ho
  have ea : va = clearFirst exIds.1 := (Except.ok.inj ha).symm
  have eb : vb = clearFirst exIds.2 := (Except.ok.inj hb).symm
  refine ⟨out, v, statOf (fun _ => 0) ro.symbols rn.symbols false, ?_, ho⟩
  rw [hm, ea, eb]
  rfl

/-- Both versions are the same, but their variables are not: no update. -/
example : ∃ out, statRun exEnv .debug (fun _ => 0) boolWord [] exIds (exDisk ["/r/bin/a".toList, "/s/bin/a".toList]) (diffCommand {} "/r".toList "/s".toList "bin/a".toList) = .ok out ∧
    cellVerdict (diffMembers (execJson out)) [("data".toList, "1".toList)] [("data".toList, "1".toList)] = some true ∧
    cellVerdict (diffMembers (execJson out)) [("data".toList, "1".toList)] [("data".toList, "2".toList)] ≠ some true := by
  obtain ⟨out, ho⟩ := ex_summary
  have key := C133_cell_partial .words exEnv .debug (fun _ => 0) [] exIds ⟨rfl, rfl⟩ (exDisk ["/r/bin/a".toList, "/s/bin/a".toList]) {} rfl "/r".toList "/s".toList "bin/a".toList (by decide) (by decide)
    exImage exImage (by decide) (by decide) ⟨by unfold exDisk; rfl, by decide, rfl, rfl, rfl, by decide⟩ ⟨by unfold exDisk; rfl, by decide, rfl, rfl, rfl, by decide⟩ _ ho
  refine ⟨_, ho, ?_, ?_⟩
  · refine (key _ _ (by decide) (by decide)).mpr ⟨⟨_, _, run_ok, run_ok, ?_⟩, fun _ _ _ => rfl⟩
    exact (C05_self_diff_empty .debug (fun _ => 0) (runState [runMain, runF]).symbols _ _ (by decide)).2
  · intro e
    exact absurd (((key _ _ (by decide) (by decide)).mp e).2 (by decide) (by decide) "data".toList) (by decide)

/-- The same with the program for variables. -/
example : ∃ out, verdict (versionTools (exPyFs ["/r/bin/a", "/s/bin/a"]) ["home".toList] false (fun _ _ => some [("RW".toList, some "aa".toList)])
    (fun _ _ => diffMembers (execJson out)) "bin/a".toList) "/r".toList "/s".toList = some true := by
  obtain ⟨out, ho⟩ := ex_summary
  refine ⟨some out, (C133_versions_partial .words exEnv .debug (fun _ => 0) [] exIds ⟨rfl, rfl⟩ (exDisk ["/r/bin/a".toList, "/s/bin/a".toList]) {} rfl "/r".toList "/s".toList "bin/a".toList
    (by decide) (by decide) exImage exImage (by decide) (by decide) ⟨by unfold exDisk; rfl, by decide, rfl, rfl, rfl, by decide⟩ ⟨by unfold exDisk; rfl, by decide, rfl, rfl, rfl, by decide⟩
    (fun _ _ => some out) ho (exPyFs ["/r/bin/a", "/s/bin/a"]) ["home".toList] (fun _ _ => some [("RW".toList, some "aa".toList)]) _ _
    ⟨(by decide), (by decide +kernel), (by decide +kernel), rfl, (by decide +kernel), _, _, List.mem_cons_self⟩
    ⟨(by decide), (by decide +kernel), (by decide +kernel), rfl, (by decide +kernel), _, _, List.mem_cons_self⟩).mpr ⟨⟨_, _, run_ok, run_ok, ?_⟩, fun _ _ => Iff.rfl⟩⟩
  exact (C05_self_diff_empty .debug (fun _ => 0) (runState [runMain, runF]).symbols _ _ (by decide)).2

/-- The old version is missing a header. -/
example : ∃ out, statRun exEnv .debug (fun _ => 0) boolWord [] exIds { exDisk ["/r/bin/a".toList] with read := fun _ => some exTiny } (diffCommand {} "/r".toList "/s".toList "bin/a".toList) = .ok out ∧
    ∀ base obj, cellVerdict (diffMembers (execJson out)) base obj = none :=
  C133_failure _ _ _ _ _ _ {} rfl _ _ _ (by decide) (by decide) (by decide) (by decide) (fun img h => by
    have h1 : exTiny = img := Option.some.inj h.1
    have h2 := h.2.1
    rw [← h1] at h2
    exact absurd h2 (by decide))

/-- C133: without two files and without two directories there is no output, whatever the options are, known or not. (More than three letters for the mode are excluded by C75.) -/
theorem C133_usage (env : Env) (b : Build) (h : BitVec 64 → BitVec 32) (word : Bool → Str) (junk : Str) (ids : Str × Str) (disk : Disk) (args : List Str) (hm : modeLetters args ≤ 3)
    (hf : (files args).length < 2) (hb : (bases args).length < 2) : statRun env b h word junk ids disk args = .ok none := by
  obtain ⟨e, he⟩ := C75_defined .diffstat args hm
  have hs := C75_files .diffstat args e he
  unfold statRun
  rw [he]
  cases e with
  | failure => rfl
  | go c =>
    dsimp only
    rw [if_neg]
    intro h1
    have := (hs.mp h1).2
    omega

example : modeLetters ["-x".toList, "old".toList] ≤ 3 ∧ (files ["-x".toList, "old".toList]).length < 2 ∧ (bases ["-x".toList, "old".toList]).length < 2 := by decide

end Bean.Props

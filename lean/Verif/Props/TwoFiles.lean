import Verif.Model.TwoFiles
import Verif.Props.Cli
import Verif.Props.File
import Verif.Props.Diff
/-
The files that are compared (C132).
-/
namespace Bean.Props
open Bean Bean.Spec Bean.TwoFiles

/-- Flags of the analysis for the options. -/
def flagsOf (args : List Str) : AnalyzeFlags where
  resolve_internal := decide ("-r".toList ∈ options args)
  reconstruct := decide ("-R".toList ∈ options args)
  keep_unused := decide ("-k".toList ∈ options args)
  hash_attributes := decide ("-a".toList ∈ options args)

/-- The directory for the second file: the second one, or else the first one. -/
def secondBase (args : List Str) : Option Str := (bases args)[1]?.or (bases args)[0]?

theorem bool_decide {b : Bool} {p : Prop} [Decidable p] (h : b = true ↔ p) : b = decide p := by
  cases b with
  | true => exact (decide_eq_true (h.mp rfl)).symm
  | false => exact (decide_eq_false (fun hp => by have := h.mpr hp; cases this)).symm

/-- The settings, from the arguments. -/
theorem run_settings {env : Env} {b : Build} {h : BitVec 64 → BitVec 32} {junk : Str} {disk : Disk} {args : List Str} (hm : modeLetters args ≤ 3)
    (hr : updateRun env b h junk disk args ≠ .ok .refused) :
    ∃ c, parseArgs .update {} args = .ok (.go c) ∧ startsWith (.go c) = true ∧ cliFlags c = flagsOf args ∧ c.deps = decide ("-d".toList ∈ options args) ∧
      c.dbgsym = decide ("-s".toList ∈ options args) ∧ c.mode = modeLetters args ∧ c.oldPath = (files args)[0]? ∧ c.newPath = (files args)[1]? ∧
      c.oldBase = (bases args)[0]? ∧ c.newBase = (bases args)[1]? := by
  obtain ⟨e, he⟩ := C75_defined .update args hm
  cases e with
  | failure =>
    unfold updateRun at hr
    rw [he] at hr
    exact absurd rfl hr
  | go c =>
    refine ⟨c, he, ?_, ?_⟩
    · cases hs : startsWith (.go c) with
      | true => rfl
      | false =>
        unfold updateRun at hr
        rw [he] at hr
        dsimp only at hr
        rw [hs] at hr
        exact absurd rfl hr
    · obtain ⟨h1, h2, h3, h4, h5, h6, -, -, -, h7, -, h8, h9, h10, h11, -⟩ := C75_settings .update args c he
      refine ⟨?_, bool_decide h1, bool_decide h2, h7, h8, h9, h10, h11⟩
      unfold cliFlags flagsOf
      rw [bool_decide h3, bool_decide h4, bool_decide h5, bool_decide h6]

/-- **C132**: without debug symbols, the program compares the file that is meant by the first name and directory with the one that is meant by the second name and directory, where a
missing second one is the same as the first one. Its exit code is the verdict for these files with the settings of the options. -/
theorem C132_files_partial (env : Env) (b : Build) (h : BitVec 64 → BitVec 32) (junk : Str) (disk : Disk) (args : List Str) (p old new : Str) (io im : Image)
    (hm : modeLetters args ≤ 3) (hr : updateRun env b h junk disk args ≠ .ok .refused) (hs : "-s".toList ∉ options args) (hp : (files args)[0]? = some p)
    (ho : Meant disk p (bases args)[0]? old) (hn : Meant disk (((files args)[1]?).getD p) (secondBase args) new)
    (hl : old.length ≤ 4096 ∧ new.length ≤ 4096) (hb : [] ∉ bases args) (hio : Accepted disk old true io) (him : Accepted disk new true im) :
    updateRun env b h junk disk args = (do
      let ro ← analyze env (flagsOf args) io.elf none
      let rn ← analyze env (flagsOf args) im.elf none
      let v ← patchableWith b h rn.symbols ro.symbols (decide ("-d".toList ∈ options args)) (modeLetters args)
      return .verdict v) := by
  obtain ⟨c, hc, hst, hf, hd, hg, hmode, h1, h2, h3, h4⟩ := run_settings hm hr
  have root : ∀ i : Nat, (bases args)[i]? ≠ some [] := fun i e => hb (List.mem_of_getElem? e)
  have root2 : secondBase args ≠ some [] := by
    unfold secondBase
    intro e
    rcases Option.or_eq_some_iff.mp e with e | ⟨-, e⟩
    · exact root 1 e
    · exact root 0 e
  have e1 : beanFile env b junk disk p false (flagsOf args) (bases args)[0]? = (analyze env (flagsOf args) io.elf none).map .ready :=
    C102_plain_partial env b junk disk p old _ _ io ho hl.1 (root 0) hio
  have e2 : beanFile env b junk disk (((files args)[1]?).getD p) false (flagsOf args) (secondBase args) = (analyze env (flagsOf args) im.elf none).map .ready :=
    C102_plain_partial env b junk disk _ new _ _ im hn hl.2 root2 him
  have hg' : c.dbgsym = false := by rw [hg]; exact decide_eq_false hs
  have eb : newRoot c = secondBase args := by
    unfold secondBase newRoot
    rw [← h3, ← h4]
    cases c.newBase <;> rfl
  have ep : newName c p = ((files args)[1]?).getD p := by
    unfold newName
    rw [← h2]
    cases c.newPath <;> rfl
  have eo : openTwo env b junk disk c = (do
      let ro ← analyze env (flagsOf args) io.elf none
      let rn ← analyze env (flagsOf args) im.elf none
      return .ready (ro, rn)) := by
    unfold openTwo
    rw [h1, hp]
    dsimp only
    rw [ep, eb, hf, hg', h3, e1, e2]
    cases analyze env (flagsOf args) io.elf none with
    | error e => rfl
    | ok ro => cases analyze env (flagsOf args) im.elf none <;> rfl
  unfold updateRun
  rw [hc]
  dsimp only
  rw [if_pos hst, eo, hd, hmode]
  cases analyze env (flagsOf args) io.elf none with
  | error e => rfl
  | ok ro =>
    cases analyze env (flagsOf args) im.elf none with
    | error e => rfl
    | ok rn =>
      show (match patchableWith b h rn.symbols ro.symbols (decide ("-d".toList ∈ options args)) (modeLetters args) with
        | .error e => Except.error e
        | .ok v => .ok (UpdateEnd.verdict v)) = (do
          let v ← patchableWith b h rn.symbols ro.symbols (decide ("-d".toList ∈ options args)) (modeLetters args)
          return .verdict v)
      cases patchableWith b h rn.symbols ro.symbols (decide ("-d".toList ∈ options args)) (modeLetters args) <;> rfl

/-- C132 does not hold in general: with one name and two directories, if a file with this name exists (in the current directory, or as absolute path), the directories do not matter.
The file is compared with itself, and the update is always reported as possible, whatever the two directories contain. -/
theorem C132_directories_counterexample (env : Env) (b : Build) (h : BitVec 64 → BitVec 32) (junk : Str) (disk : Disk) (args : List Str) (p v w : Str) (i : Image) (r : AState)
    (hm : modeLetters args ≤ 3) (hr : updateRun env b h junk disk args ≠ .ok .refused) (hs : "-s".toList ∉ options args) (hp : files args = [p])
    (hb : bases args = [v, w]) (hv : v ≠ [] ∧ w ≠ []) (hl : p.length ≤ 4096) (he : disk.exists_ p = true) (hi : Accepted disk p true i)
    (ha : analyze env (flagsOf args) i.elf none = .ok r) :
    updateRun env b h junk disk args = .ok (.verdict true) := by
  have hp0 : (files args)[0]? = some p := by rw [hp]; rfl
  have hp1 : ((files args)[1]?).getD p = p := by rw [hp]; rfl
  rw [C132_files_partial env b h junk disk args p p p i i hm hr hs hp0 (Or.inl ⟨he, rfl⟩) (by rw [hp1]; exact Or.inl ⟨he, rfl⟩) ⟨hl, hl⟩
    (by rw [hb]; simp only [List.mem_cons, List.not_mem_nil, or_false, not_or]; exact ⟨fun h => hv.1 h.symm, fun h => hv.2 h.symm⟩) hi hi, ha]
  show (do
    let v ← patchableWith b h r.symbols r.symbols (decide ("-d".toList ∈ options args)) (modeLetters args)
    return UpdateEnd.verdict v) = _
  rw [(C05_self_diff_empty b h r.symbols _ _ (by omega)).2]
  rfl

/-- C132 does not hold in general: with two directories and no file, the behaviour is undefined. -/
theorem C132_null_counterexample (env : Env) (b : Build) (h : BitVec 64 → BitVec 32) (junk : Str) (disk : Disk) (args : List Str) (hm : modeLetters args ≤ 3)
    (hr : updateRun env b h junk disk args ≠ .ok .refused) (hp : files args = []) : updateRun env b h junk disk args = .error .ub := by
  obtain ⟨c, hc, hst, -, -, -, -, h1, -⟩ := run_settings hm hr
  unfold updateRun
  rw [hc]
  dsimp only
  rw [if_pos hst]
  unfold openTwo
  rw [h1, hp]
  rfl

/-- Two versions of `bin/a`, below `/r` and `/s`. -/
def exArgs : List Str := ["-b".toList, "/r".toList, "-d".toList, "-b".toList, "/s".toList, "bin/a".toList]

theorem run_started {env : Env} {b : Build} {h : BitVec 64 → BitVec 32} {junk : Str} {disk : Disk} {args : List Str} {c : Cli} (hc : parseArgs .update {} args = .ok (.go c))
    (hs : startsWith (.go c) = true) : updateRun env b h junk disk args ≠ .ok .refused := by
  unfold updateRun
  rw [hc]
  dsimp only
  rw [if_pos hs]
  split
  · exact fun e => (by cases e)
  · exact fun e => (by cases e)
  · split <;> exact fun e => (by cases e)

/-- Without a file `bin/a`, the versions are compared. -/
example : updateRun exEnv .debug (fun _ => 0) [] (exDisk ["/s/bin/a".toList]) exArgs = (do
    let v ← patchableWith .debug (fun _ => 0) (runState [runMain, runF]).symbols (runState [runMain, runF]).symbols true 0
    return .verdict v) := by
  rw [C132_files_partial exEnv .debug (fun _ => 0) [] (exDisk ["/s/bin/a".toList]) exArgs "bin/a".toList "/r/bin/a".toList "/s/bin/a".toList exImage exImage (by decide)
    (run_started rfl rfl) (by decide) rfl (exDisk_meant _ (by decide)) (.inr ⟨by decide, _, rfl, ⟨"/s".toList, .inr ⟨rfl, by decide⟩, by decide⟩, by decide⟩) (by decide) (by decide)
    (exDisk_accepted _) ⟨by unfold exDisk; rfl, by decide, rfl, rfl, rfl, by decide⟩, show exImage.elf = runElf runSyms from rfl, show flagsOf exArgs = {} from by decide, run_ok]
  rfl

/-- With a file `bin/a` in the current directory, nothing below `/r` or `/s` matters. -/
example : updateRun exEnv .debug (fun _ => 0) [] (exDisk ["bin/a".toList]) exArgs = .ok (.verdict true) :=
  C132_directories_counterexample exEnv .debug (fun _ => 0) [] (exDisk ["bin/a".toList]) exArgs "bin/a".toList "/r".toList "/s".toList exImage (runState [runMain, runF]) (by decide)
    (run_started rfl rfl) (by decide) rfl rfl (by decide) (by decide) (by decide) ⟨by unfold exDisk; rfl, by decide, rfl, rfl, rfl, by decide⟩
    (by rw [show exImage.elf = runElf runSyms from rfl, show flagsOf exArgs = {} from by decide, run_ok])

example (disk : Disk) : updateRun exEnv .debug (fun _ => 0) [] disk ["-b".toList, "/r".toList, "-b".toList, "/s".toList] = .error .ub :=
  C132_null_counterexample _ _ _ _ _ _ (by decide) (run_started rfl rfl) rfl

end Bean.Props

import Verif.Model.OtherRuns
import Verif.Props.TwoFiles
import Verif.Props.ChangeText
import Verif.Props.CliVerbose
import Verif.Props.Patchable
/-
The programs for differences, mappings and redirections (C134).
-/
namespace Bean.Props
open Bean Bean.Spec Bean.TwoFiles Bean.OtherRuns

theorem diff_simple (arg : Str) : simpleOption .diff arg = simpleOption .update arg := by
  unfold simpleOption
  simp only [reduceCtorEq, and_false, if_false, false_or, or_false, true_or, or_true]

theorem diff_other (c : Cli) (arg : Str) : otherArg .diff c arg = otherArg .update c arg := by
  unfold otherArg
  simp only [ne_eq, reduceCtorEq, not_false_eq_true, and_true]

/-- The arguments of the programs for differences and for updates mean the same. -/
theorem diff_args (args : List Str) (c : Cli) : parseArgs .diff c args = parseArgs .update c args := by
  fun_induction parseArgs .update c args with
  | case1 c => rfl
  | case2 c a f hf => unfold parseArgs; rw [diff_simple, hf]
  | case3 c hn => unfold parseArgs; rw [diff_simple, hn]; rfl
  | case4 c a hn hb => unfold parseArgs; rw [diff_simple, hn]; dsimp only; rw [if_neg hb, diff_other]
  | case5 c a v rest f hf ih =>
    rw [← ih]
    conv => lhs; unfold parseArgs
    rw [diff_simple, hf]
  | case6 c v rest c₁ hb hn ih =>
    rw [← ih]
    conv => lhs; unfold parseArgs
    rw [diff_simple, hn]
    dsimp only
    rw [if_pos rfl, hb]
  | case7 c v rest hn hb => unfold parseArgs; rw [diff_simple, hn]; dsimp only; rw [if_pos rfl, hb]
  | case8 c a v rest hn hb c₁ ho ih =>
    rw [← ih]
    conv => lhs; unfold parseArgs
    rw [diff_simple, hn]
    dsimp only
    rw [if_neg hb, diff_other, ho]
  | case9 c a v rest hn hb ho => unfold parseArgs; rw [diff_simple, hn]; dsimp only; rw [if_neg hb, diff_other, ho]
  | case10 c a v rest hn hb e ho => unfold parseArgs; rw [diff_simple, hn]; dsimp only; rw [if_neg hb, diff_other, ho]

/-- What a program did before its output. -/
theorem two_steps {t : Tool} {main : Cli → SymTree → SymTree → M Str} {env : Env} {b : Build} {junk : Str} {disk : Disk} {args : List Str} {out : Str}
    (hr : compareTwo t main env b junk disk args = .ok (some out)) :
    ∃ c old new, parseArgs t {} args = .ok (.go c) ∧ startsWith (.go c) = true ∧ openTwo env b junk disk c = .ok (.ready (old, new)) ∧ main c old.symbols new.symbols = .ok out := by
  unfold compareTwo at hr
  split at hr
  · cases hr
  · cases hr
  · rename_i c hc
    by_cases hs : startsWith (.go c) = true
    · rw [if_pos hs] at hr
      split at hr
      · cases hr
      · cases hr
      · rename_i old new ho
        split at hr
        · cases hr
        · rename_i s hm
          exact ⟨c, old, new, hc, hs, ho, hm.trans (congrArg Except.ok (Option.some.inj (Except.ok.inj hr)))⟩
    · rw [if_neg hs] at hr
      cases hr

/-- **C134**, without option `-v`: whenever the program for differences has an output, the program for updates ends with a verdict for the same arguments. The update is possible exactly
if none of the symbols whose identifiers are listed prevents it. In particular, it is possible if nothing is listed. -/
theorem C134_agree (env : Env) (b : Build) (h : BitVec 64 → BitVec 32) (junk : Str) (disk : Disk) (args : List Str) (out : Str) (hv : verboseLetters args = 0)
    (hr : diffRun env b h junk disk args = .ok (some out)) :
    ∃ v, updateRun env b h junk disk args = .ok (.verdict v) ∧
      (∃ shown : List Symbol, (readLines out).tail.map readId = shown.map (fun s => (s.id, [])) ∧ (v = true ↔ ∀ s ∈ shown, ¬ Blocks s)) ∧
      ((readLines out).tail = [] → v = true) := by
  obtain ⟨c, old, new, hc, hs, ho, hm⟩ := two_steps hr
  have hz : c.verbose = 0 := by rw [C75_verbose _ _ _ hc, hv]; rfl
  obtain ⟨added, hd, hids⟩ := C110_diff_ids hz hm
  obtain ⟨v, hp, hb⟩ := C14_patchable_pair b h new.symbols old.symbols c.deps c.mode added hd
  refine ⟨v, ?_, ⟨added, hids, hb⟩, fun e => hb.mpr ?_⟩
  · unfold updateRun
    rw [← diff_args, hc]
    dsimp only
    rw [if_pos hs, ho]
    dsimp only
    rw [hp]
  · intro s hsm
    rw [e] at hids
    have : added = [] := List.map_eq_nil_iff.mp hids.symm
    rw [this] at hsm
    cases hsm

/-- Both files were opened. -/
theorem open_files {env : Env} {b : Build} {junk : Str} {disk : Disk} {c : Cli} {old new : AState} (h : openTwo env b junk disk c = .ok (.ready (old, new))) :
    ∃ p, c.oldPath = some p ∧ beanFile env b junk disk p c.dbgsym (cliFlags c) c.oldBase = .ok (.ready old) ∧
      beanFile env b junk disk (newName c p) c.dbgsym (cliFlags c) (newRoot c) = .ok (.ready new) := by
  unfold openTwo at h
  split at h
  · cases h
  · rename_i p hp
    split at h
    · cases h
    · cases h
    · rename_i o ho
      split at h
      · cases h
      · cases h
      · rename_i n hn
        have e := Prod.mk.inj (Opened.ready.inj (Except.ok.inj h))
        rw [← e.1, ← e.2]
        exact ⟨p, hp, ho, hn⟩

theorem file_ordered {env : Env} {b : Build} {junk : Str} {disk : Disk} {p : Str} {dbg : Bool} {fl : AnalyzeFlags} {root : Option Str} {r : AState}
    (h : beanFile env b junk disk p dbg fl root = .ok (.ready r)) : Ordered r.symbols := by
  unfold beanFile at h
  split at h
  · cases h
  · split at h
    · cases h
    · cases h
    · split at h
      · cases h
      · cases h
      · split at h
        · cases h
        · rename_i a ha
          rw [← Opened.ready.inj (Except.ok.inj h)]
          exact (C72_wellformed _ _ _ _ _ ha).1

/-- **C134**, with option `-v`: the lines of the output are about symbols, and the update is possible exactly if no symbol that is marked as added prevents it. In particular, it is
possible if no line is marked as added. What is missing: files with line breaks in names. -/
theorem C134_marks_partial (env : Env) (b : Build) (h : BitVec 64 → BitVec 32) (junk : Str) (disk : Disk) (args : List Str) (out : Str) (hv : verboseLetters args = 1)
    (hr : diffRun env b h junk disk args = .ok (some out))
    (hf : ∀ c old new, parseArgs .diff {} args = .ok (.go c) → openTwo env b junk disk c = .ok (.ready (old, new)) → ∀ s, s ∈ old.symbols ∨ s ∈ new.symbols → OneLine s) :
    ∃ (v : Bool) (lines : List (Mark × Symbol)), updateRun env b h junk disk args = .ok (.verdict v) ∧ readChanges out = lines.map (fun x => some (x.1, rowOf x.2)) ∧
      (v = true ↔ ∀ x ∈ lines, x.1 = .added → ¬ Blocks x.2) := by
  obtain ⟨c, old, new, hc, hs, ho, hm⟩ := two_steps hr
  obtain ⟨p, hp, hbo, hbn⟩ := open_files ho
  have hz : c.verbose = 1 := by rw [C75_verbose _ _ _ hc, hv]; rfl
  obtain ⟨added, removed, lines, hd, -, hread, -, hnew, hmark, -⟩ := C110_diff_rows hz (file_ordered hbn) hm
    (fun s hs => hf c old new hc ho s (.inl hs)) (fun s hs => hf c old new hc ho s (.inr hs))
  obtain ⟨v, hp, hb⟩ := C14_patchable_pair b h new.symbols old.symbols c.deps c.mode added hd
  refine ⟨v, lines, ?_, hread, hb.trans ⟨fun hall x hx ha => ?_, fun hall s hsm => ?_⟩⟩
  · unfold updateRun
    rw [← diff_args, hc]
    dsimp only
    rw [if_pos hs, ho]
    dsimp only
    rw [hp]
  · exact hall x.2 ((hmark x hx (by rw [ha]; decide)).mp ha)
  · have hsn := ((C07_sized_only b h _ _ _ _ _ hd).2 s hsm).1
    rw [← hnew] at hsn
    obtain ⟨x, hx, e⟩ := List.mem_map.mp hsn
    obtain ⟨hx, hne⟩ := List.mem_filter.mp hx
    have hne : x.1 ≠ .removed := by simpa using hne
    rw [← e]
    exact hall x hx ((hmark x hx hne).mpr (by rw [e]; exact hsm))

/-- **C134**, files: without debug symbols, each of the programs works on the symbols of the file that is meant by the first name and directory and of the one that is meant by the second
name and directory, with the settings of the options. -/
theorem C134_files_partial (t : Tool) (main : Cli → SymTree → SymTree → M Str) (env : Env) (b : Build) (junk : Str) (disk : Disk) (args : List Str) (p old new : Str) (io im : Image)
    (hs : "-s".toList ∉ options args) (hp : (files args)[0]? = some p) (ho : Meant disk p (bases args)[0]? old) (hn : Meant disk (((files args)[1]?).getD p) (secondBase args) new)
    (hl : old.length ≤ 4096 ∧ new.length ≤ 4096) (hb : [] ∉ bases args) (hio : Accepted disk old true io) (him : Accepted disk new true im) (out : Str)
    (hr : compareTwo t main env b junk disk args = .ok (some out)) :
    ∃ c ro rn, analyze env (flagsOf args) io.elf none = .ok ro ∧ analyze env (flagsOf args) im.elf none = .ok rn ∧ main c ro.symbols rn.symbols = .ok out ∧
      c.deps = decide ("-d".toList ∈ options args) ∧ c.mode = modeLetters args ∧ c.verbose = BitVec.ofNat 8 (verboseLetters args) ∧
      c.oldPath = some p ∧ c.newPath = (files args)[1]? := by
  obtain ⟨c, ao, an, hc, hst, hopen, hm⟩ := two_steps hr
  obtain ⟨p', hp', hbo, hbn⟩ := open_files hopen
  obtain ⟨h1, h2, h3, h4, h5, h6, -, -, -, h7, -, h8, h9, h10, h11, -⟩ := C75_settings t args c hc
  have hpp : p' = p := Option.some.inj (hp'.symm.trans (h8.trans hp))
  rw [hpp] at hp' hbo hbn
  have root : ∀ i : Nat, (bases args)[i]? ≠ some [] := fun i e => hb (List.mem_of_getElem? e)
  have root2 : secondBase args ≠ some [] := by
    unfold secondBase
    intro e
    rcases Option.or_eq_some_iff.mp e with e | ⟨-, e⟩
    · exact root 1 e
    · exact root 0 e
  have hf : cliFlags c = flagsOf args := by
    unfold cliFlags flagsOf
    rw [bool_decide h3, bool_decide h4, bool_decide h5, bool_decide h6]
  have eb : newRoot c = secondBase args := by
    unfold secondBase newRoot
    rw [← h10, ← h11]
    cases c.newBase <;> rfl
  have ep : newName c p = ((files args)[1]?).getD p := by
    unfold newName
    rw [← h9]
    cases c.newPath <;> rfl
  have hg : c.dbgsym = false := by
    rw [bool_decide h2]
    exact decide_eq_false hs
  rw [hf, hg, h10, C102_plain_partial env b junk disk p old _ _ io ho hl.1 (root 0) hio] at hbo
  rw [ep, eb, hf, hg, C102_plain_partial env b junk disk _ new _ _ im hn hl.2 root2 him] at hbn
  cases hro : analyze env (flagsOf args) io.elf none with
  | error e => rw [hro] at hbo; cases hbo
  | ok ro =>
    cases hrn : analyze env (flagsOf args) im.elf none with
    | error e => rw [hrn] at hbn; cases hbn
    | ok rn =>
      rw [hro] at hbo
      rw [hrn] at hbn
      have e1 : ro = ao := Opened.ready.inj (Except.ok.inj hbo)
      have e2 : rn = an := Opened.ready.inj (Except.ok.inj hbn)
      exact ⟨c, ro, rn, rfl, rfl, by rw [e1, e2]; exact hm, bool_decide h1, h7, C75_verbose _ _ _ hc, hp', h9⟩

/-- C134 does not hold for the program for mappings: with one name and two directories, there is no output with defined behaviour, whatever the files are. -/
theorem C134_map_counterexample (env : Env) (b : Build) (h : BitVec 64 → BitVec 32) (junk : Str) (disk : Disk) (args : List Str) (hp : (files args).length ≤ 1) (out : Str) :
    mapRun env b h junk disk args ≠ .ok (some out) := by
  intro hr
  obtain ⟨c, old, new, hc, -, -, hm⟩ := two_steps hr
  obtain ⟨-, -, -, -, -, -, -, -, -, -, -, -, h9, -⟩ := C75_settings .map args c hc
  have hq : c.newPath = none := h9.trans (List.getElem?_eq_none hp)
  unfold mapMain at hm
  cases hx : map b h old.symbols new.symbols c.names with
  | error e => rw [hx] at hm; cases hm
  | ok m =>
    rw [hx, hq] at hm
    cases hp : c.oldPath with
    | none => rw [hp] at hm; cases hm
    | some q => rw [hp] at hm; cases hm

/-- The settings for the arguments of the examples, with the level of details. -/
def exCli (v : BitVec 8) : Cli := { verbose := v, deps := true, oldBase := some "/r".toList, newBase := some "/s".toList, oldPath := some "bin/a".toList }

/-- Two versions of `bin/a` with the same contents, below `/r` and `/s`. -/
theorem ex_open (v : BitVec 8) : openTwo exEnv .debug [] (exDisk ["/s/bin/a".toList]) (exCli v) = .ok (.ready (runState [runMain, runF], runState [runMain, runF])) := by
  have e1 : beanFile exEnv .debug [] (exDisk ["/s/bin/a".toList]) "bin/a".toList false {} (some "/r".toList) = .ok (.ready (runState [runMain, runF])) := by
    rw [C102_plain_partial exEnv .debug [] (exDisk ["/s/bin/a".toList]) "bin/a".toList "/r/bin/a".toList {} _ exImage (exDisk_meant _ (by decide)) (by decide) (by decide) (exDisk_accepted _),
      show exImage.elf = runElf runSyms from rfl, run_ok]
    rfl
  have e2 : beanFile exEnv .debug [] (exDisk ["/s/bin/a".toList]) "bin/a".toList false {} (some "/s".toList) = .ok (.ready (runState [runMain, runF])) := by
    rw [C102_plain_partial exEnv .debug [] (exDisk ["/s/bin/a".toList]) "bin/a".toList "/s/bin/a".toList {} _ exImage
      (.inr ⟨by decide, _, rfl, ⟨"/s".toList, .inr ⟨rfl, by decide⟩, by decide⟩, by decide⟩) (by decide) (by decide)
      ⟨by unfold exDisk; rfl, by decide, rfl, rfl, rfl, by decide⟩, show exImage.elf = runElf runSyms from rfl, run_ok]
    rfl
  unfold openTwo
  rw [show (exCli v).oldPath = some "bin/a".toList from rfl]
  dsimp only
  rw [show cliFlags (exCli v) = {} from rfl, show (exCli v).dbgsym = false from rfl, show (exCli v).oldBase = some "/r".toList from rfl, e1]
  dsimp only
  rw [show newRoot (exCli v) = some "/s".toList from rfl, show newName (exCli v) "bin/a".toList = "bin/a".toList from rfl, e2]

theorem ex_diff : diffRun exEnv .debug (fun _ => 0) [] (exDisk ["/s/bin/a".toList]) exArgs = .ok (some (setText 0 [])) := by
  unfold diffRun compareTwo
  rw [show parseArgs .diff {} exArgs = .ok (.go (exCli 0)) from rfl]
  dsimp only
  rw [if_pos (by decide), ex_open]
  dsimp only
  unfold diffMain
  rw [if_pos (by decide), (C05_self_diff_empty .debug (fun _ => 0) (runState [runMain, runF]).symbols _ _ (by decide)).1]
  rfl

theorem ex_marks : ∃ out, diffRun exEnv .debug (fun _ => 0) [] (exDisk ["/s/bin/a".toList]) ("-v".toList :: exArgs) = .ok (some out) := by
  unfold diffRun compareTwo
  rw [show parseArgs .diff {} ("-v".toList :: exArgs) = .ok (.go (exCli 1)) from rfl]
  dsimp only
  rw [if_pos (by decide), ex_open]
  dsimp only
  unfold diffMain diffTool
  rw [if_neg (by decide), (C05_self_diff_empty .debug (fun _ => 0) (runState [runMain, runF]).symbols _ _ (by decide)).1]
  exact ⟨_, rfl⟩

/-- All symbols are listed, none of them as added. -/
example : ∃ (out : Str) (v : Bool) (lines : List (Mark × Symbol)), diffRun exEnv .debug (fun _ => 0) [] (exDisk ["/s/bin/a".toList]) ("-v".toList :: exArgs) = .ok (some out) ∧
    updateRun exEnv .debug (fun _ => 0) [] (exDisk ["/s/bin/a".toList]) ("-v".toList :: exArgs) = .ok (.verdict v) ∧
    readChanges out = lines.map (fun x => some (x.1, rowOf x.2)) := by
  obtain ⟨out, ho⟩ := ex_marks
  obtain ⟨v, lines, h1, h2, -⟩ := C134_marks_partial exEnv .debug (fun _ => 0) [] (exDisk ["/s/bin/a".toList]) ("-v".toList :: exArgs) out (by decide) ho (by
    intro c old new hc hopen s hs
    rw [show parseArgs .diff {} ("-v".toList :: exArgs) = .ok (.go (exCli 1)) from rfl] at hc
    rw [← CliEnd.go.inj (Except.ok.inj hc), ex_open] at hopen
    have e := Prod.mk.inj (Opened.ready.inj (Except.ok.inj hopen))
    rw [← e.1, ← e.2] at hs
    have hs : s ∈ [runMain, runF] := hs.elim id id
    simp only [List.mem_cons, List.not_mem_nil, or_false] at hs
    rcases hs with rfl | rfl
    · exact ⟨fun n e => Option.some.inj e ▸ by decide, fun n e => Option.some.inj e ▸ by decide⟩
    · exact ⟨fun n e => Option.some.inj e ▸ by decide, fun n e => Option.some.inj e ▸ by decide⟩)
  exact ⟨out, v, lines, ho, h1, h2⟩

/-- Nothing is listed, hence the update is possible. -/
example : updateRun exEnv .debug (fun _ => 0) [] (exDisk ["/s/bin/a".toList]) exArgs = .ok (.verdict true) := by
  obtain ⟨v, hu, -, hv⟩ := C134_agree exEnv .debug (fun _ => 0) [] (exDisk ["/s/bin/a".toList]) exArgs _ (by decide) ex_diff
  rw [hu, hv (by decide)]

example : ∃ c, diffMain .debug (fun _ => 0) c (runState [runMain, runF]).symbols (runState [runMain, runF]).symbols = .ok (setText 0 []) ∧ c.deps = true := by
  obtain ⟨c, ro, rn, h1, h2, h3, h4, -⟩ := C134_files_partial .diff (diffMain .debug (fun _ => 0)) exEnv .debug [] (exDisk ["/s/bin/a".toList]) exArgs "bin/a".toList "/r/bin/a".toList "/s/bin/a".toList
    exImage exImage (by decide) rfl (exDisk_meant _ (by decide)) (.inr ⟨by decide, _, rfl, ⟨"/s".toList, .inr ⟨rfl, by decide⟩, by decide⟩, by decide⟩) (by decide) (by decide)
    (exDisk_accepted _) ⟨by unfold exDisk; rfl, by decide, rfl, rfl, rfl, by decide⟩ _ ex_diff
  rw [show exImage.elf = runElf runSyms from rfl, show flagsOf exArgs = {} from by decide, run_ok] at h1 h2
  rw [← Except.ok.inj h1, ← Except.ok.inj h2] at h3
  exact ⟨c, h3, h4⟩

example (disk : Disk) (out : Str) : mapRun exEnv .debug (fun _ => 0) [] disk exArgs ≠ .ok (some out) := C134_map_counterexample _ _ _ _ _ _ (by decide) _

/-- C134: without two files and without two directories there is no output, for all programs with two files. -/
theorem C134_usage (t : Tool) (main : Cli → SymTree → SymTree → M Str) (env : Env) (b : Build) (junk : Str) (disk : Disk) (args : List Str) (hm : modeLetters args ≤ 3)
    (hf : (files args).length < 2) (hb : (bases args).length < 2) : compareTwo t main env b junk disk args = .ok none := by
  obtain ⟨e, he⟩ := C75_defined t args hm
  have hs := C75_files t args e he
  unfold compareTwo
  rw [he]
  cases e with
  | failure => rfl
  | go c =>
    dsimp only
    rw [if_neg]
    intro h1
    have := (hs.mp h1).2
    omega

example : modeLetters ["-vx".toList, "old".toList] ≤ 3 ∧ (files ["-vx".toList, "old".toList]).length < 2 ∧ (bases ["-vx".toList, "old".toList]).length < 2 := by decide

/-- The options that only `update-code` knows. -/
def codeOptions : List Str := ["-n".toList, "-t".toList, "-B".toList, "-X".toList]

theorem code_parse (p q : Str) (hp : p.head? ≠ some '-') (hq : q.head? ≠ some '-') : ∀ (opts : List Str), (∀ o ∈ opts, o ∈ codeOptions) → ∀ c : Cli, c.oldPath = none → c.newPath = none →
    ∃ c', parseArgs .updateCode c (opts ++ [p, q]) = .ok (.go c') ∧ c'.oldPath = some p ∧ c'.newPath = some q := by
  have other : ∀ (x : Str), x.head? ≠ some '-' → simpleOption .updateCode x = none ∧ x ≠ ['-', 'b'] ∧ ∀ c, otherArg .updateCode c x = (match c.oldPath, c.newPath with
      | none, _ => .ok (.go { c with oldPath := some x })
      | some _, none => .ok (.go { c with newPath := some x })
      | some _, some _ => .ok (.go c)) := by
    intro x hx
    have h2 : ∀ a, x ≠ ['-', a] := by rintro a rfl; exact hx rfl
    have h3 : ∀ a, x.take 2 ≠ ['-', a] := by
      intro a h
      cases x with
      | nil => cases h
      | cons y l =>
        rw [List.take_succ_cons] at h
        injection h with h _
        exact hx (by rw [h]; rfl)
    refine ⟨?_, h2 'b', ?_⟩
    · unfold simpleOption
      simp [h2]
    · intro c
      unfold otherArg
      rw [if_neg (h3 _), if_neg (fun h => h3 _ h.1), if_neg hx]
      rfl
  intro opts
  induction opts with
  | nil =>
    intro _ c h1 h2
    obtain ⟨a1, a2, a3⟩ := other p hp
    obtain ⟨b1, b2, b3⟩ := other q hq
    refine ⟨{ c with oldPath := some p, newPath := some q }, ?_, rfl, rfl⟩
    rw [List.nil_append, parseArgs, a1]
    dsimp only
    rw [if_neg a2, a3, h1]
    dsimp only
    rw [parseArgs, b1]
    dsimp only
    rw [if_neg b2, b3]
    dsimp only
    rw [h2]
  | cons o opts ih =>
    intro ho c h1 h2
    have hf : ∃ f : Cli → Cli, simpleOption .updateCode o = some f ∧ ∀ c, (f c).oldPath = c.oldPath ∧ (f c).newPath = c.newPath := by
      have := ho o List.mem_cons_self
      simp only [codeOptions, List.mem_cons, List.not_mem_nil, or_false] at this
      rcases this with rfl | rfl | rfl | rfl <;> exact ⟨_, rfl, fun _ => ⟨rfl, rfl⟩⟩
    obtain ⟨f, hf, hk⟩ := hf
    have step : parseArgs .updateCode c (o :: opts ++ [p, q]) = parseArgs .updateCode (f c) (opts ++ [p, q]) := by
      cases opts with
      | nil => show parseArgs _ _ [o, p, q] = _; conv => lhs; rw [parseArgs, hf]
               rfl
      | cons x l => show parseArgs _ _ (o :: x :: (l ++ [p, q])) = _; conv => lhs; rw [parseArgs, hf]
                    rfl
    rw [step]
    exact ih (fun x hx => ho x (List.mem_cons_of_mem _ hx)) (f c) ((hk c).1.trans h1) ((hk c).2.trans h2)

/-- **C134**: with its own options and two files, the program for updates of code lists the code with exactly the settings that these options ask for, if both files can be opened. -/
theorem C134_code (env : Env) (b : Build) (h : BitVec 64 → BitVec 32) (junk : Str) (disk : Disk) (opts : List Str) (ho : ∀ o ∈ opts, o ∈ codeOptions) (p q : Str)
    (hp : p.head? ≠ some '-') (hq : q.head? ≠ some '-') : ∃ c : Cli, c.oldPath = some p ∧ c.newPath = some q ∧
      (c.names = true ↔ "-n".toList ∈ options (opts ++ [p, q])) ∧ (c.trampolines = true ↔ "-t".toList ∈ options (opts ++ [p, q])) ∧
      (c.branches = true ↔ "-B".toList ∈ options (opts ++ [p, q])) ∧ (c.onlyExec = true ↔ "-X".toList ∈ options (opts ++ [p, q])) ∧
      ∀ old new out, openTwo env b junk disk c = .ok (.ready (old, new)) → updateCodeMain b h c old.symbols new.symbols = .ok out →
        codeRun env b h junk disk (opts ++ [p, q]) = .ok (some out) := by
  obtain ⟨c, hc, h1, h2⟩ := code_parse p q hp hq opts ho {} rfl rfl
  obtain ⟨-, -, -, -, -, -, s1, s2, s3, -⟩ := C75_settings _ _ _ hc
  refine ⟨c, h1, h2, C78_update_names _ _ hc, s1, s2, s3, ?_⟩
  intro old new out hopen hm
  unfold codeRun compareTwo
  rw [hc]
  dsimp only
  rw [if_pos (by unfold startsWith; dsimp only; rw [h2]; rfl), hopen]
  dsimp only
  rw [hm]

example : (∀ o ∈ ["-n".toList, "-B".toList], o ∈ codeOptions) ∧ "old".toList.head? ≠ some '-' ∧ "-n".toList ∈ options (["-n".toList, "-B".toList] ++ ["old".toList, "new".toList]) := by decide

end Bean.Props

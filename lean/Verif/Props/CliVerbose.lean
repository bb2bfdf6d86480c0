import Verif.Props.Cli
/-
Level of output of the programs (C75).
-/
namespace Bean.Props
open Bean Bean.Spec

/-- All letters `v` in options starting with `-v`. -/
def verboseLetters (args : List Str) : Nat :=
  (((options args).filter (fun a => a.take 2 = ['-', 'v'])).map (fun a => a.length - 1)).sum

theorem simple_verbose {t : Tool} {a : Str} {f : Cli → Cli} (h : simpleOption t a = some f) (c : Cli) : (f c).verbose = c.verbose ∧ a.take 2 ≠ ['-', 'v'] := by
  unfold simpleOption at h
  by_cases hc : a = ['-', 'd'] ∧ (t = .diff ∨ t = .diffstat ∨ t = .update)
  · rw [if_pos hc] at h
    rw [← Option.some.inj h, hc.1]
    exact ⟨rfl, by decide⟩
  rw [if_neg hc] at h; clear hc
  by_cases hc : a = ['-', 's']
  · rw [if_pos hc] at h
    rw [← Option.some.inj h, hc]
    exact ⟨rfl, by decide⟩
  rw [if_neg hc] at h; clear hc
  by_cases hc : a = ['-', 'n'] ∧ t = .map
  · rw [if_pos hc] at h
    rw [← Option.some.inj h, hc.1]
    exact ⟨rfl, by decide⟩
  rw [if_neg hc] at h; clear hc
  by_cases hc : a = ['-', 'n'] ∧ t = .updateCode
  · rw [if_pos hc] at h
    rw [← Option.some.inj h, hc.1]
    exact ⟨rfl, by decide⟩
  rw [if_neg hc] at h; clear hc
  by_cases hc : a = ['-', 't'] ∧ t = .updateCode
  · rw [if_pos hc] at h
    rw [← Option.some.inj h, hc.1]
    exact ⟨rfl, by decide⟩
  rw [if_neg hc] at h; clear hc
  by_cases hc : a = ['-', 'B'] ∧ t = .updateCode
  · rw [if_pos hc] at h
    rw [← Option.some.inj h, hc.1]
    exact ⟨rfl, by decide⟩
  rw [if_neg hc] at h; clear hc
  by_cases hc : a = ['-', 'X'] ∧ t = .updateCode
  · rw [if_pos hc] at h
    rw [← Option.some.inj h, hc.1]
    exact ⟨rfl, by decide⟩
  rw [if_neg hc] at h; clear hc
  by_cases hc : a = ['-', 'k']
  · rw [if_pos hc] at h
    rw [← Option.some.inj h, hc]
    exact ⟨rfl, by decide⟩
  rw [if_neg hc] at h; clear hc
  by_cases hc : a = ['-', 'r']
  · rw [if_pos hc] at h
    rw [← Option.some.inj h, hc]
    exact ⟨rfl, by decide⟩
  rw [if_neg hc] at h; clear hc
  by_cases hc : a = ['-', 'R']
  · rw [if_pos hc] at h
    rw [← Option.some.inj h, hc]
    exact ⟨rfl, by decide⟩
  rw [if_neg hc] at h; clear hc
  by_cases hc : a = ['-', 'a']
  · rw [if_pos hc] at h
    rw [← Option.some.inj h, hc]
    exact ⟨rfl, by decide⟩
  rw [if_neg hc] at h; clear hc
  cases h

theorem verbose_cons {a : Str} (rest : List Str) (hb : a ≠ ['-', 'b']) :
    verboseLetters (a :: rest) = (if a.take 2 = ['-', 'v'] then a.length - 1 else 0) + verboseLetters rest := by
  unfold verboseLetters
  rw [options_cons hb, List.filter_cons]
  by_cases hv : a.take 2 = ['-', 'v']
  · rw [if_pos (decide_eq_true hv), if_pos hv, List.map_cons, List.sum_cons]
  · rw [if_neg (by rw [decide_eq_true_iff]; exact hv), if_neg hv, Nat.zero_add]

theorem base_verbose {c c' : Cli} {v : Option Str} (h : baseOption c v = .go c') : c'.verbose = c.verbose := by
  unfold baseOption at h
  split at h
  · rw [← CliEnd.go.inj h]
  · rw [← CliEnd.go.inj h]
  · cases h

theorem other_verbose {t : Tool} {c c' : Cli} {a : Str} (h : otherArg t c a = .ok (.go c')) :
    c'.verbose = c.verbose + BitVec.ofNat 8 (if a.take 2 = ['-', 'v'] then a.length - 1 else 0) := by
  have hz : c.verbose = c.verbose + BitVec.ofNat 8 0 := by bv_omega
  unfold otherArg at h
  by_cases hi : a.take 2 = ['-', 'i']
  · rw [if_pos hi] at h
    rw [(letterI_ok h).1, if_neg (by rw [hi]; decide)]
    exact hz
  · rw [if_neg hi] at h
    by_cases hv : a.take 2 = ['-', 'v']
    · by_cases ht : t = .diffstat
      · rw [if_neg (fun e => e.2 ht), if_pos (by
          cases a with
          | nil => cases hv
          | cons x xs => exact congrArg some (List.cons.inj hv).1)] at h
        cases h
      · rw [if_pos ⟨hv, ht⟩] at h
        obtain ⟨rfl, -⟩ := letterV_ok (Except.ok.inj h)
        rw [if_pos hv, List.length_tail]
    · rw [if_neg (fun e => hv e.1)] at h
      rw [if_neg hv]
      split at h
      · cases h
      · split at h <;> (rw [← CliEnd.go.inj (Except.ok.inj h)]; exact hz)

theorem parsed_verbose {t : Tool} {c c' : Cli} {args : List Str} (h : Parsed t c args c') : c'.verbose = c.verbose + BitVec.ofNat 8 (verboseLetters args) := by
  induction h with
  | nil => show _ = _ + BitVec.ofNat 8 0; bv_omega
  | @simple c a f rest c' hf _ ih =>
    obtain ⟨h1, h2⟩ := simple_verbose hf c
    rw [ih, h1, verbose_cons _ (simple_effect hf c).2, if_neg h2, Nat.zero_add]
  | last hb =>
    rw [base_verbose hb]
    show _ = _ + BitVec.ofNat 8 0
    bv_omega
  | base hb _ ih =>
    rw [ih, base_verbose hb]
    unfold verboseLetters
    rw [options_base, List.filter_cons, if_neg (by decide)]
  | other _ hb ho _ ih =>
    rw [ih, other_verbose ho, verbose_cons _ hb, BitVec.ofNat_add, BitVec.add_assoc]

/-- **C75**, verbosity: the level is the number of letters `v`, modulo 256. -/
theorem C75_verbose (t : Tool) (args : List Str) (c : Cli) (h : parseArgs t {} args = .ok (.go c)) : c.verbose = BitVec.ofNat 8 (verboseLetters args) := by
  rw [parsed_verbose (parsed t args {} c h)]
  exact BitVec.zero_add _

example : verboseLetters ["-v".toList, "-b".toList, "-v".toList, "a".toList, "-vv".toList] = 3 := by decide

theorem letterV_all (n : Nat) (c : Cli) : ∃ d, letterV (List.replicate n 'v') c = .go d := by
  induction n generalizing c with
  | zero => exact ⟨c, rfl⟩
  | succ n ih =>
    rw [List.replicate_succ]
    unfold letterV
    rw [if_pos rfl]
    exact ih _

/-- C75 does not hold for the level in general: with 256 letters the program prints as little as without this option. -/
theorem C75_verbose_counterexample (t : Tool) (ht : t ≠ .diffstat) : ∃ args c, parseArgs t {} args = .ok (.go c) ∧ verboseLetters args = 256 ∧ c.verbose = 0 := by
  obtain ⟨d, hd⟩ := letterV_all 256 { oldPath := some ['a'], newPath := some ['b'] }
  have hp : parseArgs t {} [['a'], ['b'], '-' :: List.replicate 256 'v'] = .ok (.go d) := by
    have e : parseArgs t {} [['a'], ['b'], '-' :: List.replicate 256 'v'] = parseArgs t { oldPath := some ['a'], newPath := some ['b'] } ['-' :: List.replicate 256 'v'] := by
      cases t <;> rfl
    have hs : simpleOption t ('-' :: List.replicate 256 'v') = none := by cases t <;> rfl
    rw [e]
    unfold parseArgs
    rw [hs]
    dsimp only
    rw [if_neg (by decide +kernel)]
    unfold otherArg
    rw [if_neg (by decide +kernel), if_pos ⟨rfl, ht⟩]
    exact congrArg Except.ok hd
  have hv : verboseLetters [['a'], ['b'], '-' :: List.replicate 256 'v'] = 256 := by decide +kernel
  refine ⟨_, d, hp, hv, ?_⟩
  rw [C75_verbose _ _ _ hp, hv]
  rfl

example : ∃ args c, parseArgs .update {} args = .ok (.go c) ∧ verboseLetters args = 256 ∧ c.verbose = 0 := C75_verbose_counterexample _ (by decide)

end Bean.Props

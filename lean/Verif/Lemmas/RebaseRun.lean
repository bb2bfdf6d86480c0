import Verif.Lemmas.RebaseExternal
import Verif.Props.Run
/-
The analysis of a moved file (C100).
-/
namespace Bean
open Bean.Spec

variable {m : Rebase} {env : Env} {fl : AnalyzeFlags} {elf : Elf} {dbg : Option Elf} {st r : AState}

theorem ready_of (hr : Rebasable env fl m elf dbg) (h : gather env fl elf dbg = .ok st) : Ready env m elf dbg st := by
  obtain ⟨st1, t, hg⟩ := gather_ok h
  obtain ⟨_, _, hok, _⟩ := gathered_facts hg
  have hmid := (gather_rebase hr st h).2
  have hg1 := hmid.read.1
  refine ⟨fun s hs => ⟨(hg1.symbols s hs).out, by rw [(hg1.symbols s hs).rels]; exact List.Pairwise.nil⟩, fun s hs _ _ _ => (hg1.symbols s hs).rels,
    hg1.sections, hg1.relocations, hg1.relative, hg1.got, ?_, fun seg hseg => ?_, hmid.read.2, fun seg hseg => ?_, hok.sorted, hg.relocations, hg.relative⟩
  · have := congrArg FilePart.got (gather_part h)
    exact this
  · have := hg.loads seg hseg
    exact hr.segments seg this.1 (by rw [this.2]; decide)
  · have := hg.tls seg hseg
    exact hr.segments seg this.1 (by rw [this.2]; decide)

/-- The result of the analysis of the moved file. -/
theorem analyze_rebase (hr : Rebasable env fl m elf dbg) (hrec : fl.reconstruct = false)
    (hy : ∀ st, gather env fl elf dbg = .ok st → Steady env m st) (h : analyze env fl elf dbg = .ok r) (ha : Anchored m r.symbols) :
    analyze (rebaseEnv m.dist env) fl (rebaseElf m elf) (dbg.map (rebaseElf m)) = .ok (rebaseState m elf.sections r) := by
  unfold analyze at h
  cases h1 : gather env fl elf dbg with
  | error e => rw [h1] at h; cases h
  | ok st =>
    rw [h1] at h
    have hready := ready_of hr h1
    obtain ⟨st1, t, hg⟩ := gather_ok h1
    obtain ⟨_, _, hok, hf⟩ := gathered_facts hg
    obtain ⟨s1, s2, s3, hi⟩ := identify_ok hok hf h
    have e1 : s1 = st := by
      rcases hi.first with ⟨h, _⟩ | ⟨_, h⟩
      · rw [hrec] at h; cases h
      · exact h
    have e3 : r = s3 := by
      rcases hi.last with ⟨h, _⟩ | ⟨_, h⟩
      · rw [hrec] at h; cases h
      · exact h
    have hint := hi.internal
    rw [e1] at hint
    obtain ⟨k1, k2, k3⟩ := hashInternal_rebase hr hready (hy st h1) s2 hint
    have hext := hi.external
    rw [← e3] at hext
    have k4 := hashExternal_rebase (secs := elf.sections) hi.ok2.sorted (by rw [k3]; exact hready.table) k2 hext ha
    unfold analyze
    rw [(gather_rebase hr st h1).1]
    show identify _ _ _ = _
    unfold identify
    rw [hrec]
    show (hashInternal (rebaseEnv m.dist env) fl (rebaseState m elf.sections st) >>= fun st =>
      hashExternal (rebaseEnv m.dist env) st >>= fun st => .ok st) = _
    rw [k1]
    show (hashExternal (rebaseEnv m.dist env) (rebaseState m elf.sections s2) >>= fun st => .ok st) = _
    rw [k4]
    rfl

end Bean

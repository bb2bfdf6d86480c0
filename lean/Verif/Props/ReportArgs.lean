import Verif.Props.Report
import Verif.Props.Cli
/-
C108: the report for the arguments of the program.
-/
namespace Bean.Props
open Bean Bean.Spec

/-- **C108** (from the arguments): the report is the one for the first two files, with exactly the settings whose options are among the arguments, in whichever order these are. -/
theorem C108_arguments (b : Build) (h : BitVec 64 → BitVec 32) (args : List Str) (c : Cli) (hc : parseArgs .updateCode {} args = .ok (.go c)) (old new : SymTree) (w : BitVec 32)
    (hn : w.getLsbD 0 = true ↔ "-n".toList ∈ options args) (hx : w.getLsbD 1 = true ↔ "-X".toList ∈ options args) (hb : w.getLsbD 2 = true ↔ "-B".toList ∈ options args)
    (ht : w.getLsbD 3 = true ↔ "-t".toList ∈ options args) (hr : w.getLsbD 4 = false) :
    updateCodeMain b h c old new = updateReport b h w c.verbose.toNat ⟨old, (files args)[0]?⟩ ⟨new, (files args)[1]?⟩ := by
  obtain ⟨-, -, -, -, -, -, h1, h2, h3, -, -, h4, h5, -⟩ := C75_settings .updateCode args c hc
  have h6 := C78_update_names args c hc
  rw [← h4, ← h5]
  refine C108_options b h c old new w ?_
  unfold UpdateFlags.ofWord
  rw [Bool.eq_iff_iff.mpr (hn.trans h6.symm), Bool.eq_iff_iff.mpr (hx.trans h3.symm), Bool.eq_iff_iff.mpr (hb.trans h2.symm), Bool.eq_iff_iff.mpr (ht.trans h1.symm), hr]

/-- Arguments in mixed order, and the settings for them. -/
example : parseArgs .updateCode {} ["-t".toList, "old".toList, "-B".toList, "new".toList] =
      .ok (.go { trampolines := true, branches := true, oldPath := some "old".toList, newPath := some "new".toList }) ∧
    ((12 : BitVec 32).getLsbD 2 = true ↔ "-B".toList ∈ options ["-t".toList, "old".toList, "-B".toList, "new".toList]) ∧
    ((12 : BitVec 32).getLsbD 1 = true ↔ "-X".toList ∈ options ["-t".toList, "old".toList, "-B".toList, "new".toList]) := by
  refine ⟨rfl, ?_, ?_⟩ <;> decide

end Bean.Props

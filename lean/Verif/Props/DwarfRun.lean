import Verif.Model.DwarfRun
import Verif.Model.DwarfText
import Verif.Props.PyFiles
/-
C141: which file the program for debug information reads.
-/
namespace Bean.Props

open Bean PyFiles DwarfRun DwarfText

/-- The real path of a file exists exactly if the file does. -/
def RealPaths (w : World) : Prop := ∀ p, w.exists_ (w.realpath p) = w.exists_ p

/-- The file is within the base directory, if there is one. -/
def Within (w : World) (base file : Str) : Prop := base = [] ∨ (w.isDir base = true ∧ w.realpath base <+: w.realpath file)

/-- Root directory for the search of debug symbols. -/
def rootFor (w : World) (base : Str) : Str := if base = [] then [] else w.realpath base

/-- **C141**: for an existing file within the base directory, its own debug information is read if it has any, otherwise that of the file found for it, and without such a file there is an error. -/
theorem C141_reads_partial (w : World) (hw : RealPaths w) (base file : Str) (he : w.exists_ file = true) (hb : Within w base file) :
    (w.hasInfo (w.realpath file) = true → start w base file = .reads (w.realpath file)) ∧
    (w.hasInfo (w.realpath file) = false → ∀ q, w.find (rootFor w base) (w.realpath file) = some (some q) → start w base file = .reads q) ∧
    (w.hasInfo (w.realpath file) = false → w.find (rootFor w base) (w.realpath file) = some none → start w base file = .noInfo) := by
  have hr : rootOf w base = some (rootFor w base) := by
    unfold rootOf rootFor
    rcases hb with rfl | ⟨hd, _⟩
    · rfl
    · by_cases h0 : base = []
      · rw [h0]; rfl
      · rw [if_neg (fun h => h0 (List.eq_nil_of_length_eq_zero h)), if_neg h0, if_pos hd]
  have hp : dwarfPath w.exists_ w.realpath (rootFor w base) file = some (w.realpath file) := by
    refine C117_dwarf_partial _ _ _ _ ((hw file).trans he) ?_
    unfold rootFor
    rcases hb with rfl | ⟨_, h⟩
    · exact .inl rfl
    · by_cases h0 : base = []
      · rw [if_pos h0]; exact .inl rfl
      · rw [if_neg h0]; exact .inr h
  have hs : start w base file = openInfo w (rootFor w base) file := by
    unfold start
    rw [hr]
    exact if_pos he
  rw [hs]
  unfold openInfo
  rw [hp]
  dsimp only
  refine ⟨fun h => if_pos h, fun h q hq => ?_, fun h hq => ?_⟩
  · rw [h, hq]; rfl
  · rw [h, hq]; rfl

/-- **C141**: nothing is read for a file that does not exist, and with a directory that does not exist. -/
theorem C141_missing (w : World) (base file : Str) (h : w.exists_ file = false ∨ (base ≠ [] ∧ w.isDir base = false)) :
    ∀ p, start w base file ≠ .reads p := by
  intro p hp
  unfold start at hp
  split at hp
  · cases hp
  · rename_i root hr
    rcases h with h | ⟨h1, h2⟩
    · rw [h] at hp
      cases hp
    · unfold rootOf at hr
      rw [if_neg (fun h => h1 (List.eq_nil_of_length_eq_zero h)), h2] at hr
      cases hr

/-- C141 is false for names below the base directory: although they are found there by the class that reads the debug information, the program refuses them. -/
theorem C141_below_counterexample (w : World) (hw : RealPaths w) (base file : Str) (hb : base ≠ []) (hd : w.isDir base = true) (he : w.exists_ file = false)
    (hin : w.exists_ (w.realpath base ++ file) = true) (hp : w.realpath base <+: w.realpath (w.realpath base ++ file)) (hi : w.hasInfo (w.realpath (w.realpath base ++ file)) = true) :
    openInfo w (w.realpath base) file = .reads (w.realpath (w.realpath base ++ file)) ∧ start w base file = .message := by
  constructor
  · have hreal : dwarfReal w.exists_ w.realpath (w.realpath base) file = w.realpath (w.realpath base ++ file) := by
      unfold dwarfReal
      rw [hw, he]
      rfl
    have hstrip : w.realpath base ++ dwarfStrip (w.realpath base) (w.realpath (w.realpath base ++ file)) = w.realpath (w.realpath base ++ file) := by
      unfold dwarfStrip
      by_cases h0 : w.realpath base = []
      · rw [if_neg (fun h => h.1 h0), h0, List.nil_append]
      · obtain ⟨rest, hr⟩ := hp
        rw [if_pos ⟨h0, rest, hr⟩, ← hr, List.drop_left]
    unfold openInfo dwarfPath
    rw [hreal, hstrip, hw, hin, if_pos rfl]
    dsimp only
    rw [if_pos hi]
  · unfold start rootOf
    rw [if_neg (fun h => hb (List.eq_nil_of_length_eq_zero h)), if_pos hd]
    dsimp only
    rw [he]
    rfl

/-- C141 is false for files whose debug file has no debug information: it is read without an error, and the list of variables is empty. -/
theorem C141_empty_counterexample (w : World) (hw : RealPaths w) (file q : Str) (he : w.exists_ file = true) (hi : w.hasInfo (w.realpath file) = false)
    (hf : w.find [] (w.realpath file) = some (some q)) (_ : w.hasInfo q = false) (o : TypeOpts) (dies : Dies) (n : Nat) (quote : Str → Str) (tls source : Bool) :
    start w [] file = .reads q ∧ showVariables o dies n quote tls false source [] = .ok [] :=
  ⟨(C141_reads_partial w hw [] file he (.inl rfl)).2.1 hi q hf, rfl⟩

/-- C141 is false for files outside of the base directory: another file is read, the one with the same name below it. -/
theorem C141_outside_counterexample (w : World) (hw : RealPaths w) (base file : Str) (hb : base ≠ []) (hd : w.isDir base = true) (he : w.exists_ file = true)
    (ho : ¬ w.realpath base <+: w.realpath file) (hin : w.exists_ (w.realpath base ++ w.realpath file) = true) (hi : w.hasInfo (w.realpath base ++ w.realpath file) = true) :
    start w base file = .reads (w.realpath base ++ w.realpath file) ∧ w.realpath base ++ w.realpath file ≠ w.realpath file := by
  constructor
  · have hreal : dwarfReal w.exists_ w.realpath (w.realpath base) file = w.realpath file := if_pos ((hw file).trans he)
    have hstrip : dwarfStrip (w.realpath base) (w.realpath file) = w.realpath file := if_neg (fun h => ho h.2)
    unfold start rootOf
    rw [if_neg (fun h => hb (List.eq_nil_of_length_eq_zero h)), if_pos hd]
    dsimp only
    rw [if_pos he]
    unfold openInfo dwarfPath
    rw [hreal, hstrip, if_pos hin]
    dsimp only
    rw [if_pos hi]
  · intro h
    have := congrArg List.length h
    rw [List.length_append] at this
    have h0 : w.realpath base = [] := List.eq_nil_of_length_eq_zero (by omega)
    exact ho (by rw [h0]; exact List.nil_prefix)

/-- Files of an example: a program with and one without debug information, and both below a directory. -/
def exWorld : World where
  exists_ := fun p => ["/bin/a".toList, "/bin/b".toList, "/srv/bin/a".toList, "/srv/bin/c".toList, "/srv".toList, "/dbg/b".toList].contains p
  isDir := fun p => p == "/srv".toList
  realpath := id
  hasInfo := fun p => ["/bin/a".toList, "/srv/bin/a".toList, "/srv/bin/c".toList].contains p
  find := fun _ p => if p = "/bin/b".toList then some (some "/dbg/b".toList) else some none

example : RealPaths exWorld ∧ start exWorld [] "/bin/a".toList = .reads "/bin/a".toList ∧ start exWorld "/srv".toList "/srv/bin/a".toList = .reads "/srv/bin/a".toList ∧
    start exWorld "/srv".toList "/bin/a".toList = .reads "/srv/bin/a".toList ∧ start exWorld "/srv".toList "/bin/c".toList = .message ∧
    start exWorld [] "/bin/b".toList = .reads "/dbg/b".toList ∧ start exWorld "/nowhere".toList "/bin/a".toList = .notDir :=
  ⟨fun _ => rfl, by decide +kernel, by decide +kernel, by decide +kernel, by decide +kernel, by decide +kernel, by decide +kernel⟩

example : Within exWorld "/srv".toList "/srv/bin/a".toList := .inr ⟨by decide +kernel, by decide +kernel⟩

example : exWorld.hasInfo "/bin/b".toList = false ∧ exWorld.find [] "/bin/b".toList = some (some "/dbg/b".toList) ∧ exWorld.hasInfo "/dbg/b".toList = false ∧
    exWorld.exists_ ("/srv".toList ++ "/bin/c".toList) = true ∧ exWorld.exists_ "/bin/c".toList = false := by decide +kernel

end Bean.Props

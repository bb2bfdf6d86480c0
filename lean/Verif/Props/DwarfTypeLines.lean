import Verif.Props.ElfTypes
import Verif.Props.DwarfText
/-
C121: lines for the types of the debug information.
-/
namespace Bean.Props

open Bean Spec DwarfText

open Classical in
/-- **C121**, types: there is a line for each type of the debug information, in order, with identifier, size and hash of the type; the last line is the hash of all these hashes. -/
theorem C121_listed (o : TypeOpts) (dies : Dies) (n : Nat) (system : Bool) (es : List TypeEntry) (lines : List Str) (h : showTypes o dies n system es = .ok lines) :
    let listed := es.filter (fun e => decide (ListsType dies system e))
    ∃ ts : List TypeInfo, ts.length = listed.length ∧ (∀ (i : Nat) e t, listed[i]? = some e → ts[i]? = some t → HasType o dies e.id true t) ∧
      lines = ts.map (fun t => t.ident ++ ' ' :: (intText t.size ++ " bytes # ".toList ++ t.hash)) ++ [o.H (ts.flatMap (·.hash))] := by
  unfold showTypes at h
  split at h
  · cases h
  · rename_i ts m hl
    cases h
    obtain ⟨_, h2, h3⟩ := C99_types o dies n system noMemo m es ts rightMemo_none hl
    refine ⟨ts, h2, h3, ?_⟩
    unfold typeLines
    congr 1
    refine List.map_congr_left (fun t _ => ?_)
    unfold typeLine
    simp

example : ∃ lines, showTypes exTypeOpts exTypeDies 9 false [⟨10, none⟩, ⟨20, none⟩] = .ok lines ∧ lines.length = 3 := by
  have : (match showTypes exTypeOpts exTypeDies 9 false [⟨10, none⟩, ⟨20, none⟩] with | .ok l => l.length | .error _ => 0) = 3 := by decide +kernel
  split at this
  · next l hl => exact ⟨l, hl, this⟩
  · cases this

end Bean.Props

import Verif.Model.DwarfEnums
import Verif.Props.DwarfVars
import Verif.Props.DwarfTypes
/-
C138: attributes whose values have names.
-/
namespace Bean.Props

open Bean

/-- Names of a table: all have the prefix, and they are distinct. -/
def NamedTable (pre : Str) (table : EnumTable) : Prop := (table.map (·.1)).Nodup ∧ ∀ e ∈ table, pre <+: e.1

theorem descEnum_known {table : EnumTable} {v : Int} (h : v ∈ table.map (·.2)) : ∃ e ∈ table, e.2 = v ∧ descEnum table v = e.1 := by
  obtain ⟨e, he, hv⟩ := List.mem_map.mp h
  unfold descEnum
  cases hf : table.find? (fun e => e.2 = v) with
  | none =>
    have := List.find?_eq_none.mp hf e he
    exact absurd hv (by simpa using this)
  | some x => exact ⟨x, List.mem_of_find?_eq_some hf, by simpa using List.find?_some hf, rfl⟩

theorem descEnum_unknown {table : EnumTable} {v : Int} (h : v ∉ table.map (·.2)) : descEnum table v = intText v := by
  unfold descEnum
  rw [List.find?_eq_none.mpr]
  intro e he
  have : e.2 ≠ v := fun e' => h (List.mem_map.mpr ⟨e, he, e'⟩)
  simpa using this

theorem name_value {table : EnumTable} (hn : (table.map (·.1)).Nodup) {e e' : Str × Int} (he : e ∈ table) (he' : e' ∈ table) (h : e.1 = e'.1) : e.2 = e'.2 := by
  induction table with
  | nil => cases he
  | cons x l ih =>
    rw [List.map_cons, List.nodup_cons] at hn
    rcases List.mem_cons.mp he with e1 | h1 <;> rcases List.mem_cons.mp he' with e2 | h2
    · rw [e1, e2]
    · exact absurd (List.mem_map.mpr ⟨e', h2, by rw [← h, e1]⟩) hn.1
    · exact absurd (List.mem_map.mpr ⟨e, h1, by rw [h, e2]⟩) hn.1
    · exact ih hn.2 h1 h2

/-- **C138**: different languages are told apart, with or without name, if no name is a number. -/
theorem C138_language {table : EnumTable} {pre : Str} (ht : NamedTable ('D' :: pre) table) (v v' : Int) (h : languageText table v = languageText table v') : v = v' := by
  have start : ∀ i : Int, ¬ ('D' :: pre) <+: intText i := by
    intro i ⟨t, hi⟩
    have h1 := pyInt_dec i
    rw [← hi] at h1
    unfold pyInt at h1
    simp [pyNat, parseDigits, digitValue] at h1
  unfold languageText at h
  by_cases hv : v ∈ table.map (·.2)
  · obtain ⟨e, he, rfl, h1⟩ := descEnum_known hv
    by_cases hv' : v' ∈ table.map (·.2)
    · obtain ⟨e', he', rfl, h2⟩ := descEnum_known hv'
      exact name_value ht.1 he he' (h1.symm.trans (h.trans h2))
    · exact absurd (ht.2 e he) (by rw [← h1, h, descEnum_unknown hv']; exact start v')
  · by_cases hv' : v' ∈ table.map (·.2)
    · obtain ⟨e', he', rfl, h2⟩ := descEnum_known hv'
      exact absurd (ht.2 e' he') (by rw [← h2, ← h, descEnum_unknown hv]; exact start v)
    · rw [descEnum_unknown hv, descEnum_unknown hv'] at h
      have h2 := congrArg pyInt h
      rw [pyInt_dec, pyInt_dec] at h2
      exact Option.some.inj h2

/-- **C138**: different encodings are told apart if they have names. -/
theorem C138_encoding_partial {table : EnumTable} (ht : NamedTable "DW_ATE_".toList table) (v v' : Int) (hv : v ∈ table.map (·.2)) (hv' : v' ∈ table.map (·.2))
    (h : encodingText table v = encodingText table v') : v = v' := by
  obtain ⟨e, he, rfl, h1⟩ := descEnum_known hv
  obtain ⟨e', he', rfl, h2⟩ := descEnum_known hv'
  unfold encodingText at h
  rw [h1, h2] at h
  obtain ⟨r, hr⟩ := ht.2 e he
  obtain ⟨r', hr'⟩ := ht.2 e' he'
  refine name_value ht.1 he he' ?_
  rw [← hr, ← hr'] at h ⊢
  rw [show 7 = "DW_ATE_".toList.length by decide, List.drop_left, List.drop_left] at h
  rw [h]

/-- C138 is false for encodings without names: nothing is left of them, so that types which only differ in such encodings are the same. -/
theorem C138_encoding_counterexample (table : EnumTable) (v v' : Nat) (hv : (v : Int) ∉ table.map (·.2)) (hv' : (v' : Int) ∉ table.map (·.2)) (hl : v < 256) (hl' : v' < 256) :
    encodingText table v = encodingText table v' ∧ ∀ (o : TypeOpts) (dies : Dies) (id n : Nat) (m : TypeMemo) (ids : List Nat),
      getTypes o (fun i => if i = id then (dies i).map (fun d => { d with encoding := some (encodingText table v) }) else dies i) n m ids =
      getTypes o (fun i => if i = id then (dies i).map (fun d => { d with encoding := some (encodingText table v') }) else dies i) n m ids := by
  have short : ∀ k : Nat, k < 256 → (intText (k : Int)).drop 7 = [] := by decide +kernel
  have e : encodingText table v = encodingText table v' := by
    unfold encodingText
    rw [descEnum_unknown hv, descEnum_unknown hv', short v hl, short v' hl']
  refine ⟨e, fun o dies id n m ids => ?_⟩
  rw [e]

/-- The beginning of the table for encodings. -/
def exEncodings : EnumTable := [("DW_ATE_void".toList, 0), ("DW_ATE_address".toList, 1), ("DW_ATE_boolean".toList, 2), ("DW_ATE_complex_float".toList, 3), ("DW_ATE_float".toList, 4),
  ("DW_ATE_signed".toList, 5), ("DW_ATE_signed_char".toList, 6), ("DW_ATE_unsigned".toList, 7), ("DW_ATE_unsigned_char".toList, 8)]

example : NamedTable "DW_ATE_".toList exEncodings ∧ encodingText exEncodings 5 = "signed".toList ∧ (5 : Int) ∈ exEncodings.map (·.2) := by
  unfold NamedTable
  decide +kernel

example : NamedTable ('D' :: "W_LANG_".toList) [("DW_LANG_C89".toList, 1), ("DW_LANG_C".toList, 2)] := by
  unfold NamedTable
  decide +kernel

example : ((0x13 : Nat) : Int) ∉ exEncodings.map (·.2) ∧ ((0x14 : Nat) : Int) ∉ exEncodings.map (·.2) := by decide +kernel

end Bean.Props

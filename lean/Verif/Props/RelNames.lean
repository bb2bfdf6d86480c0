import Verif.Model.RelNames
import Verif.Spec.RelNames
import Verif.Props.ListRead
import Verif.Model.Reconstruct
/-
Types of relocations in the detailed listing (C130).
-/
namespace Bean.Props
open Bean Bean.Spec Bean.RelNames

/-- **C130**, names: for both machines, each type of the ABI is shown such that its number can be read from the name. -/
theorem C130_named (t : Addr) :
    ((∃ x ∈ abiRelocations, x.2 = t.toNat) → readRelType (relText .x86_64 t) = some t.toNat) ∧
    (∀ m, m = .i386 ∨ m = .i486 → (∃ x ∈ abiRelocations32, x.2 = t.toNat) → readRelType32 (relText m t) = some t.toNat) := by
  constructor
  · intro ⟨x, hx, e⟩
    have : ∀ x ∈ abiRelocations, ((relTypeNames.find? (fun z => z.1 = x.2)).bind (fun y => readRelType ("R_X86_64_".toList ++ y.2.toList))) =
        some x.2 := by decide +kernel
    have h := this x hx
    rw [e] at h
    unfold relText relName
    cases hf : relTypeNames.find? (fun z => z.1 = t.toNat) with
    | none => rw [hf] at h; cases h
    | some y => rw [hf] at h; exact h
  · intro m hm ⟨x, hx, e⟩
    have : ∀ x ∈ abiRelocations32, ((relTypeNames32.find? (fun z => z.1 = x.2)).bind (fun y => readRelType32 ("R_386_".toList ++ y.2.toList))) =
        some x.2 := by decide +kernel
    have h := this x hx
    rw [e] at h
    rcases hm with rfl | rfl <;>
    · unfold relText relName
      cases hf : relTypeNames32.find? (fun z => z.1 = t.toNat) with
      | none => rw [hf] at h; cases h
      | some y => rw [hf] at h; exact h

example : relText .i386 42 = "R_386_IRELATIVE".toList ∧ relText .x86_64 42 = "R_X86_64_REX_GOTPCRELX".toList ∧ relText .i386 12 = "[3:c]\n".toList ∧
    readRelType32 "R_386_IRELATIVE".toList = some 42 := by decide +kernel

theorem number_head (n : Nat) {c : Char} (h : c ∈ Nat.toDigits 16 n) : c ≠ ':' ∧ c ≠ ']' := by
  obtain ⟨k, hk, rfl⟩ := mem_digits (by decide) h
  have : ∀ k < 16, Nat.digitChar k ≠ ':' ∧ Nat.digitChar k ≠ ']' := by decide
  exact this k hk

theorem unnamed_inj {m m' : Machine} {t t' : Addr} (h : unnamedText m t = unnamedText m' t') : machineNumber m = machineNumber m' ∧ t = t' := by
  unfold unnamedText at h
  rw [List.cons_append, List.cons_append, List.cons_append, List.cons_append] at h
  injection h with _ h
  rw [List.append_assoc, List.append_assoc] at h
  obtain ⟨h1, -, h⟩ := cut_inj (p := (· != ':')) (fun a ha => by rw [bne_iff_ne]; exact (number_head _ ha).1)
    (fun a ha => by rw [bne_iff_ne]; exact (number_head _ ha).1) (by decide) (by decide) h
  obtain ⟨h2, -, -⟩ := cut_inj (p := (· != ']')) (fun a ha => by rw [bne_iff_ne]; exact (number_head _ ha).2)
    (fun a ha => by rw [bne_iff_ne]; exact (number_head _ ha).2) (by decide) (by decide) h
  exact ⟨numeral_inj (by decide) (by decide) h1, BitVec.eq_of_toNat_eq (numeral_inj (by decide) (by decide) h2)⟩

theorem machine_abi (m : Machine) : machineNumber m = abiMachine m := by
  cases m <;> rfl

theorem takeWhile_stop {p : Char → Bool} {x : Str} (h : ∀ a ∈ x, p a = true) {c : Char} (hc : p c = false) (r : Str) :
    (x ++ c :: r).takeWhile p = x ∧ (x ++ c :: r).dropWhile p = c :: r := by
  rw [List.takeWhile_append_of_pos h, List.dropWhile_append_of_pos h, List.takeWhile_cons_of_neg (by rw [hc]; decide), List.dropWhile_cons_of_neg (by rw [hc]; decide), List.append_nil]
  exact ⟨rfl, rfl⟩

theorem readUnnamed_cons (s : Str) : readUnnamed ('[' :: s) = readNumbers (s.takeWhile (· != ':')) (s.dropWhile (· != ':')) := by
  have h : List.take 1 ('[' :: s) = "[".toList := rfl
  unfold readUnnamed
  rw [if_pos h]
  rfl

theorem readNumbers_cons {m r : Str} (h : (':' :: r).dropWhile (· != ']') = "]\n".toList) :
    readNumbers m (':' :: r) = some (numeral 16 m, numeral 16 (r.takeWhile (· != ']'))) := by
  have h' : List.take 1 (':' :: r) = ":".toList := rfl
  unfold readNumbers
  rw [if_pos ⟨h', h⟩]
  rfl

theorem unnamed_read (m : Machine) (t : Addr) : readUnnamed (unnamedText m t) = some (abiMachine m, t.toNat) := by
  have h1 := takeWhile_stop (p := (· != ':')) (x := Nat.toDigits 16 (machineNumber m)) (fun a ha => by rw [bne_iff_ne]; exact (number_head _ ha).1) (c := ':') (by decide)
    (Nat.toDigits 16 t.toNat ++ "]\n".toList)
  have h2 := takeWhile_stop (p := (· != ']')) (x := Nat.toDigits 16 t.toNat) (fun a ha => by rw [bne_iff_ne]; exact (number_head _ ha).2) (c := ']') (by decide) "\n".toList
  have e : unnamedText m t = '[' :: (Nat.toDigits 16 (machineNumber m) ++ ':' :: (Nat.toDigits 16 t.toNat ++ "]\n".toList)) := by
    unfold unnamedText
    simp only [List.cons_append, List.append_assoc]
  rw [e]
  have h3 : (':' :: (Nat.toDigits 16 t.toNat ++ ']' :: "\n".toList)).dropWhile (· != ']') = ']' :: "\n".toList := by
    rw [List.dropWhile_cons_of_pos (by decide)]
    exact h2.2
  rw [readUnnamed_cons, h1.1, h1.2, show "]\n".toList = ']' :: "\n".toList from rfl, readNumbers_cons h3, h2.1, numeral_digits (by decide) (by decide), numeral_digits (by decide) (by decide), machine_abi]

/-- **C130**, numbers without name: types that are not part of the ABI, and those of other machines, are shown such that the numbers of machine and type can be read. -/
theorem C130_unnamed (m : Machine) (t : Addr) (h64 : m = .x86_64 → ∀ x ∈ abiRelocations, x.2 ≠ t.toNat)
    (h32 : m = .i386 ∨ m = .i486 → ∀ x ∈ abiRelocations32, x.2 ≠ t.toNat) : readUnnamed (relText m t) = some (abiMachine m, t.toNat) := by
  have : relName m t = none := by
    have k64 : ∀ x ∈ relTypeNames, ∃ y ∈ abiRelocations, y.2 = x.1 := by decide +kernel
    have k32 : ∀ x ∈ relTypeNames32, ∃ y ∈ abiRelocations32, y.2 = x.1 := by decide +kernel
    have n64 : m = .x86_64 → relTypeNames.find? (fun x => x.1 = t.toNat) = none := fun h => by
      rw [List.find?_eq_none]
      intro x hx e
      obtain ⟨y, hy, hxy⟩ := k64 x hx
      exact h64 h y hy (hxy.trans (of_decide_eq_true e))
    have n32 : m = .i386 ∨ m = .i486 → relTypeNames32.find? (fun x => x.1 = t.toNat) = none := fun h => by
      rw [List.find?_eq_none]
      intro x hx e
      obtain ⟨y, hy, hxy⟩ := k32 x hx
      exact h32 h y hy (hxy.trans (of_decide_eq_true e))
    unfold relName
    cases m with
    | i386 => dsimp only; rw [n32 (Or.inl rfl)]; rfl
    | i486 => dsimp only; rw [n32 (Or.inr rfl)]; rfl
    | x86_64 => dsimp only; rw [n64 rfl]; rfl
    | other n => rfl
  unfold relText
  rw [this]
  exact unnamed_read m t

/-- A relocation for ARM, and one with an unknown number. -/
example : readUnnamed (relText (.other 40) 23) = some (40, 23) ∧ readUnnamed (relText .i386 0x80) = some (3, 0x80) :=
  ⟨C130_unnamed _ _ (fun h => (by cases h)) (fun h => (by rcases h with h | h <;> cases h)),
    C130_unnamed _ _ (fun h => (by cases h)) (fun _ => (by decide +kernel))⟩

/-- The machines whose types have the same names. -/
def SameMachine (m m' : Machine) : Prop :=
  abiMachine m = abiMachine m' ∨ (m = .i386 ∨ m = .i486) ∧ (m' = .i386 ∨ m' = .i486)

theorem relName_cases (m : Machine) (t : Addr) :
    relName m t = none ∨
    (m = .i386 ∨ m = .i486) ∧ (∃ x ∈ relTypeNames32, x.1 = t.toNat ∧ relName m t = some ("R_386_".toList ++ x.2.toList)) ∨
    m = .x86_64 ∧ (∃ x ∈ relTypeNames, x.1 = t.toNat ∧ relName m t = some ("R_X86_64_".toList ++ x.2.toList)) := by
  cases m with
  | other n => exact Or.inl rfl
  | x86_64 =>
    unfold relName
    cases hf : relTypeNames.find? (fun x => x.1 = t.toNat) with
    | none => exact Or.inl rfl
    | some x => exact Or.inr (Or.inr ⟨rfl, x, List.mem_of_find?_eq_some hf, by simpa using List.find?_some hf, rfl⟩)
  | i386 =>
    unfold relName
    cases hf : relTypeNames32.find? (fun x => x.1 = t.toNat) with
    | none => exact Or.inl rfl
    | some x => exact Or.inr (Or.inl ⟨Or.inl rfl, x, List.mem_of_find?_eq_some hf, by simpa using List.find?_some hf, rfl⟩)
  | i486 =>
    unfold relName
    cases hf : relTypeNames32.find? (fun x => x.1 = t.toNat) with
    | none => exact Or.inl rfl
    | some x => exact Or.inr (Or.inl ⟨Or.inr rfl, x, List.mem_of_find?_eq_some hf, by simpa using List.find?_some hf, rfl⟩)

/-- **C130**, all numbers: what is shown determines machine and type, also for numbers without name. -/
theorem C130_distinct (m m' : Machine) (t t' : Addr) (h : relText m t = relText m' t') : SameMachine m m' ∧ t = t' := by
  unfold relText at h
  rcases relName_cases m t with e | ⟨hm, x, hx, ex, e⟩ | ⟨hm, x, hx, ex, e⟩ <;> rcases relName_cases m' t' with e' | ⟨hm', y, hy, ey, e'⟩ | ⟨hm', y, hy, ey, e'⟩ <;>
    rw [e, e'] at h <;> dsimp only at h
  · obtain ⟨h1, h2⟩ := unnamed_inj h
    exact ⟨Or.inl (by rw [machine_abi, machine_abi] at h1; exact h1), h2⟩
  · injection h with h _; exact absurd h (by decide)
  · injection h with h _; exact absurd h (by decide)
  · injection h with h _; exact absurd h (by decide)
  · have key : ∀ x ∈ relTypeNames32, ∀ y ∈ relTypeNames32, x.2.toList = y.2.toList → x.1 = y.1 := by decide +kernel
    refine ⟨Or.inr ⟨hm, hm'⟩, BitVec.eq_of_toNat_eq ?_⟩
    rw [← ex, ← ey, key x hx y hy (List.append_cancel_left h)]
  · injection h with _ h; injection h with _ h; injection h with h _; exact absurd h (by decide)
  · injection h with h _; exact absurd h (by decide)
  · injection h with _ h; injection h with _ h; injection h with h _; exact absurd h (by decide)
  · have key : ∀ x ∈ relTypeNames, ∀ y ∈ relTypeNames, x.2.toList = y.2.toList → x.1 = y.1 := by decide +kernel
    refine ⟨Or.inl (by rw [hm, hm']), BitVec.eq_of_toNat_eq ?_⟩
    rw [← ex, ← ey, key x hx y hy (List.append_cancel_left h)]

example : relText .i386 15 ≠ relText .x86_64 15 := fun h => by
  rcases (C130_distinct _ _ _ _ h).1 with h | h
  · exact absurd h (by decide)
  · rcases h.2 with h | h <;> cases h

/-- C130 does not hold in general: each reconstructed relocation of a short jump in a 32-bit file is shown as a relocation of thread-local storage, and each access of four bytes to
the global offset table as offset to it, as the numbers are those of x86-64. -/
theorem C130_reconstructed_counterexample (st : AState) (sym : Symbol) (a : RelArgs) (ht : TLS.is_tls a.target = false) :
    (a.size = 1 → relText .x86_64 (newRel st sym a).type = "R_X86_64_PC8".toList ∧ relText .i386 (newRel st sym a).type = "R_386_TLS_IE".toList) ∧
    (a.size = 2 → relText .x86_64 (newRel st sym a).type = "R_X86_64_PC16".toList ∧ relText .i386 (newRel st sym a).type = "[3:d]\n".toList) ∧
    (a.size = 4 → hasPrefix ".plt" (targetSection st a.target) = false → hasPrefix ".got" (targetSection st a.target) = true →
      relText .x86_64 (newRel st sym a).type = "R_X86_64_GOTPCREL".toList ∧ relText .i386 (newRel st sym a).type = "R_386_GOTOFF".toList) := by
  have hp : (newRel st sym a).type = pcType (closestParts st a.target a.size (sectionParts st a.target a.size a.addend)).type a.size := by
    unfold newRel relParts
    rw [ht]
    rfl
  have hc : ∀ {p : RelParts}, p.type ≠ R_X86_64_NONE ∨ a.size ≠ 4 ∧ a.size ≠ 8 → (closestParts st a.target a.size p).type = p.type := by
    intro p hp
    unfold closestParts
    split
    · split
      · rfl
      · split
        · next h =>
          rcases hp with hp | ⟨h4, h8⟩
          · exact absurd h hp
          · dsimp only
            rw [if_neg h4, if_neg h8]
        · rfl
    · rfl
  have hs : a.size ≠ 4 → (sectionParts st a.target a.size a.addend).type = R_X86_64_NONE := by
    intro h4
    unfold sectionParts
    rw [if_neg (fun h => h4 h.1), if_neg (fun h => h4 h.1)]
  refine ⟨fun h => ?_, fun h => ?_, fun h h1 h2 => ?_⟩
  · have : (newRel st sym a).type = R_X86_64_PC8 := by
      rw [hp, hc (Or.inr ⟨by rw [h]; decide, by rw [h]; decide⟩), hs (by rw [h]; decide), h]
      rfl
    rw [this]
    decide +kernel
  · have : (newRel st sym a).type = R_X86_64_PC16 := by
      rw [hp, hc (Or.inr ⟨by rw [h]; decide, by rw [h]; decide⟩), hs (by rw [h]; decide), h]
      rfl
    rw [this]
    decide +kernel
  · have e : (sectionParts st a.target a.size a.addend).type = R_X86_64_GOTPCREL := by
      unfold sectionParts
      rw [if_neg (fun h => by rw [h1] at h; cases h.2), if_pos ⟨h, h2⟩]
    have : (newRel st sym a).type = R_X86_64_GOTPCREL := by
      rw [hp, hc (Or.inl (by rw [e]; decide)), e, h]
      rfl
    rw [this]
    decide +kernel

example : relText .i386 (newRel {} { address := 0x1000, size := 0x10 } ⟨0x1004, 1, 0x2000, 1, -1, ACCESSFLAG_BRANCH, 0⟩).type = "R_386_TLS_IE".toList :=
  ((C130_reconstructed_counterexample _ _ _ (by decide)).1 rfl).2

/-- **C130**, reconstructed relocations of 32-bit files: those of four bytes that do not refer to the global offset table have the right name. What is missing: the other
ones (`C130_reconstructed_counterexample`). -/
theorem C130_reconstructed_partial (st : AState) (sym : Symbol) (a : RelArgs) (ht : TLS.is_tls a.target = false) (h4 : a.size = 4)
    (hg : hasPrefix ".got" (targetSection st a.target) = false) :
    ∃ n ∈ ["PC32", "PLT32", "RELATIVE"], relText .x86_64 (newRel st sym a).type = "R_X86_64_".toList ++ n.toList ∧
      relText .i386 (newRel st sym a).type = "R_386_".toList ++ n.toList := by
  have hp : (newRel st sym a).type = pcType (closestParts st a.target a.size (sectionParts st a.target a.size a.addend)).type a.size := by
    unfold newRel relParts
    rw [ht]
    rfl
  have hs : (sectionParts st a.target a.size a.addend).type = R_X86_64_PLT32 ∨ (sectionParts st a.target a.size a.addend).type = R_X86_64_NONE := by
    unfold sectionParts
    split
    · exact Or.inl rfl
    · rw [if_neg (fun h => by rw [hg] at h; cases h.2)]
      exact Or.inr rfl
  have hc : ∀ {p : RelParts}, (closestParts st a.target a.size p).type = p.type ∨
      p.type = R_X86_64_NONE ∧ (closestParts st a.target a.size p).type = R_X86_64_RELATIVE := by
    intro p
    unfold closestParts
    split
    · split
      · exact Or.inl rfl
      · split
        · next h =>
          exact Or.inr ⟨h, rfl⟩
        · exact Or.inl rfl
    · exact Or.inl rfl
  have key : (newRel st sym a).type = R_X86_64_PC32 ∨ (newRel st sym a).type = R_X86_64_PLT32 ∨ (newRel st sym a).type = R_X86_64_RELATIVE := by
    rw [hp, h4]
    rw [h4] at hs hc
    rcases hc (p := sectionParts st a.target 4 a.addend) with e | ⟨_, e⟩
    · rw [e]
      rcases hs with e | e <;> rw [e]
      · exact Or.inr (Or.inl rfl)
      · exact Or.inl rfl
    · rw [e]
      exact Or.inr (Or.inr rfl)
  rcases key with e | e | e <;> rw [e]
  · exact ⟨"PC32", by decide, by decide +kernel⟩
  · exact ⟨"PLT32", by decide, by decide +kernel⟩
  · exact ⟨"RELATIVE", by decide, by decide +kernel⟩

example : ∃ n ∈ ["PC32", "PLT32", "RELATIVE"], relText .x86_64 (newRel {} { address := 0x1000, size := 0x10 } ⟨0x1004, 1, 0x2000, 4, -4, ACCESSFLAG_BRANCH, 0⟩).type =
    "R_X86_64_".toList ++ n.toList ∧ relText .i386 (newRel {} { address := 0x1000, size := 0x10 } ⟨0x1004, 1, 0x2000, 4, -4, ACCESSFLAG_BRANCH, 0⟩).type =
    "R_386_".toList ++ n.toList :=
  C130_reconstructed_partial _ _ _ (by decide) rfl (by decide +kernel)

end Bean.Props

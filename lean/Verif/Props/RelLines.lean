import Verif.Props.Listing
import Verif.Spec.Reconstruct
import Verif.Lemmas.Reconstruct
import Verif.Model.HashInternal
/-
C106: what the lines of the relocations tell.
-/
namespace Bean.Props
open Bean Bean.Spec

/-! ### Pieces of text -/

theorem mem_digits {b : Nat} (hb : 1 < b) {n : Nat} {c : Char} (h : c ∈ Nat.toDigits b n) : ∃ k < b, c = Nat.digitChar k := by
  induction n using Nat.strongRecOn with
  | ind n ih =>
    rw [Nat.toDigits_eq_if hb] at h
    by_cases hn : n < b
    · rw [if_pos hn] at h
      exact ⟨n, hn, List.mem_singleton.mp h⟩
    · rw [if_neg hn] at h
      rcases List.mem_append.mp h with h | h
      · exact ih (n / b) (Nat.div_lt_self (by omega) hb) h
      · exact ⟨n % b, Nat.mod_lt _ (by omega), List.mem_singleton.mp h⟩

theorem hex_digit {n : Nat} {c : Char} (h : c ∈ Nat.toDigits 16 n) : c ≠ ' ' ∧ c ≠ ']' := by
  obtain ⟨k, hk, rfl⟩ := mem_digits (by decide) h
  have : ∀ k < 16, Nat.digitChar k ≠ ' ' ∧ Nat.digitChar k ≠ ']' := by decide
  exact this k hk

theorem signed_inj {x y : Int} (h : signedText x = signedText y) : x = y := by
  unfold signedText at h
  injection h with h1 h2
  have h3 := numeral_inj (by decide) (by decide) h2
  by_cases hx : x < 0 <;> by_cases hy : y < 0
  · omega
  · rw [if_pos hx, if_neg hy] at h1
    exact absurd h1 (by decide)
  · rw [if_neg hx, if_pos hy] at h1
    exact absurd h1 (by decide)
  · omega

theorem relTypeText_word (t : Addr) : ∀ c ∈ relTypeText t, (c != ' ') = true := by
  intro c hc
  rw [bne_iff_ne]
  rintro rfl
  unfold relTypeText at hc
  cases hf : relTypeNames.find? (fun x => x.1 = t.toNat) with
  | some x =>
    rw [hf] at hc
    have hm := List.mem_of_find?_eq_some hf
    have : ∀ x ∈ relTypeNames, ' ' ∉ "R_X86_64_".toList ++ x.2.toList := by decide +kernel
    exact this x hm hc
  | none =>
    rw [hf] at hc
    dsimp only at hc
    rcases List.mem_append.mp hc with hc | hc
    · rcases List.mem_append.mp hc with hc | hc
      · exact absurd hc (by decide)
      · exact (hex_digit hc).1 rfl
    · exact absurd hc (by decide)

theorem relTypeText_inj {t u : Addr} (h : relTypeText t = relTypeText u) : t = u := by
  unfold relTypeText at h
  cases hf : relTypeNames.find? (fun x => x.1 = t.toNat) with
  | some x =>
    have ht := List.find?_some hf
    have hm := List.mem_of_find?_eq_some hf
    cases hg : relTypeNames.find? (fun x => x.1 = u.toNat) with
    | some y =>
      have hu := List.find?_some hg
      have hn := List.mem_of_find?_eq_some hg
      rw [hf, hg] at h
      have h' := List.append_cancel_left h
      have key : ∀ x ∈ relTypeNames, ∀ y ∈ relTypeNames, x.2.toList = y.2.toList → x.1 = y.1 := by decide +kernel
      have e := key x hm y hn h'
      simp only [decide_eq_true_eq] at ht hu
      exact BitVec.eq_of_toNat_eq (by rw [← ht, ← hu, e])
    | none =>
      rw [hf, hg] at h
      injection h with h _
      exact absurd h (by decide)
  | none =>
    cases hg : relTypeNames.find? (fun x => x.1 = u.toNat) with
    | some y =>
      rw [hf, hg] at h
      injection h with h _
      exact absurd h (by decide)
    | none =>
      rw [hf, hg] at h
      dsimp only at h
      rw [List.append_assoc, List.append_assoc] at h
      replace h := List.append_cancel_left h
      obtain ⟨e, -, -⟩ := cut_inj (p := (· != ']')) (fun a ha => by rw [bne_iff_ne]; exact (hex_digit ha).2)
        (fun a ha => by rw [bne_iff_ne]; exact (hex_digit ha).2) (by decide) (by decide) h
      exact BitVec.eq_of_toNat_eq (numeral_inj (by decide) (by decide) e)

/-! ### Lines -/

/-- The first columns of the line. -/
theorem rel_cut {t t' : SymTree} {r r' : Rel} (h : relLine t r = relLine t' r') :
    r.offset = r'.offset ∧ r.type = r'.type ∧ targetText t r = targetText t' r' := by
  unfold relLine at h
  replace h := List.append_cancel_left h
  obtain ⟨h1, -, h⟩ := cut_inj (p := (· != ' ')) (fun a ha => by rw [bne_iff_ne]; exact (hex_digit ha).1)
    (fun a ha => by rw [bne_iff_ne]; exact (hex_digit ha).1) (by decide) (by decide) h
  replace h := List.append_cancel_left (as := "= ".toList) h
  obtain ⟨h2, -, h⟩ := cut_inj (p := (· != ' ')) (relTypeText_word _) (relTypeText_word _) (by decide) (by decide) h
  exact ⟨BitVec.eq_of_toNat_eq (numeral_inj (by decide) (by decide) h1), relTypeText_inj h2, h⟩

/-- The word in front of the identifiers. -/
def labelText (r : Rel) (y : Symbol) : Str :=
  match shownName r.name, shownName y.name with
  | some n, _ => n
  | none, some n => n
  | none, none => '<' :: placeText y.address ++ ['>']

theorem targetText_some {t : SymTree} {r : Rel} {y : Symbol} (h : Tree.floor t r.target = some y) :
    targetText t r = labelText r y ++ ' ' :: (symIdText y.id ++ (if r.addend ≠ 0 then ' ' :: signedText r.addend.toInt else [])) := by
  unfold targetText labelText
  rw [h]
  dsimp only
  cases shownName r.name with
  | some n => simp only [List.append_assoc, List.cons_append, List.nil_append]
  | none =>
    cases shownName y.name with
    | some n => simp only [List.append_assoc, List.cons_append, List.nil_append]
    | none => simp only [List.append_assoc, List.cons_append, List.nil_append, show "> ".toList = ['>', ' '] from rfl]

theorem placeText_word (v : Addr) : ∀ c ∈ placeText v, c ≠ ' ' := by
  intro c hc
  rintro rfl
  unfold placeText at hc
  rcases List.mem_append.mp hc with hc | hc
  · cases hv : TLS.is_tls v <;> (rw [hv] at hc; exact absurd hc (by decide))
  · rcases List.mem_cons.mp hc with hc | hc
    · exact absurd hc (by decide)
    · rcases List.mem_cons.mp hc with hc | hc
      · exact absurd hc (by decide)
      · exact (hex_digit hc).1 rfl

theorem shown_word {n : Option String} {s : Str} (hn : ∀ m, n = some m → ' ' ∉ m.toList) (h : shownName n = some s) : ' ' ∉ s := by
  cases n with
  | none => cases h
  | some m =>
    unfold shownName at h
    dsimp only at h
    by_cases he : m.toList = []
    · rw [if_pos he] at h; cases h
    · rw [if_neg he] at h
      cases h
      exact hn m rfl

theorem labelText_word {r : Rel} {y : Symbol} (hr : ∀ m, r.name = some m → ' ' ∉ m.toList) (hy : ∀ m, y.name = some m → ' ' ∉ m.toList) :
    ∀ c ∈ labelText r y, (c != ' ') = true := by
  intro c hc
  rw [bne_iff_ne]
  rintro rfl
  unfold labelText at hc
  cases hn : shownName r.name with
  | some n =>
    rw [hn] at hc
    exact shown_word hr hn hc
  | none =>
    cases hm : shownName y.name with
    | some n =>
      rw [hn, hm] at hc
      exact shown_word hy hm hc
    | none =>
      rw [hn, hm] at hc
      rcases List.mem_cons.mp hc with hc | hc
      · exact absurd hc (by decide)
      · rcases List.mem_append.mp hc with hc | hc
        · exact placeText_word _ _ hc rfl
        · exact absurd hc (by decide)

theorem addend_inj {x y : BitVec 64} (h : (if x ≠ 0 then ' ' :: signedText x.toInt else ([] : Str)) =
    (if y ≠ 0 then ' ' :: signedText y.toInt else [])) : x = y := by
  by_cases hx : x = 0 <;> by_cases hy : y = 0
  · rw [hx, hy]
  · rw [if_neg (not_not_intro hx), if_pos hy] at h; cases h
  · rw [if_pos hx, if_neg (not_not_intro hy)] at h; cases h
  · rw [if_pos hx, if_pos hy] at h
    injection h with _ h
    exact BitVec.eq_of_toInt_eq (signed_inj h)

/-! ### C106 -/

/-- C106: The line of a relocation whose target is at or behind some symbol tells the offset, the type, the identifier of the closest
symbol in front of the target, the addend and the name. What is missing: names with blanks, and relocations without such a symbol
(`C106_import_counterexample`, `C106_target_counterexample`). -/
theorem C106_line_partial {t t' : SymTree} (ht : Tree.Sorted t) (ht' : Tree.Sorted t') {r r' : Rel} {y y' : Symbol}
    (hy : ClosestTo t r.target y) (hy' : ClosestTo t' r'.target y')
    (hw : ∀ m, (r.name = some m ∨ y.name = some m ∨ r'.name = some m ∨ y'.name = some m) → ' ' ∉ m.toList)
    (h : relLine t r = relLine t' r') :
    r.offset = r'.offset ∧ r.type = r'.type ∧ y.id = y'.id ∧ r.addend = r'.addend ∧
    (∀ n n', r.name = some n → r'.name = some n' → n ≠ "" → n' ≠ "" → n = n') := by
  obtain ⟨h1, h2, h⟩ := rel_cut h
  rw [targetText_some (closestTo_floor ht hy), targetText_some (closestTo_floor ht' hy')] at h
  obtain ⟨h3, -, h⟩ := cut_inj (p := (· != ' ')) (labelText_word (fun m hm => hw m (.inl hm)) (fun m hm => hw m (.inr (.inl hm))))
    (labelText_word (fun m hm => hw m (.inr (.inr (.inl hm)))) (fun m hm => hw m (.inr (.inr (.inr hm))))) (by decide) (by decide) h
  obtain ⟨h4, h⟩ := id_cut h
  refine ⟨h1, h2, h4, addend_inj h, ?_⟩
  intro n n' hn hn' he he'
  unfold labelText at h3
  have hs : ∀ {m : String}, m ≠ "" → shownName (some m) = some m.toList := by
    intro m hm
    unfold shownName
    dsimp only
    rw [if_neg]
    exact fun e => hm (String.toList_injective (e.trans (by rfl : ([] : Str) = "".toList)))
  rw [hn, hn', hs he, hs he'] at h3
  exact String.toList_injective h3

theorem relLine_unnamed {t : SymTree} (ht : ∀ s ∈ t, s.address ≠ 0) {r : Rel} (hr : r.target = 0) : relLine t r =
    "     *0x".toList ++ (Nat.toDigits 16 r.offset.toNat ++ (" = ".toList ++ (relTypeText r.type ++ (' ' :: '0' :: 'x' ::
      Nat.toDigits 16 r.addend.toNat)))) := by
  have hf : Tree.floor t r.target = none := by
    rw [Tree.floor_eq_none_iff, hr]
    intro s hs
    have := ht s hs
    show (0 : Addr) < s.address
    bv_omega
  unfold relLine targetText
  rw [hf]
  dsimp only
  rw [if_pos hr]

/-- C106 fails for symbols of other files: as long as there is no symbol at address zero, the line of a relocation of a file for an
undefined symbol does not tell which symbol it is. -/
theorem C106_import_counterexample {t : SymTree} (ht : ∀ s ∈ t, s.address ≠ 0) (env : Env) (a : Addr) (resolve : Bool) (got : Addr)
    (r : ElfRel) {s s' : ElfSym} (hs : s.shndx = .undef) (hs' : s'.shndx = .undef) :
    relLine t (relOfElf env a resolve got { r with symbol := some s }) = relLine t (relOfElf env a resolve got { r with symbol := some s' }) := by
  have key : ∀ {s : ElfSym}, s.shndx = .undef → (relOfElf env a resolve got { r with symbol := some s }).target = 0 := by
    intro s hs
    unfold relOfElf
    dsimp only
    rw [hs]
    rfl
  rw [relLine_unnamed ht (key hs), relLine_unnamed ht (key hs')]
  rfl

/-- C106 fails for targets in front of all symbols: they are shown like the addend of an undefined symbol. -/
theorem C106_target_counterexample : ∃ (t : SymTree) (r r' : Rel), Tree.Sorted t ∧ r.target ≠ r'.target ∧ r.addend ≠ r'.addend ∧
    relLine t r = relLine t r' := by
  refine ⟨[{ address := 0x1000 }], { offset := 0x2000, type := 1, target := 0x10 }, { offset := 0x2000, type := 1, addend := 0x10 },
    ?_, by decide, by decide, by decide +kernel⟩
  exact List.pairwise_singleton _ _

/-- C106 fails as a description of the place: for relative relocations (whose target is the addend) the name and the addend denote
another address than the target, unless the symbol is at address zero. -/
theorem C106_relative_counterexample {t : SymTree} (ht : Tree.Sorted t) {r : Rel} {y : Symbol} (hr : r.target = r.addend)
    (hy : ClosestTo t r.target y) (h0 : y.address ≠ 0) :
    y.address + r.addend ≠ r.target ∧
    ∃ s : Str, relLine t r = s ++ ' ' :: (symIdText y.id ++ ' ' :: signedText r.addend.toInt) := by
  have ha : r.addend ≠ 0 := by
    intro e
    have := hy.2.1
    rw [hr, e] at this
    exact h0 (by bv_omega)
  refine ⟨?_, ?_⟩
  · rw [hr]
    bv_omega
  · unfold relLine
    rw [targetText_some (closestTo_floor ht hy), if_pos ha]
    refine ⟨"     *0x".toList ++ (Nat.toDigits 16 r.offset.toNat ++ (" = ".toList ++ (relTypeText r.type ++ (' ' :: labelText r y)))), ?_⟩
    simp only [List.append_assoc, List.cons_append]

/-- C106 fails as one line: numbers of relocations without name bring a line break. -/
theorem C106_break_counterexample (t : SymTree) (r : Rel)
    (h : r.type = 39 ∨ r.type = 40 ∨ (43 ≤ r.type.toNat ∧ r.type.toNat < 250) ∨ 252 ≤ r.type.toNat) : '\n' ∈ relLine t r := by
  have hf : relTypeNames.find? (fun x => x.1 = r.type.toNat) = none := by
    have key : ∀ x ∈ relTypeNames, x.1 ≠ 39 ∧ x.1 ≠ 40 ∧ (x.1 < 43 ∨ 250 ≤ x.1) ∧ x.1 < 252 := by decide
    rw [List.find?_eq_none]
    intro x hx e
    have e := of_decide_eq_true e
    obtain ⟨h1, h2, h3, h4⟩ := key x hx
    rcases h with h | h | h | h
    · rw [h] at e; exact h1 e
    · rw [h] at e; exact h2 e
    · omega
    · omega
  unfold relLine relTypeText
  rw [hf]
  simp

theorem place_inj {v w : Addr} (h : placeText v = placeText w) : TLS.virt_addr v = TLS.virt_addr w ∧ TLS.is_tls v = TLS.is_tls w := by
  unfold placeText at h
  cases hv : TLS.is_tls v <;> cases hw : TLS.is_tls w <;> rw [hv, hw] at h
  · exact ⟨BitVec.eq_of_toNat_eq (numeral_inj (by decide) (by decide) (List.append_cancel_left (as := ['0', 'x']) h)), rfl⟩
  · injection h with h _
    exact absurd h (by decide)
  · injection h with h _
    exact absurd h (by decide)
  · exact ⟨BitVec.eq_of_toNat_eq (numeral_inj (by decide) (by decide) (List.append_cancel_left (as := "TLS:0x".toList) h)), rfl⟩

/-- The text of an address starts with the number and ends or goes on with a blank. -/
theorem addressText_cut (t : SymTree) (v : Addr) : ∃ s : Str, addressText t v ++ [' '] = placeText v ++ ' ' :: s := by
  unfold addressText
  cases Tree.floor t v with
  | none => exact ⟨[], by simp only [List.append_assoc, List.nil_append]⟩
  | some y =>
    dsimp only
    by_cases hc : TLS.is_tls y.address = TLS.is_tls v
    · rw [if_pos hc, show " <".toList = [' ', '<'] from rfl]
      simp only [List.append_assoc, List.cons_append, List.nil_append]
      exact ⟨_, rfl⟩
    · rw [if_neg hc]
      exact ⟨[], by simp only [List.append_assoc, List.nil_append]⟩

/-- C106: The text of a reference tells the address, whatever the symbols are called. -/
theorem C106_reference {t t' : SymTree} {v w : Addr} (h : addressText t v = addressText t' w) :
    TLS.virt_addr v = TLS.virt_addr w ∧ TLS.is_tls v = TLS.is_tls w := by
  obtain ⟨s, hs⟩ := addressText_cut t v
  obtain ⟨u, hu⟩ := addressText_cut t' w
  rw [h, hu] at hs
  obtain ⟨e, -, -⟩ := cut_inj (p := (· != ' ')) (fun c hc => by rw [bne_iff_ne]; exact placeText_word _ c hc)
    (fun c hc => by rw [bne_iff_ne]; exact placeText_word _ c hc) (by decide) (by decide) hs
  exact place_inj e.symm

/-- A function for the examples. -/
def exTarget : Symbol := { address := 0x1000, size := 24, name := some "main", type := .func, id := { internal := 1, external := 2 } }

/-- Symbols for the examples. -/
def exTargets : SymTree :=
  [exTarget,
   { address := 0x4000, size := 8, type := .object, sec := { writeable := true, name := some ".data" } }]

/-- A named relocation, and the conditions of the theorem. -/
example : Tree.Sorted exTargets ∧ ClosestTo exTargets 0x1008 exTarget ∧
    relLine exTargets { offset := 0x4000, type := 1, name := some "main", addend := 8, target := 0x1008 } =
      "     *0x4000 = R_X86_64_64 main {0000000000000001 0000000000000002} +8".toList := by
  exact ⟨by unfold Tree.Sorted exTargets; decide, by decide, by decide +kernel⟩

/-- References with and without name. -/
example : addressText exTargets 0x1008 = "0x1008 <main + 8>".toList ∧ addressText exTargets 0x4000 = "0x4000 <0x4000/.data>".toList := by
  decide +kernel

/-- An import: the name is lost. -/
example : (∀ s ∈ exTargets, s.address ≠ 0) ∧
    relLine exTargets { offset := 0x4000, type := 6, name := some "printf", undefined := true } =
      "     *0x4000 = R_X86_64_GLOB_DAT 0x0".toList := by
  decide +kernel

/-- A relative relocation to the second byte of the function, which reads like an address far behind. -/
example : relLine exTargets { offset := 0x4000, type := 8, addend := 0x1001, target := 0x1001 } =
    "     *0x4000 = R_X86_64_RELATIVE main {0000000000000001 0000000000000002} +4097".toList := by
  decide +kernel

end Bean.Props

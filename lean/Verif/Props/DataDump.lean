import Verif.Lemmas.DataDump
import Verif.Props.Detail
import Verif.Props.HashExamples
/-
C113: the dump of data.
-/
namespace Bean.Props
open Bean Bean.Spec

variable {env : Env} {resolve : Bool} {symbols : SymTree} {s : Symbol} {bytes : List (BitVec 8)}

/-! ### Reading of a line -/

theorem hexByte_length (v : BitVec 8) : (hexByte v).length = 2 := by
  have h : (Nat.toDigits 16 v.toNat).length ≤ 2 := (Nat.length_toDigits_le_iff (by decide) (by decide)).mpr v.isLt
  unfold hexByte padZeros
  rw [List.length_append, List.length_replicate]
  omega

theorem hexByte_word (v : BitVec 8) : ∀ c ∈ hexByte v, c ≠ ' ' ∧ c ≠ '\n' := by
  intro c hc
  unfold hexByte padZeros at hc
  rcases List.mem_append.mp hc with h | h
  · rw [List.eq_of_mem_replicate h]; decide
  · obtain ⟨k, hk, e⟩ := mem_digits (by decide) h
    rw [e]
    exact (by decide : ∀ k < 16, Nat.digitChar k ≠ ' ' ∧ Nat.digitChar k ≠ '\n') k hk

theorem cellText_length (c : Option (BitVec 8)) : (cellText c).length = 3 := by
  cases c with
  | none => rfl
  | some v =>
    show (hexByte v).length + 1 = 3
    rw [hexByte_length]

theorem readCell_text (c : Option (BitVec 8)) : readCell (cellText c) = c := by
  cases c with
  | none => rfl
  | some v =>
    unfold readCell cellText
    rw [if_neg]
    · show some (BitVec.ofNat 8 (numeral 16 (hexByte v))) = some v
      unfold hexByte padZeros
      rw [numeral_zeros, numeral_digits (by decide) (by decide), BitVec.ofNat_toNat, BitVec.setWidth_eq]
    · intro h
      have h' : hexByte v = [' ', ' '] := List.cons.inj h |>.2
      exact (hexByte_word v ' ' (by rw [h']; exact List.mem_cons_self)).1 rfl

theorem readCells_text (l : List (Option (BitVec 8))) (r : Str) : readCells l.length (l.flatMap cellText ++ r) = l := by
  induction l with
  | nil => rfl
  | cons c l ih =>
    rw [List.length_cons, readCells, List.flatMap_cons, List.append_assoc, List.take_left' (cellText_length c), List.drop_left' (cellText_length c), readCell_text, ih]

theorem cells_length (l : List (Option (BitVec 8))) : (l.flatMap cellText).length = 3 * l.length := by
  induction l with
  | nil => rfl
  | cons c l ih =>
    rw [List.flatMap_cons, List.length_append, cellText_length, ih, List.length_cons]
    omega

theorem dropBlanks (k : Nat) (r : Str) : (List.replicate k ' ' ++ '0' :: r).dropWhile (· = ' ') = '0' :: r := by
  induction k with
  | zero => rfl
  | succ k ih =>
    rw [List.replicate_succ, List.cons_append, List.dropWhile_cons_of_pos (by decide), ih]

theorem readDumpLine_text (a : Addr) (l : List (Option (BitVec 8))) (hl : l.length = 16) (r : Str) :
    readDumpLine (dumpHeader a ++ (l.flatMap cellText ++ r)) = ⟨a, l, r⟩ := by
  have hd : ∀ c ∈ Nat.toDigits 16 a.toNat, (decide (c ≠ ' ')) = true := by
    intro c hc
    obtain ⟨k, hk, e⟩ := mem_digits (by decide) hc
    rw [e]
    exact (by decide : ∀ k < 16, decide (Nat.digitChar k ≠ ' ') = true) k hk
  unfold readDumpLine dumpHeader padLeft
  dsimp only
  rw [show ∀ (x y z : Str), x ++ '0' :: 'x' :: y ++ [' '] ++ z = x ++ '0' :: ('x' :: (y ++ ' ' :: z)) by intros; simp, dropBlanks]
  show DumpLine.mk (BitVec.ofNat 64 (numeral 16 ((Nat.toDigits 16 a.toNat ++ ' ' :: (l.flatMap cellText ++ r)).takeWhile (· ≠ ' '))))
    (readCells 16 (((Nat.toDigits 16 a.toNat ++ ' ' :: (l.flatMap cellText ++ r)).dropWhile (· ≠ ' ')).drop 1))
    ((((Nat.toDigits 16 a.toNat ++ ' ' :: (l.flatMap cellText ++ r)).dropWhile (· ≠ ' ')).drop 1).drop 48) = _
  obtain ⟨h1, h2⟩ := takeWhile_cut (p := fun c => decide (c ≠ ' ')) (c := ' ') (r := l.flatMap cellText ++ r) hd (by decide)
  rw [h1, h2, numeral_digits (by decide) (by decide), BitVec.ofNat_toNat, BitVec.setWidth_eq]
  show DumpLine.mk a (readCells 16 (l.flatMap cellText ++ r)) ((l.flatMap cellText ++ r).drop 48) = _
  rw [List.drop_left' (by rw [cells_length, hl]), ← hl, readCells_text]

/-! ### No line breaks -/

theorem addressText_break {t : SymTree} (hn : ∀ s ∈ t, OneLine s) (v : Addr) : '\n' ∉ addressText t v := by
  unfold addressText
  refine break_append (place_break v) ?_
  cases hf : Tree.floor t v with
  | none => exact List.not_mem_nil
  | some y =>
    have hy := hn y (Tree.floor_mem hf)
    dsimp only
    by_cases hk : TLS.is_tls y.address = TLS.is_tls v
    · rw [if_pos hk]
      refine break_append (break_append (break_append (break_append (by decide) ?_) ?_) ?_) (by decide)
      · cases he : y.name with
        | none => exact place_break _
        | some n => exact hy.1 n he
      · cases he : y.sec.name with
        | none => exact List.not_mem_nil
        | some n => exact break_cons (by decide) (hy.2 n he)
      · by_cases he : y.address = v
        · rw [if_neg (not_not_intro he)]; exact List.not_mem_nil
        · rw [if_pos he]
          exact break_append (by decide) (digits_break (by decide) (by decide))
    · rw [if_neg hk]
      exact List.not_mem_nil

theorem decimal_break (i : Int) : '\n' ∉ decimalText i := by
  unfold decimalText
  by_cases h : i < 0
  · rw [if_pos h]; exact break_cons (by decide) (digits_break (by decide) (by decide))
  · rw [if_neg h]; exact digits_break (by decide) (by decide)

theorem relRemark_break (hb : ∀ y ∈ symbols, OneLine y) {r : Rel} (hr : ∀ n, r.name = some n → '\n' ∉ n.toList) : '\n' ∉ relRemark resolve symbols r := by
  unfold relRemark
  cases he : r.name with
  | none => exact addressText_break hb _
  | some n =>
    refine break_append (hr n he) ?_
    by_cases h : r.addend = 0
    · rw [if_neg (not_not_intro h)]; exact List.not_mem_nil
    · rw [if_pos h]; exact break_cons (by decide) (break_cons (by decide) (break_cons (by decide) (decimal_break _)))

theorem break_flatMap {α : Type} {l : List α} {f : α → Str} (h : ∀ a ∈ l, '\n' ∉ f a) : '\n' ∉ l.flatMap f := by
  intro hc
  obtain ⟨a, ha, hm⟩ := List.mem_flatMap.mp hc
  exact h a ha hm

theorem charOf_break (c : Option (BitVec 8)) : '\n' ∉ charOf c := by
  cases c with
  | none => exact by decide
  | some v => exact (by decide +kernel : ∀ v : BitVec 8, '\n' ∉ charOf (some v)) v

theorem mem_remarkRels {rels : List Rel} {a : Addr} {r : Rel} (h : r ∈ remarkRels rels a) : r ∈ rels :=
  (List.mem_filter.mp ((List.takeWhile_sublist _).subset h)).1

theorem dumpRemark_break (hb : NoBreaks symbols s) (a : Addr) (x n : Nat) (tr : DumpTrack) :
    '\n' ∉ dumpRemark resolve symbols s.rels a (advanced env s bytes n x { track := tr }) := by
  unfold dumpRemark
  by_cases h : (advanced env s bytes n x { track := tr }).track.had_rel = true
  · rw [if_pos h]
    refine break_cons (by decide) (break_cons (by decide) (break_cons (by decide) (break_flatMap ?_)))
    exact fun r hr => break_cons (by decide) (relRemark_break hb.1 (hb.2 r (mem_remarkRels hr)))
  · rw [if_neg h]
    by_cases h2 : (advanced env s bytes n x { track := tr }).is_ascii > 0
    · rw [if_pos h2]
      refine break_cons (by decide) (break_cons (by decide) (break_cons (by decide) (break_cons (by decide) ?_)))
      exact break_append List.not_mem_nil (break_flatMap (fun y _ => charOf_break _))
    · rw [if_neg h2]
      exact List.not_mem_nil

theorem cellText_break (c : Option (BitVec 8)) : '\n' ∉ cellText c := by
  cases c with
  | none => exact by decide
  | some v => exact break_cons (by decide) (fun h => (hexByte_word v _ h).2 rfl)

theorem dumpHeader_break (a : Addr) : '\n' ∉ dumpHeader a := by
  unfold dumpHeader padLeft
  refine break_append (break_append ?_ (break_cons (by decide) (break_cons (by decide) (digits_break (by decide) (by decide))))) (by decide)
  exact fun h => absurd (List.eq_of_mem_replicate h) (by decide)

theorem lineText_break (hb : NoBreaks symbols s) (x : Nat) (tr : DumpTrack) : '\n' ∉ lineText env resolve symbols s bytes x tr :=
  break_append (dumpHeader_break _) (break_append (break_flatMap (fun _ _ => cellText_break _)) (dumpRemark_break hb _ _ _ _))

/-! ### Lines of the dump -/

/-- The line with the given number as it is read. -/
def dumpLineAt (env : Env) (resolve : Bool) (symbols : SymTree) (s : Symbol) (bytes : List (BitVec 8)) (i : Nat) : DumpLine where
  address := BitVec.ofNat 64 (lineStart s i)
  cells := (List.range' (lineStart s i) 16).map (contentAt s bytes)
  remark := dumpRemark resolve symbols s.rels (BitVec.ofNat 64 (lineStart s i + 15))
    (advanced env s bytes 16 (lineStart s i) { track := startTrack env s (lineStart s 0) i { rels := s.rels } })

theorem lineStart_add (s : Symbol) (i : Nat) : lineStart s 0 + 16 * i = lineStart s i := by
  unfold lineStart
  omega

theorem mem_lineTexts_break (hb : NoBreaks symbols s) (n x : Nat) (tr : DumpTrack) : ∀ l ∈ lineTexts env resolve symbols s bytes n x tr, '\n' ∉ l := by
  induction n generalizing x tr with
  | zero => exact fun l h => absurd h List.not_mem_nil
  | succ n ih =>
    intro l h
    rw [lineTexts] at h
    rcases List.mem_cons.mp h with rfl | h
    · exact lineText_break hb _ _
    · exact ih _ _ l h

theorem dump_read (hc : Content s bytes) (hr : RoundsUp env s) (hb : NoBreaks symbols s) : ∃ d, dumpData env resolve symbols s bytes = .ok d ∧
    (readDump d).length = lineCount s ∧ ∀ i < lineCount s, (readDump d)[i]? = some (dumpLineAt env resolve symbols s bytes i) := by
  refine ⟨_, dump_lines hc hr, ?_, ?_⟩
  · unfold readDump
    rw [readLines_lines (mem_lineTexts_break hb _ _ _), List.length_map, lineTexts_length]
  · intro i hi
    unfold readDump
    rw [readLines_lines (mem_lineTexts_break hb _ _ _), List.getElem?_map, lineTexts_get _ _ _ i hi, Option.map_some, lineStart_add]
    refine congrArg some ?_
    unfold lineText dumpLineAt
    rw [← readDumpLine_text (BitVec.ofNat 64 (lineStart s i)) ((List.range' (lineStart s i) 16).map (contentAt s bytes)) (by rw [List.length_map, List.length_range']),
      List.flatMap_map]

theorem lineStart_small (hc : Content s bytes) {i : Nat} (hi : i < lineCount s) : lineStart s i + 16 ≤ 2 ^ 64 := by
  obtain ⟨_, h2⟩ := hc
  unfold lineCount at hi
  unfold lineStart
  omega

/-- **C113**, content: the lines show all bytes of the symbol at their addresses, and nothing else. -/
theorem C113_bytes (hc : Content s bytes) (hr : RoundsUp env s) (hb : NoBreaks symbols s) :
    ∃ d, dumpData env resolve symbols s bytes = .ok d ∧
      (∀ k v, bytes[k]? = some v → ∃ l ∈ readDump d, ∃ j, l.cells[j]? = some (some v) ∧ l.address.toNat + j = (TLS.virt_addr s.address).toNat + k) ∧
      (∀ l ∈ readDump d, ∀ j v, l.cells[j]? = some (some v) →
        ∃ k, bytes[k]? = some v ∧ l.address.toNat + j = (TLS.virt_addr s.address).toNat + k) ∧
      (readDump d).Pairwise (fun l m => l.address.toNat + 16 ≤ m.address.toNat) := by
  obtain ⟨d, h1, h2, h3⟩ := dump_read (resolve := resolve) (symbols := symbols) hc hr hb
  have hat : ∀ i < lineCount s, (dumpLineAt env resolve symbols s bytes i).address.toNat = lineStart s i := by
    intro i hi
    have := lineStart_small hc hi
    exact Nat.mod_eq_of_lt (by omega)
  refine ⟨d, h1, ?_, ?_, ?_⟩
  · intro k v hk
    have hk' : k < s.size.toNat := by rw [← hc.1]; exact (List.getElem?_eq_some_iff.mp hk).1
    have hi : ((TLS.virt_addr s.address).toNat + k) / 16 - (TLS.virt_addr s.address).toNat / 16 < lineCount s := by
      unfold lineCount
      omega
    refine ⟨_, List.mem_of_getElem? (h3 _ hi), ((TLS.virt_addr s.address).toNat + k) % 16, ?_, ?_⟩
    · have e : lineStart s (((TLS.virt_addr s.address).toNat + k) / 16 - (TLS.virt_addr s.address).toNat / 16) + ((TLS.virt_addr s.address).toNat + k) % 16 =
          (TLS.virt_addr s.address).toNat + k := by
        unfold lineStart
        omega
      unfold dumpLineAt
      dsimp only
      rw [List.getElem?_map, List.getElem?_range' (by omega), Nat.one_mul, e]
      unfold contentAt
      rw [Option.map_some, if_pos (by omega), Nat.add_sub_cancel_left, hk]
    · rw [hat _ hi]
      unfold lineStart
      omega
  · intro l hl j v hj
    obtain ⟨i, hi, e⟩ := List.getElem_of_mem hl
    rw [h2] at hi
    have e' : l = dumpLineAt env resolve symbols s bytes i := by
      have := h3 i hi
      rw [List.getElem?_eq_getElem (by omega), e] at this
      exact Option.some.inj this
    subst e'
    rw [hat i hi]
    unfold dumpLineAt at hj
    dsimp only at hj
    rw [List.getElem?_map] at hj
    by_cases hj16 : j < 16
    · rw [List.getElem?_range' hj16, Option.map_some, Nat.one_mul] at hj
      have hj := Option.some.inj hj
      unfold contentAt at hj
      by_cases hin : (TLS.virt_addr s.address).toNat ≤ lineStart s i + j ∧ lineStart s i + j < (TLS.virt_addr s.address).toNat + s.size.toNat
      · rw [if_pos hin] at hj
        exact ⟨_, hj, by omega⟩
      · rw [if_neg hin] at hj
        cases hj
    · rw [List.getElem?_eq_none (by rw [List.length_range']; omega)] at hj
      cases hj
  · rw [List.pairwise_iff_getElem]
    intro i j hi hj hij
    rw [h2] at hi hj
    have g : ∀ i (hi : i < (readDump d).length), i < lineCount s → (readDump d)[i] = dumpLineAt env resolve symbols s bytes i := by
      intro i hi hi'
      have := h3 i hi'
      rw [List.getElem?_eq_getElem hi] at this
      exact Option.some.inj this
    rw [g i (by omega) hi, g j (by omega) hj, hat i hi, hat j hj]
    unfold lineStart
    omega

/-! ### Remarks with characters -/

theorem score_sum (l : List (Option (BitVec 8))) :
    (l.map cellScore).sum = (l.countP (fun c => c.any printable) : Int) - (l.countP (fun c => c.any (fun v => !printable v)) : Int) := by
  induction l with
  | nil => rfl
  | cons c l ih =>
    rw [List.map_cons, List.sum_cons, ih, List.countP_cons, List.countP_cons]
    cases c with
    | none => simp [cellScore]
    | some v =>
      cases h : printable v
      · simp [cellScore, h]; omega
      · simp [cellScore, h]; omega

theorem relDone_had (a : Addr) (tr : DumpTrack) : (relDone a tr).had_rel = tr.had_rel := by
  unfold relDone
  by_cases h : tr.rels ≠ [] ∧ a = tr.rel_end
  · rw [if_pos h]
  · rw [if_neg h]

theorem relDone_sub (a : Addr) (tr : DumpTrack) : ∀ r ∈ (relDone a tr).rels, r ∈ tr.rels := by
  unfold relDone
  by_cases h : tr.rels ≠ [] ∧ a = tr.rel_end
  · rw [if_pos h]; exact fun r hr => List.mem_of_mem_tail hr
  · rw [if_neg h]; exact fun r hr => hr

theorem relStart_rels (a : Addr) (tr : DumpTrack) : (dumpRelStart env a tr).rels = tr.rels := by
  unfold dumpRelStart
  cases tr.rels.head? with
  | none => rfl
  | some r =>
    dsimp only
    by_cases h : a = r.offset
    · rw [if_pos h]
    · rw [if_neg h]

theorem relStart_none {a : Addr} {tr : DumpTrack} (h : ∀ r ∈ tr.rels, r.offset ≠ a) : dumpRelStart env a tr = tr := by
  unfold dumpRelStart
  cases hr : tr.rels.head? with
  | none => rfl
  | some r =>
    dsimp only
    rw [if_neg (fun e => h r (List.mem_of_mem_head? hr) e.symm)]

theorem dumpTrack_none {a : Addr} {tr : DumpTrack} (h : ∀ r ∈ tr.rels, r.offset ≠ a) : (dumpTrack env a tr).had_rel = tr.had_rel := by
  unfold dumpTrack
  rw [relStart_none (fun r hr => h r (relDone_sub a tr r hr)), relDone_had]

theorem dumpTrack_sub (a : Addr) (tr : DumpTrack) : ∀ r ∈ (dumpTrack env a tr).rels, r ∈ tr.rels := by
  unfold dumpTrack
  rw [relStart_rels]
  exact relDone_sub a tr

theorem trackAt_sub (x : Nat) (tr : DumpTrack) : ∀ r ∈ (trackAt env s x tr).rels, r ∈ tr.rels := by
  unfold trackAt
  by_cases h : (TLS.virt_addr s.address).toNat ≤ x ∧ x < (TLS.virt_addr s.address).toNat + s.size.toNat
  · rw [if_pos h]; exact dumpTrack_sub _ _
  · rw [if_neg h]; exact fun r hr => hr

theorem trackTo_sub (n x : Nat) (tr : DumpTrack) : ∀ r ∈ (trackTo env s n x tr).rels, r ∈ tr.rels := by
  induction n generalizing x tr with
  | zero => exact fun r hr => hr
  | succ n ih => exact fun r hr => trackAt_sub x tr r (ih _ _ r hr)

theorem startTrack_sub (x i : Nat) (tr : DumpTrack) : ∀ r ∈ (startTrack env s x i tr).rels, r ∈ tr.rels := by
  induction i generalizing x tr with
  | zero => exact fun r hr => hr
  | succ i ih => exact fun r hr => trackTo_sub (env := env) (s := s) 16 x tr r (ih (x + 16) { trackTo env s 16 x tr with had_rel := false } r hr)

theorem startTrack_had (x i : Nat) {tr : DumpTrack} (h : tr.had_rel = false) : (startTrack env s x i tr).had_rel = false := by
  induction i generalizing x tr with
  | zero => exact h
  | succ i ih => exact ih _ rfl

theorem trackTo_none (n x : Nat) (tr : DumpTrack) (hl : x + n ≤ 2 ^ 64) (h : ∀ r ∈ tr.rels, ¬ (x ≤ r.offset.toNat ∧ r.offset.toNat < x + n)) :
    (trackTo env s n x tr).had_rel = tr.had_rel := by
  induction n generalizing x tr with
  | zero => rfl
  | succ n ih =>
    have h1 : (trackAt env s x tr).had_rel = tr.had_rel := by
      unfold trackAt
      by_cases hc : (TLS.virt_addr s.address).toNat ≤ x ∧ x < (TLS.virt_addr s.address).toNat + s.size.toNat
      · rw [if_pos hc]
        refine dumpTrack_none (fun r hr e => h r hr ?_)
        rw [e, BitVec.toNat_ofNat, Nat.mod_eq_of_lt (by omega)]
        omega
      · rw [if_neg hc]
    rw [trackTo, ih _ _ (by omega) (fun r hr => by have := h r (trackAt_sub x tr r hr); omega), h1]

/-- **C113**, characters: a line without relocations has the characters as remark if most of its bytes are printable. -/
theorem C113_text (hc : Content s bytes) (hr : RoundsUp env s) (hb : NoBreaks symbols s) :
    ∃ d, dumpData env resolve symbols s bytes = .ok d ∧ ∀ i l, (readDump d)[i]? = some l → (∀ r ∈ s.rels, ¬ OnLine s i r) → l.remark = charRemark l.cells := by
  obtain ⟨d, h1, h2, h3⟩ := dump_read (resolve := resolve) (symbols := symbols) hc hr hb
  refine ⟨d, h1, fun i l hl hn => ?_⟩
  have hi : i < lineCount s := by rw [← h2]; exact (List.getElem?_eq_some_iff.mp hl).1
  rw [h3 i hi] at hl
  obtain rfl := Option.some.inj hl
  have hs := lineStart_small hc hi
  have hh : (advanced env s bytes 16 (lineStart s i) { track := startTrack env s (lineStart s 0) i { rels := s.rels } }).track.had_rel = false := by
    show (trackTo env s 16 (lineStart s i) (startTrack env s (lineStart s 0) i { rels := s.rels })).had_rel = false
    rw [trackTo_none _ _ _ hs (fun r hr => hn r (startTrack_sub _ _ _ r hr)), startTrack_had _ _ rfl]
  have hi : (advanced env s bytes 16 (lineStart s i) { track := startTrack env s (lineStart s 0) i { rels := s.rels } }).is_ascii =
      (((List.range' (lineStart s i) 16).map (contentAt s bytes)).countP (fun c => c.any printable) : Int) -
        (((List.range' (lineStart s i) 16).map (contentAt s bytes)).countP (fun c => c.any (fun v => !printable v)) : Int) := by
    rw [← score_sum, List.map_map]
    exact Int.zero_add _
  have ha : (advanced env s bytes 16 (lineStart s i) { track := startTrack env s (lineStart s 0) i { rels := s.rels } }).ascii =
      ((List.range' (lineStart s i) 16).map (contentAt s bytes)).flatMap charOf := by
    rw [List.flatMap_map]
    rfl
  show dumpRemark _ _ _ _ _ = charRemark ((List.range' (lineStart s i) 16).map (contentAt s bytes))
  unfold dumpRemark
  rw [hh, if_neg Bool.false_ne_true, hi, ha]
  unfold charRemark
  refine ite_congr (propext (by omega)) (fun _ => rfl) (fun _ => rfl)

/-! ### Remarks with relocations -/

theorem readSigned_text (i : Int) : readSigned (decimalText i) = i := by
  unfold decimalText
  by_cases h : i < 0
  · rw [if_pos h]
    show -(numeral 10 (Nat.toDigits 10 i.natAbs) : Int) = i
    rw [numeral_digits (by decide) (by decide)]
    omega
  · rw [if_neg h]
    have e : ∀ x : Str, x.head? ≠ some '-' → readSigned x = numeral 10 x := by
      intro x hx
      unfold readSigned
      split
      · exact absurd rfl hx
      · rfl
    rw [e _ ?_, numeral_digits (by decide) (by decide)]
    · omega
    · intro hx
      obtain ⟨k, hk, he⟩ := mem_digits (by decide) (List.mem_of_mem_head? hx)
      exact (by decide : ∀ k < 10, '-' ≠ Nat.digitChar k) k hk he

theorem relocationText (r : Rel) : RelocationText resolve r (relRemark resolve symbols r) := by
  unfold RelocationText relRemark
  cases he : r.name with
  | some n =>
    dsimp only
    by_cases h : r.addend = 0
    · rw [if_pos h, if_neg (not_not_intro h), List.append_nil]
    · rw [if_neg h, if_pos h]
      exact ⟨decimalText r.addend.toInt, by simp, readSigned_text _⟩
  | none =>
    dsimp only
    obtain ⟨x, e, hx⟩ := addressText_shape symbols (if resolve = true then r.target else r.addend)
    rw [e, ← readPlace_text]
    have hp : ∀ c ∈ placeText (if resolve = true then r.target else r.addend), decide (c ≠ ' ') = true :=
      fun c hc => decide_eq_true (fun hc' => place_word _ (hc' ▸ hc))
    rcases hx with rfl | ⟨y, rfl⟩
    · rw [List.append_nil, takeWhile_all hp]
    · rw [(takeWhile_cut hp (by decide)).1]

/-- Relocations at a position: those in front of it are done, the last one of them may be in progress. -/
def Tracked (env : Env) (rels : List Rel) (x : Nat) (tr : DumpTrack) : Prop :=
  ∃ done, rels = done ++ tr.rels ∧ (∀ r ∈ done, r.offset.toNat < x) ∧
    ((tr.rel_end = 0 ∧ ∀ r ∈ tr.rels, x ≤ r.offset.toNat) ∨
     ∃ r l, tr.rels = r :: l ∧ r.offset.toNat < x ∧ x ≤ r.offset.toNat + (env.reloc_size r.type).toNat ∧ tr.rel_end = r.offset + env.reloc_size r.type ∧
       ∀ y ∈ l, r.offset.toNat + (env.reloc_size r.type).toNat ≤ y.offset.toNat)

/-- The relocations have sizes and do not overlap or reach the end of the address space. -/
def RelsApart (env : Env) (rels : List Rel) : Prop :=
  (∀ r ∈ rels, 0 < (env.reloc_size r.type).toNat ∧ r.offset.toNat + (env.reloc_size r.type).toNat < 2 ^ 64) ∧
  rels.Pairwise (fun x y => x.offset.toNat + (env.reloc_size x.type).toNat ≤ y.offset.toNat)

/-- A position without relocation in progress. -/
theorem track_start {rels done : List Rel} {x : Nat} (hs : RelsApart env rels) (hx : x < 2 ^ 64) {tr : DumpTrack} (he : rels = done ++ tr.rels) (hd : ∀ r ∈ done, r.offset.toNat < x)
    (h0 : tr.rel_end = 0) (hl : ∀ r ∈ tr.rels, x ≤ r.offset.toNat) :
    Tracked env rels (x + 1) (dumpRelStart env (BitVec.ofNat 64 x) tr) ∧
      (dumpRelStart env (BitVec.ofNat 64 x) tr).had_rel = (tr.had_rel || decide (∃ r ∈ rels, r.offset.toNat = x)) := by
  have en : (BitVec.ofNat 64 x).toNat = x := Nat.mod_eq_of_lt hx
  cases ht : tr.rels with
  | nil =>
    have e : dumpRelStart env (BitVec.ofNat 64 x) tr = tr := relStart_none (fun r hr => absurd (ht ▸ hr) List.not_mem_nil)
    rw [e]
    refine ⟨⟨done, he, fun r hr => by have := hd r hr; omega, Or.inl ⟨h0, fun r hr => absurd (ht ▸ hr) List.not_mem_nil⟩⟩, ?_⟩
    rw [decide_eq_false, Bool.or_false]
    rintro ⟨r, hr, e⟩
    rw [he, ht, List.append_nil] at hr
    have := hd r hr
    omega
  | cons r l =>
    rw [ht] at hl
    have hrm : r ∈ rels := by rw [he, ht]; exact List.mem_append_right _ List.mem_cons_self
    have hp : ∀ y ∈ l, r.offset.toNat + (env.reloc_size r.type).toNat ≤ y.offset.toNat := by
      have h2 := hs.2
      rw [he, ht] at h2
      exact (List.pairwise_cons.mp (List.pairwise_append.mp h2).2.1).1
    have hz := hs.1 r hrm
    by_cases hc : BitVec.ofNat 64 x = r.offset
    · have e' : dumpRelStart env (BitVec.ofNat 64 x) tr = { tr with had_rel := true, rel_end := r.offset + env.reloc_size r.type } := by
        unfold dumpRelStart
        rw [ht]
        dsimp only [List.head?]
        rw [if_pos hc]
      rw [e']
      have e : r.offset.toNat = x := by rw [← hc, en]
      refine ⟨⟨done, he, fun r hr => by have := hd r hr; omega, Or.inr ⟨r, l, ht, by omega, by omega, rfl, hp⟩⟩, ?_⟩
      dsimp only
      rw [decide_eq_true ⟨r, hrm, e⟩, Bool.or_true]
    · have e' : dumpRelStart env (BitVec.ofNat 64 x) tr = tr := by
        unfold dumpRelStart
        rw [ht]
        dsimp only [List.head?]
        rw [if_neg hc]
      rw [e']
      have e : r.offset.toNat ≠ x := fun e => hc (BitVec.eq_of_toNat_eq (by rw [en, e]))
      have hr := hl r List.mem_cons_self
      refine ⟨⟨done, he, fun r hr => by have := hd r hr; omega, Or.inl ⟨h0, fun y hy => ?_⟩⟩, ?_⟩
      · rw [ht] at hy
        rcases List.mem_cons.mp hy with rfl | hy
        · omega
        · have := hp y hy
          omega
      · rw [decide_eq_false, Bool.or_false]
        rintro ⟨y, hy, ey⟩
        rw [he, ht] at hy
        rcases List.mem_append.mp hy with hy | hy
        · have := hd y hy
          omega
        · rcases List.mem_cons.mp hy with rfl | hy
          · exact e ey
          · have := hp y hy
            omega

theorem track_step {rels : List Rel} {x : Nat} (hs : RelsApart env rels) (hx : x < 2 ^ 64) (h0 : 0 < x) {tr : DumpTrack} (ht : Tracked env rels x tr) :
    Tracked env rels (x + 1) (dumpTrack env (BitVec.ofNat 64 x) tr) ∧
      (dumpTrack env (BitVec.ofNat 64 x) tr).had_rel = (tr.had_rel || decide (∃ r ∈ rels, r.offset.toNat = x)) := by
  have en : (BitVec.ofNat 64 x).toNat = x := Nat.mod_eq_of_lt hx
  obtain ⟨done, he, hd, hcase⟩ := ht
  rcases hcase with ⟨hz, hl⟩ | ⟨r, l, hr, hlt, hle, hend, hl⟩
  · have hne : ¬ (tr.rels ≠ [] ∧ BitVec.ofNat 64 x = tr.rel_end) := by
      rintro ⟨_, e⟩
      rw [hz] at e
      have := congrArg BitVec.toNat e
      rw [en] at this
      exact absurd this (by rw [show (0 : Addr).toNat = 0 from rfl]; omega)
    unfold dumpTrack relDone
    rw [if_neg hne]
    exact track_start hs hx he hd hz hl
  · have hrm : r ∈ rels := by rw [he, hr]; exact List.mem_append_right _ List.mem_cons_self
    have hsz := hs.1 r hrm
    have eend : tr.rel_end.toNat = r.offset.toNat + (env.reloc_size r.type).toNat := by
      rw [hend, BitVec.toNat_add]
      exact Nat.mod_eq_of_lt hsz.2
    by_cases hc : x = r.offset.toNat + (env.reloc_size r.type).toNat
    · have hp : tr.rels ≠ [] ∧ BitVec.ofNat 64 x = tr.rel_end := ⟨by rw [hr]; exact List.cons_ne_nil _ _, BitVec.eq_of_toNat_eq (by rw [en, eend, hc])⟩
      unfold dumpTrack relDone
      rw [if_pos hp]
      refine track_start (tr := { tr with rel_end := 0, rels := tr.rels.tail }) (done := done ++ [r]) hs hx ?_ ?_ rfl ?_
      · dsimp only
        rw [he, hr, List.append_assoc]
        rfl
      · intro y hy
        rcases List.mem_append.mp hy with hy | hy
        · exact hd y hy
        · rw [List.mem_singleton.mp hy]; exact hlt
      · dsimp only
        rw [hr]
        exact fun y hy => by rw [hc]; exact hl y hy
    · have hne : ¬ (tr.rels ≠ [] ∧ BitVec.ofNat 64 x = tr.rel_end) := by
        rintro ⟨_, e⟩
        have := congrArg BitVec.toNat e
        rw [en, eend] at this
        exact hc this
      have hro : BitVec.ofNat 64 x ≠ r.offset := by
        intro e
        have := congrArg BitVec.toNat e
        rw [en] at this
        omega
      have e : dumpTrack env (BitVec.ofNat 64 x) tr = tr := by
        unfold dumpTrack relDone dumpRelStart
        rw [if_neg hne, hr]
        dsimp only [List.head?]
        rw [if_neg hro]
      rw [e]
      refine ⟨⟨done, he, fun y hy => by have := hd y hy; omega, Or.inr ⟨r, l, hr, by omega, by omega, hend, hl⟩⟩, ?_⟩
      rw [decide_eq_false, Bool.or_false]
      rintro ⟨y, hy, ey⟩
      rw [he, hr] at hy
      rcases List.mem_append.mp hy with hy | hy
      · have := hd y hy
        omega
      · rcases List.mem_cons.mp hy with rfl | hy
        · omega
        · have := hl y hy
          omega

/-- Relocations at a position of the dump. -/
def TrackInv (env : Env) (s : Symbol) (x : Nat) (tr : DumpTrack) : Prop :=
  (x ≤ (TLS.virt_addr s.address).toNat → tr.rels = s.rels ∧ tr.rel_end = 0) ∧
    (x ≤ (TLS.virt_addr s.address).toNat + s.size.toNat → Tracked env s.rels x tr)

theorem separate (hc : Content s bytes) (ho : Orderly env s) : RelsApart env s.rels :=
  ⟨fun r hr => ⟨(ho.1 r hr).2.1, by have := (ho.1 r hr).2.2; have := hc.2; omega⟩, ho.2⟩

theorem tracked_initial (ho : Orderly env s) {x : Nat} {tr : DumpTrack} (hx : x ≤ (TLS.virt_addr s.address).toNat) (h : tr.rels = s.rels ∧ tr.rel_end = 0) :
    Tracked env s.rels x tr :=
  ⟨[], by rw [h.1]; rfl, fun r hr => absurd hr List.not_mem_nil, Or.inl ⟨h.2, fun r hr => by have := (ho.1 r (h.1 ▸ hr)).1; omega⟩⟩

theorem track_at (hc : Content s bytes) (ho : Orderly env s) (ha : 16 ≤ (TLS.virt_addr s.address).toNat) {x : Nat} (hx : x < 2 ^ 64) {tr : DumpTrack} (h : TrackInv env s x tr) :
    TrackInv env s (x + 1) (trackAt env s x tr) ∧ (trackAt env s x tr).had_rel = (tr.had_rel || decide (∃ r ∈ s.rels, r.offset.toNat = x)) := by
  unfold trackAt
  by_cases hin : (TLS.virt_addr s.address).toNat ≤ x ∧ x < (TLS.virt_addr s.address).toNat + s.size.toNat
  · rw [if_pos hin]
    obtain ⟨h1, h2⟩ := track_step (separate hc ho) hx (by omega) (h.2 (by omega))
    exact ⟨⟨fun h' => by omega, fun _ => h1⟩, h2⟩
  · rw [if_neg hin]
    refine ⟨⟨fun h' => h.1 (by omega), fun h' => ?_⟩, ?_⟩
    · exact tracked_initial ho (by omega) (h.1 (by omega))
    · rw [decide_eq_false, Bool.or_false]
      rintro ⟨r, hr, e⟩
      have := ho.1 r hr
      omega

theorem track_to (hc : Content s bytes) (ho : Orderly env s) (ha : 16 ≤ (TLS.virt_addr s.address).toNat) (n x : Nat) (hx : x + n ≤ 2 ^ 64) {tr : DumpTrack} (h : TrackInv env s x tr) :
    TrackInv env s (x + n) (trackTo env s n x tr) ∧
      (trackTo env s n x tr).had_rel = (tr.had_rel || decide (∃ r ∈ s.rels, x ≤ r.offset.toNat ∧ r.offset.toNat < x + n)) := by
  induction n generalizing x tr with
  | zero =>
    refine ⟨h, ?_⟩
    rw [decide_eq_false, Bool.or_false]
    · rfl
    · rintro ⟨r, _, h1, h2⟩
      omega
  | succ n ih =>
    obtain ⟨h1, h2⟩ := track_at hc ho ha (by omega) h
    obtain ⟨h3, h4⟩ := ih (x + 1) (by omega) h1
    rw [trackTo]
    refine ⟨by rw [show x + (n + 1) = x + 1 + n by omega]; exact h3, ?_⟩
    rw [h4, h2, Bool.or_assoc, ← Bool.decide_or]
    congr 1
    refine decide_eq_decide.mpr ⟨?_, ?_⟩
    · rintro (⟨r, hr, e⟩ | ⟨r, hr, e⟩)
      · exact ⟨r, hr, by omega⟩
      · exact ⟨r, hr, by omega⟩
    · rintro ⟨r, hr, e⟩
      by_cases hx : r.offset.toNat = x
      · exact Or.inl ⟨r, hr, hx⟩
      · exact Or.inr ⟨r, hr, by omega⟩

theorem track_start_line (hc : Content s bytes) (ho : Orderly env s) (ha : 16 ≤ (TLS.virt_addr s.address).toNat) (i x : Nat) (hx : x + 16 * i ≤ 2 ^ 64) {tr : DumpTrack}
    (h : TrackInv env s x tr) : TrackInv env s (x + 16 * i) (startTrack env s x i tr) := by
  induction i generalizing x tr with
  | zero => exact h
  | succ i ih =>
    rw [startTrack, show x + 16 * (i + 1) = x + 16 + 16 * i by omega]
    obtain ⟨h1, _⟩ := track_to hc ho ha 16 x (by omega) h
    exact ih (x + 16) (by omega) ⟨h1.1, h1.2⟩

theorem takeWhile_filter {α : Type} {p : α → Bool} {l : List α} (h : l.Pairwise (fun x y => p y = true → p x = true)) : l.takeWhile p = l.filter p := by
  induction l with
  | nil => rfl
  | cons a l ih =>
    obtain ⟨h1, h2⟩ := List.pairwise_cons.mp h
    cases ha : p a with
    | true => rw [List.takeWhile_cons_of_pos ha, List.filter_cons_of_pos ha, ih h2]
    | false =>
      rw [List.takeWhile_cons_of_neg (by rw [ha]; decide), List.filter_cons_of_neg (by rw [ha]; decide)]
      refine (List.filter_eq_nil_iff.mpr fun y hy hp => ?_).symm
      have := h1 y hy hp
      rw [ha] at this
      cases this

theorem remarkRels_line (ho : Orderly env s) {i : Nat} (hl : lineStart s i + 16 ≤ 2 ^ 64) (h16 : 16 ≤ lineStart s i) (hn : ∀ r ∈ s.rels, r.offset.toNat + 1 ≠ lineStart s i) :
    remarkRels s.rels (BitVec.ofNat 64 (lineStart s i + 15)) = s.rels.filter (fun r => decide (OnLine s i r)) := by
  have e1 : (BitVec.ofNat 64 (lineStart s i + 15)).toNat = lineStart s i + 15 := Nat.mod_eq_of_lt (by omega)
  have e2 : (BitVec.ofNat 64 (lineStart s i + 15) - 16).toNat = lineStart s i - 1 := by
    rw [BitVec.toNat_sub_of_le (by rw [BitVec.le_def, e1]; exact Nat.le_trans h16 (by omega)), e1]
    show lineStart s i + 15 - 16 = _
    omega
  unfold remarkRels
  rw [takeWhile_filter, List.filter_filter]
  · refine List.filter_congr fun r hr => ?_
    rw [← Bool.decide_and, decide_eq_decide, BitVec.le_def, BitVec.le_def, e1, e2]
    have := hn r hr
    unfold OnLine
    omega
  · refine List.Pairwise.imp ?_ (List.Pairwise.sublist List.filter_sublist ho.2)
    intro x y h hp
    rw [decide_eq_true_eq, BitVec.le_def] at hp ⊢
    omega

/-- **C113**, relocations: a line on which relocations start has them, in order, as remark, unless one starts at the last position of the line before. -/
theorem C113_relocations_partial (hc : Content s bytes) (hr : RoundsUp env s) (hb : NoBreaks symbols s) (ho : Orderly env s) (ha : 16 ≤ (TLS.virt_addr s.address).toNat) :
    ∃ d, dumpData env resolve symbols s bytes = .ok d ∧ ∀ i l, (readDump d)[i]? = some l → (∃ r ∈ s.rels, OnLine s i r) →
      (∀ r ∈ s.rels, r.offset.toNat + 1 ≠ lineStart s i) → RelocationRemark resolve (s.rels.filter (fun r => decide (OnLine s i r))) l.remark := by
  obtain ⟨d, h1, h2, h3⟩ := dump_read (resolve := resolve) (symbols := symbols) hc hr hb
  refine ⟨d, h1, fun i l hl hon hn => ?_⟩
  have hi : i < lineCount s := by rw [← h2]; exact (List.getElem?_eq_some_iff.mp hl).1
  rw [h3 i hi] at hl
  obtain rfl := Option.some.inj hl
  have hs := lineStart_small hc hi
  have hls : lineStart s 0 ≤ (TLS.virt_addr s.address).toNat ∧ 16 ≤ lineStart s i := by
    unfold lineStart
    omega
  have hinv : TrackInv env s (lineStart s i) (startTrack env s (lineStart s 0) i { rels := s.rels }) := by
    rw [← lineStart_add]
    exact track_start_line hc ho ha i _ (by rw [lineStart_add]; omega) ⟨fun _ => ⟨rfl, rfl⟩, fun _ => tracked_initial ho hls.1 ⟨rfl, rfl⟩⟩
  have hh : (advanced env s bytes 16 (lineStart s i) { track := startTrack env s (lineStart s 0) i { rels := s.rels } }).track.had_rel = true := by
    show (trackTo env s 16 (lineStart s i) (startTrack env s (lineStart s 0) i { rels := s.rels })).had_rel = true
    rw [(track_to hc ho ha 16 _ hs hinv).2, decide_eq_true, Bool.or_true]
    exact hon
  show RelocationRemark resolve _ (dumpRemark _ _ _ _ _)
  unfold dumpRemark
  rw [if_pos hh, remarkRels_line ho hs hls.2 hn]
  exact ⟨_, by rw [List.flatMap_map]; rfl, allMatch_map _ _ (fun r _ => relocationText (symbols := symbols) r)⟩

/-! ### Lines of the debug text -/

theorem readCount_pad {labels : List Str} (hl : ∀ l ∈ labels, l[1]? ≠ some ' ' ∧ l[1]? ≠ some '0' ∧ l.head? ≠ some 'x') (n : Nat) (r : Str) :
    readCount labels (List.replicate n ' ' ++ '0' :: 'x' :: r) = none := by
  match n with
  | 0 => rfl
  | 1 => rfl
  | 2 =>
    show (if ('0' :: 'x' :: r).dropWhile Char.isDigit ∈ labels then _ else _) = _
    rw [if_neg]
    intro h
    exact (hl _ h).2.2 rfl
  | 3 =>
    show (if (' ' :: '0' :: 'x' :: r).dropWhile Char.isDigit ∈ labels then _ else _) = _
    rw [if_neg]
    intro h
    exact (hl _ h).2.1 rfl
  | n + 4 =>
    show (if (' ' :: ' ' :: (List.replicate n ' ' ++ '0' :: 'x' :: r)).dropWhile Char.isDigit ∈ labels then _ else _) = _
    rw [if_neg]
    intro h
    exact (hl _ h).1 rfl

theorem isMark_pad (n : Nat) (r : Str) : isMark (List.replicate n ' ' ++ '0' :: 'x' :: r) = false := by
  unfold isMark
  rw [readCount_pad (by decide)]
  have h : ((List.replicate n ' ' ++ '0' :: 'x' :: r).take 6 == "  ID: ".toList) = false := by
    match n with
    | 0 => rfl
    | 1 => rfl
    | 2 => rfl
    | n + 3 => rfl
  rw [h]
  cases n <;> rfl

theorem isMark_line (x : Nat) (tr : DumpTrack) : isMark (lineText env resolve symbols s bytes x tr) = false := by
  unfold lineText dumpHeader padLeft
  rw [show ∀ a b c d : Str, a ++ '0' :: 'x' :: b ++ [' '] ++ (c ++ d) = a ++ '0' :: 'x' :: (b ++ ' ' :: (c ++ d)) by intros; simp]
  exact isMark_pad _ _

theorem mem_lineTexts_mark (n x : Nat) (tr : DumpTrack) : ∀ l ∈ lineTexts env resolve symbols s bytes n x tr, isMark l = false := by
  induction n generalizing x tr with
  | zero => exact fun l h => absurd h List.not_mem_nil
  | succ n ih =>
    intro l h
    rw [lineTexts] at h
    rcases List.mem_cons.mp h with rfl | h
    · exact isMark_line _ _
    · exact ih _ _ l h

/-- **C113**, listing: the debug text of data consists of lines that cannot be confused with other parts of the detailed listing. -/
theorem C113_plain (hc : Content s bytes) (hr : RoundsUp env s) (hb : NoBreaks symbols s) (got : Addr) :
    ∃ t, dataDebug env resolve symbols got s bytes = .ok t ∧ (t = none ↔ s.size = 0 ∧ s.address ≠ got) ∧ ∀ d, t = some d → PlainDebug d := by
  have hg : ∃ gs : List Str, gotLine s got = gs.flatMap (· ++ ['\n']) ∧ (∀ l ∈ gs, '\n' ∉ l ∧ isMark l = false) ∧ (gs = [] ↔ s.address ≠ got) := by
    unfold gotLine
    by_cases h : s.address = got
    · rw [if_pos h]
      exact ⟨["  [the global offset table]".toList], by decide +kernel, by decide +kernel, ⟨fun e => (List.cons_ne_nil _ _ e).elim, fun e => absurd h e⟩⟩
    · rw [if_neg h]
      exact ⟨[], rfl, fun l hl => absurd hl List.not_mem_nil, ⟨fun _ => h, fun _ => rfl⟩⟩
  have hd : ∃ ds : List Str, dataText env resolve symbols s bytes = .ok (ds.flatMap (· ++ ['\n'])) ∧
      (∀ l ∈ ds, '\n' ∉ l ∧ isMark l = false) ∧ (ds = [] ↔ s.size = 0) := by
    unfold dataText
    by_cases h : s.size > 0
    · rw [if_pos h]
      refine ⟨_, dump_lines hc hr, fun l hl => ⟨mem_lineTexts_break hb _ _ _ l hl, mem_lineTexts_mark _ _ _ l hl⟩, ?_⟩
      have h' : 0 < s.size.toNat := h
      rw [← List.length_eq_zero_iff, lineTexts_length]
      unfold lineCount
      refine ⟨fun e => by omega, fun e => ?_⟩
      rw [e] at h'
      exact absurd h' (by decide)
    · rw [if_neg h]
      refine ⟨[], rfl, fun l hl => absurd hl List.not_mem_nil, ⟨fun _ => ?_, fun _ => rfl⟩⟩
      have h' : ¬ 0 < s.size.toNat := h
      exact BitVec.eq_of_toNat_eq (by show s.size.toNat = 0; omega)
  obtain ⟨gs, g1, g2, g3⟩ := hg
  obtain ⟨ds, d1, d2, d3⟩ := hd
  have he : ∀ l : List Str, l.flatMap (· ++ ['\n']) = [] ↔ l = [] := by
    intro l
    cases l with
    | nil => exact ⟨fun _ => rfl, fun _ => rfl⟩
    | cons a l => simp
  unfold dataDebug
  rw [d1]
  refine ⟨_, rfl, ?_, ?_⟩
  · rw [g1, ← List.flatMap_append]
    by_cases h : (gs ++ ds).flatMap (· ++ ['\n']) = []
    · rw [if_pos h]
      have := List.append_eq_nil_iff.mp ((he _).mp h)
      exact ⟨fun _ => ⟨d3.mp this.2, g3.mp this.1⟩, fun _ => rfl⟩
    · rw [if_neg h]
      refine ⟨fun e => (Option.some_ne_none _ e).elim, fun e => absurd ?_ h⟩
      rw [g3.mpr e.2, d3.mpr e.1]
      rfl
  · intro d hd
    rw [g1, ← List.flatMap_append] at hd
    by_cases h : (gs ++ ds).flatMap (· ++ ['\n']) = []
    · rw [if_pos h] at hd
      cases hd
    · rw [if_neg h] at hd
      refine ⟨gs ++ ds, (Option.some.inj hd).symm, fun l hl => ?_⟩
      exact (List.mem_append.mp hl).elim (g2 l) (d2 l)

/-- **C113** with C112: the detailed listing of data with its debug texts can be read back. -/
theorem C113_listing_partial {level : Nat} (debug : Addr → Option Str) {t : SymTree} (ht : Tree.Sorted t) (hne : t ≠ []) (hn : ∀ s ∈ t, PlainSymbol s)
    (hr : 3 ≤ level → ∀ s ∈ t, ∀ r ∈ s.rels, PlainRel t r) (got : Addr)
    (hd : ∀ s ∈ t, ∃ (before : SymTree) (s' : Symbol) (bytes : List (BitVec 8)), Content s' bytes ∧ RoundsUp env s' ∧ NoBreaks before s' ∧
      dataDebug env resolve before got s' bytes = .ok (debug s.address)) :
    ∃ text ds, detailListing false level debug t = .ok (some text) ∧ readDetails false level (readLines text).length (readLines text) = some ds ∧
      AllMatch (fun s => DetailOf false level t (debug s.address) s) t ds := by
  refine C112_read_partial false level debug ht hne hn hr (fun s hs d h => ?_)
  obtain ⟨before, s', bytes, h1, h2, h3, h4⟩ := hd s hs
  obtain ⟨x, e, _, hp⟩ := C113_plain (resolve := resolve) h1 h2 h3 got
  rw [e] at h4
  exact hp d ((Except.ok.inj h4).trans h)

/-! ### Examples -/

/-- Rounding as in dlh, relocations of eight bytes, except for type 0. -/
def ddEnv : Env :=
  { exEnv with align_up := fun a n => if a % n = 0 then a else a + n - a % n, reloc_size := fun t => if t = 0 then 0 else 8 }

/-- A variable with a text and two pointers. -/
def ddVar : Symbol where
  address := 0x2008
  size := 0x20
  name := some "var"
  sec := { name := some ".data", writeable := true }
  rels := [{ offset := 0x2010, type := 1, name := some "puts", addend := 0 }, { offset := 0x2018, type := 8, addend := 0x2008, target := 0x2008 }]

def ddBytes : List (BitVec 8) := [72, 97, 108, 108, 111, 33, 92, 0] ++ List.replicate 16 0 ++ [1, 2, 3, 4, 5, 6, 7, 8]

theorem dd_content : Content ddVar ddBytes := ⟨rfl, by decide⟩

theorem dd_rounds : RoundsUp ddEnv ddVar := by
  unfold RoundsUp
  decide

theorem dd_breaks : NoBreaks [ddVar] ddVar := by
  refine ⟨?_, ?_⟩
  · intro y hy
    obtain rfl := List.mem_singleton.mp hy
    exact ⟨fun n hn => Option.some.inj hn ▸ (by decide), fun n hn => Option.some.inj hn ▸ (by decide)⟩
  · intro r hr n hn
    rcases List.mem_cons.mp hr with rfl | hr
    · exact Option.some.inj hn ▸ (by decide)
    · obtain rfl := List.mem_singleton.mp hr
      cases hn

theorem dd_orderly : Orderly ddEnv ddVar := by
  unfold Orderly
  decide

example : (dumpData ddEnv true [ddVar] ddVar ddBytes).toOption.map String.ofList = some
    ("          0x2000                          48 61 6c 6c 6f 21 5c 00  #         Hallo!\\\\ \n" ++
     "          0x2010  00 00 00 00 00 00 00 00 00 00 00 00 00 00 00 00  # puts 0x2008 <var/.data>\n" ++
     "          0x2020  01 02 03 04 05 06 07 08                        \n") := by
  decide +kernel

example : ∃ d, dumpData ddEnv true [ddVar] ddVar ddBytes = .ok d ∧
    ∃ l ∈ readDump d, ∃ j, l.cells[j]? = some (some 33) ∧ l.address.toNat + j = 0x200d := by
  obtain ⟨d, h, h1, _⟩ := C113_bytes (resolve := true) dd_content dd_rounds dd_breaks
  exact ⟨d, h, h1 5 33 rfl⟩

example : ∃ d, dumpData ddEnv true [ddVar] ddVar ddBytes = .ok d ∧ ∀ l, (readDump d)[1]? = some l → RelocationRemark true ddVar.rels l.remark := by
  obtain ⟨d, h, h1⟩ := C113_relocations_partial (resolve := true) dd_content dd_rounds dd_breaks dd_orderly (by decide)
  exact ⟨d, h, fun l hl => h1 1 l hl (by decide) (by decide)⟩

example : ∃ t, dataDebug ddEnv true [ddVar] 0x2008 ddVar ddBytes = .ok t ∧ t ≠ none ∧ ∀ d, t = some d → PlainDebug d := by
  obtain ⟨t, h1, h2, h3⟩ := C113_plain (resolve := true) dd_content dd_rounds dd_breaks 0x2008
  exact ⟨t, h1, fun h => (h2.mp h).2 rfl, h3⟩

example : ∃ d, dumpData ddEnv true [ddVar] ddVar ddBytes = .ok d ∧ ∀ l, (readDump d)[2]? = some l → l.remark = charRemark l.cells := by
  obtain ⟨d, h, h1⟩ := C113_text (resolve := true) dd_content dd_rounds dd_breaks
  exact ⟨d, h, fun l hl => h1 2 l hl (by decide)⟩

example : ∃ debug text ds, detailListing false 2 debug [ddVar] = .ok (some text) ∧ debug ddVar.address ≠ none ∧
    readDetails false 2 (readLines text).length (readLines text) = some ds ∧ AllMatch (fun s => DetailOf false 2 [ddVar] (debug s.address) s) [ddVar] ds := by
  obtain ⟨x, h1, h2, _⟩ := C113_plain (resolve := true) dd_content dd_rounds dd_breaks 0x2008
  have hn : ∀ s ∈ [ddVar], PlainSymbol s := by
    intro s hs
    obtain rfl := List.mem_singleton.mp hs
    exact ⟨fun n hn => Option.some.inj hn ▸ (by unfold Word; decide), ".data", rfl, by unfold Word; decide, by decide⟩
  obtain ⟨text, ds, h3, h4, h5⟩ := C113_listing_partial (env := ddEnv) (resolve := true) (level := 2) (fun _ => x) (t := [ddVar]) (by unfold Tree.Sorted; decide) (by decide) hn
    (fun h => absurd h (by decide)) 0x2008 (fun s hs => by
      obtain rfl := List.mem_singleton.mp hs
      exact ⟨_, _, _, dd_content, dd_rounds, dd_breaks, h1⟩)
  exact ⟨_, text, ds, h3, fun h => (h2.mp h).2 rfl, h4, h5⟩

/-! ### Where it fails -/

/-- A variable of 32 bytes with two relocations. -/
def ddPair (first type : Addr) : Symbol where
  address := 0x2000
  size := 0x20
  name := some "pair"
  sec := { name := some ".data", writeable := true }
  rels := [{ offset := first, type := type, name := some "a" }, { offset := 0x2018, type := 1, name := some "b" }]

theorem pair_breaks (first type : Addr) : NoBreaks [ddPair first type] (ddPair first type) := by
  refine ⟨?_, ?_⟩
  · intro y hy
    obtain rfl := List.mem_singleton.mp hy
    exact ⟨fun n hn => Option.some.inj hn ▸ (by decide), fun n hn => Option.some.inj hn ▸ (by decide)⟩
  · intro r hr n hn
    rcases List.mem_cons.mp hr with rfl | hr
    · exact Option.some.inj hn ▸ (by decide)
    · obtain rfl := List.mem_singleton.mp hr
      exact Option.some.inj hn ▸ (by decide)

theorem ok_read {m : M Str} {l : DumpLine} {n : List Char} (h : (m.toOption.bind (fun d => (readDump d)[1]?)) = some l) (hn : l.remark = n) :
    ∃ d, m = .ok d ∧ ∃ l, (readDump d)[1]? = some l ∧ l.remark = n := by
  cases m with
  | error e => cases h
  | ok d => exact ⟨d, rfl, l, h, hn⟩

/-- **C113** is false for relocations at odd places: a relocation at the last byte of a line is listed again on the next line with relocations. -/
theorem C113_twice_counterexample : ∃ s : Symbol, Orderly ddEnv s ∧ Content s (List.replicate 32 0) ∧ RoundsUp ddEnv s ∧ NoBreaks [s] s ∧
    (s.rels.filter (fun r => decide (OnLine s 1 r))).map (·.name) = [some "b"] ∧
    ∃ d, dumpData ddEnv true [s] s (List.replicate 32 0) = .ok d ∧ ∃ l, (readDump d)[1]? = some l ∧ l.remark = "  # a b".toList := by
  refine ⟨ddPair 0x200f 1, by unfold Orderly; decide, ⟨rfl, by decide⟩, by unfold RoundsUp; decide, pair_breaks _ _, by decide, ?_⟩
  exact ok_read (l := ⟨0x2010, List.replicate 16 (some 0), "  # a b".toList⟩) (by decide +kernel) rfl

/-- **C113** is false for a relocation without size: all following relocations are not mentioned. -/
theorem C113_lost_counterexample : ∃ s : Symbol, Tree.Sorted s.rels ∧ Content s (List.replicate 32 0) ∧ RoundsUp ddEnv s ∧ NoBreaks [s] s ∧
    (s.rels.filter (fun r => decide (OnLine s 1 r))).map (·.name) = [some "b"] ∧
    ∃ d, dumpData ddEnv true [s] s (List.replicate 32 0) = .ok d ∧ ∃ l, (readDump d)[1]? = some l ∧ l.remark = [] := by
  refine ⟨ddPair 0x2000 0, by unfold Tree.Sorted; decide, ⟨rfl, by decide⟩, by unfold RoundsUp; decide, pair_breaks _ _, by decide, ?_⟩
  exact ok_read (l := ⟨0x2010, List.replicate 16 (some 0), []⟩) (by decide +kernel) rfl

end Bean.Props

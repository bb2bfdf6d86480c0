import Verif.Props.RelLines
/-
C105: reading of the listing.
-/
namespace Bean.Props
open Bean Bean.Spec

/-! ### Numbers -/

theorem numeral_append (b : Nat) (s : Str) (c : Char) : numeral b (s ++ [c]) = b * numeral b s + "0123456789abcdef".toList.idxOf c := by
  unfold numeral
  rw [List.foldl_append]
  rfl

theorem numeral_digits {b : Nat} (hb : 1 < b) (hb' : b ≤ 16) (n : Nat) : numeral b (Nat.toDigits b n) = n := by
  have hd : ∀ k < 16, "0123456789abcdef".toList.idxOf (Nat.digitChar k) = k := by decide
  induction n using Nat.strongRecOn with
  | ind n ih =>
    rw [Nat.toDigits_eq_if hb]
    by_cases h : n < b
    · rw [if_pos h]
      show b * 0 + "0123456789abcdef".toList.idxOf (Nat.digitChar n) = n
      rw [hd n (by omega)]
      omega
    · rw [if_neg h, numeral_append, ih (n / b) (Nat.div_lt_self (by omega) hb), hd _ (Nat.lt_of_lt_of_le (Nat.mod_lt n (by omega)) hb')]
      exact Nat.div_add_mod n b

theorem numeral_zeros (k : Nat) (s : Str) : numeral 16 (List.replicate k '0' ++ s) = numeral 16 s := by
  induction k with
  | zero => rfl
  | succ k ih =>
    rw [List.replicate_succ, List.cons_append]
    exact ih

theorem readHex_hex16 (x : BitVec 64) (r : Str) : readHex (hex16 x ++ r) = (x, r) := by
  unfold readHex
  rw [List.take_left' (hex16_length x), List.drop_left' (hex16_length x)]
  unfold hex16 padZeros
  rw [numeral_zeros, numeral_digits (by decide) (by decide), BitVec.ofNat_toNat, BitVec.setWidth_eq]

theorem takeWhile_cut {p : Char → Bool} {x r : Str} {c : Char} (hx : ∀ a ∈ x, p a = true) (hc : p c = false) :
    (x ++ c :: r).takeWhile p = x ∧ (x ++ c :: r).dropWhile p = c :: r := by
  induction x with
  | nil => exact ⟨List.takeWhile_cons_of_neg (by rw [hc]; decide), List.dropWhile_cons_of_neg (by rw [hc]; decide)⟩
  | cons a x ih =>
    obtain ⟨h1, h2⟩ := ih (fun z hz => hx z (List.mem_cons_of_mem _ hz))
    rw [List.cons_append, List.takeWhile_cons_of_pos (hx a (List.mem_cons_self ..)),
      List.dropWhile_cons_of_pos (hx a (List.mem_cons_self ..)), h1]
    exact ⟨rfl, h2⟩

theorem takeWhile_all {p : Char → Bool} {x : Str} (hx : ∀ a ∈ x, p a = true) : x.takeWhile p = x := by
  induction x with
  | nil => rfl
  | cons a x ih =>
    rw [List.takeWhile_cons_of_pos (hx a (List.mem_cons_self ..)), ih (fun z hz => hx z (List.mem_cons_of_mem _ hz))]

theorem dropWhile_all {p : Char → Bool} {x : Str} (hx : ∀ a ∈ x, p a = true) : x.dropWhile p = [] := by
  induction x with
  | nil => rfl
  | cons a x ih =>
    rw [List.dropWhile_cons_of_pos (hx a (List.mem_cons_self ..)), ih (fun z hz => hx z (List.mem_cons_of_mem _ hz))]

theorem readDec_pad {k n : Nat} {c : Char} {r : Str} (hc : c.isDigit = false) : readDec (padLeft k (Nat.toDigits 10 n) ++ c :: r) = (n, c :: r) := by
  unfold readDec padLeft
  dsimp only
  rw [List.append_assoc, dropBlank]
  obtain ⟨h1, h2⟩ := takeWhile_cut (p := Char.isDigit) (r := r)
    (fun a (ha : a ∈ Nat.toDigits 10 n) => Nat.isDigit_of_mem_toDigits (by decide) (by decide) ha) hc
  rw [h1, h2, numeral_digits (by decide) (by decide)]

theorem readId_text (i : Identifier) (r : Str) : readId (symIdText i ++ r) = (i, r) := by
  unfold readId symIdText
  simp only [List.append_assoc, List.cons_append, List.nil_append, List.drop_succ_cons, List.drop_zero, readHex_hex16]

/-! ### Lines -/

theorem readType_text (x : SymType) : readType (padRight 9 (symTypeText x)) = some x := by cases x <;> decide +kernel

theorem readBind_text (x : SymBind) : readBind (padRight 6 (symBindText x)) = some x := by cases x <;> decide +kernel

theorem readRow_line (s : Symbol) : readRow (listLine 1 s) = some (rowOf s, nameColumn s) := by
  have ht : ∀ z, (padRight 9 (symTypeText z)).length = 9 := by intro z; cases z <;> rfl
  have hb : ∀ z, (padRight 6 (symBindText z)).length = 6 := by intro z; cases z <;> rfl
  have hd : ∀ (k n : Nat) (c : Char) (r : Str), c.isDigit = false → readDec (padLeft k (Nat.toDigits 10 n) ++ c :: r) = (n, c :: r) :=
    fun k n c r h => readDec_pad h
  unfold listLine readRow
  rw [if_pos rfl, readId_text]
  dsimp only
  unfold columns
  rw [List.drop_left' (by rfl : " [".toList.length = 2), show " / ".toList = [' ', '/', ' '] from rfl,
    show "] - 0x".toList = [']', ' ', '-', ' ', '0', 'x'] from rfl]
  simp only [List.cons_append, List.nil_append]
  rw [hd _ _ _ _ (by decide)]
  simp only [List.drop_succ_cons, List.drop_zero]
  rw [hd _ _ _ _ (by decide)]
  simp only [List.drop_succ_cons, List.drop_zero]
  rw [hd _ _ _ _ (by decide)]
  simp only [List.drop_succ_cons, List.drop_zero, readHex_hex16]
  rw [hd _ _ _ _ (by decide)]
  simp only [List.drop_succ_cons, List.drop_zero]
  rw [List.take_left' (ht _), List.drop_left' (ht _), List.take_left' (hb _), readType_text, readBind_text,
    show (16 : Nat) = 9 + 7 from rfl, ← List.drop_drop, List.drop_left' (ht _), show (7 : Nat) = 6 + 1 from rfl, ← List.drop_drop,
    List.drop_left' (hb _)]
  simp only [List.drop_succ_cons, List.drop_zero]
  unfold rowOf flagColumn
  simp only [Option.bind_eq_bind, Option.bind_some, List.cons_append, List.nil_append, List.drop_succ_cons, List.drop_zero]
  cases s.sec.writeable <;> cases s.sec.has SECTION_RELRO <;> cases s.sec.executable <;> cases TLS.is_tls s.address <;> simp

theorem readNames_text {s : Symbol} (h : PlainName s) : readNames (nameColumn s) = namesOf s := by
  unfold nameColumn namesOf
  rw [shownName_eq]
  cases hn : s.name.filter (· ≠ "") with
  | none =>
    cases s.sec.name with
    | none => rfl
    | some k =>
      show ((none : Option String), some (String.ofList (k.toList ++ [')']).dropLast)) = _
      rw [List.dropLast_concat, String.ofList_toList]
  | some n =>
    obtain ⟨hn1, hn2⟩ := Option.filter_eq_some_iff.mp hn
    obtain ⟨h1, h2⟩ := h n hn1
    have hw : ∀ c ∈ n.toList, (decide (c ≠ ' ')) = true := by
      intro c hc
      rw [decide_eq_true_eq]
      rintro rfl
      exact h1 hc
    have hr : ∀ z : Str, readNames (' ' :: (n.toList ++ z)) =
        (some (String.ofList ((n.toList ++ z).takeWhile (· ≠ ' '))), readSec ((n.toList ++ z).dropWhile (· ≠ ' '))) := by
      intro z
      cases hl : n.toList with
      | nil => exact absurd (String.toList_injective (hl.trans (by rfl : ([] : Str) = "".toList))) (by simpa using hn2)
      | cons c l =>
        have hc : c ≠ '(' := by
          rintro rfl
          rw [hl] at h2
          exact h2 rfl
        rw [List.cons_append, readNames]
        intro s e
        injection e with e _
        exact hc e
    show readNames (' ' :: (n.toList ++ secText s.sec.name)) = _
    rw [hr]
    cases s.sec.name with
    | none =>
      have e1 : (n.toList ++ secText none).takeWhile (· ≠ ' ') = n.toList := by
        show (n.toList ++ []).takeWhile _ = _
        rw [List.append_nil]
        exact takeWhile_all hw
      have e2 : (n.toList ++ secText none).dropWhile (· ≠ ' ') = [] := by
        show (n.toList ++ []).dropWhile _ = _
        rw [List.append_nil]
        exact dropWhile_all hw
      rw [e1, e2, String.ofList_toList]
      rfl
    | some k =>
      obtain ⟨e1, e2⟩ := takeWhile_cut (p := fun c => decide (c ≠ ' ')) (r := '(' :: k.toList ++ [')']) hw (by decide : decide (' ' ≠ ' ') = false)
      show (some (String.ofList ((n.toList ++ ' ' :: ('(' :: k.toList ++ [')'])).takeWhile _)), _) = _
      rw [e1, String.ofList_toList]
      show (some n, readSec ((n.toList ++ ' ' :: ('(' :: k.toList ++ [')'])).dropWhile _)) = _
      rw [e2]
      show (some n, some (String.ofList (k.toList ++ [')']).dropLast)) = _
      rw [List.dropLast_concat, String.ofList_toList]

theorem readLines_cut {x r : Str} (hx : '\n' ∉ x) : readLines (x ++ '\n' :: r) = x :: readLines r := by
  induction x with
  | nil => rw [List.nil_append, readLines]
  | cons a x ih =>
    have ha : a ≠ '\n' := fun e => hx (by rw [e]; exact List.mem_cons_self ..)
    rw [List.cons_append, readLines, ih (fun h => hx (List.mem_cons_of_mem _ h))]
    exact fun e => ha e

theorem readLines_lines {l : List Str} (h : ∀ x ∈ l, '\n' ∉ x) : readLines (l.flatMap (· ++ ['\n'])) = l := by
  induction l with
  | nil => rfl
  | cons x l ih =>
    rw [List.flatMap_cons, List.append_assoc, List.singleton_append, readLines_cut (h x (List.mem_cons_self ..)),
      ih (fun y hy => h y (List.mem_cons_of_mem _ hy))]

theorem digits_break {b n : Nat} (hb : 1 < b) (hb' : b ≤ 16) : '\n' ∉ Nat.toDigits b n := by
  intro h
  obtain ⟨k, hk, e⟩ := mem_digits hb h
  have : ∀ k < 16, '\n' ≠ Nat.digitChar k := by decide
  exact this k (by omega) e

theorem hex_break (x : BitVec 64) : '\n' ∉ hex16 x := by
  unfold hex16 padZeros
  intro h
  rcases List.mem_append.mp h with h | h
  · exact absurd (List.eq_of_mem_replicate h) (by decide)
  · exact digits_break (by decide) (by decide) h

theorem dec_break (k n : Nat) : '\n' ∉ padLeft k (Nat.toDigits 10 n) := by
  unfold padLeft
  intro h
  rcases List.mem_append.mp h with h | h
  · exact absurd (List.eq_of_mem_replicate h) (by decide)
  · exact digits_break (by decide) (by decide) h

theorem id_break (i : Identifier) : '\n' ∉ symIdText i := by
  unfold symIdText
  simp only [List.mem_append, List.mem_cons, List.cons_append, hex_break, List.not_mem_nil]
  decide

theorem line_break {s : Symbol} (h : OneLine s) : '\n' ∉ listLine 1 s := by
  have h1 : ∀ z, '\n' ∉ padRight 9 (symTypeText z) := by intro z; cases z <;> decide
  have h2 : ∀ z, '\n' ∉ padRight 6 (symBindText z) := by intro z; cases z <;> decide
  have h3 : '\n' ∉ flagColumn s := by
    unfold flagColumn
    cases s.sec.writeable <;> cases s.sec.has SECTION_RELRO <;> cases s.sec.executable <;> cases TLS.is_tls s.address <;> decide
  have h4 : '\n' ∉ nameColumn s := fun hc => absurd (nameColumn_line h _ hc) (by decide)
  unfold listLine columns
  rw [if_pos rfl]
  simp only [List.mem_append, List.mem_cons, id_break, hex_break, dec_break, h1, h2, h3, h4]
  decide

theorem listing_lines {level : Nat} {a : SymTree} {t : Str} (ht : listSymbols level a = .ok t) (hl : level ≤ 1)
    (h : ∀ s ∈ a, '\n' ∉ listLine level s) : (readLines t).tail = a.map (listLine level) := by
  have hh : ∃ x, listHeader level = x ++ ['\n'] ∧ '\n' ∉ x := by
    rcases Nat.le_one_iff_eq_zero_or_eq_one.mp hl with rfl | rfl
    · exact ⟨(listHeader 0).dropLast, by decide +kernel, by decide +kernel⟩
    · exact ⟨(listHeader 1).dropLast, by decide +kernel, by decide +kernel⟩
  obtain ⟨x, hx, hn⟩ := hh
  rw [(listSymbols_ok ht).2, hx, List.append_assoc, List.singleton_append, readLines_cut hn, List.tail_cons]
  have : a.flatMap (fun s => listLine level s ++ ['\n']) = (a.map (listLine level)).flatMap (· ++ ['\n']) := by
    rw [List.flatMap_map]
  rw [this, readLines_lines]
  intro y hy
  obtain ⟨s, hs, rfl⟩ := List.mem_map.mp hy
  exact h s hs

/-! ### C105 -/

/-- C105: Behind the first line, the lines of the short listing are the identifiers of the symbols. -/
theorem C105_read_ids {a : SymTree} {t : Str} (ht : listSymbols 0 a = .ok t) :
    (readLines t).tail.map readId = a.map (fun s => (s.id, [])) := by
  have hz : ∀ s, listLine 0 s = symIdText s.id := fun s => List.append_nil _
  rw [listing_lines ht (by decide) (fun s _ => by rw [hz]; exact id_break _), List.map_map]
  refine List.map_congr_left (fun s _ => ?_)
  show readId (listLine 0 s) = _
  have := readId_text s.id []
  rw [List.append_nil] at this
  rw [hz, this]

/-- C105: Behind the first line, the columns of the lines show the facts of the symbols. -/
theorem C105_read_rows {a : SymTree} {t : Str} (ht : listSymbols 1 a = .ok t) (ha : ∀ s ∈ a, OneLine s) :
    (readLines t).tail.map (fun l => (readRow l).map Prod.fst) = a.map (fun s => some (rowOf s)) := by
  rw [listing_lines ht (by decide) (fun s hs => line_break (ha s hs)), List.map_map]
  refine List.map_congr_left (fun s _ => ?_)
  simp only [Function.comp, readRow_line, Option.map_some]

/-- C105: The lines end with the names, if these are words. What is missing: names with blanks or with a parenthesis at the start
(`C105_names_counterexample`). -/
theorem C105_read_names_partial {a : SymTree} {t : Str} (ht : listSymbols 1 a = .ok t) (ha : ∀ s ∈ a, OneLine s ∧ PlainName s) :
    (readLines t).tail.map (fun l => (readRow l).map (fun r => readNames r.2)) = a.map (fun s => some (namesOf s)) := by
  rw [listing_lines ht (by decide) (fun s hs => line_break (ha s hs).1), List.map_map]
  refine List.map_congr_left (fun s hs => ?_)
  simp only [Function.comp, readRow_line, Option.map_some, readNames_text (ha s hs).2]

/-- The facts of the example. -/
example : ∃ t, listSymbols 1 exRows = .ok t ∧ (readLines t).tail.map (fun l => (readRow l).map (fun r => (r.1.size, readNames r.2))) =
    [some (24, some "main", some ".text"), some (8, none, none)] := by
  refine ⟨_, rfl, ?_⟩
  decide +kernel

/-! ### References and relocations -/

theorem readPlace_text (v : Addr) : readPlace (placeText v) = some (TLS.is_tls v, TLS.virt_addr v) := by
  unfold placeText
  cases TLS.is_tls v with
  | true =>
    show some (true, BitVec.ofNat 64 (numeral 16 (Nat.toDigits 16 (TLS.virt_addr v).toNat))) = _
    rw [numeral_digits (by decide) (by decide), BitVec.ofNat_toNat, BitVec.setWidth_eq]
  | false =>
    show some (false, BitVec.ofNat 64 (numeral 16 (Nat.toDigits 16 (TLS.virt_addr v).toNat))) = _
    rw [numeral_digits (by decide) (by decide), BitVec.ofNat_toNat, BitVec.setWidth_eq]

theorem word_all {s : Str} (h : ' ' ∉ s) : ∀ c ∈ s, decide (c ≠ ' ') = true := by
  intro c hc
  rw [decide_eq_true_eq]
  rintro rfl
  exact h hc

theorem place_word (v : Addr) : ' ' ∉ placeText v := fun h => placeText_word v _ h rfl

theorem word_cut {x r : Str} (h : ' ' ∉ x) : (x ++ ' ' :: r).takeWhile (· ≠ ' ') = x ∧ (x ++ ' ' :: r).dropWhile (· ≠ ' ') = ' ' :: r :=
  takeWhile_cut (p := fun c => decide (c ≠ ' ')) (word_all h) (by decide)

theorem readRelType_text {t : Addr} (h : ∃ x ∈ abiRelocations, x.2 = t.toNat) : readRelType (relTypeText t) = some t.toNat := by
  have key : ∀ x ∈ abiRelocations, ∃ y, relTypeNames.find? (fun z => z.1 = x.2) = some y ∧
      readRelType ("R_X86_64_".toList ++ y.2.toList) = some x.2 := by
    have : ∀ x ∈ abiRelocations, ((relTypeNames.find? (fun z => z.1 = x.2)).bind (fun y => readRelType ("R_X86_64_".toList ++ y.2.toList))) =
        some x.2 := by decide +kernel
    intro x hx
    have h := this x hx
    cases hf : relTypeNames.find? (fun z => z.1 = x.2) with
    | none => rw [hf] at h; cases h
    | some y =>
      rw [hf] at h
      exact ⟨y, rfl, h⟩
  obtain ⟨x, hx, e⟩ := h
  obtain ⟨y, hf, hr⟩ := key x hx
  rw [e] at hf hr
  unfold relTypeText
  rw [hf]
  exact hr

theorem readAddend_text (x : BitVec 64) : readAddend (if x ≠ 0 then ' ' :: signedText x.toInt else []) = some x.toInt := by
  by_cases hx : x = 0
  · rw [if_neg (not_not_intro hx), hx]
    rfl
  · rw [if_pos hx]
    unfold signedText
    by_cases hn : x.toInt < 0
    · rw [if_pos hn]
      show some (-(numeral 10 (Nat.toDigits 10 x.toInt.natAbs) : Int)) = _
      rw [numeral_digits (by decide) (by decide)]
      exact congrArg some (by omega)
    · rw [if_neg hn]
      show some ((numeral 10 (Nat.toDigits 10 x.toInt.natAbs) : Int)) = _
      rw [numeral_digits (by decide) (by decide)]
      exact congrArg some (by omega)

theorem labelled_text (r : Rel) (y : Symbol) : Labelled r y (labelText r y) := by
  unfold Labelled labelText
  rw [shownName_eq, shownName_eq]
  cases r.name.filter (· ≠ "") with
  | some n => rfl
  | none =>
    cases y.name.filter (· ≠ "") with
    | some n => rfl
    | none => exact ⟨_, rfl, readPlace_text _⟩

/-- C106: The line of a relocation whose target is at or behind some symbol shows offset, type, label, identifiers of the closest
symbol in front of the target, and addend. What is missing: types without name, names with blanks, and relocations without such a
symbol (`C106_break_counterexample`, `C106_import_counterexample`, `C106_target_counterexample`). -/
theorem C106_read_partial {t : SymTree} (ht : Tree.Sorted t) {r : Rel} {y : Symbol} (hy : ClosestTo t r.target y)
    (hk : ∃ x ∈ abiRelocations, x.2 = r.type.toNat) (hr : ∀ m, r.name = some m → ' ' ∉ m.toList) (hn : ∀ m, y.name = some m → ' ' ∉ m.toList) :
    ∃ l, Labelled r y l ∧ readRel (relLine t r) = some ⟨r.offset, r.type.toNat, l, y.id, r.addend.toInt⟩ := by
  refine ⟨_, labelled_text r y, ?_⟩
  have hw1 : ' ' ∉ Nat.toDigits 16 r.offset.toNat := fun h => (hex_digit h).1 rfl
  have hw2 : ' ' ∉ relTypeText r.type := fun h => absurd (relTypeText_word _ _ h) (by decide)
  have hw3 : ' ' ∉ labelText r y := fun h => absurd (labelText_word hr hn _ h) (by decide)
  unfold readRel relLine
  rw [targetText_some (closestTo_floor ht hy), List.drop_left' (by rfl : "     *0x".toList.length = 8),
    show " = ".toList = [' ', '=', ' '] from rfl]
  simp only [List.cons_append, List.nil_append, (word_cut hw1).1, (word_cut hw1).2, List.drop_succ_cons, List.drop_zero,
    (word_cut hw2).1, (word_cut hw2).2, (word_cut hw3).1, (word_cut hw3).2, readId_text, readRelType_text hk, readAddend_text,
    numeral_digits (by decide : 1 < 16) (by decide : 16 ≤ 16), BitVec.ofNat_toNat, BitVec.setWidth_eq]
  rfl

/-- The text of the symbol in a reference. -/
def spotText (y : Symbol) : Str :=
  (match y.name with
    | some n => n.toList
    | none => placeText y.address) ++
  (match y.sec.name with
    | some n => '/' :: n.toList
    | none => [])

theorem addressText_some {t : SymTree} {v : Addr} {y : Symbol} (h : Tree.floor t v = some y) (hk : TLS.is_tls y.address = TLS.is_tls v) :
    addressText t v = placeText v ++ ' ' :: '<' :: (spotText y ++
      ((if y.address ≠ v then " + ".toList ++ Nat.toDigits 10 (v - y.address).toNat else []) ++ ['>'])) := by
  unfold addressText spotText
  rw [h]
  dsimp only
  rw [if_pos hk]
  simp only [show " <".toList = [' ', '<'] from rfl, List.append_assoc, List.cons_append, List.nil_append]
  cases y.name <;> cases y.sec.name <;> rfl

/-- C106: A reference behind a symbol of the same kind shows the address, the name of the symbol (its address without name) with the
section, and the distance. -/
theorem C106_read_reference {t : SymTree} (ht : Tree.Sorted t) {v : Addr} {y : Symbol} (hy : ClosestTo t v y)
    (hk : TLS.is_tls y.address = TLS.is_tls v) (hn : ∀ m, y.name = some m → ' ' ∉ m.toList) (hs : ∀ m, y.sec.name = some m → ' ' ∉ m.toList) :
    ∃ l d, readReference (addressText t v) = (some (TLS.is_tls v, TLS.virt_addr v), l, d) ∧ y.address.toNat + d = v.toNat ∧
      (∀ m, y.name = some m → y.sec.name = none → l = m.toList) ∧
      (∀ m k, y.name = some m → y.sec.name = some k → l = m.toList ++ '/' :: k.toList) ∧
      (y.name = none → y.sec.name = none → readPlace l = some (TLS.is_tls y.address, TLS.virt_addr y.address)) ∧
      (∀ k, y.name = none → y.sec.name = some k → ∃ p, l = p ++ '/' :: k.toList ∧
        readPlace p = some (TLS.is_tls y.address, TLS.virt_addr y.address)) := by
  have hw : ' ' ∉ spotText y := by
    unfold spotText
    intro h
    rcases List.mem_append.mp h with h | h
    · cases hm : y.name with
      | none => rw [hm] at h; exact place_word _ h
      | some m => rw [hm] at h; exact hn m hm h
    · cases hm : y.sec.name with
      | none => rw [hm] at h; cases h
      | some m =>
        rw [hm] at h
        rcases List.mem_cons.mp h with h | h
        · exact absurd h (by decide)
        · exact hs m hm h
  have hle := hy.2.1
  refine ⟨spotText y, (v - y.address).toNat, ?_, by bv_omega, ?_, ?_, ?_, ?_⟩
  · rw [addressText_some (closestTo_floor ht hy) hk]
    unfold readReference
    dsimp only
    rw [(word_cut (place_word v)).1, (word_cut (place_word v)).2, readPlace_text]
    simp only [List.drop_succ_cons, List.drop_zero]
    by_cases he : y.address = v
    · have hw' : ' ' ∉ spotText y ++ ['>'] := by
        intro h
        rcases List.mem_append.mp h with h | h
        · exact hw h
        · exact absurd h (by decide)
      rw [if_neg (not_not_intro he), List.nil_append, dropWhile_all (p := fun c => decide (c ≠ ' ')) (word_all hw'), if_pos rfl,
        List.dropLast_concat, he, BitVec.sub_self]
      rfl
    · have hd : ' ' ∉ Nat.toDigits 10 (v - y.address).toNat := fun h =>
        absurd (Nat.isDigit_of_mem_toDigits (by decide) (by decide) h : Char.isDigit ' ' = true) (by decide)
      rw [if_pos he, show " + ".toList = [' ', '+', ' '] from rfl]
      simp only [List.cons_append, List.nil_append, List.append_assoc]
      rw [(word_cut hw).1, (word_cut hw).2, if_neg (List.cons_ne_nil _ _)]
      simp only [List.drop_succ_cons, List.drop_zero, List.dropLast_concat, numeral_digits (by decide : 1 < 10) (by decide : 10 ≤ 16)]
  · intro m h1 h2
    unfold spotText
    rw [h1, h2]
    exact List.append_nil _
  · intro m k h1 h2
    unfold spotText
    rw [h1, h2]
  · intro h1 h2
    unfold spotText
    rw [h1, h2]
    show readPlace (placeText y.address ++ []) = _
    rw [List.append_nil, readPlace_text]
  · intro k h1 h2
    refine ⟨placeText y.address, ?_, readPlace_text _⟩
    unfold spotText
    rw [h1, h2]

/-- The conditions hold for the examples. -/
example : ClosestTo exTargets 0x1008 exTarget ∧ TLS.is_tls exTarget.address = TLS.is_tls 0x1008 ∧
    readReference (addressText exTargets 0x1008) = (some (false, 0x1008), "main".toList, 8) ∧
    readRel (relLine exTargets { offset := 0x4000, type := 1, name := some "main", addend := 8, target := 0x1008 }) =
      some ⟨0x4000, 1, "main".toList, { internal := 1, external := 2 }, 8⟩ := by
  refine ⟨by decide, by decide, by decide +kernel, by decide +kernel⟩

end Bean.Props

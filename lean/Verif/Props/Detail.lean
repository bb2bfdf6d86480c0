import Verif.Model.Detail
import Verif.Spec.Detail
import Verif.Props.ListRead
/-
C112: the detailed listing can be read back.
-/
namespace Bean.Props
open Bean Bean.Spec

/-! ### The name -/

theorem readDec_digits {n : Nat} {c : Char} {r : Str} (hc : c.isDigit = false) : readDec (Nat.toDigits 10 n ++ c :: r) = (n, c :: r) := by
  have := readDec_pad (k := 0) (n := n) (c := c) (r := r) hc
  unfold padLeft at this
  rwa [Nat.zero_sub, List.replicate_zero, List.nil_append] at this

theorem readMarks_none (c : Char) (r : Str) (h : c ≠ ' ') : readMarks (c :: r) = ([], c :: r) := by
  unfold readMarks
  rw [if_neg]
  intro e
  cases r with
  | nil => cases e
  | cons d r =>
    injection e with e _
    exact h e

theorem readMarks_text (s : Symbol) (r : Str) : ∃ w, readMarks (markColumn s ++ ',' :: r) = (w, ',' :: r) ∧
    w.contains 'E' = s.has SYMBOL_ENTRY ∧ w.contains 'T' = s.has SYMBOL_TRAMPOLINE ∧ w.contains 'C' = s.has SYMBOL_USING_CET := by
  unfold markColumn
  by_cases h : s.flags = 0
  · rw [if_neg (not_not_intro h)]
    refine ⟨[], readMarks_none _ _ (by decide), ?_, ?_, ?_⟩
    all_goals (unfold Symbol.has; rw [h]; rfl)
  · rw [if_pos h]
    cases s.has SYMBOL_ENTRY <;> cases s.has SYMBOL_TRAMPOLINE <;> cases s.has SYMBOL_USING_CET <;> exact ⟨_, rfl, rfl, rfl, rfl⟩

theorem readKind_text {s : Symbol} {sec : String} (hs : s.sec.name = some sec) (hw : ' ' ∉ sec.toList) (hb : sec.toList.head? ≠ some '[') (r : Str) :
    readKind (kindColumn s ++ ' ' :: '[' :: r) = some (s.bind, sec, ' ' :: '[' :: r) := by
  have key : ∀ (b : SymBind) (x : Str), ' ' ∉ x → readBind x = some b →
      readKind (',' :: ' ' :: (x ++ (',' :: ' ' :: sec.toList)) ++ ' ' :: '[' :: r) = some (b, sec, ' ' :: '[' :: r) := by
    intro b x hx hr
    have hx' : ' ' ∉ x ++ [','] := by
      intro h
      rcases List.mem_append.mp h with h | h
      · exact hx h
      · exact absurd h (by decide)
    have e : ((',' :: ' ' :: (x ++ (',' :: ' ' :: sec.toList)) ++ ' ' :: '[' :: r : Str)).drop 2 = (x ++ [',']) ++ ' ' :: (sec.toList ++ ' ' :: '[' :: r) := by
      simp only [List.cons_append, List.append_assoc, List.drop_succ_cons, List.drop_zero, List.nil_append]
    unfold readKind
    dsimp only
    rw [e, (word_cut hx').1, (word_cut hx').2]
    simp only [List.drop_succ_cons, List.drop_zero]
    have hne : (sec.toList ++ ' ' :: '[' :: r).head? ≠ some '[' := by
      cases hl : sec.toList with
      | nil => exact fun h => absurd h (by simp)
      | cons a l => rw [hl] at hb; exact fun h => hb h
    rw [if_neg hne, (word_cut hw).1, (word_cut hw).2, List.dropLast_concat, hr, String.ofList_toList]
    rfl
  unfold kindColumn
  rw [hs]
  dsimp only
  cases hbd : s.bind with
  | «local» =>
    rw [if_neg (by simp), List.nil_append]
    unfold readKind
    dsimp only
    rw [show ((',' :: ' ' :: sec.toList ++ ' ' :: '[' :: r : Str)).drop 2 = sec.toList ++ ' ' :: '[' :: r from rfl, (word_cut hw).1, (word_cut hw).2,
      if_pos (show (List.drop 1 (' ' :: '[' :: r)).head? = some '[' from rfl), String.ofList_toList]
  | weak => exact key .weak "weak".toList (by decide) (by decide +kernel)
  | global => exact key .global "global".toList (by decide) (by decide +kernel)

theorem named_head (n : Str) (hn : ' ' ∉ n) (r : Str) : (n ++ [' ', '('] ++ r).takeWhile (· ≠ ' ') = n ∧
    (n ++ [' ', '('] ++ r).dropWhile (· ≠ ' ') = ' ' :: '(' :: r := by
  rw [List.append_assoc]
  exact word_cut hn

theorem digits_head {b n : Nat} (hb : 1 < b) (hb' : b ≤ 16) : ∃ c l, Nat.toDigits b n = c :: l ∧ c ≠ '(' ∧ c ≠ ' ' := by
  cases h : Nat.toDigits b n with
  | nil => exact absurd h Nat.toDigits_ne_nil
  | cons c l =>
    refine ⟨c, l, rfl, ?_⟩
    obtain ⟨k, hk, e⟩ := mem_digits hb (by rw [h]; exact List.mem_cons_self : c ∈ Nat.toDigits b n)
    have : ∀ k < 16, Nat.digitChar k ≠ '(' ∧ Nat.digitChar k ≠ ' ' := by decide
    rw [e]
    exact this k (by omega)

/-- What follows the address. -/
theorem head_tail {s : Symbol} (h : PlainSymbol s) {sec : String} (hs : s.sec.name = some sec) (r : Str) :
    ∃ c x, markColumn s ++ (kindColumn s ++ r) = c :: x ∧ (c = ' ' ∨ c = ',') := by
  unfold markColumn
  by_cases hf : s.flags = 0
  · rw [if_neg (not_not_intro hf), List.nil_append]
    unfold kindColumn
    rw [hs]
    by_cases hb : s.bind = .local
    · rw [if_neg (not_not_intro hb)]
      exact ⟨_, _, rfl, Or.inr rfl⟩
    · rw [if_pos hb]
      exact ⟨_, _, rfl, Or.inr rfl⟩
  · rw [if_pos hf]
    exact ⟨_, _, rfl, Or.inl rfl⟩

theorem kind_comma {s : Symbol} {sec : String} (hs : s.sec.name = some sec) : ∃ x, kindColumn s = ',' :: x := by
  unfold kindColumn
  rw [hs]
  by_cases hb : s.bind = .local
  · rw [if_neg (not_not_intro hb)]
    exact ⟨_, rfl⟩
  · rw [if_pos hb]
    exact ⟨_, rfl⟩

/-- The part of the name. -/
def nameWord (s : Symbol) : Str :=
  (if TLS.is_tls s.address then "TLS:".toList else []) ++ match shownName s.name with
    | some n => n
    | none => "unnamed".toList

theorem readHead_name {s : Symbol} (h : PlainSymbol s) {sec : String} (hs : s.sec.name = some sec) (r : Str) :
    readHead (detailName s ++ r) = some (headOf s sec, r) := by
  obtain ⟨hn, sec', hs', hw, hb⟩ := h
  obtain rfl : sec' = sec := by rw [hs] at hs'; exact (Option.some.inj hs').symm
  have hword : ' ' ∉ nameWord s := by
    unfold nameWord
    intro hm
    rcases List.mem_append.mp hm with hm | hm
    · cases ht : TLS.is_tls s.address <;> (rw [ht] at hm; exact absurd hm (by decide))
    · cases he : shownName s.name with
      | none => rw [he] at hm; exact absurd hm (by decide)
      | some n => rw [he] at hm; exact shown_word (fun m e => (hn m e).1) he hm
  have hstrip : ∀ n, shownName s.name = some n → (if TLS.is_tls s.address then (nameWord s).drop 4 else nameWord s) = n := by
    intro n he
    unfold nameWord
    rw [he]
    cases TLS.is_tls s.address <;> rfl
  have hname : s.name.filter (· ≠ "") = (shownName s.name).map String.ofList := by
    cases hm : s.name with
    | none => rfl
    | some m =>
      unfold shownName
      by_cases he : m = ""
      · subst he; rfl
      · have : m.toList ≠ [] := fun e => he (by rw [← String.ofList_toList (s := m), e])
        dsimp only
        rw [if_neg this, Option.filter_some, if_pos (by simpa using he)]
        show _ = some (String.ofList m.toList)
        rw [String.ofList_toList]
  -- the text from the address on
  have htail : ∀ q : Str, ∃ w, (Nat.toDigits 16 s.address.toNat ++ (markColumn s ++ (kindColumn s ++ (permColumn s ++ q)))).takeWhile (fun c => decide (c ≠ ' ' ∧ c ≠ ',')) =
        Nat.toDigits 16 s.address.toNat ∧
      readMarks ((Nat.toDigits 16 s.address.toNat ++ (markColumn s ++ (kindColumn s ++ (permColumn s ++ q)))).dropWhile (fun c => decide (c ≠ ' ' ∧ c ≠ ','))) =
        (w, kindColumn s ++ (permColumn s ++ q)) ∧
      w.contains 'E' = s.has SYMBOL_ENTRY ∧ w.contains 'T' = s.has SYMBOL_TRAMPOLINE ∧ w.contains 'C' = s.has SYMBOL_USING_CET := by
    intro q
    have hd : ∀ a ∈ Nat.toDigits 16 s.address.toNat, decide (a ≠ ' ' ∧ a ≠ ',') = true := by
      intro a ha
      obtain ⟨k, hk, rfl⟩ := mem_digits (by decide) ha
      have : ∀ k < 16, decide (Nat.digitChar k ≠ ' ' ∧ Nat.digitChar k ≠ ',') = true := by decide
      exact this k hk
    obtain ⟨c, x, e, hc⟩ := head_tail ⟨hn, sec', hs, hw, hb⟩ hs (permColumn s ++ q)
    obtain ⟨e1, e2⟩ := takeWhile_cut (p := fun c => decide (c ≠ ' ' ∧ c ≠ ',')) (r := x) (c := c) hd (by rcases hc with rfl | rfl <;> decide)
    rw [← e] at e1 e2
    obtain ⟨k, ek⟩ := kind_comma hs
    obtain ⟨w, hm⟩ := readMarks_text s (k ++ (permColumn s ++ q))
    refine ⟨w, e1, ?_, hm.2⟩
    rw [e2, ek]
    exact hm.1
  have hkind : ∀ q : Str, readKind (kindColumn s ++ (permColumn s ++ q)) = some (s.bind, sec', permColumn s ++ q) := fun q =>
    readKind_text hs hw.1 hb _
  have hperm : ∀ q : Str, (((permColumn s ++ q).drop 3).head? != some '-') = s.sec.writeable := by
    intro q
    unfold permColumn
    cases s.sec.writeable
    · rfl
    · cases s.sec.has SECTION_RELRO <;> rfl
  have hrelro : ∀ q : Str, (((permColumn s ++ q).drop 3).head? == some '*') = (s.sec.writeable && s.sec.has SECTION_RELRO) := by
    intro q
    unfold permColumn
    cases s.sec.writeable
    · rfl
    · cases s.sec.has SECTION_RELRO <;> rfl
  have hexec : ∀ q : Str, (((permColumn s ++ q).drop 3)[1]? == some 'x') = s.sec.executable := by
    intro q
    unfold permColumn
    cases s.sec.executable <;> rfl
  have hnum : BitVec.ofNat 64 (numeral 16 (Nat.toDigits 16 s.address.toNat)) = s.address := by
    rw [numeral_digits (by decide) (by decide), BitVec.ofNat_toNat, BitVec.setWidth_eq]
  have hsize : BitVec.ofNat 64 s.size.toNat = s.size := by rw [BitVec.ofNat_toNat, BitVec.setWidth_eq]
  cases he : shownName s.name with
  | some n =>
    have htext : detailName s ++ r = nameWord s ++ ' ' :: ('(' :: (Nat.toDigits 10 s.size.toNat ++ (' ' :: ("bytes @ 0x".toList ++ (Nat.toDigits 16 s.address.toNat ++
        (markColumn s ++ (kindColumn s ++ (permColumn s ++ (')' :: r))))))))) := by
      unfold detailName nameWord
      rw [he]
      simp only [show " bytes @ 0x".toList = ' ' :: "bytes @ 0x".toList from rfl, List.append_assoc, List.cons_append, List.nil_append]
    unfold readHead
    rw [htext]
    obtain ⟨w, t1, t2, t3, t4, t5⟩ := htail (')' :: r)
    simp only [(word_cut hword).1, (word_cut hword).2, List.take_succ_cons, List.take_zero, decide_true, if_true, List.drop_succ_cons, List.drop_zero,
      readDec_digits (show (' ').isDigit = false from rfl), List.drop_left' (show "bytes @ 0x".toList.length = 10 from rfl), t1, t2, hkind, hnum, hsize,
      hperm, hrelro, hexec, hstrip n he, t3, t4, t5, Option.bind_eq_bind, Option.bind_some, pure]
    unfold headOf
    rw [hname, he]
    rfl
  | none =>
    have htext : detailName s ++ r = nameWord s ++ ' ' :: (Nat.toDigits 10 s.size.toNat ++ (' ' :: ("bytes @ 0x".toList ++ (Nat.toDigits 16 s.address.toNat ++
        (markColumn s ++ (kindColumn s ++ (permColumn s ++ r))))))) := by
      unfold detailName nameWord
      rw [he]
      simp only [show " bytes @ 0x".toList = ' ' :: "bytes @ 0x".toList from rfl, show "unnamed ".toList = "unnamed".toList ++ [' '] from rfl, List.append_assoc,
        List.cons_append, List.nil_append]
    unfold readHead
    rw [htext]
    obtain ⟨w, t1, t2, t3, t4, t5⟩ := htail r
    obtain ⟨c, l, hc, hc1, hc2⟩ := digits_head (b := 10) (n := s.size.toNat) (by decide) (by decide)
    have hnot : ¬ ((' ' :: (Nat.toDigits 10 s.size.toNat ++ (' ' :: ("bytes @ 0x".toList ++ (Nat.toDigits 16 s.address.toNat ++
        (markColumn s ++ (kindColumn s ++ (permColumn s ++ r)))))))).take 2 = [' ', '(']) := by
      rw [hc]
      intro e
      injection e with _ e
      injection e with e _
      exact hc1 e
    simp only [(word_cut hword).1, (word_cut hword).2, hnot, decide_false, Bool.false_eq_true, if_false, List.drop_succ_cons, List.drop_zero,
      readDec_digits (show (' ').isDigit = false from rfl), List.drop_left' (show "bytes @ 0x".toList.length = 10 from rfl), t1, t2, hkind, hnum, hsize,
      hperm, hrelro, hexec, t3, t4, t5, Option.bind_eq_bind, Option.bind_some, pure]
    unfold headOf
    rw [hname, he]
    rfl

/-! ### Numbers of entries -/

theorem readCount_text (labels : List Str) (n : Nat) {c : Char} (hc : c.isDigit = false) (l : Str) (plural : Bool) :
    readCount labels (countLine n (c :: l) plural) = if c :: (l ++ if plural && n != 1 then ['s'] else []) ∈ labels then some n else none := by
  unfold countLine readCount
  obtain ⟨h1, h2⟩ := takeWhile_cut (p := Char.isDigit) (r := l ++ if plural && n != 1 then ['s'] else [])
    (fun a (ha : a ∈ Nat.toDigits 10 n) => Nat.isDigit_of_mem_toDigits (by decide) (by decide) ha) hc
  rw [List.cons_append]
  show (if List.dropWhile Char.isDigit (Nat.toDigits 10 n ++ c :: (l ++ if plural && n != 1 then ['s'] else [])) ∈ labels then
    some (numeral 10 (List.takeWhile Char.isDigit (Nat.toDigits 10 n ++ c :: (l ++ if plural && n != 1 then ['s'] else [])))) else none) = _
  rw [h1, h2, numeral_digits (by decide) (by decide)]

/-- The lines of entries. -/
def entryLines (level : Nat) (label : Str) (plural : Bool) (entries : List Str) : List Str :=
  if entries = [] then [] else countLine entries.length label plural :: (if 3 ≤ level then entries else [])

theorem entriesText_lines (level : Nat) (label : Str) (plural : Bool) (entries : List Str) :
    entriesText level label plural entries = (entryLines level label plural entries).flatMap (· ++ ['\n']) := by
  unfold entriesText entryLines
  by_cases h : entries = []
  · rw [if_pos h, if_pos h]; rfl
  · rw [if_neg h, if_neg h, List.flatMap_cons, List.append_assoc]
    by_cases hl : 3 ≤ level
    · rw [if_pos hl, if_pos hl]; rfl
    · rw [if_neg hl, if_neg hl]; rfl

/-- The first line does not have one of the labels. -/
def Free (labels : List Str) (lines : List Str) : Prop := ∀ l, lines.head? = some l → readCount labels l = none

theorem free_entries {labels : List Str} {level : Nat} {c : Char} (hc : c.isDigit = false) {l : Str} {plural : Bool} {entries rest : List Str}
    (h1 : c :: l ∉ labels) (h2 : c :: (l ++ ['s']) ∉ labels) (hr : Free labels rest) : Free labels (entryLines level (c :: l) plural entries ++ rest) := by
  unfold entryLines
  by_cases h : entries = []
  · rw [if_pos h]; exact hr
  · rw [if_neg h]
    intro x hx
    obtain rfl := Option.some.inj hx
    rw [readCount_text _ _ hc, if_neg]
    by_cases hp : (plural && entries.length != 1) = true
    · rw [if_pos hp]; exact h2
    · rw [if_neg hp, List.append_nil]; exact h1

theorem readEntries_text {labels : List Str} {level : Nat} {c : Char} (hc : c.isDigit = false) {l : Str} {plural : Bool} {entries rest : List Str}
    (h1 : c :: l ∈ labels) (h2 : plural = true → c :: (l ++ ['s']) ∈ labels) (hr : Free labels rest) :
    readEntries level labels (entryLines level (c :: l) plural entries ++ rest) = (entries.length, if 3 ≤ level then entries else [], rest) := by
  unfold entryLines
  by_cases h : entries = []
  · rw [if_pos h, h]
    unfold readEntries
    cases rest with
    | nil => simp
    | cons x rest =>
      rw [List.nil_append]
      dsimp only
      rw [hr x rfl]
      simp
  · rw [if_neg h]
    have hm : c :: (l ++ if plural && entries.length != 1 then ['s'] else []) ∈ labels := by
      by_cases hp : (plural && entries.length != 1) = true
      · rw [if_pos hp]
        exact h2 (Bool.and_eq_true_iff.mp hp).1
      · rw [if_neg hp, List.append_nil]; exact h1
    unfold readEntries
    rw [List.cons_append]
    dsimp only
    rw [readCount_text _ _ hc, if_pos hm]
    dsimp only
    by_cases hl : 3 ≤ level
    · rw [if_pos hl, if_pos hl, List.take_left' rfl, List.drop_left' rfl]
    · rw [if_neg hl, if_neg hl]; rfl

/-! ### Entries -/

theorem id_length (i : Identifier) : (symIdText i).length = 35 := by
  unfold symIdText
  simp [hex16_length]

theorem id_last (x : Str) (i : Identifier) : (x ++ symIdText i).getLast? = some '}' := by
  unfold symIdText
  rw [← List.append_assoc, List.getLast?_append]
  rfl

theorem digits_last {b n : Nat} (hb : 1 < b) (hb' : b ≤ 16) {x : Str} : ∃ c, (x ++ Nat.toDigits b n).getLast? = some c ∧ c ≠ '}' ∧ c ≠ ' ' := by
  have hne : Nat.toDigits b n ≠ [] := Nat.toDigits_ne_nil
  refine ⟨(Nat.toDigits b n).getLast hne, ?_, ?_⟩
  · rw [List.getLast?_append, List.getLast?_eq_some_getLast hne]; rfl
  · obtain ⟨k, hk, e⟩ := mem_digits hb (List.getLast_mem hne)
    have : ∀ k < 16, Nat.digitChar k ≠ '}' ∧ Nat.digitChar k ≠ ' ' := by decide
    rw [e]
    exact this k (by omega)

theorem addressText_shape (t : SymTree) (v : Addr) : ∃ x, addressText t v = placeText v ++ x ∧ (x = [] ∨ ∃ y, x = ' ' :: (y ++ ['>'])) := by
  unfold addressText
  cases Tree.floor t v with
  | none => exact ⟨_, rfl, Or.inl rfl⟩
  | some y =>
    dsimp only
    by_cases hk : TLS.is_tls y.address = TLS.is_tls v
    · rw [if_pos hk]
      have : ∀ a b c : Str, ∃ y, " <".toList ++ a ++ b ++ c ++ ['>'] = ' ' :: (y ++ ['>']) := fun a b c => ⟨'<' :: (a ++ b ++ c), by simp⟩
      exact ⟨_, rfl, Or.inr (this _ _ _)⟩
    · rw [if_neg hk]
      exact ⟨_, rfl, Or.inl rfl⟩

theorem address_last (t : SymTree) (v : Addr) (p : Str) : (p ++ addressText t v).getLast? ≠ some '}' := by
  obtain ⟨x, e, h⟩ := addressText_shape t v
  rw [e]
  rcases h with rfl | ⟨y, rfl⟩
  · rw [List.append_nil]
    unfold placeText
    rw [show ∀ a b : Str, p ++ (a ++ '0' :: 'x' :: b) = (p ++ (a ++ ['0', 'x'])) ++ b by intros; simp]
    obtain ⟨c, e, h, _⟩ := digits_last (b := 16) (n := (TLS.virt_addr v).toNat) (by decide) (by decide)
      (x := p ++ ((if TLS.is_tls v then "TLS:".toList else []) ++ ['0', 'x']))
    rw [e]
    exact fun h' => h (Option.some.inj h')
  · rw [show p ++ (placeText v ++ ' ' :: (y ++ ['>'])) = (p ++ (placeText v ++ ' ' :: y)) ++ ['>'] by simp, List.getLast?_append]
    show some '>' ≠ some '}'
    decide

theorem readLink_text (t : SymTree) (v : Addr) :
    readLink (linkLine t v) = some ⟨TLS.is_tls v, TLS.virt_addr v, (Tree.floor t v).bind (fun y => if y.id.internal = 0 then none else some y.id)⟩ := by
  have hp : ∀ q : Str, (q = [] ∨ ∃ z, q = ' ' :: z) → readPlace (((("     ".toList ++ (placeText v ++ q)).drop 5)).takeWhile (· ≠ ' ')) =
      some (TLS.is_tls v, TLS.virt_addr v) := by
    intro q hq
    rw [List.drop_left' (show "     ".toList.length = 5 from rfl)]
    rcases hq with rfl | ⟨z, rfl⟩
    · rw [List.append_nil, takeWhile_all (word_all (place_word v)), readPlace_text]
    · rw [(word_cut (place_word v)).1, readPlace_text]
  obtain ⟨x, e, hx⟩ := addressText_shape t v
  have plain : linkId t v = [] → (Tree.floor t v).bind (fun y => if y.id.internal = 0 then none else some y.id) = none →
      readLink (linkLine t v) = some ⟨TLS.is_tls v, TLS.virt_addr v, (Tree.floor t v).bind (fun y => if y.id.internal = 0 then none else some y.id)⟩ := by
    intro h1 h2
    unfold linkLine readLink
    rw [h1, h2, List.append_nil, if_neg (address_last _ _ _), e, hp x (hx.imp id (fun ⟨_, h⟩ => ⟨_, h⟩))]
    rfl
  cases hf : Tree.floor t v with
  | none =>
    rw [hf] at plain
    exact plain (by unfold linkId; rw [hf]) rfl
  | some y =>
    by_cases hi : y.id.internal = 0
    · rw [hf] at plain
      exact plain (by unfold linkId; rw [hf]; exact if_neg (not_not_intro hi)) (if_pos hi)
    · have hid : linkId t v = ' ' :: symIdText y.id := by unfold linkId; rw [hf]; exact if_pos hi
      unfold linkLine readLink
      rw [hid, show "     ".toList ++ (addressText t v ++ ' ' :: symIdText y.id) = ("     ".toList ++ (addressText t v ++ [' '])) ++ symIdText y.id by simp]
      rw [id_last, if_pos rfl, List.length_append, id_length, Nat.add_sub_cancel, List.drop_left' rfl]
      rw [show symIdText y.id = symIdText y.id ++ [] by simp, readId_text, ← show symIdText y.id = symIdText y.id ++ [] by simp]
      rw [e, show ("     ".toList ++ (placeText v ++ x ++ [' '])) ++ symIdText y.id = "     ".toList ++ (placeText v ++ (x ++ ' ' :: symIdText y.id)) by simp]
      rw [hp]
      · show some _ = some (Link.mk _ _ (if y.id.internal = 0 then none else some y.id))
        rw [if_neg hi]
      · rcases hx with rfl | ⟨z, rfl⟩
        · exact Or.inr ⟨_, rfl⟩
        · exact Or.inr ⟨_, rfl⟩

theorem linkFor_text {t : SymTree} (ht : Tree.Sorted t) (v : Addr) : LinkFor t v (readLink (linkLine t v)) := by
  refine ⟨_, readLink_text t v, ?_, ?_⟩
  · intro y hy
    rw [closestTo_floor ht hy]
    rfl
  · intro h
    have : Tree.floor t v = none := by
      unfold Tree.floor
      rw [List.getLast?_eq_none_iff, List.filter_eq_nil_iff]
      intro y hy
      have := h y hy
      rw [decide_eq_true_eq]
      show ¬ y.address ≤ v
      bv_omega
    rw [this]
    rfl

theorem readAccess_text (r : Rel) : accessText r = [] ∧ accessOf r = none ∨
    ∃ a, accessText r = ' ' :: '(' :: (a ++ [' ']) ∧ '(' ∉ a ++ [' '] ∧ accessOf r = some (readAccess (a ++ [' '])) := by
  unfold accessText accessOf
  by_cases h : r.instruction_access = 0
  · rw [if_neg (not_not_intro h), if_pos h]
    exact Or.inl ⟨rfl, rfl⟩
  · rw [if_pos h, if_neg h]
    right
    have bit : ∀ m k, (∀ x : BitVec 8, (x &&& m ≠ 0) = (x.getLsbD k = true)) → (r.instruction_access &&& m ≠ 0) = (r.instruction_access.getLsbD k = true) :=
      fun m k h => h _
    simp only [bit ACCESSFLAG_READ 0 (by decide), bit ACCESSFLAG_WRITE 1 (by decide), bit ACCESSFLAG_BRANCH 2 (by decide), bit ACCESSFLAG_LOCAL 4 (by decide)]
    have hd : ∀ w : Str, '(' ∉ w → '@' ∉ w → '(' ∉ (w ++ ('@' :: '-' :: (Nat.toDigits 10 r.instruction_offset.toNat ++ [')'])) ++ [' ']) ∧
        readAccess (w ++ ('@' :: '-' :: (Nat.toDigits 10 r.instruction_offset.toNat ++ [')'])) ++ [' ']) =
          ⟨w.contains 'r', w.contains 'w', w.contains 'b', w.contains 'l', r.instruction_offset.toNat⟩ := by
      intro w h1 h2
      constructor
      · intro hm
        simp only [List.mem_append, List.mem_cons, List.not_mem_nil, or_false] at hm
        rcases hm with (hm | hm | hm | hm | hm) | hm
        · exact h1 hm
        · exact absurd hm (by decide)
        · exact absurd hm (by decide)
        · exact absurd (Nat.isDigit_of_mem_toDigits (by decide) (by decide) hm) (by decide)
        · exact absurd hm (by decide)
        · exact absurd hm (by decide)
      · unfold readAccess
        obtain ⟨e1, e2⟩ := takeWhile_cut (p := fun c => decide (c ≠ '@')) (x := w) (c := '@')
          (r := '-' :: (Nat.toDigits 10 r.instruction_offset.toNat ++ [')', ' '])) (by
            intro a ha
            rw [decide_eq_true_eq]
            rintro rfl
            exact h2 ha) (by decide)
        obtain ⟨d1, _⟩ := takeWhile_cut (p := Char.isDigit) (r := [' '])  (c := ')')
          (fun a (ha : a ∈ Nat.toDigits 10 r.instruction_offset.toNat) => Nat.isDigit_of_mem_toDigits (by decide) (by decide) ha) (by decide)
        rw [show w ++ ('@' :: '-' :: (Nat.toDigits 10 r.instruction_offset.toNat ++ [')'])) ++ [' '] =
          w ++ '@' :: ('-' :: (Nat.toDigits 10 r.instruction_offset.toNat ++ [')', ' '])) by simp]
        dsimp only
        rw [e1, e2]
        simp only [List.drop_succ_cons, List.drop_zero]
        rw [d1, numeral_digits (by decide) (by decide)]
    refine ⟨(if r.instruction_access.getLsbD 0 = true then ['r'] else []) ++ ((if r.instruction_access.getLsbD 1 = true then ['w'] else []) ++
      ((if r.instruction_access.getLsbD 2 = true then ['b'] else []) ++ (if r.instruction_access.getLsbD 4 = true then ['l'] else []))) ++
      ('@' :: '-' :: (Nat.toDigits 10 r.instruction_offset.toNat ++ [')'])), ?_, ?_, ?_⟩
    · simp only [List.append_assoc, List.cons_append, List.nil_append]
    · refine (hd _ ?_ ?_).1
      all_goals (cases r.instruction_access.getLsbD 0 <;> cases r.instruction_access.getLsbD 1 <;> cases r.instruction_access.getLsbD 2 <;>
        cases r.instruction_access.getLsbD 4 <;> decide)
    · rw [(hd _ ?_ ?_).2]
      · cases r.instruction_access.getLsbD 0 <;> cases r.instruction_access.getLsbD 1 <;> cases r.instruction_access.getLsbD 2 <;>
          cases r.instruction_access.getLsbD 4 <;> rfl
      all_goals (cases r.instruction_access.getLsbD 0 <;> cases r.instruction_access.getLsbD 1 <;> cases r.instruction_access.getLsbD 2 <;>
        cases r.instruction_access.getLsbD 4 <;> decide)

theorem relLine_last {t : SymTree} {r : Rel} {y : Symbol} (h : Tree.floor t r.target = some y) : (relLine t r).getLast? ≠ some ' ' := by
  unfold relLine
  rw [targetText_some h]
  by_cases ha : r.addend = 0
  · rw [if_neg (not_not_intro ha), List.append_nil]
    rw [show ∀ a b c d e : Str, a ++ (b ++ (c ++ (d ++ ' ' :: (e ++ ' ' :: symIdText y.id)))) = (a ++ (b ++ (c ++ (d ++ ' ' :: (e ++ [' ']))))) ++ symIdText y.id by
      intros; simp, id_last]
    decide
  · rw [if_pos ha]
    unfold signedText
    generalize (if r.addend.toInt < 0 then '-' else '+') = g
    rw [show ∀ a b c d e f h : Str, a ++ (b ++ (c ++ (d ++ ' ' :: (e ++ ' ' :: (f ++ ' ' :: g :: h))))) = (a ++ (b ++ (c ++ (d ++ ' ' :: (e ++ ' ' :: (f ++ [' ', g])))))) ++ h by
      intros; simp]
    obtain ⟨c, e, _, h⟩ := digits_last (b := 10) (n := r.addend.toInt.natAbs) (by decide) (by decide)
      (x := "     *0x".toList ++ (Nat.toDigits 16 r.offset.toNat ++ (" = ".toList ++ (relTypeText r.type ++ ' ' :: (labelText r y ++ ' ' :: (symIdText y.id ++ [' ', g]))))))
    rw [e]
    exact fun h' => h (Option.some.inj h')

theorem relocationOf_text {t : SymTree} (ht : Tree.Sorted t) (hn : ∀ s ∈ t, PlainSymbol s) {r : Rel} (hr : PlainRel t r) :
    RelocationOf t r (readRelEntry (relLine t r ++ accessText r)) := by
  obtain ⟨⟨y, hy⟩, hk, hw⟩ := hr
  obtain ⟨l, h1, h2⟩ := C106_read_partial ht hy hk (fun m hm => (hw m hm).1) (fun m hm => ((hn y hy.1).1 m hm).1)
  have hl := relLine_last (closestTo_floor ht hy)
  rcases readAccess_text r with ⟨e1, e2⟩ | ⟨a, e1, e2, e3⟩
  · rw [e1, List.append_nil]
    unfold readRelEntry
    rw [if_neg hl]
    exact ⟨e2.symm, y, l, hy, h1, h2⟩
  · rw [e1]
    unfold readRelEntry
    rw [show relLine t r ++ ' ' :: '(' :: (a ++ [' ']) = (relLine t r ++ ' ' :: '(' :: a) ++ [' '] by simp, List.getLast?_append]
    rw [if_pos (show ([' '] : Str).getLast?.or _ = some ' ' from rfl)]
    rw [show ((relLine t r ++ ' ' :: '(' :: a) ++ [' ']).reverse = (a ++ [' ']).reverse ++ '(' :: (' ' :: (relLine t r).reverse) by simp]
    obtain ⟨c1, c2⟩ := takeWhile_cut (p := fun c => decide (c ≠ '(')) (x := (a ++ [' ']).reverse) (c := '(') (r := ' ' :: (relLine t r).reverse) (by
      intro c hc
      rw [decide_eq_true_eq]
      rintro rfl
      exact e2 (List.mem_reverse.mp hc)) (by decide)
    dsimp only
    rw [c1, c2, List.reverse_reverse]
    refine ⟨e3.symm, y, l, hy, h1, ?_⟩
    show readRel ((relLine t r).reverse).reverse = _
    rw [List.reverse_reverse, h2]

theorem position_text (s : Symbol) (o : Addr × BitVec 64) : readPosition (positionLine s o) = (o.1 + s.address, o.1, o.2) := by
  unfold readPosition positionLine
  rw [List.drop_left' (show "     0x".toList.length = 7 from rfl)]
  have hh : ' ' ∉ Nat.toDigits 16 (o.1 + s.address).toNat := fun h => (hex_digit h).1 rfl
  obtain ⟨d1, d2⟩ := takeWhile_cut (p := fun c => decide (c ≠ ')')) (x := Nat.toDigits 10 o.1.toNat) (c := ')') (r := " = ".toList ++ hex16 o.2) (by
    intro c hc
    rw [decide_eq_true_eq]
    rintro rfl
    exact absurd (Nat.isDigit_of_mem_toDigits (by decide) (by decide) hc) (by decide)) (by decide)
  rw [show " (+ ".toList = ' ' :: "(+ ".toList from rfl, show ") = ".toList = ')' :: " = ".toList from rfl]
  simp only [List.cons_append, (word_cut hh).1, (word_cut hh).2]
  rw [show (' ' :: ("(+ ".toList ++ (Nat.toDigits 10 o.1.toNat ++ ')' :: (" = ".toList ++ hex16 o.2)))).drop 4 =
    Nat.toDigits 10 o.1.toNat ++ ')' :: (" = ".toList ++ hex16 o.2) from rfl, d1, d2]
  rw [show (')' :: (" = ".toList ++ hex16 o.2)).drop 4 = hex16 o.2 from rfl, show hex16 o.2 = hex16 o.2 ++ [] by simp, readHex_hex16]
  rw [numeral_digits (by decide) (by decide), numeral_digits (by decide) (by decide)]
  simp only [BitVec.ofNat_toNat, BitVec.setWidth_eq]

/-! ### Lines of a symbol -/

/-- The line with the identifiers. -/
def idLines (s : Symbol) : List Str := if s.id.internal ≠ 0 then ["  ID: ".toList ++ symIdText s.id] else []

/-- The lines of entries and identifiers. -/
def bodyLines (level : Nat) (t : SymTree) (s : Symbol) : List Str :=
  entryLines level " Reference".toList true (s.refs.map (linkLine t)) ++
  (entryLines level " Relocation".toList true (s.rels.map (fun r => relLine t r ++ accessText r)) ++
  (entryLines level " Offset ID".toList true (if 3 ≤ level then s.offset_ids.map (positionLine s) else []) ++
  (entryLines level " depending on this".toList false (s.deps.map (linkLine t)) ++ (idLines s ++ [[]]))))

theorem body_lines (level : Nat) (t : SymTree) (s : Symbol) : detailBody level t s = (bodyLines level t s).flatMap (· ++ ['\n']) := by
  unfold detailBody bodyLines
  simp only [List.flatMap_append, entriesText_lines]
  congr 3
  · by_cases h : 3 ≤ level
    · rw [if_pos h, if_pos h]
    · rw [if_neg h, if_neg h]; rfl
  · congr 2
    unfold idLines
    by_cases h : s.id.internal = 0
    · rw [if_neg (not_not_intro h), if_neg (not_not_intro h)]; rfl
    · rw [if_pos h, if_pos h]
      simp only [List.flatMap_cons, List.flatMap_nil, List.append_nil, List.append_assoc]

theorem free_end (labels : List Str) (s : Symbol) (rest : List Str) (hl : ∀ l ∈ labels, l.head? = some ' ') : Free labels (idLines s ++ [[]] ++ rest) := by
  unfold idLines
  intro x hx
  by_cases h : s.id.internal = 0
  · rw [if_neg (not_not_intro h)] at hx
    obtain rfl := Option.some.inj hx
    rfl
  · rw [if_pos h] at hx
    obtain rfl := Option.some.inj hx
    show (if List.dropWhile Char.isDigit ('I' :: 'D' :: ':' :: ' ' :: symIdText s.id) ∈ labels then _ else _) = _
    rw [List.dropWhile_cons_of_neg (by decide), if_neg]
    intro hm
    exact absurd (Option.some.inj (hl _ hm)) (by decide)

/-- All entries and the identifiers are read back. -/
theorem body_read (level : Nat) (t : SymTree) (s : Symbol) (rest : List Str) :
    let refs := readEntries level refLabels (bodyLines level t s ++ rest)
    let rels := readEntries level relLabels refs.2.2
    let pos := readEntries level posLabels rels.2.2
    let deps := readEntries level depLabels pos.2.2
    refs.1 = s.refs.length ∧ refs.2.1 = (if 3 ≤ level then s.refs.map (linkLine t) else []) ∧
    rels.1 = s.rels.length ∧ rels.2.1 = (if 3 ≤ level then s.rels.map (fun r => relLine t r ++ accessText r) else []) ∧
    pos.2.1 = (if 3 ≤ level then s.offset_ids.map (positionLine s) else []) ∧
    deps.1 = s.deps.length ∧ deps.2.1 = (if 3 ≤ level then s.deps.map (linkLine t) else []) ∧ deps.2.2 = idLines s ++ [[]] ++ rest := by
  have e4 : readEntries level depLabels (entryLines level " depending on this".toList false (s.deps.map (linkLine t)) ++ (idLines s ++ [[]] ++ rest)) = _ :=
    readEntries_text (c := ' ') rfl (by decide) (by decide) (free_end _ s rest (by decide))
  have f4 : ∀ labels : List Str, (∀ l ∈ labels, l.head? = some ' ') → " depending on this".toList ∉ labels → " depending on thiss".toList ∉ labels →
      Free labels (entryLines level " depending on this".toList false (s.deps.map (linkLine t)) ++ (idLines s ++ [[]] ++ rest)) := fun labels h h1 h2 =>
    free_entries (c := ' ') rfl h1 h2 (free_end labels s rest h)
  generalize hT4 : entryLines level " depending on this".toList false (s.deps.map (linkLine t)) ++ (idLines s ++ [[]] ++ rest) = T4 at e4 f4
  have e3 : readEntries level posLabels (entryLines level " Offset ID".toList true (if 3 ≤ level then s.offset_ids.map (positionLine s) else []) ++ T4) = _ :=
    readEntries_text (c := ' ') rfl (by decide) (fun _ => by decide) (f4 _ (by decide) (by decide) (by decide))
  have f3 : ∀ labels : List Str, (∀ l ∈ labels, l.head? = some ' ') → " depending on this".toList ∉ labels → " depending on thiss".toList ∉ labels →
      " Offset ID".toList ∉ labels → " Offset IDs".toList ∉ labels →
      Free labels (entryLines level " Offset ID".toList true (if 3 ≤ level then s.offset_ids.map (positionLine s) else []) ++ T4) := fun labels h h1 h2 h3 h4 =>
    free_entries (c := ' ') rfl h3 h4 (f4 labels h h1 h2)
  generalize hT3 : entryLines level " Offset ID".toList true (if 3 ≤ level then s.offset_ids.map (positionLine s) else []) ++ T4 = T3 at e3 f3
  have e2 : readEntries level relLabels (entryLines level " Relocation".toList true (s.rels.map (fun r => relLine t r ++ accessText r)) ++ T3) = _ :=
    readEntries_text (c := ' ') rfl (by decide) (fun _ => by decide) (f3 _ (by decide) (by decide) (by decide) (by decide) (by decide))
  have f2 : Free refLabels (entryLines level " Relocation".toList true (s.rels.map (fun r => relLine t r ++ accessText r)) ++ T3) :=
    free_entries (c := ' ') rfl (by decide) (by decide) (f3 _ (by decide) (by decide) (by decide) (by decide) (by decide))
  generalize hT2 : entryLines level " Relocation".toList true (s.rels.map (fun r => relLine t r ++ accessText r)) ++ T3 = T2 at e2 f2
  have e1 : readEntries level refLabels (entryLines level " Reference".toList true (s.refs.map (linkLine t)) ++ T2) = _ :=
    readEntries_text (c := ' ') rfl (by decide) (fun _ => by decide) f2
  have hb : bodyLines level t s ++ rest = entryLines level " Reference".toList true (s.refs.map (linkLine t)) ++ T2 := by
    rw [← hT2, ← hT3, ← hT4]
    unfold bodyLines
    simp only [List.append_assoc]
  dsimp only
  rw [hb, e1]
  dsimp only
  rw [e2]
  dsimp only
  rw [e3]
  dsimp only
  rw [e4]
  refine ⟨List.length_map _, rfl, List.length_map _, rfl, ?_, List.length_map _, rfl, rfl⟩
  by_cases h : 3 ≤ level
  · rw [if_pos h, if_pos h]
  · rw [if_neg h, if_neg h]

theorem body_first (level : Nat) (t : SymTree) (s : Symbol) : ∃ x l, bodyLines level t s = x :: l ∧ isMark x = true := by
  have entry : ∀ (c : Char) (l : Str) (plural : Bool) (es rest : List Str), c.isDigit = false → (c :: l ∈ refLabels ++ relLabels ++ posLabels ++ depLabels) →
      (plural = true → c :: (l ++ ['s']) ∈ refLabels ++ relLabels ++ posLabels ++ depLabels) → (∃ x k, rest = x :: k ∧ isMark x = true) →
      ∃ x k, entryLines level (c :: l) plural es ++ rest = x :: k ∧ isMark x = true := by
    intro c l plural es rest hc h1 h2 hr
    unfold entryLines
    by_cases he : es = []
    · rw [if_pos he]; exact hr
    · rw [if_neg he]
      refine ⟨_, _, rfl, ?_⟩
      unfold isMark
      rw [readCount_text _ _ hc, if_pos]
      · simp
      · by_cases hp : (plural && es.length != 1) = true
        · rw [if_pos hp]
          exact h2 (Bool.and_eq_true_iff.mp hp).1
        · rw [if_neg hp, List.append_nil]; exact h1
  unfold bodyLines
  refine entry ' ' _ true _ _ rfl (by decide) (fun _ => by decide) (entry ' ' _ true _ _ rfl (by decide) (fun _ => by decide)
    (entry ' ' _ true _ _ rfl (by decide) (fun _ => by decide) (entry ' ' _ false _ _ rfl (by decide) (fun h => by cases h) ?_)))
  unfold idLines
  by_cases h : s.id.internal = 0
  · rw [if_neg (not_not_intro h)]
    exact ⟨_, _, rfl, rfl⟩
  · rw [if_pos h]
    exact ⟨_, _, rfl, by unfold isMark; rw [List.take_left' (show "  ID: ".toList.length = 6 from rfl)]; simp⟩

/-- The lines of a symbol: end of the first line, and lines of the debug text. -/
def symLines (diet : Bool) (level : Nat) (t : SymTree) (s : Symbol) (colon : Str) (dbg : List Str) : List Str :=
  if diet then
    match bodyLines level t s with
    | b :: bs => (detailName s ++ b) :: bs
    | [] => []
  else (detailName s ++ colon) :: (dbg ++ bodyLines level t s)

theorem allMatch_map {α β : Type} {R : α → β → Prop} (l : List α) (f : α → β) (h : ∀ a ∈ l, R a (f a)) : AllMatch R l (l.map f) := by
  refine ⟨(List.length_map _).symm, ?_⟩
  intro i a b ha hb
  rw [List.getElem?_map, ha] at hb
  obtain rfl := Option.some.inj hb
  exact h a (List.mem_of_getElem? ha)

/-- What is read for a symbol. -/
def detailFor (level : Nat) (t : SymTree) (s : Symbol) (sec : String) (follows : Bool) (text : List Str) : Detail :=
  ⟨headOf s sec, follows, text, s.refs.length, (if 3 ≤ level then s.refs.map (linkLine t) else []).map readLink, s.rels.length,
    (if 3 ≤ level then s.rels.map (fun r => relLine t r ++ accessText r) else []).map readRelEntry,
    (if 3 ≤ level then s.offset_ids.map (positionLine s) else []).map readPosition, s.deps.length,
    (if 3 ≤ level then s.deps.map (linkLine t) else []).map readLink, if s.id.internal = 0 then none else some s.id⟩

theorem detailFor_ok {level : Nat} {t : SymTree} (ht : Tree.Sorted t) (hn : ∀ s ∈ t, PlainSymbol s) {s : Symbol} {sec : String} (hs : s.sec.name = some sec)
    (hr : 3 ≤ level → ∀ r ∈ s.rels, PlainRel t r) {diet : Bool} {debug : Option Str} {follows : Bool} {text : List Str}
    (hf : diet = false → (follows = true ↔ debug ≠ none ∨ s.refs ≠ [] ∨ s.rels ≠ [] ∨ s.deps ≠ []) ∧ (∀ x, debug = some x → text = readLines x) ∧ (debug = none → text = [])) :
    DetailOf diet level t debug s (detailFor level t s sec follows text) := by
  refine ⟨⟨sec, hs, rfl⟩, hf, rfl, rfl, rfl, rfl, ?_⟩
  intro hl
  unfold detailFor
  dsimp only
  rw [if_pos hl, if_pos hl, if_pos hl, if_pos hl, List.map_map, List.map_map, List.map_map, List.map_map]
  refine ⟨allMatch_map _ _ (fun v _ => linkFor_text ht v), allMatch_map _ _ (fun r h => relocationOf_text ht hn (hr hl r h)), ?_,
    allMatch_map _ _ (fun v _ => linkFor_text ht v)⟩
  exact List.map_congr_left (fun o _ => position_text s o)

theorem symLines_read (diet : Bool) (level : Nat) (t : SymTree) {s : Symbol} (hp : PlainSymbol s) {sec : String} (hs : s.sec.name = some sec) (colon : Str)
    (dbg rest : List Str) (hd : ∀ l ∈ dbg, isMark l = false) :
    readDetail diet level (symLines diet level t s colon dbg ++ rest) =
      some (detailFor level t s sec (!diet && colon == [':']) (if diet then [] else dbg), rest) := by
  obtain ⟨b, bs, hb, hm⟩ := body_first level t s
  have key : ∀ (q : Str), readHead (detailName s ++ q) = some (headOf s sec, q) := fun q => readHead_name hp hs q
  have hread := body_read level t s rest
  have hdrop : (dbg ++ bodyLines level t s ++ rest).dropWhile (fun x => !isMark x) = bodyLines level t s ++ rest := by
    rw [List.append_assoc]
    have : ∀ d : List Str, (∀ l ∈ d, isMark l = false) → (d ++ (bodyLines level t s ++ rest)).dropWhile (fun x => !isMark x) = bodyLines level t s ++ rest := by
      intro d hd
      induction d with
      | nil => rw [List.nil_append, hb, List.cons_append, List.dropWhile_cons_of_neg (by rw [hm]; decide)]
      | cons x d ih =>
        rw [List.cons_append, List.dropWhile_cons_of_pos (by rw [hd x List.mem_cons_self]; rfl), ih (fun l h => hd l (List.mem_cons_of_mem _ h))]
    exact this dbg hd
  have htake : (dbg ++ bodyLines level t s ++ rest).takeWhile (fun x => !isMark x) = dbg := by
    rw [List.append_assoc]
    have : ∀ d : List Str, (∀ l ∈ d, isMark l = false) → (d ++ (bodyLines level t s ++ rest)).takeWhile (fun x => !isMark x) = d := by
      intro d hd
      induction d with
      | nil => rw [List.nil_append, hb, List.cons_append, List.takeWhile_cons_of_neg (by rw [hm]; decide)]
      | cons x d ih =>
        rw [List.cons_append, List.takeWhile_cons_of_pos (by rw [hd x List.mem_cons_self]; rfl), ih (fun l h => hd l (List.mem_cons_of_mem _ h))]
    exact this dbg hd
  obtain ⟨l0, hl0⟩ : ∃ q, symLines diet level t s colon dbg ++ rest = (detailName s ++ q) :: (if diet then bs ++ rest else dbg ++ bodyLines level t s ++ rest) ∧
      (diet = true → q = b) ∧ (diet = false → q = colon) := by
    unfold symLines
    cases diet with
    | true => exact ⟨b, by rw [if_pos rfl, hb]; rfl, fun _ => rfl, fun h => (by cases h)⟩
    | false => exact ⟨colon, by rw [if_neg (by decide)]; rfl, fun h => (by cases h), fun _ => rfl⟩
  have hbody : (if diet then l0 :: (if diet then bs ++ rest else dbg ++ bodyLines level t s ++ rest) else
      (if diet then bs ++ rest else dbg ++ bodyLines level t s ++ rest).dropWhile (fun x => !isMark x)) = bodyLines level t s ++ rest := by
    cases diet with
    | true => rw [if_pos rfl, if_pos rfl, hl0.2.1 rfl, hb]; rfl
    | false => rw [if_neg (by decide), if_neg (by decide)]; exact hdrop
  unfold readDetail
  rw [hl0.1]
  dsimp only
  rw [key]
  simp only [Option.bind_eq_bind, Option.bind_some]
  rw [hbody]
  have hfol : (!diet && l0 == [':']) = (!diet && colon == [':']) := by
    cases diet with
    | true => rfl
    | false => rw [hl0.2.2 rfl]
  have htext : (if diet then [] else (if diet then bs ++ rest else dbg ++ bodyLines level t s ++ rest).takeWhile (fun x => !isMark x)) = (if diet then [] else dbg) := by
    cases diet with
    | true => rfl
    | false => exact htake
  rw [hfol, htext]
  obtain ⟨r1, r2, r3, r4, r5, r6, r7, r8⟩ := hread
  rw [r1, r2, r3, r4, r5, r6, r7, r8]
  unfold detailFor idLines
  by_cases h : s.id.internal = 0
  · rw [if_neg (not_not_intro h), if_pos h]
    rfl
  · rw [if_pos h, if_neg h]
    simp only [List.cons_append, List.nil_append, List.head?_cons, Option.bind_some, List.take_left' (show "  ID: ".toList.length = 6 from rfl),
      List.drop_left' (show "  ID: ".toList.length = 6 from rfl), decide_true, if_true, List.drop_succ_cons, List.drop_zero]
    rw [show symIdText s.id = symIdText s.id ++ [] by simp, readId_text]
    rfl

/-! ### Line breaks -/

theorem break_append {x y : Str} (hx : '\n' ∉ x) (hy : '\n' ∉ y) : '\n' ∉ x ++ y := fun h => (List.mem_append.mp h).elim hx hy

theorem break_cons {c : Char} {y : Str} (hc : c ≠ '\n') (hy : '\n' ∉ y) : '\n' ∉ c :: y := fun h => (List.mem_cons.mp h).elim (fun e => hc e.symm) hy

theorem shown_break {n : Option String} {s : Str} (hn : ∀ m, n = some m → '\n' ∉ m.toList) (h : shownName n = some s) : '\n' ∉ s := by
  cases n with
  | none => cases h
  | some m =>
    unfold shownName at h
    dsimp only at h
    by_cases he : m.toList = []
    · rw [if_pos he] at h; cases h
    · rw [if_neg he] at h
      cases h
      exact hn m rfl

theorem place_break (v : Addr) : '\n' ∉ placeText v := by
  unfold placeText
  refine break_append ?_ (break_cons (by decide) (break_cons (by decide) (digits_break (by decide) (by decide))))
  cases TLS.is_tls v <;> decide

theorem name_break {s : Symbol} (hp : PlainSymbol s) : '\n' ∉ detailName s := by
  obtain ⟨hn, sec, hs, hw, _⟩ := hp
  unfold detailName markColumn kindColumn permColumn
  rw [hs]
  refine break_append ?_ (break_append ?_ (break_append (digits_break (by decide) (by decide)) (break_append (by decide) (break_append (digits_break (by decide) (by decide))
    (break_append ?_ (break_append (break_append ?_ (break_cons (by decide) (break_cons (by decide) hw.2))) (break_append ?_ ?_)))))))
  · cases TLS.is_tls s.address <;> decide
  · cases he : shownName s.name with
    | none => exact by decide
    | some n => exact break_append (shown_break (fun m h => (hn m h).2) he) (by decide)
  · by_cases hf : s.flags = 0
    · rw [if_neg (not_not_intro hf)]; decide
    · rw [if_pos hf]
      cases s.has SYMBOL_ENTRY <;> cases s.has SYMBOL_TRAMPOLINE <;> cases s.has SYMBOL_USING_CET <;> decide
  · cases s.bind <;> decide
  · cases s.sec.writeable <;> cases s.sec.has SECTION_RELRO <;> cases s.sec.executable <;> decide
  · cases shownName s.name with
    | none => exact List.not_mem_nil
    | some n =>
      show '\n' ∉ [')']
      decide

theorem address_break {t : SymTree} (hn : ∀ s ∈ t, PlainSymbol s) (v : Addr) : '\n' ∉ addressText t v := by
  unfold addressText
  refine break_append (place_break v) ?_
  cases hf : Tree.floor t v with
  | none => exact List.not_mem_nil
  | some y =>
    have hy := hn y (Tree.floor_mem hf)
    dsimp only
    by_cases hk : TLS.is_tls y.address = TLS.is_tls v
    · rw [if_pos hk]
      refine break_append (break_append (break_append (break_append (by decide) ?_) ?_) ?_) (by decide)
      · cases he : y.name with
        | none => exact place_break _
        | some n => exact (hy.1 n he).2
      · obtain ⟨sec, hs, hw, _⟩ := hy.2
        rw [hs]
        exact break_cons (by decide) hw.2
      · by_cases he : y.address = v
        · rw [if_neg (not_not_intro he)]; exact List.not_mem_nil
        · rw [if_pos he]
          exact break_append (by decide) (digits_break (by decide) (by decide))
    · rw [if_neg hk]
      exact List.not_mem_nil

theorem link_break {t : SymTree} (hn : ∀ s ∈ t, PlainSymbol s) (v : Addr) : '\n' ∉ linkLine t v := by
  unfold linkLine linkId
  refine break_append (by decide) (break_append (address_break hn v) ?_)
  cases Tree.floor t v with
  | none => exact List.not_mem_nil
  | some y =>
    dsimp only
    by_cases h : y.id.internal = 0
    · rw [if_neg (not_not_intro h)]; exact List.not_mem_nil
    · rw [if_pos h]; exact break_cons (by decide) (id_break _)

theorem relType_break {r : Rel} (h : ∃ x ∈ abiRelocations, x.2 = r.type.toNat) : '\n' ∉ relTypeText r.type := by
  obtain ⟨x, hx, e⟩ := h
  have key : ∀ x ∈ abiRelocations, ∃ y, relTypeNames.find? (fun z => z.1 = x.2) = some y ∧ '\n' ∉ "R_X86_64_".toList ++ y.2.toList := by
    have : ∀ x ∈ abiRelocations, ((relTypeNames.find? (fun z => z.1 = x.2)).map (fun y => decide ('\n' ∉ "R_X86_64_".toList ++ y.2.toList))) = some true := by
      decide +kernel
    intro x hx
    have h := this x hx
    cases hf : relTypeNames.find? (fun z => z.1 = x.2) with
    | none => rw [hf] at h; cases h
    | some y =>
      rw [hf] at h
      exact ⟨y, rfl, of_decide_eq_true (Option.some.inj h)⟩
  obtain ⟨y, hf, hy⟩ := key x hx
  rw [e] at hf
  unfold relTypeText
  rw [hf]
  exact hy

theorem access_break (r : Rel) : '\n' ∉ accessText r := by
  unfold accessText
  by_cases h : r.instruction_access = 0
  · rw [if_neg (not_not_intro h)]; exact List.not_mem_nil
  · rw [if_pos h]
    refine break_cons (by decide) (break_cons (by decide) (break_append ?_ (break_append ?_ (break_append ?_ (break_append ?_ (break_cons (by decide)
      (break_cons (by decide) (break_append (digits_break (by decide) (by decide)) (by decide)))))))))
    all_goals (split <;> decide)

theorem rel_break {t : SymTree} (ht : Tree.Sorted t) (hn : ∀ s ∈ t, PlainSymbol s) {r : Rel} (hr : PlainRel t r) : '\n' ∉ relLine t r ++ accessText r := by
  obtain ⟨⟨y, hy⟩, hk, hw⟩ := hr
  refine break_append ?_ (access_break r)
  unfold relLine
  rw [targetText_some (closestTo_floor ht hy)]
  refine break_append (by decide) (break_append (digits_break (by decide) (by decide)) (break_append (by decide) (break_append (relType_break hk)
    (break_cons (by decide) (break_append ?_ (break_cons (by decide) (break_append (id_break _) ?_)))))))
  · unfold labelText
    cases h1 : shownName r.name with
    | some n => exact shown_break (fun m h => (hw m h).2) h1
    | none =>
      cases h2 : shownName y.name with
      | some n => exact shown_break (fun m h => ((hn y hy.1).1 m h).2) h2
      | none => exact break_append (break_cons (by decide) (place_break _)) (by decide)
  · by_cases ha : r.addend = 0
    · rw [if_neg (not_not_intro ha)]; exact List.not_mem_nil
    · rw [if_pos ha]
      refine break_cons (by decide) ?_
      unfold signedText
      refine break_cons ?_ (digits_break (by decide) (by decide))
      split <;> decide

theorem position_break (s : Symbol) (o : Addr × BitVec 64) : '\n' ∉ positionLine s o :=
  break_append (by decide) (break_append (digits_break (by decide) (by decide)) (break_append (by decide) (break_append (digits_break (by decide) (by decide))
    (break_append (by decide) (hex_break _)))))

theorem entry_break {level : Nat} {label : Str} {plural : Bool} {entries : List Str} (hl : '\n' ∉ label) (h : 3 ≤ level → ∀ e ∈ entries, '\n' ∉ e) :
    ∀ l ∈ entryLines level label plural entries, '\n' ∉ l := by
  unfold entryLines
  by_cases he : entries = []
  · rw [if_pos he]
    exact fun l hl => by cases hl
  · rw [if_neg he]
    intro l hm
    rcases List.mem_cons.mp hm with rfl | hm
    · unfold countLine
      refine break_cons (by decide) (break_cons (by decide) (break_append (digits_break (by decide) (by decide)) (break_append hl ?_)))
      split <;> decide
    · by_cases h3 : 3 ≤ level
      · rw [if_pos h3] at hm
        exact h h3 l hm
      · rw [if_neg h3] at hm
        cases hm

theorem body_break {level : Nat} {t : SymTree} (ht : Tree.Sorted t) (hn : ∀ s ∈ t, PlainSymbol s) {s : Symbol} (hr : 3 ≤ level → ∀ r ∈ s.rels, PlainRel t r) :
    ∀ l ∈ bodyLines level t s, '\n' ∉ l := by
  unfold bodyLines
  intro l hl
  simp only [List.mem_append] at hl
  rcases hl with hl | hl | hl | hl | hl | hl
  · refine entry_break (by decide) ?_ l hl
    intro _ e he
    obtain ⟨v, _, rfl⟩ := List.mem_map.mp he
    exact link_break hn v
  · refine entry_break (by decide) ?_ l hl
    intro h3 e he
    obtain ⟨r, h, rfl⟩ := List.mem_map.mp he
    exact rel_break ht hn (hr h3 r h)
  · refine entry_break (by decide) ?_ l hl
    intro h3 e he
    rw [if_pos h3] at he
    obtain ⟨o, _, rfl⟩ := List.mem_map.mp he
    exact position_break s o
  · refine entry_break (by decide) ?_ l hl
    intro _ e he
    obtain ⟨v, _, rfl⟩ := List.mem_map.mp he
    exact link_break hn v
  · unfold idLines at hl
    by_cases h : s.id.internal = 0
    · rw [if_neg (not_not_intro h)] at hl; cases hl
    · rw [if_pos h, List.mem_singleton] at hl
      rw [hl]
      exact break_append (by decide) (id_break _)
  · rw [List.mem_singleton] at hl
    rw [hl]
    exact List.not_mem_nil

/-! ### The listing -/

theorem debugText_lines {ls : List Str} (h : ∀ l ∈ ls, '\n' ∉ l ∧ isMark l = false) : debugText (ls.flatMap (· ++ ['\n'])) = some (ls.flatMap (· ++ ['\n'])) := by
  induction ls with
  | nil => rw [List.flatMap_nil, debugText]
  | cons l ls ih =>
    obtain ⟨h1, h2⟩ := h l List.mem_cons_self
    rw [List.flatMap_cons, List.append_assoc, List.singleton_append]
    generalize hT : ls.flatMap (· ++ ['\n']) = T at ih
    obtain ⟨e1, e2⟩ := takeWhile_cut (p := fun c => decide (c ≠ '\n')) (x := l) (c := '\n') (r := T) (by
      intro a ha
      rw [decide_eq_true_eq]
      rintro rfl
      exact h1 ha) (by decide)
    cases l with
    | nil => cases h2
    | cons c l =>
      have hc : c ≠ '\n' := fun e => h1 (by rw [e]; exact List.mem_cons_self)
      rw [List.cons_append] at e1 e2 ⊢
      rw [debugText.eq_def]
      dsimp only
      rw [if_neg hc]
      split
      · rename_i h; rw [e2] at h; cases h
      · rename_i h
        rw [e2] at h
        injection h with _ h
        subst h
        rw [ih (fun x hx => h x (List.mem_cons_of_mem _ hx)), e1]
        rfl

theorem symLines_text (diet : Bool) (level : Nat) {debug : Addr → Option Str} {t : SymTree} {s : Symbol}
    (hd : ∀ d, debug s.address = some d → PlainDebug d) : ∃ (colon : Str) (dbg : List Str), (∀ l ∈ dbg, '\n' ∉ l ∧ isMark l = false) ∧ '\n' ∉ colon ∧
      detailSymbol diet level debug t s = some ((symLines diet level t s colon dbg).flatMap (· ++ ['\n'])) ∧
      (diet = false → ((!diet && colon == [':']) = true ↔ debug s.address ≠ none ∨ s.refs ≠ [] ∨ s.rels ≠ [] ∨ s.deps ≠ []) ∧
        (∀ x, debug s.address = some x → (if diet then [] else dbg) = readLines x) ∧ (debug s.address = none → (if diet then [] else dbg) = [])) := by
  obtain ⟨b, bs, hb, _⟩ := body_first level t s
  unfold detailSymbol detailMiddle symLines
  rw [body_lines]
  cases diet with
  | true =>
    refine ⟨[], [], fun l h => absurd h List.not_mem_nil, List.not_mem_nil, ?_, fun h => (by cases h)⟩
    rw [if_pos rfl, if_pos rfl, hb]
    show some (detailName s ++ ([] ++ _)) = _
    simp only [List.nil_append, List.flatMap_cons, List.append_assoc]
  | false =>
    obtain ⟨ls, h1, h2, h3⟩ : ∃ ls : List Str, debugPart (debug s.address) = some (ls.flatMap (· ++ ['\n'])) ∧ (∀ l ∈ ls, '\n' ∉ l ∧ isMark l = false) ∧
        (∀ x, debug s.address = some x → ls = readLines x) ∧ (debug s.address = none → ls = []) := by
      cases hx : debug s.address with
      | none => exact ⟨[], rfl, fun l h => absurd h List.not_mem_nil, fun x h => (by cases h), fun _ => rfl⟩
      | some d =>
        obtain ⟨ls, rfl, h⟩ := hd d hx
        refine ⟨ls, debugText_lines h, h, fun x hx => ?_, fun h => (by cases h)⟩
        rw [← Option.some.inj hx, readLines_lines (fun l hl => (h l hl).1)]
    have hcol : colonText s (debug s.address) = [':'] ↔ debug s.address ≠ none ∨ s.refs ≠ [] ∨ s.rels ≠ [] ∨ s.deps ≠ [] := by
      unfold colonText
      by_cases hf : debug s.address ≠ none ∨ s.refs ≠ [] ∨ s.rels ≠ [] ∨ s.deps ≠ []
      · rw [if_pos hf]; exact ⟨fun _ => hf, fun _ => rfl⟩
      · rw [if_neg hf]; exact ⟨fun h => (by cases h), fun h => absurd h hf⟩
    refine ⟨colonText s (debug s.address), ls, h2, ?_, ?_, fun _ => ⟨?_, h3⟩⟩
    · unfold colonText
      split <;> decide
    · rw [if_neg (by decide), if_neg (by decide), h1]
      show some (detailName s ++ ((colonText s (debug s.address) ++ '\n' :: _) ++ _)) = _
      simp only [List.flatMap_cons, List.flatMap_append, List.append_assoc, List.cons_append, List.nil_append]
    · rw [← hcol, Bool.not_false, Bool.true_and, beq_iff_eq]

theorem symLines_ne (diet : Bool) (level : Nat) (t : SymTree) (s : Symbol) (colon : Str) (dbg : List Str) : ∃ x l, symLines diet level t s colon dbg = x :: l := by
  obtain ⟨b, bs, hb, _⟩ := body_first level t s
  unfold symLines
  cases diet with
  | true => rw [if_pos rfl, hb]; exact ⟨_, _, rfl⟩
  | false => rw [if_neg (by decide)]; exact ⟨_, _, rfl⟩

theorem symLines_break {diet : Bool} {level : Nat} {t : SymTree} {s : Symbol} {colon : Str} {dbg : List Str} (hp : PlainSymbol s)
    (hb : ∀ l ∈ bodyLines level t s, '\n' ∉ l) (hc : '\n' ∉ colon) (hd : ∀ l ∈ dbg, '\n' ∉ l) : ∀ l ∈ symLines diet level t s colon dbg, '\n' ∉ l := by
  obtain ⟨b, bs, e, _⟩ := body_first level t s
  unfold symLines
  cases diet with
  | true =>
    rw [if_pos rfl, e]
    rw [e] at hb
    intro l hl
    rcases List.mem_cons.mp hl with rfl | hl
    · exact break_append (name_break hp) (hb b List.mem_cons_self)
    · exact hb l (List.mem_cons_of_mem _ hl)
  | false =>
    rw [if_neg (by decide)]
    intro l hl
    rcases List.mem_cons.mp hl with rfl | hl
    · exact break_append (name_break hp) hc
    · exact (List.mem_append.mp hl).elim (hd l) (hb l)

theorem detailAll_read (diet : Bool) (level : Nat) (debug : Addr → Option Str) {t : SymTree} (ht : Tree.Sorted t)
    (hn : ∀ s ∈ t, PlainSymbol s) (hr : 3 ≤ level → ∀ s ∈ t, ∀ r ∈ s.rels, PlainRel t r) (hd : ∀ s ∈ t, ∀ d, debug s.address = some d → PlainDebug d)
    (l : List Symbol) (hl : ∀ s ∈ l, s ∈ t) : ∃ (lines : List Str) (ds : List Detail), detailAll diet level debug t l = some (lines.flatMap (· ++ ['\n'])) ∧
      (∀ x ∈ lines, '\n' ∉ x) ∧ (∀ fuel, lines.length ≤ fuel → readDetails diet level fuel lines = some ds) ∧ AllMatch (fun s => DetailOf diet level t (debug s.address) s) l ds := by
  induction l with
  | nil =>
    exact ⟨[], [], rfl, fun x h => absurd h List.not_mem_nil, fun fuel _ => (by cases fuel <;> rfl), rfl, fun i a b h _ => (by cases h)⟩
  | cons s l ih =>
    obtain ⟨lines, ds, h1, h2, h3, h4⟩ := ih (fun x hx => hl x (List.mem_cons_of_mem _ hx))
    have hs := hl s List.mem_cons_self
    obtain ⟨colon, dbg, g1, g2, g3, g4⟩ := symLines_text diet level (t := t) (hd s hs)
    obtain ⟨sec, hsec, _⟩ := (hn s hs).2
    obtain ⟨x, xs, hx⟩ := symLines_ne diet level t s colon dbg
    refine ⟨symLines diet level t s colon dbg ++ lines, detailFor level t s sec (!diet && colon == [':']) (if diet then [] else dbg) :: ds, ?_, ?_, ?_, ?_, ?_⟩
    · rw [detailAll, g3, h1, List.flatMap_append]
      rfl
    · intro y hy
      exact (List.mem_append.mp hy).elim (symLines_break (hn s hs) (body_break ht hn (fun h => hr h s hs)) g2 (fun z hz => (g1 z hz).1) y) (h2 y)
    · intro fuel hf
      have hread := symLines_read diet level t (hn s hs) hsec colon dbg lines (fun z hz => (g1 z hz).2)
      rw [hx] at hread hf ⊢
      cases fuel with
      | zero => simp at hf
      | succ fuel =>
        rw [List.cons_append, readDetails, ← List.cons_append, hread]
        simp only [Option.bind_eq_bind, Option.bind_some]
        rw [h3 fuel (by simp only [List.length_append, List.length_cons] at hf; omega)]
        rfl
    · simp only [List.length_cons, h4.1]
    · intro i a b ha hb
      cases i with
      | zero =>
        obtain rfl := Option.some.inj ha
        obtain rfl := Option.some.inj hb
        exact detailFor_ok ht hn hsec (fun h => hr h s hs) g4
      | succ i => exact h4.2 i a b ha hb

/-- C112: The detailed listing ends, and everything about the symbols can be read back. What is missing: names with blanks or line breaks, relocations without
symbol at or in front of the target, and debug texts with empty lines (for which it does not hold). -/
theorem C112_read_partial (diet : Bool) (level : Nat) (debug : Addr → Option Str) {t : SymTree} (ht : Tree.Sorted t) (hne : t ≠ [])
    (hn : ∀ s ∈ t, PlainSymbol s) (hr : 3 ≤ level → ∀ s ∈ t, ∀ r ∈ s.rels, PlainRel t r) (hd : ∀ s ∈ t, ∀ d, debug s.address = some d → PlainDebug d) :
    ∃ text ds, detailListing diet level debug t = .ok (some text) ∧ readDetails diet level (readLines text).length (readLines text) = some ds ∧
      AllMatch (fun s => DetailOf diet level t (debug s.address) s) t ds := by
  obtain ⟨lines, ds, h1, h2, h3, h4⟩ := detailAll_read diet level debug ht hn hr hd t (fun _ h => h)
  refine ⟨lines.flatMap (· ++ ['\n']), ds, ?_, ?_, h4⟩
  · unfold detailListing
    rw [List.getLast?_eq_some_getLast hne, h1]
  · rw [readLines_lines h2]
    exact h3 _ (Nat.le_refl _)

/-! ### Examples -/

def detText : Section := { name := some ".text", executable := true }

def detMain : Symbol where
  address := 0x1000
  size := 12
  name := some "main"
  type := .func
  bind := .global
  flags := 5
  sec := detText
  id := { internal := 7, external := 8 }
  refs := [0x1010, 0x10]
  rels := [{ offset := 0x1004, type := 2, name := some "puts", addend := -4, target := 0x1010, instruction_access := 4, instruction_offset := 1 }]
  offset_ids := [(5, 0xab)]

def detStub : Symbol where
  address := 0x1010
  size := 5
  sec := detText
  deps := [0x1000]

def detDebug (a : Addr) : Option Str := if a = 0x1000 then some "          0x1000 c3 ret \n          0x1001 c3 ret \n".toList else none

theorem det_plain : ∀ s ∈ [detMain, detStub], PlainSymbol s := by
  intro s hs
  simp only [List.mem_cons, List.not_mem_nil, or_false] at hs
  rcases hs with rfl | rfl
  · refine ⟨fun n h => ?_, ".text", rfl, by unfold Word; decide, by decide⟩
    obtain rfl := Option.some.inj (h : some "main" = some n)
    unfold Word
    decide
  · exact ⟨fun n h => (by cases h), ".text", rfl, by unfold Word; decide, by decide⟩

theorem det_rels : ∀ s ∈ [detMain, detStub], ∀ r ∈ s.rels, PlainRel [detMain, detStub] r := by
  intro s hs r hr
  simp only [List.mem_cons, List.not_mem_nil, or_false] at hs
  rcases hs with rfl | rfl
  · rw [List.mem_singleton.mp (show r ∈ [_] from hr)]
    refine ⟨⟨detStub, by decide⟩, by decide, fun n h => ?_⟩
    obtain rfl := Option.some.inj (h : some "puts" = some n)
    unfold Word
    decide
  · cases hr

theorem det_debug : ∀ s ∈ [detMain, detStub], ∀ d, detDebug s.address = some d → PlainDebug d := by
  intro s hs d hd
  simp only [List.mem_cons, List.not_mem_nil, or_false] at hs
  rcases hs with rfl | rfl
  · obtain rfl := Option.some.inj (hd : some "          0x1000 c3 ret \n          0x1001 c3 ret \n".toList = some d)
    exact ⟨["          0x1000 c3 ret ".toList, "          0x1001 c3 ret ".toList], by decide +kernel, by decide +kernel⟩
  · cases hd

example (diet : Bool) (level : Nat) : ∃ text ds, detailListing diet level detDebug [detMain, detStub] = .ok (some text) ∧
    readDetails diet level (readLines text).length (readLines text) = some ds ∧ AllMatch (fun s => DetailOf diet level [detMain, detStub] (detDebug s.address) s) [detMain, detStub] ds := by
  exact C112_read_partial diet level detDebug (by decide) (by decide) det_plain (fun _ => det_rels) det_debug

/-- What is read for the first symbol. -/
example : (detailFor 3 [detMain, detStub] detMain ".text" true []).rels =
      [(some ⟨0x1004, 2, "puts".toList, { internal := 0, external := 0 }, -4⟩, some ⟨false, false, true, false, 1⟩)] ∧
    (detailFor 3 [detMain, detStub] detMain ".text" true []).refs = [some ⟨false, 0x1010, none⟩, some ⟨false, 0x10, none⟩] := by
  decide +kernel

/-! ### Where it does not hold -/

/-- C112 is false for debug texts with an empty line: the output does not end. The debug text of a function contains the names of the symbols it refers to, so that
a name with two line breaks is sufficient. -/
theorem C112_loop_counterexample : ∃ n : String, detailListing false 2 (fun _ => some ("0x1000 e8 call # <".toList ++ n.toList ++ ">\n".toList)) [detStub] = .ok none := by
  refine ⟨"a\n\nb", ?_⟩
  have e1 : debugText ("\nb>\n".toList) = none := by
    rw [debugText.eq_def]
    rfl
  have e2 : debugText ("0x1000 e8 call # <".toList ++ "a\n\nb".toList ++ ">\n".toList) = none := by
    rw [show "0x1000 e8 call # <".toList ++ "a\n\nb".toList ++ ">\n".toList = '0' :: ("x1000 e8 call # <a\n\nb>\n".toList) by decide +kernel, debugText.eq_def]
    dsimp only
    rw [if_neg (by decide)]
    split
    · rename_i h
      exact absurd h (by decide +kernel)
    · rename_i h
      rw [show List.dropWhile (fun x => decide (x ≠ '\n')) ('0' :: "x1000 e8 call # <a\n\nb>\n".toList) = '\n' :: "\nb>\n".toList by decide +kernel] at h
      injection h with _ h
      rw [← h, e1]
      rfl
  unfold detailListing
  show Except.ok (detailAll false 2 _ [detStub] [detStub]) = _
  rw [detailAll]
  unfold detailSymbol detailMiddle
  rw [if_neg (by decide), debugPart, e2]
  rfl

/-- Whether a branch is conditional is not shown. -/
theorem C112_conditional_counterexample : ∃ r r' : Rel, r.instruction_access ≠ r'.instruction_access ∧
    relLine [detStub] r ++ accessText r = relLine [detStub] r' ++ accessText r' := by
  exact ⟨{ offset := 0, type := 2, target := 0x1010, instruction_access := ACCESSFLAG_BRANCH },
    { offset := 0, type := 2, target := 0x1010, instruction_access := ACCESSFLAG_BRANCH ||| ACCESSFLAG_CONDITIONAL }, by decide, by decide +kernel⟩

/-- Builds without debug texts (`VERBOSE_MODE=0`): the number of references is on the line of the name. -/
theorem C112_line_counterexample : ∃ text, detailListing true 2 (fun _ => none) [detStub] = .ok (some text) ∧
    (readLines text).head? = some (detailName detStub ++ "  1 depending on this".toList) := by
  exact ⟨_, rfl, by decide +kernel⟩

/-- C112 is false without symbols: the behaviour is undefined at all of these levels, as for the others (C79_empty). -/
theorem C112_empty_counterexample (diet : Bool) (level : Nat) (debug : Addr → Option Str) (t : SymTree) :
    (detailListing diet level debug t = .error .ub) ↔ t = [] := by
  unfold detailListing
  cases h : t.getLast? with
  | none => exact ⟨fun _ => List.getLast?_eq_none_iff.mp h, fun _ => rfl⟩
  | some s => exact ⟨(fun e => by cases e), fun e => by rw [e] at h; cases h⟩

end Bean.Props

import Verif.Model.Listing
import Verif.Spec.Listing
import Verif.Props.DwarfVars
/-
C105: what the listing tells about the symbols.
-/
namespace Bean.Props
open Bean Bean.Spec

/-! ### Pieces of text -/

/-- Text up to the first character of another kind. -/
theorem cut_inj {p : Char → Bool} {x y r s : Str} {c d : Char} (hx : ∀ a ∈ x, p a = true) (hy : ∀ a ∈ y, p a = true) (hc : p c = false)
    (hd : p d = false) (h : x ++ c :: r = y ++ d :: s) : x = y ∧ c = d ∧ r = s := by
  induction x generalizing y with
  | nil =>
    cases y with
    | nil =>
      injection h with h1 h2
      exact ⟨rfl, h1, h2⟩
    | cons b y =>
      injection h with h1 h2
      have := hy b (List.mem_cons_self ..)
      rw [← h1, hc] at this
      cases this
  | cons a x ih =>
    cases y with
    | nil =>
      injection h with h1 h2
      have := hx a (List.mem_cons_self ..)
      rw [h1, hd] at this
      cases this
    | cons b y =>
      injection h with h1 h2
      obtain ⟨e1, e2, e3⟩ := ih (fun z hz => hx z (List.mem_cons_of_mem _ hz)) (fun z hz => hy z (List.mem_cons_of_mem _ hz)) h2
      exact ⟨by rw [h1, e1], e2, e3⟩

theorem numeral_inj {b : Nat} (hb : 1 < b) (hb' : b ≤ 16) {m n : Nat} (h : Nat.toDigits b m = Nat.toDigits b n) : m = n := by
  have h1 := parseDigits_toDigits hb hb' m
  rw [h, parseDigits_toDigits hb hb' n] at h1
  exact (Option.some.inj h1).symm

theorem parseDigits_zeros (k : Nat) (s : Str) : parseDigits 16 0 (List.replicate k '0' ++ s) = parseDigits 16 0 s := by
  induction k with
  | zero => rfl
  | succ k ih =>
    rw [List.replicate_succ, List.cons_append, parseDigits]
    exact ih

theorem hex16_length (x : BitVec 64) : (hex16 x).length = 16 := by
  have h : (Nat.toDigits 16 x.toNat).length ≤ 16 := (Nat.length_toDigits_le_iff (by decide) (by decide)).mpr x.isLt
  unfold hex16 padZeros
  rw [List.length_append, List.length_replicate]
  omega

theorem hex16_inj {x y : BitVec 64} (h : hex16 x = hex16 y) : x = y := by
  have h1 : parseDigits 16 0 (hex16 x) = some x.toNat := by
    unfold hex16 padZeros
    rw [parseDigits_zeros, parseDigits_toDigits (by decide) (by decide)]
  have h2 : parseDigits 16 0 (hex16 y) = some y.toNat := by
    unfold hex16 padZeros
    rw [parseDigits_zeros, parseDigits_toDigits (by decide) (by decide)]
  rw [h, h2] at h1
  exact BitVec.eq_of_toNat_eq (Option.some.inj h1).symm

theorem hex_cut {x y : BitVec 64} {r s : Str} (h : hex16 x ++ r = hex16 y ++ s) : x = y ∧ r = s := by
  obtain ⟨h1, h2⟩ := List.append_inj h (by rw [hex16_length, hex16_length])
  exact ⟨hex16_inj h1, h2⟩

theorem dropBlank (k : Nat) {n : Nat} (r : Str) :
    (List.replicate k ' ' ++ (Nat.toDigits 10 n ++ r)).dropWhile (· = ' ') = Nat.toDigits 10 n ++ r := by
  induction k with
  | zero =>
    have hd : ∀ c ∈ Nat.toDigits 10 n, c.isDigit = true := fun c hc => Nat.isDigit_of_mem_toDigits (by decide) (by decide) hc
    cases hn : Nat.toDigits 10 n with
    | nil => exact absurd hn Nat.toDigits_ne_nil
    | cons c l =>
      rw [hn] at hd
      have hc : ¬ c = ' ' := by
        intro e
        have := hd c (List.mem_cons_self ..)
        rw [e] at this
        exact absurd this (by decide)
      rw [List.replicate_zero, List.nil_append, List.cons_append, List.dropWhile_cons_of_neg (by simpa using hc)]
  | succ k ih =>
    rw [List.replicate_succ, List.cons_append, List.dropWhile_cons_of_pos (by decide)]
    exact ih

theorem dec_cut {k m n : Nat} {c : Char} {r s : Str} (hc : c.isDigit = false)
    (h : padLeft k (Nat.toDigits 10 m) ++ c :: r = padLeft k (Nat.toDigits 10 n) ++ c :: s) : m = n ∧ r = s := by
  unfold padLeft at h
  rw [List.append_assoc, List.append_assoc] at h
  have h1 := congrArg (List.dropWhile (· = ' ')) h
  rw [dropBlank, dropBlank] at h1
  obtain ⟨e1, -, e3⟩ := cut_inj (p := Char.isDigit) (fun a ha => Nat.isDigit_of_mem_toDigits (by decide) (by decide) ha)
    (fun a ha => Nat.isDigit_of_mem_toDigits (by decide) (by decide) ha) hc hc h1
  exact ⟨numeral_inj (by decide) (by decide) e1, e3⟩

theorem type_cut {x y : SymType} {r s : Str} (h : padRight 9 (symTypeText x) ++ r = padRight 9 (symTypeText y) ++ s) : x = y ∧ r = s := by
  have hl : ∀ z, (padRight 9 (symTypeText z)).length = 9 := by intro z; cases z <;> rfl
  obtain ⟨h1, h2⟩ := List.append_inj h (by rw [hl, hl])
  refine ⟨?_, h2⟩
  revert h1
  cases x <;> cases y <;> decide

theorem bind_cut {x y : SymBind} {r s : Str} (h : padRight 6 (symBindText x) ++ r = padRight 6 (symBindText y) ++ s) : x = y ∧ r = s := by
  have hl : ∀ z, (padRight 6 (symBindText z)).length = 6 := by intro z; cases z <;> rfl
  obtain ⟨h1, h2⟩ := List.append_inj h (by rw [hl, hl])
  refine ⟨?_, h2⟩
  revert h1
  cases x <;> cases y <;> decide

theorem flag_cut {x y : Symbol} {r s : Str} (h : flagColumn x ++ r = flagColumn y ++ s) :
    x.sec.writeable = y.sec.writeable ∧ (x.sec.writeable && x.sec.has SECTION_RELRO) = (y.sec.writeable && y.sec.has SECTION_RELRO) ∧
    x.sec.executable = y.sec.executable ∧ TLS.is_tls x.address = TLS.is_tls y.address ∧ r = s := by
  obtain ⟨h1, h2⟩ := List.append_inj h rfl
  unfold flagColumn at h1
  injection h1 with ha h1
  injection h1 with hb h1
  injection h1 with hc
  revert ha hb hc
  cases x.sec.writeable <;> cases y.sec.writeable <;> cases x.sec.has SECTION_RELRO <;> cases y.sec.has SECTION_RELRO <;>
    cases x.sec.executable <;> cases y.sec.executable <;> cases TLS.is_tls x.address <;> cases TLS.is_tls y.address <;> simp [h2]

theorem id_cut {x y : Identifier} {r s : Str} (h : symIdText x ++ r = symIdText y ++ s) : x = y ∧ r = s := by
  unfold symIdText at h
  simp only [List.append_assoc, List.cons_append, List.nil_append] at h
  injection h with _ h
  obtain ⟨h1, h⟩ := hex_cut h
  injection h with _ h
  obtain ⟨h2, h⟩ := hex_cut h
  injection h with _ h
  refine ⟨?_, h⟩
  cases x
  cases y
  cases h1
  cases h2
  rfl

/-! ### Lines -/

/-- The columns up to the names tell the facts of a symbol. -/
theorem row_cut {x y : Symbol} {r s : Str} (h : listLine 1 x ++ r = listLine 1 y ++ s) :
    Spec.rowOf x = Spec.rowOf y ∧ nameColumn x ++ r = nameColumn y ++ s := by
  unfold listLine at h
  rw [if_pos rfl, if_pos rfl, List.append_assoc, List.append_assoc] at h
  obtain ⟨h1, h⟩ := id_cut h
  unfold columns at h
  simp only [List.append_assoc, List.cons_append] at h
  replace h := List.append_cancel_left h
  obtain ⟨h2, h⟩ := dec_cut (c := ' ') (by decide) h
  replace h := List.append_cancel_left (as := "/ ".toList) h
  obtain ⟨h3, h⟩ := dec_cut (c := ' ') (by decide) h
  replace h := List.append_cancel_left (as := "/ ".toList) h
  obtain ⟨h4, h⟩ := dec_cut (c := ']') (by decide) h
  replace h := List.append_cancel_left (as := " - 0x".toList) h
  obtain ⟨h5, h⟩ := hex_cut h
  obtain ⟨h6, h⟩ := dec_cut (c := ' ') (by decide) h
  obtain ⟨h7, h⟩ := type_cut h
  obtain ⟨h8, h⟩ := bind_cut h
  injection h with _ h
  obtain ⟨h9, h10, h11, h12, h⟩ := flag_cut h
  refine ⟨?_, h⟩
  unfold Spec.rowOf
  rw [h1, h2, h3, h4, h5, BitVec.eq_of_toNat_eq h6, h7, h8, h10, h9, h11, h12]

theorem nameColumn_line {s : Symbol} (h : Spec.OneLine s) : ∀ c ∈ nameColumn s, (c != '\n') = true := by
  intro c hc
  rw [bne_iff_ne]
  rintro rfl
  unfold nameColumn shownName at hc
  rcases List.mem_append.mp hc with hc | hc
  · cases hn : s.name with
    | none => rw [hn] at hc; cases hc
    | some n =>
      rw [hn] at hc
      dsimp only at hc
      by_cases he : n.toList = []
      · rw [if_pos he] at hc; cases hc
      · rw [if_neg he] at hc
        rcases List.mem_cons.mp hc with hc | hc
        · exact absurd hc (by decide)
        · exact h.1 n hn hc
  · cases hn : s.sec.name with
    | none => rw [hn] at hc; cases hc
    | some n =>
      rw [hn] at hc
      simp only [secText, List.mem_cons, List.mem_append, List.cons_append] at hc
      rcases hc with hc | hc | hc | hc | hc
      · exact absurd hc (by decide)
      · exact absurd hc (by decide)
      · exact h.2 n hn hc
      · exact absurd hc (by decide)
      · cases hc

theorem rows_inj {a b : List Symbol} (ha : ∀ s ∈ a, Spec.OneLine s) (hb : ∀ s ∈ b, Spec.OneLine s)
    (h : a.flatMap (fun s => listLine 1 s ++ ['\n']) = b.flatMap (fun s => listLine 1 s ++ ['\n'])) :
    a.map (fun s => (Spec.rowOf s, nameColumn s)) = b.map (fun s => (Spec.rowOf s, nameColumn s)) := by
  induction a generalizing b with
  | nil =>
    cases b with
    | nil => rfl
    | cons y b =>
      have := congrArg List.length h
      rw [List.flatMap_cons, List.length_append, List.length_append] at this
      simp at this
      omega
  | cons x a ih =>
    cases b with
    | nil =>
      have := congrArg List.length h
      rw [List.flatMap_cons, List.length_append, List.length_append] at this
      simp at this
    | cons y b =>
      rw [List.flatMap_cons, List.flatMap_cons, List.append_assoc, List.append_assoc] at h
      obtain ⟨h1, h⟩ := row_cut h
      obtain ⟨h2, -, h⟩ := cut_inj (p := (· != '\n')) (nameColumn_line (ha x (List.mem_cons_self ..)))
        (nameColumn_line (hb y (List.mem_cons_self ..))) (by decide) (by decide) h
      rw [List.map_cons, List.map_cons, h1, h2, ih (fun s hs => ha s (List.mem_cons_of_mem _ hs))
        (fun s hs => hb s (List.mem_cons_of_mem _ hs)) h]

theorem ids_inj {a b : List Symbol} (h : a.flatMap (fun s => listLine 0 s ++ ['\n']) = b.flatMap (fun s => listLine 0 s ++ ['\n'])) :
    a.map (·.id) = b.map (·.id) := by
  induction a generalizing b with
  | nil =>
    cases b with
    | nil => rfl
    | cons y b =>
      have := congrArg List.length h
      rw [List.flatMap_cons, List.length_append, List.length_append] at this
      simp at this
      omega
  | cons x a ih =>
    cases b with
    | nil =>
      have := congrArg List.length h
      rw [List.flatMap_cons, List.length_append, List.length_append] at this
      simp at this
    | cons y b =>
      rw [List.flatMap_cons, List.flatMap_cons, List.append_assoc, List.append_assoc] at h
      have hz : ∀ s, listLine 0 s = symIdText s.id := fun s => List.append_nil _
      rw [hz, hz] at h
      obtain ⟨h1, h⟩ := id_cut h
      injection h with _ h
      rw [List.map_cons, List.map_cons, h1, ih h]

theorem listSymbols_ok {level : Nat} {a : SymTree} {t : Str} (h : listSymbols level a = .ok t) :
    a ≠ [] ∧ t = listHeader level ++ a.flatMap (fun s => listLine level s ++ ['\n']) := by
  unfold listSymbols at h
  cases hl : a.getLast? with
  | none => rw [hl] at h; cases h
  | some x =>
    rw [hl] at h
    refine ⟨?_, (Except.ok.inj h).symm⟩
    rintro rfl
    cases hl

theorem sec_text_inj {s t : Option String} (h : secText s = secText t) : s = t := by
  cases s with
  | none =>
    cases t with
    | none => rfl
    | some n => cases h
  | some m =>
    cases t with
    | none => cases h
    | some n =>
      injection h with _ h
      injection h with _ h
      rw [String.toList_injective (List.append_cancel_right h)]

theorem shownName_eq (n : Option String) : shownName n = (n.filter (· ≠ "")).map String.toList := by
  cases n with
  | none => rfl
  | some s =>
    unfold shownName
    dsimp only
    by_cases h : s.toList = []
    · have hs : s = "" := String.toList_injective h
      rw [if_pos h, hs]
      rfl
    · have hs : s ≠ "" := fun e => h (by rw [e]; rfl)
      rw [if_neg h, Option.filter_some_pos (by simpa using hs)]
      rfl

theorem nameColumn_of {x y : Symbol} (h : Spec.namesOf x = Spec.namesOf y) : nameColumn x = nameColumn y := by
  unfold Spec.namesOf at h
  injection h with h1 h2
  unfold nameColumn
  rw [shownName_eq, shownName_eq, h1, h2]

/-- Names and sections can be told apart if the names are words. -/
theorem names_cut {x y : Symbol} (hx : Spec.PlainName x) (hy : Spec.PlainName y) (h : nameColumn x = nameColumn y) :
    Spec.namesOf x = Spec.namesOf y := by
  have hw : ∀ {s : Symbol} {n : String}, Spec.PlainName s → s.name.filter (· ≠ "") = some n →
      (∀ c ∈ n.toList, (c != ' ') = true) ∧ ∃ c l, n.toList = c :: l ∧ c ≠ '(' := by
    intro s n hs hn
    obtain ⟨hn1, hn2⟩ := Option.filter_eq_some_iff.mp hn
    obtain ⟨h1, h2⟩ := hs n hn1
    refine ⟨fun c hc => by rw [bne_iff_ne]; rintro rfl; exact h1 hc, ?_⟩
    cases hl : n.toList with
    | nil => exact absurd (String.toList_injective (hl.trans (by rfl : ([] : Str) = "".toList))) (by simpa using hn2)
    | cons c l =>
      refine ⟨c, l, rfl, ?_⟩
      rintro rfl
      rw [hl] at h2
      exact h2 rfl
  unfold nameColumn at h
  rw [shownName_eq, shownName_eq] at h
  unfold Spec.namesOf
  cases hn : x.name.filter (· ≠ "") with
  | none =>
    cases hm : y.name.filter (· ≠ "") with
    | none =>
      rw [hn, hm] at h
      rw [sec_text_inj h]
    | some m =>
      rw [hn, hm] at h
      obtain ⟨-, c, l, hl, hc⟩ := hw hy hm
      dsimp only [Option.map_some, Option.map_none] at h
      rw [hl] at h
      cases hs : x.sec.name with
      | none => rw [hs] at h; cases h
      | some k =>
        rw [hs] at h
        injection h with _ h
        injection h with h _
        exact absurd h.symm hc
  | some n =>
    cases hm : y.name.filter (· ≠ "") with
    | none =>
      rw [hn, hm] at h
      obtain ⟨-, c, l, hl, hc⟩ := hw hx hn
      dsimp only [Option.map_some, Option.map_none] at h
      rw [hl] at h
      cases hs : y.sec.name with
      | none => rw [hs] at h; cases h
      | some k =>
        rw [hs] at h
        injection h with _ h
        injection h with h _
        exact absurd h hc
    | some m =>
      rw [hn, hm] at h
      dsimp only [Option.map_some] at h
      injection h with _ h
      have hb : ∀ s : Option String, ∃ r : Str, secText s ++ [' '] = ' ' :: r := by
        intro s
        cases s with
        | none => exact ⟨[], rfl⟩
        | some k => exact ⟨_, rfl⟩
      have h' := congrArg (fun z : Str => z ++ [' ']) h
      replace h' : (n.toList ++ _) ++ [' '] = (m.toList ++ _) ++ [' '] := h'
      rw [List.append_assoc, List.append_assoc] at h'
      obtain ⟨r, hr⟩ := hb x.sec.name
      obtain ⟨q, hq⟩ := hb y.sec.name
      have h2 := h'
      rw [hr, hq] at h2
      obtain ⟨e, -, -⟩ := cut_inj (p := (· != ' ')) (hw hx hn).1 (hw hy hm).1 (by decide) (by decide) h2
      rw [e] at h
      rw [String.toList_injective e, sec_text_inj (List.append_cancel_left h)]

theorem listing_cancel {level : Nat} {a b : SymTree} {t : Str} (ha : listSymbols level a = .ok t) (hb : listSymbols level b = .ok t) :
    a.flatMap (fun s => listLine level s ++ ['\n']) = b.flatMap (fun s => listLine level s ++ ['\n']) := by
  have h := (listSymbols_ok ha).2.symm.trans (listSymbols_ok hb).2
  generalize listHeader level = e at h
  exact List.append_cancel_left h

theorem listing_of {level : Nat} {a b : SymTree} {t u : Str} (ha : listSymbols level a = .ok t) (hb : listSymbols level b = .ok u)
    (h : a.flatMap (fun s => listLine level s ++ ['\n']) = b.flatMap (fun s => listLine level s ++ ['\n'])) : t = u := by
  have h1 := (listSymbols_ok ha).2
  have h2 := (listSymbols_ok hb).2
  rw [h1, h2, h]

/-- A line depends on facts and names only. -/
theorem listLine_of {x y : Symbol} (h1 : Spec.rowOf x = Spec.rowOf y) (h2 : Spec.namesOf x = Spec.namesOf y) :
    listLine 1 x = listLine 1 y := by
  unfold Spec.rowOf at h1
  injection h1 with e1 e2 e3 e4 e5 e6 e7 e8 e9 e10 e11 e12
  have hf : flagColumn x = flagColumn y := by
    unfold flagColumn
    rw [e6, e12]
    revert e10 e11
    cases x.sec.writeable <;> cases y.sec.writeable <;> cases x.sec.has SECTION_RELRO <;> cases y.sec.has SECTION_RELRO <;> simp
  unfold listLine columns
  rw [e1, e2, e3, e4, e5, e7, e8, e9, hf, nameColumn_of h2]

theorem names_inj {a b : List Symbol} (ha : ∀ s ∈ a, PlainName s) (hb : ∀ s ∈ b, PlainName s)
    (h : a.map (fun s => (rowOf s, nameColumn s)) = b.map (fun s => (rowOf s, nameColumn s))) :
    a.map (fun s => (rowOf s, namesOf s)) = b.map (fun s => (rowOf s, namesOf s)) := by
  induction a generalizing b with
  | nil =>
    cases b with
    | nil => rfl
    | cons y b => cases h
  | cons x a ih =>
    cases b with
    | nil => cases h
    | cons y b =>
      rw [List.map_cons, List.map_cons] at h
      injection h with h1 h2
      injection h1 with h1 h3
      rw [List.map_cons, List.map_cons, h1, names_cut (ha x (List.mem_cons_self ..)) (hb y (List.mem_cons_self ..)) h3,
        ih (fun s hs => ha s (List.mem_cons_of_mem _ hs)) (fun s hs => hb s (List.mem_cons_of_mem _ hs)) h2]

theorem lines_of {a b : List Symbol} (h : a.map (fun s => (rowOf s, namesOf s)) = b.map (fun s => (rowOf s, namesOf s))) :
    a.flatMap (fun s => listLine 1 s ++ ['\n']) = b.flatMap (fun s => listLine 1 s ++ ['\n']) := by
  induction a generalizing b with
  | nil =>
    cases b with
    | nil => rfl
    | cons y b => cases h
  | cons x a ih =>
    cases b with
    | nil => cases h
    | cons y b =>
      rw [List.map_cons, List.map_cons] at h
      injection h with h1 h2
      injection h1 with h1 h3
      rw [List.flatMap_cons, List.flatMap_cons, listLine_of h1 h3, ih h2]

/-! ### C105 -/

/-- C105: The listing of identifiers tells the identifiers of all symbols in their order, and nothing else. -/
theorem C105_ids {a b : SymTree} {t u : Str} (ha : listSymbols 0 a = .ok t) (hb : listSymbols 0 b = .ok u) :
    t = u ↔ a.map (·.id) = b.map (·.id) := by
  constructor
  · rintro rfl
    exact ids_inj (listing_cancel ha hb)
  · intro h
    refine listing_of ha hb ?_
    have hz : ∀ l : SymTree, l.flatMap (fun s => listLine 0 s ++ ['\n']) = (l.map (·.id)).flatMap (fun i => symIdText i ++ ['\n']) := by
      intro l
      rw [List.flatMap_map]
      exact congrArg (fun f => List.flatMap f l) (funext fun s => by
        show (symIdText s.id ++ []) ++ ['\n'] = _
        rw [List.append_nil])
    rw [hz, hz, h]

/-- C105: Listings with addresses and names are equal only if all facts about the symbols are. -/
theorem C105_rows {a b : SymTree} {t : Str} (ha : listSymbols 1 a = .ok t) (hb : listSymbols 1 b = .ok t)
    (ha' : ∀ s ∈ a, Spec.OneLine s) (hb' : ∀ s ∈ b, Spec.OneLine s) : a.map Spec.rowOf = b.map Spec.rowOf := by
  have h := rows_inj ha' hb' (listing_cancel ha hb)
  have := congrArg (List.map Prod.fst) h
  rw [List.map_map, List.map_map] at this
  exact this

/-- C105: If the names are words, then listings are equal exactly if facts, names and sections are. What is missing: names with
blanks or with a parenthesis at the start (`C105_names_counterexample`). -/
theorem C105_names_partial {a b : SymTree} {t u : Str} (ha : listSymbols 1 a = .ok t) (hb : listSymbols 1 b = .ok u)
    (ha' : ∀ s ∈ a, Spec.OneLine s ∧ Spec.PlainName s) (hb' : ∀ s ∈ b, Spec.OneLine s ∧ Spec.PlainName s) :
    t = u ↔ a.map (fun s => (Spec.rowOf s, Spec.namesOf s)) = b.map (fun s => (Spec.rowOf s, Spec.namesOf s)) := by
  constructor
  · rintro rfl
    exact names_inj (fun s hs => (ha' s hs).2) (fun s hs => (hb' s hs).2)
      (rows_inj (fun s hs => (ha' s hs).1) (fun s hs => (hb' s hs).1) (listing_cancel ha hb))
  · exact fun h => listing_of ha hb (lines_of h)

/-- A function and a variable. -/
def exRows : SymTree :=
  [{ address := 0x1000, size := 24, name := some "main", type := .func, bind := .global, sec := { executable := true, name := some ".text" },
     id := { internal := 0x0123456789abcdef, external := 7 }, refs := [0x4000], deps := [] },
   { address := 0x4000, size := 8, type := .object, sec := { writeable := true }, id := { internal := 1 }, deps := [0x1000] }]

/-- Both listings exist, and the conditions on the names hold. -/
example : (∃ t, listSymbols 0 exRows = .ok t) ∧ (∃ t, listSymbols 1 exRows = .ok t) ∧
    (∀ s ∈ exRows, OneLine s ∧ PlainName s) := by
  refine ⟨⟨_, rfl⟩, ⟨_, rfl⟩, ?_⟩
  intro s hs
  simp only [exRows, List.mem_cons, List.not_mem_nil, or_false] at hs
  rcases hs with rfl | rfl
  · refine ⟨⟨?_, ?_⟩, ?_⟩ <;> (intro n hn; cases hn; decide)
  · refine ⟨⟨?_, ?_⟩, ?_⟩ <;> (intro n hn; cases hn)

/-- The line of the function. -/
example : (exRows.head?.map (listLine 1)) =
    some "{0123456789abcdef 0000000000000007} [  1 /   0 /   0] - 0x0000000000001000     24 function global  X  main (.text)".toList := by
  decide +kernel

/-- C105 fails for other names: a symbol without section whose name is in parentheses is listed like a symbol without name. -/
theorem C105_names_counterexample : ∃ a b : Symbol, OneLine a ∧ OneLine b ∧ listLine 1 a = listLine 1 b ∧ namesOf a ≠ namesOf b := by
  refine ⟨{ address := 0x1000, name := some "(.text)" }, { address := 0x1000, sec := { name := some ".text" } }, ⟨?_, ?_⟩, ⟨?_, ?_⟩,
    by decide +kernel, by decide⟩
  · intro n hn; cases hn; decide
  · intro n hn; cases hn
  · intro n hn; cases hn
  · intro n hn; cases hn; decide

/-- C105 fails for names with line breaks: the name of one symbol can hold the line of another one. -/
theorem C105_break_counterexample : ∃ a b : SymTree, ∃ t, listSymbols 1 a = .ok t ∧ listSymbols 1 b = .ok t ∧ a.length ≠ b.length := by
  refine ⟨[{ address := 0x1000, name := some (String.ofList ('f' :: '\n' :: listLine 1 { address := 0x2000 })) }],
    [{ address := 0x1000, name := some "f" }, { address := 0x2000 }], _, rfl, ?_, by decide⟩
  refine congrArg (fun z => Except.ok (listHeader 1 ++ z)) (?_ : List.flatMap (fun s => listLine 1 s ++ ['\n']) _ = _)
  decide +kernel

end Bean.Props

import Verif.Props.ElfVars
/-
C81: what the hashed text determines.
-/
namespace Bean.Props
open Bean Bean.Spec

/-- Characters between the parts of an entry. -/
def isDelim (c : Char) : Bool := c == '#' || c == '@' || c == '/' || c == ':'

/-- The text ends or continues with a delimiter. -/
def Delimited (r : Str) : Prop := ∀ c, r.head? = some c → isDelim c = true

/-- Texts without delimiters are determined by a text they start. -/
theorem split_delim {a b r r' : Str} (ha : ∀ c ∈ a, isDelim c = false) (hb : ∀ c ∈ b, isDelim c = false)
    (hr : Delimited r) (hr' : Delimited r') (h : a ++ r = b ++ r') : a = b ∧ r = r' := by
  induction a generalizing b with
  | nil =>
    cases b with
    | nil => exact ⟨rfl, h⟩
    | cons y b =>
      have := hr y (by rw [show r = y :: (b ++ r') from h]; rfl)
      rw [hb y List.mem_cons_self] at this
      cases this
  | cons x a ih =>
    cases b with
    | nil =>
      have := hr' x (by rw [← show x :: (a ++ r) = r' from h]; rfl)
      rw [ha x List.mem_cons_self] at this
      cases this
    | cons y b =>
      have e := List.cons.inj h
      obtain ⟨i1, i2⟩ := ih (fun c hc => ha c (List.mem_cons_of_mem _ hc)) (fun c hc => hb c (List.mem_cons_of_mem _ hc)) e.2
      exact ⟨by rw [e.1, i1], i2⟩

theorem digit_delim {c : Char} (h : c.isDigit = true) : isDelim c = false := by
  unfold isDelim
  simp only [Bool.or_eq_false_iff, beq_eq_false_iff_ne]
  refine ⟨⟨⟨?_, ?_⟩, ?_⟩, ?_⟩ <;> rintro rfl <;> revert h <;> decide

theorem intText_delim (i : Int) : ∀ c ∈ intText i, isDelim c = false := by
  intro c hc
  unfold intText at hc
  rcases List.mem_append.mp hc with hc | hc
  · split at hc
    · simp at hc
      subst hc
      decide
    · cases hc
  · exact digit_delim (Nat.isDigit_of_mem_toDigits (by decide) (by decide) hc)

theorem toDigits_inj {m n : Nat} (h : Nat.toDigits 10 m = Nat.toDigits 10 n) : m = n := by
  rw [← Nat.ofDigitChars_ten_toDigits (n := m), h, Nat.ofDigitChars_ten_toDigits]

theorem toDigits_minus {n : Nat} {l : Str} : Nat.toDigits 10 n ≠ '-' :: l := by
  intro h
  have : ('-' : Char).isDigit = true := Nat.isDigit_of_mem_toDigits (b := 10) (n := n) (by decide) (by decide) (by rw [h]; exact List.mem_cons_self)
  revert this
  decide

theorem intText_inj {i j : Int} (h : intText i = intText j) : i = j := by
  unfold intText at h
  split at h <;> split at h
  · have := toDigits_inj (List.cons.inj h).2
    omega
  · exact absurd h.symm toDigits_minus
  · exact absurd h toDigits_minus
  · have := toDigits_inj h
    omega

/-- The part of an entry behind the hash of the type. -/
def placeText (v : Var) (rest : Str) : Str := '@' :: (intText v.value ++ '/' :: (intText v.align ++ ':' :: (intText v.size ++ rest)))

theorem placeText_inj {v w : Var} {r r' : Str} (hr : Delimited r) (hr' : Delimited r') (h : placeText v r = placeText w r') :
    v.value = w.value ∧ v.align = w.align ∧ v.size = w.size ∧ r = r' := by
  have d : ∀ {c : Char} {l : Str}, isDelim c = true → Delimited (c :: l) := by
    intro c l hc x hx
    cases hx
    exact hc
  obtain ⟨h1, h2⟩ := split_delim (intText_delim _) (intText_delim _) (d (by decide)) (d (by decide)) (List.cons.inj h).2
  obtain ⟨h3, h4⟩ := split_delim (intText_delim _) (intText_delim _) (d (by decide)) (d (by decide)) (List.cons.inj h2).2
  obtain ⟨h5, h6⟩ := split_delim (intText_delim _) (intText_delim _) hr hr' (List.cons.inj h4).2
  exact ⟨intText_inj h1, intText_inj h3, intText_inj h5, h6⟩

/-- The whole entry. -/
def hashText (v : Var) (rest : Str) : Str := match v.hash with
  | some h => '#' :: (h ++ placeText v rest)
  | none => placeText v rest

theorem entryText_eq (v : Var) (rest : Str) : entryText false v ++ rest = hashText v rest := by
  unfold entryText hashText placeText
  cases v.hash <;> simp

/-- Hashes of types are without delimiters; they consist of hexadecimal digits. -/
def PlainHash (v : Var) : Prop := ∀ h, v.hash = some h → ∀ c ∈ h, isDelim c = false

theorem hashText_inj {v w : Var} {r r' : Str} (hv : PlainHash v) (hw : PlainHash w) (hr : Delimited r) (hr' : Delimited r')
    (h : hashText v r = hashText w r') : layout v = layout w ∧ r = r' := by
  unfold hashText at h
  have d : ∀ (v : Var) (r : Str), Delimited (placeText v r) := by
    intro v r x hx
    cases hx
    decide
  cases ev : v.hash with
  | none =>
    cases ew : w.hash with
    | none =>
      rw [ev, ew] at h
      obtain ⟨h1, h2, h3, h4⟩ := placeText_inj hr hr' h
      exact ⟨by unfold layout; rw [ev, ew, h1, h2, h3], h4⟩
    | some y =>
      rw [ev, ew] at h
      exact absurd (List.cons.inj h).1 (by decide)
  | some x =>
    cases ew : w.hash with
    | none =>
      rw [ev, ew] at h
      exact absurd (List.cons.inj h).1 (by decide)
    | some y =>
      rw [ev, ew] at h
      obtain ⟨e, h'⟩ := split_delim (hv x ev) (hw y ew) (d v r) (d w r') (List.cons.inj h).2
      obtain ⟨h1, h2, h3, h4⟩ := placeText_inj hr hr' h'
      exact ⟨by unfold layout; rw [ev, ew, h1, h2, h3, e], h4⟩

theorem delimited_text (vs : List Var) : Delimited (vs.flatMap (entryText false)) := by
  cases vs with
  | nil => intro c hc; cases hc
  | cons v vs =>
    rw [List.flatMap_cons, entryText_eq]
    unfold hashText placeText
    intro c hc
    cases hv : v.hash <;> rw [hv] at hc <;> cases hc <;> decide

/-- C81: without names the text that is hashed determines type, offset, alignment and size of all variables. -/
theorem C81_layout (vs ws : List Var) (hv : ∀ v ∈ vs, ∀ h, v.hash = some h → ∀ c ∈ h, c ∉ ['#', '@', '/', ':'])
    (hw : ∀ v ∈ ws, ∀ h, v.hash = some h → ∀ c ∈ h, c ∉ ['#', '@', '/', ':'])
    (h : vs.flatMap (entryText false) = ws.flatMap (entryText false)) : vs.map layout = ws.map layout := by
  have plain : ∀ {v : Var}, (∀ h, v.hash = some h → ∀ c ∈ h, c ∉ ['#', '@', '/', ':']) → PlainHash v := by
    intro v hv h e c hc
    have := hv h e c hc
    unfold isDelim
    simp_all
  induction vs generalizing ws with
  | nil =>
    cases ws with
    | nil => rfl
    | cons w ws =>
      rw [List.flatMap_cons, entryText_eq] at h
      unfold hashText placeText at h
      cases hh : w.hash <;> rw [hh] at h <;> cases h
  | cons v vs ih =>
    cases ws with
    | nil =>
      rw [List.flatMap_cons, entryText_eq] at h
      unfold hashText placeText at h
      cases hh : v.hash <;> rw [hh] at h <;> cases h
    | cons w ws =>
      rw [List.flatMap_cons, List.flatMap_cons, entryText_eq, entryText_eq] at h
      obtain ⟨h1, h2⟩ := hashText_inj (plain (hv v List.mem_cons_self)) (plain (hw w List.mem_cons_self))
        (delimited_text vs) (delimited_text ws) h
      rw [List.map_cons, List.map_cons, h1, ih ws (fun x hx => hv x (List.mem_cons_of_mem _ hx))
        (fun x hx => hw x (List.mem_cons_of_mem _ hx)) h2]

example : ([exVar "RW" "x" 16 4, exVar "RW" "y" (-3) 8].flatMap (entryText false)) = "@16/16:4@-3/-3:8".toList := by
  decide +kernel

/-- C81: with names it does not, as nothing separates a name from the entry before. -/
theorem C81_names :
    categoryText true [exVar "RW" "a" 1 1, exVar "RW" "b" 2 2] "RW".toList =
      categoryText true [exVar "RW" "a@1/1:1b" 2 2] "RW".toList ∧
    [exVar "RW" "a" 1 1, exVar "RW" "b" 2 2].map layout ≠ [exVar "RW" "a@1/1:1b" 2 2].map layout := by
  refine ⟨by decide +kernel, by decide +kernel⟩

end Bean.Props

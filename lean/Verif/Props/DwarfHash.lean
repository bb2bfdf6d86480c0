import Verif.Spec.DwarfHash
import Verif.Props.DwarfTypes
import Verif.Props.ElfText
/-
C87: what the hash of a type tells.
-/
namespace Bean.Props
open Bean Bean.Spec

/-! Parsing -/

/-- Texts of characters of a class are determined by a text they start. -/
theorem split_class {p : Char → Bool} {a b r r' : Str} (ha : ∀ c ∈ a, p c = true) (hb : ∀ c ∈ b, p c = true)
    (hr : ∀ c, r.head? = some c → p c = false) (hr' : ∀ c, r'.head? = some c → p c = false) (h : a ++ r = b ++ r') : a = b ∧ r = r' := by
  induction a generalizing b with
  | nil =>
    cases b with
    | nil => exact ⟨rfl, h⟩
    | cons y b =>
      have := hr y (by rw [show r = y :: (b ++ r') from h]; rfl)
      rw [hb y List.mem_cons_self] at this
      cases this
  | cons x a ih =>
    cases b with
    | nil =>
      have := hr' x (by rw [← show x :: (a ++ r) = r' from h]; rfl)
      rw [ha x List.mem_cons_self] at this
      cases this
    | cons y b =>
      have e := List.cons.inj h
      obtain ⟨i1, i2⟩ := ih (fun c hc => ha c (List.mem_cons_of_mem _ hc)) (fun c hc => hb c (List.mem_cons_of_mem _ hc)) e.2
      exact ⟨by rw [e.1, i1], i2⟩

/-- Digits and the sign. -/
def isNum (c : Char) : Bool := c.isDigit || c == '-'

/-- Characters of encodings. -/
def isEnc (c : Char) : Bool := c.isAlpha || c == '_'

theorem intText_num (i : Int) : ∀ c ∈ intText i, isNum c = true := by
  intro c hc
  unfold intText at hc
  unfold isNum
  rcases List.mem_append.mp hc with hc | hc
  · split at hc
    · simp at hc
      subst hc
      decide
    · cases hc
  · rw [Nat.isDigit_of_mem_toDigits (by decide) (by decide) hc]
    rfl

/-- The part behind the members starts with one of a few characters or with an encoding. -/
def tailHead (c : Char) : Bool := c == '>' || c == '#' || c == '[' || c == ':' || isEnc c

theorem tail_not_num {c : Char} (h : tailHead c = true) : isNum c = false := by
  unfold tailHead isEnc at h
  simp only [Bool.or_eq_true, beq_iff_eq] at h
  rcases h with (((rfl | rfl) | rfl) | rfl) | h | rfl
  all_goals try decide
  unfold isNum
  unfold Char.isAlpha Char.isUpper Char.isLower at h
  unfold Char.isDigit
  simp only [Bool.or_eq_true, Bool.and_eq_true, decide_eq_true_eq, Bool.or_eq_false_iff, Bool.and_eq_false_iff, decide_eq_false_iff_not,
    beq_eq_false_iff_ne] at h ⊢
  refine ⟨?_, ?_⟩
  · right
    rcases h with h | h
    · have := h.1
      intro h'
      exact absurd (Nat.le_trans (show (65 : Nat) ≤ c.val.toNat from this) (show c.val.toNat ≤ 57 from h')) (by decide)
    · have := h.1
      intro h'
      exact absurd (Nat.le_trans (show (97 : Nat) ≤ c.val.toNat from this) (show c.val.toNat ≤ 57 from h')) (by decide)
  · rintro rfl
    revert h
    decide

theorem tail_not_at {c : Char} (h : tailHead c = true) : c ≠ '@' := by
  rintro rfl
  revert h
  decide

/-- The text behind the members: the type that is referred to, ranges, encoding and number of elements. -/
def encText (enc : Option Str) (f : Int) : Str := (match enc with
    | some e => e
    | none => []) ++ ':' :: intText f

def PlainEnc (enc : Option Str) : Prop := ∀ e, enc = some e → e ≠ [] ∧ ∀ c ∈ e, isEnc c = true

theorem encText_inj {e e' : Option Str} {f f' : Int} (he : PlainEnc e) (he' : PlainEnc e') (h : encText e f = encText e' f') : e = e' := by
  unfold encText at h
  have hc : ∀ (l : Str), ∀ c, (':' :: l).head? = some c → isEnc c = false := by
    intro l c hc
    cases hc
    decide
  cases e with
  | none =>
    cases e' with
    | none => rfl
    | some y =>
      obtain ⟨h1, _⟩ := split_class (a := []) (fun _ h => (by cases h)) (he' y rfl).2 (hc _) (hc _) h
      exact absurd h1.symm (he' y rfl).1
  | some x =>
    cases e' with
    | none =>
      obtain ⟨h1, _⟩ := split_class (b := []) (he x rfl).2 (fun _ h => (by cases h)) (hc _) (hc _) h
      exact absurd h1 (he x rfl).1
    | some y =>
      obtain ⟨h1, _⟩ := split_class (he x rfl).2 (he' y rfl).2 (hc _) (hc _) h
      rw [h1]

/-- First character of the text behind the ranges. -/
theorem encText_head {e : Option Str} {f : Int} (he : PlainEnc e) {c : Char} (h : (encText e f).head? = some c) :
    c = ':' ∨ isEnc c = true := by
  unfold encText at h
  cases e with
  | none =>
    cases h
    exact .inl rfl
  | some x =>
    cases x with
    | nil => exact absurd rfl (he [] rfl).1
    | cons y ys =>
      cases h
      exact .inr ((he _ rfl).2 _ List.mem_cons_self)

theorem rangesText_inj {rs rs' : List (Int × Int)} {e e' : Option Str} {f f' : Int} (he : PlainEnc e) (he' : PlainEnc e')
    (h : rs.flatMap rangeText ++ encText e f = rs'.flatMap rangeText ++ encText e' f') : rs = rs' ∧ e = e' := by
  have hd : ∀ {e : Option Str} {f : Int}, PlainEnc e → ∀ l, encText e f ≠ '[' :: l := by
    intro e f he l hl
    have := encText_head (c := '[') he (by rw [hl]; rfl)
    revert this
    decide
  induction rs generalizing rs' with
  | nil =>
    cases rs' with
    | nil => exact ⟨rfl, encText_inj he he' h⟩
    | cons r rs' => exact absurd h (hd he _)
  | cons r rs ih =>
    cases rs' with
    | nil => exact absurd h.symm (hd he' _)
    | cons r' rs' =>
      have e1 : ∀ (r : Int × Int) (rs : List (Int × Int)) (x : Str), (r :: rs).flatMap rangeText ++ x =
          '[' :: (intText r.1 ++ ':' :: (intText r.2 ++ ']' :: (rs.flatMap rangeText ++ x))) := by
        intro r rs x
        rw [List.flatMap_cons]
        unfold rangeText
        simp
      rw [e1, e1] at h
      have hc : ∀ {x : Char} (l : Str), isNum x = false → ∀ c, (x :: l).head? = some c → isNum c = false := by
        intro x l hx c hc
        cases hc
        exact hx
      obtain ⟨h1, h2⟩ := split_class (intText_num _) (intText_num _) (hc _ (by decide)) (hc _ (by decide)) (List.cons.inj h).2
      obtain ⟨h3, h4⟩ := split_class (intText_num _) (intText_num _) (hc _ (by decide)) (hc _ (by decide)) (List.cons.inj h2).2
      obtain ⟨h5, h6⟩ := ih (List.cons.inj h4).2
      exact ⟨by rw [h5, Prod.ext (intText_inj h1) (intText_inj h3)], h6⟩

/-- Everything behind the members. -/
def tailText (ref : Option Str) (rs : List (Int × Int)) (e : Option Str) (f : Int) : Str := refText ref ++ (rs.flatMap rangeText ++ encText e f)

def Hex16 (h : Str) : Prop := h.length = 16 ∧ ∀ c ∈ h, c ∈ "0123456789abcdef".toList

theorem rangesText_head {rs : List (Int × Int)} {e : Option Str} {f : Int} (he : PlainEnc e) {c : Char}
    (h : (rs.flatMap rangeText ++ encText e f).head? = some c) : c = '[' ∨ c = ':' ∨ isEnc c = true := by
  cases rs with
  | nil => exact .inr (encText_head he h)
  | cons r rs =>
    cases h
    exact .inl rfl

theorem tailText_inj {r r' : Option Str} {rs rs' : List (Int × Int)} {e e' : Option Str} {f f' : Int} (he : PlainEnc e)
    (he' : PlainEnc e') (hr : ∀ h, r = some h → Hex16 h) (hr' : ∀ h, r' = some h → Hex16 h)
    (h : tailText r rs e f = tailText r' rs' e' f') : r = r' ∧ rs = rs' ∧ e = e' := by
  have hd : ∀ {rs : List (Int × Int)} {e : Option Str} {f : Int}, PlainEnc e → ∀ l, rs.flatMap rangeText ++ encText e f ≠ '#' :: l := by
    intro rs e f he l hl
    have := rangesText_head (c := '#') he (by rw [hl]; rfl)
    revert this
    decide
  unfold tailText at h
  cases r with
  | none =>
    cases r' with
    | none => exact ⟨rfl, rangesText_inj he he' h⟩
    | some y => exact absurd h (hd he _)
  | some x =>
    cases r' with
    | none => exact absurd h.symm (hd he' _)
    | some y =>
      obtain ⟨h1, h2⟩ := List.append_inj (List.cons.inj h).2 (by rw [(hr x rfl).1, (hr' y rfl).1])
      exact ⟨by rw [h1], rangesText_inj he he' h2⟩

theorem tailText_head {r : Option Str} {rs : List (Int × Int)} {e : Option Str} {f : Int} (he : PlainEnc e) {c : Char}
    (h : (tailText r rs e f).head? = some c) : tailHead c = true ∧ c ≠ '>' := by
  unfold tailText at h
  cases r with
  | some x =>
    cases h
    decide
  | none =>
    rcases rangesText_head he h with rfl | rfl | h
    · decide
    · decide
    · refine ⟨by unfold tailHead; rw [h]; simp, ?_⟩
      rintro rfl
      revert h
      decide

/-! Members -/

/-- Characters that end names and digests. -/
def isStop (c : Char) : Bool := c == '=' || c == '@' || c == '>' || c == '#' || c == '[' || c == ':'

/-- The first of these characters. -/
def firstStop (x : Str) : Option Char := x.find? isStop

theorem firstStop_append {a x : Str} (h : ∀ c ∈ a, isStop c = false) : firstStop (a ++ x) = firstStop x := by
  unfold firstStop
  rw [List.find?_append, List.find?_eq_none.mpr (fun c hc => by rw [h c hc]; decide)]
  rfl

theorem enc_stop {c : Char} (h : isEnc c = true) : isStop c = false := by
  cases hs : isStop c with
  | false => rfl
  | true =>
    unfold isStop at hs
    simp only [Bool.or_eq_true, beq_iff_eq] at hs
    rcases hs with ((((rfl | rfl) | rfl) | rfl) | rfl) | rfl <;> exact absurd h (by decide)

theorem hex_stop {c : Char} (h : c ∈ "0123456789abcdef".toList) : isStop c = false := by
  revert c
  decide

theorem word_stop {c : Char} (h : isWord c = true) : isStop c = false := by
  cases hs : isStop c with
  | false => rfl
  | true =>
    unfold isStop at hs
    simp only [Bool.or_eq_true, beq_iff_eq] at hs
    rcases hs with ((((rfl | rfl) | rfl) | rfl) | rfl) | rfl <;> exact absurd h (by decide)

theorem firstStop_enc {e : Option Str} {f : Int} (he : PlainEnc e) : firstStop (encText e f) = some ':' := by
  unfold encText
  cases e with
  | none => rfl
  | some x =>
    dsimp only
    rw [firstStop_append (fun c hc => enc_stop ((he x rfl).2 c hc))]
    rfl

theorem firstStop_tail {r : Option Str} {rs : List (Int × Int)} {e : Option Str} {f : Int} (he : PlainEnc e) :
    firstStop (tailText r rs e f) ≠ some '=' := by
  unfold tailText
  cases r with
  | some x => exact fun h => absurd (show some '#' = some '=' from h) (by decide)
  | none =>
    cases rs with
    | nil =>
      have : firstStop (encText e f) ≠ some '=' := by
        rw [firstStop_enc he]
        decide
      exact this
    | cons r rs => exact fun h => absurd (show some '[' = some '=' from h) (by decide)

/-- Members as created by compilers. -/
def PlainItem : TypeItem → Prop
  | .member h l => Hex16 h ∧ ∀ x, l = some x → ∀ c ∈ x, c.isDigit = true
  | .enumerator n v => (∀ c ∈ n, isWord c = true) ∧ ∀ c ∈ v, isNum c = true

/-- Members and what follows. -/
def itemsText (is : List TypeItem) (t : Str) : Str := is.flatMap itemText ++ t

/-- What follows the members. -/
def TailOk (t : Str) : Prop := (∀ c, t.head? = some c → tailHead c = true ∧ c ≠ '>') ∧ firstStop t ≠ some '='

theorem itemText_cons (i : TypeItem) : ∃ l, itemText i = '>' :: l := by
  rcases i with ⟨h, _ | l⟩ | ⟨n, v⟩
  · exact ⟨_, rfl⟩
  · exact ⟨_, rfl⟩
  · exact ⟨_, rfl⟩

theorem itemsText_head {is : List TypeItem} {t : Str} (ht : TailOk t) {c : Char} (h : (itemsText is t).head? = some c) :
    tailHead c = true := by
  cases is with
  | nil => exact (ht.1 c h).1
  | cons i is =>
    obtain ⟨l, hl⟩ := itemText_cons i
    unfold itemsText at h
    rw [List.flatMap_cons, hl] at h
    cases h
    decide

theorem itemsText_stop {is : List TypeItem} {t : Str} (ht : TailOk t) : firstStop (itemsText is t) ≠ some '=' := by
  cases is with
  | nil => exact ht.2
  | cons i is =>
    obtain ⟨l, hl⟩ := itemText_cons i
    unfold itemsText
    rw [List.flatMap_cons, hl]
    exact fun h => absurd (show some '>' = some '=' from h) (by decide)

theorem member_tail {h h' : Str} {l l' : Option Str} {x y : Str} (hi : PlainItem (.member h l)) (hi' : PlainItem (.member h' l'))
    (hx : ∀ c, x.head? = some c → tailHead c = true) (hy : ∀ c, y.head? = some c → tailHead c = true)
    (e : itemText (.member h l) ++ x = itemText (.member h' l') ++ y) : TypeItem.member h l = .member h' l' ∧ x = y := by
  have num : ∀ {l : Str}, (∀ c ∈ l, c.isDigit = true) → ∀ c ∈ l, isNum c = true := by
    intro l hl c hc
    unfold isNum
    rw [hl c hc]
    rfl
  cases l with
  | none =>
    cases l' with
    | none =>
      obtain ⟨h1, h2⟩ := List.append_inj (List.cons.inj e).2 (by rw [hi.1.1, hi'.1.1])
      exact ⟨by rw [h1], h2⟩
    | some y' =>
      have e : h ++ x = h' ++ ('@' :: (y' ++ y)) := by
        simpa [itemText] using e
      obtain ⟨h1, h2⟩ := List.append_inj e (by rw [hi.1.1, hi'.1.1])
      exact absurd rfl (tail_not_at (hx '@' (by rw [h2]; rfl)))
  | some x' =>
    cases l' with
    | none =>
      have e : h ++ ('@' :: (x' ++ x)) = h' ++ y := by
        simpa [itemText] using e
      obtain ⟨h1, h2⟩ := List.append_inj e (by rw [hi.1.1, hi'.1.1])
      exact absurd rfl (tail_not_at (hy '@' (by rw [← h2]; rfl)))
    | some y' =>
      have e : h ++ ('@' :: (x' ++ x)) = h' ++ ('@' :: (y' ++ y)) := by
        simpa [itemText] using e
      obtain ⟨h1, h2⟩ := List.append_inj e (by rw [hi.1.1, hi'.1.1])
      obtain ⟨h3, h4⟩ := split_class (p := isNum) (num (hi.2 x' rfl)) (num (hi'.2 y' rfl)) (fun c hc => tail_not_num (hx c hc))
        (fun c hc => tail_not_num (hy c hc)) (List.cons.inj h2).2
      exact ⟨by rw [h1, h3], h4⟩

theorem enum_tail {n n' v v' : Str} {x y : Str} (hi : PlainItem (.enumerator n v)) (hi' : PlainItem (.enumerator n' v'))
    (hx : ∀ c, x.head? = some c → tailHead c = true) (hy : ∀ c, y.head? = some c → tailHead c = true)
    (e : itemText (.enumerator n v) ++ x = itemText (.enumerator n' v') ++ y) :
    TypeItem.enumerator n v = .enumerator n' v' ∧ x = y := by
  have e : n ++ ('=' :: (v ++ x)) = n' ++ ('=' :: (v' ++ y)) := by
    simpa [itemText] using e
  have hc : ∀ l : Str, ∀ c, ('=' :: l).head? = some c → isWord c = false := by
    intro l c hc
    cases hc
    decide
  obtain ⟨h1, h2⟩ := split_class hi.1 hi'.1 (hc _) (hc _) e
  obtain ⟨h3, h4⟩ := split_class hi.2 hi'.2 (fun c hc => tail_not_num (hx c hc)) (fun c hc => tail_not_num (hy c hc)) (List.cons.inj h2).2
  exact ⟨by rw [h1, h3], h4⟩

theorem member_enum {h : Str} {l : Option Str} {n v : Str} {x y : Str} (hi : PlainItem (.member h l)) (hi' : PlainItem (.enumerator n v))
    (hx : firstStop x ≠ some '=') (e : itemText (.member h l) ++ x = itemText (.enumerator n v) ++ y) : False := by
  have e1 : itemText (.enumerator n v) ++ y = '>' :: (n ++ ('=' :: (v ++ y))) := by
    unfold itemText
    simp
  rw [e1] at e
  have s2 : firstStop (n ++ ('=' :: (v ++ y))) = some '=' := firstStop_append (fun c hc => word_stop (hi'.1 c hc))
  cases l with
  | none =>
    have s1 := firstStop_append (x := x) (fun c hc => hex_stop (hi.1.2 c hc))
    rw [show h ++ x = n ++ ('=' :: (v ++ y)) from (List.cons.inj e).2, s2] at s1
    exact hx s1.symm
  | some l =>
    have e2 : h ++ ('@' :: (l ++ x)) = n ++ ('=' :: (v ++ y)) := by
      simpa [itemText] using e
    have s1 := firstStop_append (x := '@' :: (l ++ x)) (fun c hc => hex_stop (hi.1.2 c hc))
    rw [e2, s2] at s1
    exact absurd (show some '=' = some '@' from s1) (by decide)

theorem itemsText_inj {is is' : List TypeItem} {t t' : Str} (hi : ∀ i ∈ is, PlainItem i) (hi' : ∀ i ∈ is', PlainItem i) (ht : TailOk t)
    (ht' : TailOk t') (h : itemsText is t = itemsText is' t') : is = is' ∧ t = t' := by
  have cons : ∀ i (is : List TypeItem) t, itemsText (i :: is) t = itemText i ++ itemsText is t := by
    intro i is t
    unfold itemsText
    rw [List.flatMap_cons, List.append_assoc]
  induction is generalizing is' with
  | nil =>
    cases is' with
    | nil => exact ⟨rfl, h⟩
    | cons i is' =>
      obtain ⟨l, hl⟩ := itemText_cons i
      have h : t = itemsText (i :: is') t' := h
      rw [cons, hl] at h
      exact absurd rfl (ht.1 '>' (by rw [h]; rfl)).2
  | cons i is ih =>
    cases is' with
    | nil =>
      obtain ⟨l, hl⟩ := itemText_cons i
      have h : itemsText (i :: is) t = t' := h
      rw [cons, hl] at h
      exact absurd rfl (ht'.1 '>' (by rw [← h]; rfl)).2
    | cons i' is' =>
      rw [cons, cons] at h
      have pi := hi i List.mem_cons_self
      have pi' := hi' i' List.mem_cons_self
      have step : i = i' ∧ itemsText is t = itemsText is' t' := by
        cases i with
        | member a l =>
          cases i' with
          | member a' l' => exact member_tail pi pi' (fun c => itemsText_head ht) (fun c => itemsText_head ht') h
          | enumerator n v => exact (member_enum pi pi' (itemsText_stop ht) h).elim
        | enumerator n v =>
          cases i' with
          | member a' l' => exact (member_enum pi' pi (itemsText_stop ht') h.symm).elim
          | enumerator n' v' => exact enum_tail pi pi' (fun c => itemsText_head ht) (fun c => itemsText_head ht') h
      obtain ⟨h1, h2⟩ := ih (fun i hi'' => hi i (List.mem_cons_of_mem _ hi'')) (fun i hi'' => hi' i (List.mem_cons_of_mem _ hi'')) step.2
      exact ⟨by rw [step.1, h1], h2⟩

/-- Parts as created by compilers. -/
def PlainParts (kinds : List Str) (p : TypeParts) : Prop :=
  p.tag ∈ kinds ∧ (∀ i ∈ p.items, PlainItem i) ∧ (∀ h, p.ref = some h → Hex16 h) ∧ PlainEnc p.encoding

theorem partsText_eq (p : TypeParts) : partsText p = '%' :: (p.tag ++ itemsText p.items (tailText p.ref p.ranges p.encoding
    ((p.ranges.map (fun r => r.2 - r.1 + 1)).foldr (· * ·) 1))) := by
  unfold partsText itemsText tailText encText
  simp only [List.append_assoc, List.cons_append]
  rfl

theorem partsText_inj {kinds : List Str} (hk : PrefixFree kinds) {p q : TypeParts} (hp : PlainParts kinds p) (hq : PlainParts kinds q)
    (h : partsText p = partsText q) : p = q := by
  rw [partsText_eq, partsText_eq] at h
  have h := (List.cons.inj h).2
  have ht : p.tag = q.tag := by
    rcases List.append_eq_append_iff.mp h with ⟨a, h1, _⟩ | ⟨a, h1, _⟩
    · exact hk _ hp.1 _ hq.1 ⟨a, h1.symm⟩
    · exact (hk _ hq.1 _ hp.1 ⟨a, h1.symm⟩).symm
  rw [ht] at h
  have h := List.append_cancel_left h
  have tk : ∀ {p : TypeParts} {f : Int}, PlainParts kinds p → TailOk (tailText p.ref p.ranges p.encoding f) :=
    fun hp => ⟨fun c hc => tailText_head hp.2.2.2 hc, firstStop_tail hp.2.2.2⟩
  obtain ⟨h1, h2⟩ := itemsText_inj hp.2.1 hq.2.1 (tk hp) (tk hq) h
  obtain ⟨h3, h4, h5⟩ := tailText_inj hp.2.2.2 hq.2.2.2 hp.2.2.1 hq.2.2.1 h2
  cases p
  cases q
  cases ht
  cases h1
  cases h3
  cases h4
  cases h5
  rfl

/-! The parts of an entry -/

section
variable {o : TypeOpts} {dies : Dies}

theorem membersText_items {get : Nat → Except TypeError TypeInfo} {cs : List Nat} {r : Str × Str} (h : membersText dies get cs = .ok r) :
    ∃ is, itemsOf dies get cs = .ok is ∧ r.2 = is.flatMap itemText := by
  induction cs generalizing r with
  | nil =>
    cases h
    exact ⟨[], rfl, rfl⟩
  | cons c cs ih =>
    rw [membersText] at h
    rw [itemsOf]
    cases hc : dies c with
    | none => rw [hc] at h; cases h
    | some child =>
      rw [hc] at h
      dsimp only at h ⊢
      by_cases h1 : child.tag = "member".toList
      · rw [if_pos h1] at h ⊢
        cases hx : get c with
        | error e => rw [hx] at h; cases h
        | ok t =>
          rw [hx] at h
          dsimp only at h ⊢
          obtain ⟨r', h2, rfl⟩ := map_ok h
          obtain ⟨is, h3, h4⟩ := ih h2
          rw [h3]
          refine ⟨_, rfl, ?_⟩
          rw [List.flatMap_cons, ← h4]
          unfold addText memberText itemText
          cases child.location <;> simp
      · rw [if_neg h1] at h ⊢
        by_cases h2 : child.tag = "enumerator".toList
        · rw [if_pos h2] at h ⊢
          cases hn : child.name with
          | none => rw [hn] at h; cases h
          | some nm =>
            cases hv : child.const_value with
            | none => rw [hn, hv] at h; cases h
            | some v =>
              rw [hn, hv] at h
              dsimp only at h ⊢
              obtain ⟨r', h2, rfl⟩ := map_ok h
              obtain ⟨is, h3, h4⟩ := ih h2
              rw [h3]
              refine ⟨_, rfl, ?_⟩
              rw [List.flatMap_cons, ← h4]
              rfl
        · rw [if_neg h2] at h ⊢
          exact ih h

theorem arrayText_bounds {cs : List Nat} {i h : Str} {f : Int} (e : arrayText dies cs = .ok (i, h, f)) :
    h = (boundsOf dies cs).flatMap rangeText ∧ f = ((boundsOf dies cs).map (fun r => r.2 - r.1 + 1)).foldr (· * ·) 1 := by
  induction cs generalizing i h f with
  | nil =>
    cases e
    exact ⟨rfl, rfl⟩
  | cons c cs ih =>
    rw [arrayText] at e
    rw [boundsOf]
    cases hc : dies c with
    | none => rw [hc] at e; cases e
    | some child =>
      rw [hc] at e
      dsimp only at e ⊢
      cases hx : arrayText dies cs with
      | error e' => rw [hx] at e; cases e
      | ok p =>
        obtain ⟨i', h', f'⟩ := p
        rw [hx] at e
        dsimp only at e
        obtain ⟨i1, i2⟩ := ih hx
        split at e
        · rename_i ht
          rw [if_pos ht]
          cases e
          refine ⟨?_, ?_⟩
          · rw [List.flatMap_cons, ← i1]
            unfold rangeText
            simp
          · rw [List.map_cons, List.foldr_cons, ← i2]
        · rename_i ht
          rw [if_neg ht]
          cases e
          exact ⟨i1, i2⟩

theorem usesTypeHash_iff {d : Die} (ha : o.aliases = false) : usesTypeHash o d = true ↔ IsAlias d := by
  unfold usesTypeHash IsAlias
  rw [ha, Bool.and_eq_true, Bool.and_eq_true, Bool.or_eq_true, decide_eq_true_eq, decide_eq_true_eq, Option.isSome_iff_ne_none]
  exact ⟨fun h => ⟨h.1.1, h.2⟩, fun h => ⟨⟨h.1, rfl⟩, h.2⟩⟩

theorem composite_resolve {d : Die} {r : Bool} : (isComposite d.tag && resolveIn d r) = true ↔
    d.tag ∈ ["structure_type".toList, "class_type".toList, "union_type".toList, "enumeration_type".toList] ∧ r = true := by
  rw [Bool.and_eq_true, isComposite_iff]
  refine and_congr_right fun h => ?_
  unfold resolveIn
  have : (d.tag != "pointer_type".toList) = true := by
    simp only [List.mem_cons, List.not_mem_nil, or_false] at h
    rcases h with h | h | h | h <;> rw [h] <;> decide
  rw [this, Bool.and_true]

/-- The hash of a type is the digest of its parts. -/
theorem typeOf_parts (hn : o.names = false) (ha : o.aliases = false) {n id : Nat} {r : Bool} {t : TypeInfo}
    (h : typeOf o dies n id r = .ok t) :
    ∃ p, HasParts o dies id r p ∧ (∀ d, dies id = some d → ¬ IsAlias d → t.hash = o.H (partsText p)) := by
  cases n with
  | zero => cases h
  | succ n =>
    obtain ⟨d, members, type, h1, h2, h3, h4⟩ := typeOf_succ.mp h
    have items : ∃ is, memberHashText members = is.flatMap itemText ∧
        if d.tag ∈ ["structure_type".toList, "class_type".toList, "union_type".toList, "enumeration_type".toList] ∧ r = true then
          ∃ n, itemsOf dies (fun c => typeOf o dies n c true) d.children = .ok is
        else is = [] := by
      unfold memberPart at h2
      split at h2
      · rename_i hc
        obtain ⟨x, h5, rfl⟩ := map_ok h2
        obtain ⟨is, h6, h7⟩ := membersText_items h5
        refine ⟨is, h7, ?_⟩
        rw [if_pos (composite_resolve.mp hc)]
        rw [(Bool.and_eq_true_iff.mp hc).2] at h6
        exact ⟨n, h6⟩
      · rename_i hc
        cases h2
        refine ⟨[], rfl, ?_⟩
        rw [if_neg (fun h => hc (composite_resolve.mpr h))]
    obtain ⟨is, i1, i2⟩ := items
    have ref : ∃ rf : Option Str, refHashText type = refText rf ∧ (match d.type with
        | none => rf = none
        | some t => (dies t = none ∧ rf = none) ∨ ∃ ti, HasType o dies t (r && d.tag != "pointer_type".toList) ti ∧
            rf = (if ti.size = 0 ∧ ti.ident = [] then none else some ti.hash)) := by
      unfold typePart at h3
      cases ht : d.type with
      | none =>
        rw [ht] at h3
        cases h3
        exact ⟨none, rfl, rfl⟩
      | some tt =>
        rw [ht] at h3
        dsimp only at h3 ⊢
        cases hd : dies tt with
        | none =>
          rw [hd] at h3
          cases h3
          exact ⟨none, rfl, .inl ⟨rfl, rfl⟩⟩
        | some d' =>
          rw [hd] at h3
          dsimp only at h3
          obtain ⟨ti, h5, rfl⟩ := map_ok h3
          refine ⟨if ti.size = 0 ∧ ti.ident = [] then none else some ti.hash, ?_, .inr ⟨ti, ⟨n, h5⟩, rfl⟩⟩
          by_cases hz : ti.size = 0 ∧ ti.ident = []
          · rw [if_pos hz, refHashText]
            rw [if_neg (by rw [hz.1, hz.2]; simp)]
            rfl
          · rw [if_neg hz, refHashText]
            rw [if_pos (by by_cases h : ti.size = 0
                           · exact .inr (fun h' => hz ⟨h, h'⟩)
                           · exact .inl h)]
            rfl
    obtain ⟨rf, r1, r2⟩ := ref
    refine ⟨⟨d.tag, is, rf, if d.tag = "array_type".toList then boundsOf dies d.children else [], d.encoding⟩, ⟨d, h1, rfl, rfl, rfl, i2, r2⟩, fun d' hd' hal => ?_⟩
    rw [h1] at hd'
    cases hd'
    have ht : ∀ {ah : Str} {f : Int}, ah = (if d.tag = "array_type".toList then boundsOf dies d.children else []).flatMap rangeText →
        f = ((if d.tag = "array_type".toList then boundsOf dies d.children else []).map (fun r => r.2 - r.1 + 1)).foldr (· * ·) 1 →
        typeText o d members type ah f = partsText
          ⟨d.tag, is, rf, if d.tag = "array_type".toList then boundsOf dies d.children else [], d.encoding⟩ := by
      intro ah f e1 e2
      unfold typeText partsText
      have : usedName o d = none := by
        unfold usedName
        rw [hn]
        rfl
      rw [this, e1, e2]
      dsimp only
      rw [i1, r1, List.append_nil]
      rfl
    unfold finishType at h4
    have hu : ¬ usesTypeHash o d = true := fun h => hal ((usesTypeHash_iff ha).mp h)
    simp only [if_neg hu] at h4
    by_cases hta : d.tag = "array_type".toList
    · rw [if_pos hta] at h4
      cases hx : arrayText dies d.children with
      | error e => rw [hx] at h4; cases h4
      | ok p =>
        obtain ⟨ai, ah, f⟩ := p
        rw [hx] at h4
        dsimp only at h4
        obtain ⟨b1, b2⟩ := arrayText_bounds hx
        split at h4
        · cases h4
        · cases h4
          dsimp only
          rw [ht (by rw [if_pos hta]; exact b1) (by rw [if_pos hta]; exact b2)]
    · rw [if_neg hta] at h4
      dsimp only at h4
      split at h4
      · cases h4
      · cases h4
        dsimp only
        rw [ht (by rw [if_neg hta]; rfl) (by rw [if_neg hta]; rfl)]

theorem alias_flat {d : Die} (h : IsAlias d) (r : Bool) : isComposite d.tag = false ∧ resolveIn d r = r ∧
    d.tag ≠ "array_type".toList ∧ d.tag ≠ "pointer_type".toList := by
  unfold resolveIn
  rcases h.1 with h | h <;> rw [h] <;> refine ⟨by decide, ?_, by decide, by decide⟩ <;> cases r <;> decide

theorem alias_ident {d : Die} (hn : o.names = false) (ha : o.aliases = false) (h : IsAlias d) : namedIdent o d = [] := by
  unfold namedIdent usedName
  rw [hn]
  unfold tagIdent
  rcases h.1 with h' | h' <;> simp [h', ha, h.2]

/-- An alias has the type it refers to. -/
theorem alias_finish {d : Die} (hn : o.names = false) (ha : o.aliases = false) (h : IsAlias d) (hb : d.byte_size = none)
    (he : d.encoding = none) (type : Option TypeInfo) :
    finishType o dies d none (some type) = .ok (type.getD ⟨[], 0, []⟩) := by
  obtain ⟨_, _, h3, h4⟩ := alias_flat h true
  unfold finishType
  rw [if_neg h3]
  dsimp only
  rw [if_neg (by rw [he]; simp), if_pos ((usesTypeHash_iff ha).mpr h), hb]
  unfold typeIdent
  rw [alias_ident hn ha h, if_neg h4, he]
  cases type with
  | none => rfl
  | some t => simp [refSize]

theorem typeOf_alias (hn : o.names = false) (ha : o.aliases = false) {n id tt : Nat} {r : Bool} {d : Die} {t : TypeInfo} (hd : dies id = some d)
    (h : IsAlias d) (hb : d.byte_size = none) (he : d.encoding = none) (ht : d.type = some tt) (hx : typeOf o dies (n + 1) id r = .ok t) :
    (dies tt = none ∧ t = ⟨[], 0, []⟩) ∨ typeOf o dies n tt r = .ok t := by
  obtain ⟨d', members, type, h1, h2, h3, h4⟩ := typeOf_succ.mp hx
  rw [hd] at h1
  cases h1
  obtain ⟨a1, a2, _, _⟩ := alias_flat h r
  rw [a2] at h2 h3
  unfold memberPart at h2
  rw [a1] at h2
  cases h2
  unfold typePart at h3
  rw [ht] at h3
  dsimp only at h3
  cases hdt : dies tt with
  | none =>
    rw [hdt] at h3
    cases h3
    rw [alias_finish hn ha h hb he] at h4
    cases h4
    exact .inl ⟨rfl, rfl⟩
  | some d' =>
    rw [hdt] at h3
    dsimp only at h3
    obtain ⟨ti, h5, rfl⟩ := map_ok h3
    rw [alias_finish hn ha h hb he] at h4
    cases h4
    exact .inr h5

/-- Hashes of types are digests, but for aliases of missing types. -/
theorem typeOf_hex (hn : o.names = false) (ha : o.aliases = false) (hH : HexDigest o.H) {kinds : List Str} (hp : PlainDies kinds dies)
    {n id : Nat} {r : Bool} {t : TypeInfo} (h : typeOf o dies n id r = .ok t) : Hex16 t.hash ∨ t = ⟨[], 0, []⟩ := by
  induction n generalizing id r t with
  | zero => cases h
  | succ n ih =>
    obtain ⟨p, ⟨d, hd, _⟩, hh⟩ := typeOf_parts hn ha h
    by_cases hal : IsAlias d
    · obtain ⟨hb, he⟩ := (hp id d hd).2.2.2.2.2 hal
      cases ht : d.type with
      | none => exact absurd ht hal.2
      | some tt =>
        rcases typeOf_alias hn ha hd hal hb he ht h with ⟨_, h1⟩ | h1
        · exact .inr h1
        · exact ih h1
    · rw [hh d hd hal]
      exact .inl (hH _)

theorem hasParts_plain (hn : o.names = false) (ha : o.aliases = false) (hH : HexDigest o.H) {kinds : List Str} (hp : PlainDies kinds dies)
    {id : Nat} {r : Bool} {p : TypeParts} (h : HasParts o dies id r p) : PlainParts kinds p := by
  obtain ⟨d, h1, h2, h3, h4, h5, h6⟩ := h
  obtain ⟨p1, p2, p3, p4, p5, p6⟩ := hp id d h1
  refine ⟨by rw [h2]; exact p1, ?_, ?_, ?_⟩
  · split at h5
    · obtain ⟨n, h5⟩ := h5
      generalize d.children = cs at h5
      generalize p.items = is at h5
      clear h2 h3 h4 h6 p1 p2 p3 p4 p5 p6 h1
      induction cs generalizing is with
      | nil =>
        cases h5
        exact fun i hi => by cases hi
      | cons c cs ih =>
        rw [itemsOf] at h5
        cases hc : dies c with
        | none => rw [hc] at h5; cases h5
        | some child =>
          rw [hc] at h5
          dsimp only at h5
          obtain ⟨_, q2, q3, q4, _, _⟩ := hp c child hc
          by_cases e1 : child.tag = "member".toList
          · rw [if_pos e1] at h5
            cases hx : typeOf o dies n c true with
            | error e => rw [hx] at h5; cases h5
            | ok t =>
              rw [hx] at h5
              dsimp only at h5
              obtain ⟨is', h7, rfl⟩ := map_ok h5
              intro i hi
              cases hi with
              | head =>
                refine ⟨?_, fun x hx => q2 x hx⟩
                obtain ⟨p', ⟨d', hd', _⟩, hh⟩ := typeOf_parts hn ha hx
                rw [hc] at hd'
                cases hd'
                rw [hh child hc (fun hal => by rcases hal.1 with h | h <;> rw [e1] at h <;> exact absurd h (by decide))]
                exact hH _
              | tail _ hi => exact ih is' h7 i hi
          · rw [if_neg e1] at h5
            by_cases e2 : child.tag = "enumerator".toList
            · rw [if_pos e2] at h5
              cases hnm : child.name with
              | none => rw [hnm] at h5; cases h5
              | some nm =>
                cases hv : child.const_value with
                | none => rw [hnm, hv] at h5; cases h5
                | some v =>
                  rw [hnm, hv] at h5
                  dsimp only at h5
                  obtain ⟨is', h7, rfl⟩ := map_ok h5
                  intro i hi
                  cases hi with
                  | head =>
                    refine ⟨q3 e2 nm hnm, fun c hc => ?_⟩
                    unfold isNum
                    rcases q4 v hv c hc with h | h <;> rw [h]
                    · rfl
                    · decide
                  | tail _ hi => exact ih is' h7 i hi
            · rw [if_neg e2] at h5
              exact ih is h5
    · rw [h5]
      exact fun i hi => by cases hi
  · intro h hr
    cases ht : d.type with
    | none =>
      rw [ht] at h6
      dsimp only at h6
      rw [h6] at hr
      cases hr
    | some tt =>
      rw [ht] at h6
      dsimp only at h6
      rcases h6 with ⟨_, h6⟩ | ⟨ti, ⟨n, h7⟩, h6⟩
      · rw [h6] at hr
        cases hr
      · rw [h6] at hr
        split at hr
        · cases hr
        · rename_i hz
          cases hr
          rcases typeOf_hex hn ha hH hp h7 with h | h
          · exact h
          · rw [h] at hz
            exact absurd ⟨rfl, rfl⟩ hz
  · intro e he
    rw [h3] at he
    obtain ⟨q1, q2⟩ := p5 e he
    refine ⟨q1, fun c hc => ?_⟩
    unfold isEnc
    rcases q2 c hc with h | h <;> rw [h]
    · rfl
    · decide

end

theorem itemsOf_mono {dies : Dies} {get get' : Nat → Except TypeError TypeInfo} (hg : ∀ c t, get c = .ok t → get' c = .ok t) (cs : List Nat)
    (is : List TypeItem) (h : itemsOf dies get cs = .ok is) : itemsOf dies get' cs = .ok is := by
  induction cs generalizing is with
  | nil => exact h
  | cons c cs ih =>
    rw [itemsOf] at h ⊢
    cases hc : dies c with
    | none => rw [hc] at h; cases h
    | some child =>
      rw [hc] at h
      dsimp only at h ⊢
      by_cases h1 : child.tag = "member".toList
      · rw [if_pos h1] at h ⊢
        cases hx : get c with
        | error e => rw [hx] at h; cases h
        | ok t =>
          rw [hx] at h
          rw [hg c t hx]
          dsimp only at h ⊢
          obtain ⟨r', h2, h3⟩ := map_ok h
          rw [ih r' h2, ← h3]
          rfl
      · rw [if_neg h1] at h ⊢
        by_cases h2 : child.tag = "enumerator".toList
        · rw [if_pos h2] at h ⊢
          cases hn : child.name with
          | none => rw [hn] at h; cases h
          | some n =>
            cases hv : child.const_value with
            | none => rw [hn, hv] at h; cases h
            | some v =>
              rw [hn, hv] at h
              dsimp only at h ⊢
              obtain ⟨r', h2, h3⟩ := map_ok h
              rw [ih r' h2, ← h3]
              rfl
        · rw [if_neg h2] at h ⊢
          exact ih is h

theorem hasParts_unique {o : TypeOpts} {dies : Dies} {id : Nat} {r : Bool} {p q : TypeParts} (hp : HasParts o dies id r p)
    (hq : HasParts o dies id r q) : p = q := by
  obtain ⟨d, p1, p2, p3, p4, p5, p6⟩ := hp
  obtain ⟨d', q1, q2, q3, q4, q5, q6⟩ := hq
  rw [p1] at q1
  cases q1
  have items : p.items = q.items := by
    split at p5
    · rename_i hc
      rw [if_pos hc] at q5
      obtain ⟨n, p5⟩ := p5
      obtain ⟨m, q5⟩ := q5
      have a := itemsOf_mono (get' := fun c => typeOf o dies (max n m) c true) (fun c t => typeOf_mono (Nat.le_max_left n m)) _ _ p5
      have b := itemsOf_mono (get' := fun c => typeOf o dies (max n m) c true) (fun c t => typeOf_mono (Nat.le_max_right n m)) _ _ q5
      rw [a] at b
      exact Except.ok.inj b
    · rename_i hc
      rw [if_neg hc] at q5
      rw [p5, q5]
  have ref : p.ref = q.ref := by
    cases ht : d.type with
    | none =>
      rw [ht] at p6 q6
      rw [p6, q6]
    | some t =>
      rw [ht] at p6 q6
      dsimp only at p6 q6
      have none : ∀ {r : Bool} {ti : TypeInfo}, dies t = none → ¬ HasType o dies t r ti := by
        rintro r ti hd ⟨n, h⟩
        cases n with
        | zero => cases h
        | succ n =>
          obtain ⟨d', _, _, h, _⟩ := typeOf_succ.mp h
          rw [hd] at h
          cases h
      rcases p6 with ⟨p7, p6⟩ | ⟨ti, p7, p6⟩ <;> rcases q6 with ⟨q7, q6⟩ | ⟨ti', q7, q6⟩
      · rw [p6, q6]
      · exact absurd q7 (none p7)
      · exact absurd p7 (none q7)
      · cases hasType_unique p7 q7
        rw [p6, q6]
  cases p
  cases q
  cases items
  cases ref
  cases p2
  cases q2
  cases p3
  cases q3
  cases p4
  cases q4
  rfl

/-- C87: what the hash of a type tells. Two types (in the same or in different files, names not used) have equal hashes only if they
are of the same kind, with the same members (in the same order, with the same offsets and types of the same hash) and enumerators, the
same bounds and encoding, and refer to types of the same hash; or else the two different texts of their parts have the same digest.
Sizes are missing: see the counterexample. -/
theorem C87_parts_partial (o : TypeOpts) (hn : o.names = false) (ha : o.aliases = false) (hH : HexDigest o.H) (kinds : List Str)
    (hk : PrefixFree kinds) (dies dies' : Dies) (hp : PlainDies kinds dies) (hp' : PlainDies kinds dies') (id id' : Nat) (r r' : Bool)
    (d d' : Die) (t t' : TypeInfo) (hd : dies id = some d) (hd' : dies' id' = some d') (hal : ¬ IsAlias d) (hal' : ¬ IsAlias d')
    (ht : HasType o dies id r t) (ht' : HasType o dies' id' r' t') (he : t.hash = t'.hash) :
    ∃ p p', HasParts o dies id r p ∧ HasParts o dies' id' r' p' ∧
      (p = p' ∨ partsText p ≠ partsText p' ∧ o.H (partsText p) = o.H (partsText p')) := by
  obtain ⟨n, ht⟩ := ht
  obtain ⟨n', ht'⟩ := ht'
  obtain ⟨p, h1, h2⟩ := typeOf_parts hn ha ht
  obtain ⟨p', h1', h2'⟩ := typeOf_parts hn ha ht'
  refine ⟨p, p', h1, h1', ?_⟩
  by_cases hx : partsText p = partsText p'
  · exact .inl (partsText_inj hk (hasParts_plain hn ha hH hp h1) (hasParts_plain hn ha hH hp' h1') hx)
  · exact .inr ⟨hx, by rw [← h2 d hd hal, ← h2' d' hd' hal', he]⟩

/-- C87: conversely, types with the same parts have the same hash: nothing else enters it, not even the size. -/
theorem C87_same (o : TypeOpts) (hn : o.names = false) (ha : o.aliases = false) (dies dies' : Dies) (id id' : Nat) (r r' : Bool)
    (d d' : Die) (t t' : TypeInfo) (hd : dies id = some d) (hd' : dies' id' = some d') (hal : ¬ IsAlias d) (hal' : ¬ IsAlias d')
    (ht : HasType o dies id r t) (ht' : HasType o dies' id' r' t') (p : TypeParts) (h : HasParts o dies id r p)
    (h' : HasParts o dies' id' r' p) : t.hash = t'.hash := by
  obtain ⟨n, ht⟩ := ht
  obtain ⟨n', ht'⟩ := ht'
  obtain ⟨q, h1, h2⟩ := typeOf_parts hn ha ht
  obtain ⟨q', h1', h2'⟩ := typeOf_parts hn ha ht'
  cases hasParts_unique h h1
  cases hasParts_unique h' h1'
  rw [h2 d hd hal, h2' d' hd' hal']

/-- C87: without names, aliases (`typedef` and `const`) make no difference: identifier, size and hash are those of the type they stand
for. -/
theorem C87_alias (o : TypeOpts) (hn : o.names = false) (ha : o.aliases = false) (dies : Dies) (id tt : Nat) (r : Bool) (d d' : Die)
    (hd : dies id = some d) (h : IsAlias d) (hb : d.byte_size = none) (he : d.encoding = none) (ht : d.type = some tt)
    (hd' : dies tt = some d') (t : TypeInfo) : HasType o dies id r t ↔ HasType o dies tt r t := by
  constructor
  · rintro ⟨n, hx⟩
    cases n with
    | zero => cases hx
    | succ n =>
      rcases typeOf_alias hn ha hd h hb he ht hx with ⟨h1, _⟩ | h1
      · rw [hd'] at h1
        cases h1
      · exact ⟨n, h1⟩
  · rintro ⟨n, hx⟩
    obtain ⟨a1, a2, _, _⟩ := alias_flat h r
    refine ⟨n + 1, typeOf_succ.mpr ⟨d, none, some (some t), hd, ?_, ?_, alias_finish hn ha h hb he _⟩⟩
    · unfold memberPart
      rw [a1]
      rfl
    · unfold typePart
      rw [a2, ht]
      dsimp only
      rw [hd']
      dsimp only
      rw [hx]
      rfl

/-! Examples -/

/-- The usual kinds of types. -/
def exKinds : List Str := ["structure_type".toList, "class_type".toList, "union_type".toList, "enumeration_type".toList, "member".toList,
  "enumerator".toList, "const_type".toList, "volatile_type".toList, "typedef".toList, "pointer_type".toList, "reference_type".toList,
  "array_type".toList, "subrange_type".toList, "base_type".toList, "subroutine_type".toList, "unspecified_type".toList]

theorem exKinds_free : PrefixFree exKinds := by
  unfold PrefixFree
  decide +kernel

/-- `struct { signed a; int b; }` where the first member has the given size. -/
def exPair (size : Int) : Dies := exDies
  [(1, { tag := "structure_type".toList, children := [2, 3], byte_size := some 8 }),
   (2, { tag := "member".toList, name := some "a".toList, type := some 4, location := some "0".toList }),
   (3, { tag := "member".toList, name := some "b".toList, type := some 5, location := some "4".toList }),
   (4, { tag := "base_type".toList, byte_size := some size, encoding := some "signed".toList }),
   (5, { tag := "base_type".toList, byte_size := some 4, encoding := some "signed".toList })]

theorem exPair_plain (size : Int) : PlainDies exKinds (exPair size) := by
  intro id d h
  have h := exDies_mem h
  simp only [List.mem_cons, List.not_mem_nil, or_false, Prod.mk.injEq] at h
  rcases h with ⟨rfl, rfl⟩ | ⟨rfl, rfl⟩ | ⟨rfl, rfl⟩ | ⟨rfl, rfl⟩ | ⟨rfl, rfl⟩ <;>
    refine ⟨by dsimp only; decide, ?_, fun hl => absurd hl (by dsimp only; decide), ?_, ?_, ?_⟩ <;>
    first
    | (rintro ⟨h | h, _⟩ <;> exact absurd h (by dsimp only; decide))
    | (intro l hl; cases hl; decide)
    | (intro l hl; cases hl)

/-- Digest for examples. -/
def exDigest : TypeOpts where
  H := fun _ => "0123456789abcdef".toList

example : HexDigest exDigest.H := fun _ => ⟨rfl, fun c hc => hc⟩

/-- Both have a type. -/
theorem exPair_type (o : TypeOpts) (size : Int) : ∃ t, typeOf o (exPair size) 4 1 true = .ok t ∧ t.size = 8 := ⟨_, rfl, rfl⟩

example : ∃ t t', HasType exDigest (exPair 2) 1 true t ∧ HasType exDigest (exPair 4) 1 true t' ∧ t.hash = t'.hash := by
  obtain ⟨t, h, _⟩ := exPair_type exDigest 2
  obtain ⟨t', h', _⟩ := exPair_type exDigest 4
  refine ⟨t, t', ⟨4, h⟩, ⟨4, h'⟩, ?_⟩
  cases h
  cases h'
  rfl

theorem exPair_struct : ¬ IsAlias { tag := "structure_type".toList, children := [2, 3], byte_size := some 8 } := by
  rintro ⟨h | h, _⟩ <;> exact absurd h (by decide)

example : ∃ p p', HasParts exDigest (exPair 2) 1 true p ∧ HasParts exDigest (exPair 4) 1 true p' ∧
    (p = p' ∨ partsText p ≠ partsText p' ∧ exDigest.H (partsText p) = exDigest.H (partsText p')) := by
  obtain ⟨t, h, _⟩ := exPair_type exDigest 2
  obtain ⟨t', h', _⟩ := exPair_type exDigest 4
  exact C87_parts_partial exDigest rfl rfl (fun _ => ⟨rfl, fun c hc => hc⟩) exKinds exKinds_free (exPair 2) (exPair 4) (exPair_plain 2)
    (exPair_plain 4) 1 1 true true _ _ t t' rfl rfl exPair_struct exPair_struct ⟨4, h⟩ ⟨4, h'⟩ (by cases h; cases h'; rfl)

/-- C87 does not hold for sizes: `struct { short a; int b; }` and `struct { int a; int b; }` have the same size and the same hash,
whatever the digest, though their members differ (names not used). So a change of `short` to `int` remains unnoticed. -/
theorem C87_counterexample (H : Str → Str) : ∃ t t' : TypeInfo,
    HasType { H := H } (exPair 2) 1 true t ∧ HasType { H := H } (exPair 4) 1 true t' ∧ t.hash = t'.hash ∧ t.size = t'.size ∧
    (∃ a, HasType { H := H } (exPair 2) 2 true a ∧ a.size = 2) ∧ ∃ b, HasType { H := H } (exPair 4) 2 true b ∧ b.size = 4 := by
  refine ⟨_, _, ⟨4, rfl⟩, ⟨4, rfl⟩, rfl, rfl, ⟨_, ⟨3, rfl⟩, rfl⟩, ⟨_, ⟨3, rfl⟩, rfl⟩⟩

example : ∃ t, HasType exTypeOpts exList 8 true t ∧ HasType exTypeOpts exList 1 true t := by
  have h : ∃ t, typeOf exTypeOpts exList 9 1 true = .ok t := ⟨_, rfl⟩
  obtain ⟨t, h⟩ := h
  refine ⟨t, ?_, ⟨9, h⟩⟩
  exact (C87_alias exTypeOpts rfl rfl exList 8 1 true _ _ rfl ⟨.inl rfl, by decide⟩ rfl rfl rfl rfl t).mpr ⟨9, h⟩

end Bean.Props

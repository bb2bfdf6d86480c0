import Verif.Spec.DwarfText
import Verif.Lemmas.PySortKey
import Verif.Props.Listing
import Verif.Props.DwarfVars
import Verif.Props.ElfText
import Verif.Props.CompareText
/-
C121: output of the tool for variables and types of the debug information.
-/
namespace Bean.Props
open Bean Bean.Spec DwarfText

/-! ### Order -/

theorem strict_int : StrictTotal (fun a b : Int => a < b) := ⟨fun a => by omega, fun a b c => by omega, fun a b => by omega⟩

theorem byValue_key : ComparesBy (fun a b : Int => a < b) DwVar.value byValue := fun a b => by unfold byValue; omega

/-- **C121**, order: the output consists of one line for each variable, in the order of the addresses; variables at the same address stay in the order of the debug information. -/
theorem C121_order (o : TypeOpts) (dies : Dies) (n : Nat) (quote : Str → Str) (tls source : Bool) (ds : List VarDie) (lines : List Str)
    (h : showVariables o dies n quote tls false source ds = .ok lines) :
    ∃ (vs : List DwVar) (m : TypeMemo) (sorted : List DwVar), getVars o dies n tls noMemo ds = .ok (vs, m) ∧ lines = sorted.map (variableLine source) ∧ sorted.Perm vs ∧
      sorted.Pairwise (fun a b => a.value ≤ b.value) ∧ ∀ a, sorted.filter (fun v => v.value == a) = vs.filter (fun v => v.value == a) := by
  unfold showVariables at h
  cases hg : getVars o dies n tls noMemo ds with
  | error e => rw [hg] at h; cases h
  | ok r =>
    obtain ⟨vs, m⟩ := r
    rw [hg] at h
    refine ⟨vs, m, pySorted byValue vs, rfl, (Except.ok.inj h).symm, pySorted_perm _ _, ?_, fun a => pySorted_keyed_stable strict_int byValue_key vs a⟩
    exact (pySorted_keyed strict_int byValue_key vs).imp (fun h => by omega)

/-- Two variables, the second one at the lower address. -/
def exTwoVars : List VarDie :=
  [{ tag := "variable".toList, name := some "b".toList, type := some 1, location := some (descExpr exReg 0 [exAddr 0x4020]) },
   { tag := "variable".toList, name := some "a".toList, type := some 1, location := some (descExpr exReg 0 [exAddr 0x4010]) }]

example : ∃ lines, showVariables exTypeOpts exInt 5 id false false false exTwoVars = .ok lines ∧ lines.map (·.head?) = [some 'a', some 'b'] :=
  ⟨_, rfl, by decide +kernel⟩

/-! ### Lines -/

theorem last_cut {x y a b : Str} (ha : ' ' ∉ a) (hb : ' ' ∉ b) (h : x ++ ' ' :: a = y ++ ' ' :: b) : x = y ∧ a = b := by
  have h' := congrArg List.reverse h
  simp only [List.reverse_append, List.reverse_cons, List.append_assoc, List.singleton_append] at h'
  obtain ⟨h1, h2⟩ := blank_cut (by rw [List.mem_reverse]; exact ha) (by rw [List.mem_reverse]; exact hb) h'
  exact ⟨List.reverse_inj.mp h2, List.reverse_inj.mp h1⟩

theorem first_cut {c : Char} {a b x y : Str} (ha : c ∉ a) (hb : c ∉ b) (h : a ++ c :: x = b ++ c :: y) : a = b ∧ x = y := by
  induction a generalizing b with
  | nil =>
    cases b with
    | nil => exact ⟨rfl, (List.cons.inj h).2⟩
    | cons d b => exact absurd ((List.cons.inj h).1 ▸ List.mem_cons_self : c ∈ d :: b) hb
  | cons e a ih =>
    cases b with
    | nil => exact absurd ((List.cons.inj h).1 ▸ List.mem_cons_self : c ∈ e :: a) ha
    | cons d b =>
      obtain ⟨h1, h2⟩ := List.cons.inj h
      obtain ⟨h3, h4⟩ := ih (fun hm => ha (List.mem_cons_of_mem _ hm)) (fun hm => hb (List.mem_cons_of_mem _ hm)) h2
      exact ⟨by rw [h1, h3], h4⟩

theorem intText_word (i : Int) : ' ' ∉ intText i := by
  intro h
  unfold intText at h
  rcases List.mem_append.mp h with h | h
  · split at h
    · exact absurd (List.mem_singleton.mp h) (by decide)
    · cases h
  · exact digits_word (by decide) (by decide) h

theorem padZeros_word {w n : Nat} : ' ' ∉ padZeros w (Nat.toDigits 16 n) := by
  intro h
  unfold padZeros at h
  rcases List.mem_append.mp h with h | h
  · exact absurd (List.eq_of_mem_replicate h) (by decide)
  · exact digits_word (by decide) (by decide) h

theorem padZeros_inj {w w' m n : Nat} (h : padZeros w (Nat.toDigits 16 m) = padZeros w' (Nat.toDigits 16 n)) : m = n := by
  have e : ∀ w k, parseDigits 16 0 (padZeros w (Nat.toDigits 16 k)) = some k := by
    intro w k
    unfold padZeros
    rw [parseDigits_zeros, parseDigits_toDigits (by decide) (by decide)]
  have h1 := e w m
  rw [h, e w' n] at h1
  exact (Option.some.inj h1).symm

theorem padZeros_minus {w n : Nat} {r : Str} : padZeros w (Nat.toDigits 16 n) ≠ '-' :: r := by
  intro h
  have e : parseDigits 16 0 (padZeros w (Nat.toDigits 16 n)) = some n := by
    unfold padZeros
    rw [parseDigits_zeros, parseDigits_toDigits (by decide) (by decide)]
  rw [h] at e
  cases e

theorem zeroHex_word (w : Nat) (i : Int) : ' ' ∉ zeroHex w i := by
  unfold zeroHex
  split
  · intro h
    rcases List.mem_cons.mp h with h | h
    · exact absurd h (by decide)
    · exact padZeros_word h
  · exact padZeros_word

theorem zeroHex_inj {w : Nat} {i j : Int} (h : zeroHex w i = zeroHex w j) : i = j := by
  unfold zeroHex at h
  split at h <;> split at h
  · have := padZeros_inj (List.cons.inj h).2
    omega
  · exact absurd h.symm padZeros_minus
  · exact absurd h padZeros_minus
  · have := padZeros_inj h
    omega

/-- The line up to the size. -/
def headText (v : DwVar) : Str := (if v.external then "extern ".toList else []) ++ (v.name ++ '(' :: v.type)

theorem variableLine_eq (source : Bool) (v : DwVar) : variableLine source v =
    ((((((headText v ++ [')']) ++ ' ' :: intText v.size) ++ " byte @".toList) ++ ' ' :: zeroHex 16 v.value) ++ " #".toList) ++ ' ' :: v.hash) ++
      (' ' :: (if source then " /* ".toList ++ (v.source ++ " */".toList) else [])) := by
  unfold variableLine headText
  rw [show ") ".toList = [')', ' '] from rfl, show " byte @ ".toList = " byte @".toList ++ [' '] from rfl, show " # ".toList = " #".toList ++ [' '] from rfl]
  simp only [List.append_assoc, List.cons_append, List.nil_append]

theorem headText_inj {v w : DwVar} (hv : ReadableVar v) (hw : ReadableVar w) (h : headText v = headText w) :
    v.name = w.name ∧ v.type = w.type ∧ v.external = w.external := by
  unfold headText at h
  have hx : ∀ a b : DwVar, ReadableVar a → ReadableVar b → "extern ".toList ++ (a.name ++ '(' :: a.type) ≠ b.name ++ '(' :: b.type := by
    intro a b ha hb h
    have h' : ("extern ".toList ++ a.name) ++ '(' :: a.type = b.name ++ '(' :: b.type := by rw [List.append_assoc]; exact h
    have h1 : '(' ∉ "extern ".toList ++ a.name := fun hm => (List.mem_append.mp hm).elim (by decide) ha.name.2
    have e := (first_cut h1 hb.name.2 h').1
    exact hb.name.1 (by rw [← e]; exact List.mem_append_left _ (by decide))
  cases hve : v.external <;> cases hwe : w.external <;> rw [hve, hwe] at h
  · obtain ⟨h1, h2⟩ := first_cut hv.name.2 hw.name.2 h
    exact ⟨h1, h2, rfl⟩
  · exact absurd h.symm (hx w v hw hv)
  · exact absurd h (hx v w hv hw)
  · obtain ⟨h1, h2⟩ := first_cut hv.name.2 hw.name.2 (List.append_cancel_left h)
    exact ⟨h1, h2, rfl⟩

theorem line_inj {v w : DwVar} (hv : ReadableVar v) (hw : ReadableVar w)
    (h : (((((headText v ++ [')']) ++ ' ' :: intText v.size) ++ " byte @".toList) ++ ' ' :: zeroHex 16 v.value) ++ " #".toList) ++ ' ' :: v.hash =
      (((((headText w ++ [')']) ++ ' ' :: intText w.size) ++ " byte @".toList) ++ ' ' :: zeroHex 16 w.value) ++ " #".toList) ++ ' ' :: w.hash) :
    SameVar v w := by
  obtain ⟨h, h1⟩ := last_cut hv.hash hw.hash h
  obtain ⟨h, h2⟩ := last_cut (zeroHex_word _ _) (zeroHex_word _ _) (List.append_cancel_right h)
  obtain ⟨h, h3⟩ := last_cut (intText_word _) (intText_word _) (List.append_cancel_right h)
  obtain ⟨h4, h5, h6⟩ := headText_inj hv hw (List.append_cancel_right h)
  exact ⟨h4, zeroHex_inj h2, h5, intText_inj h3, h6, h1⟩

/-- **C121**, lines: the line of a variable tells its name, address, type, size, visibility and hash, and with the option for it the source: equal lines belong to equal
variables. (Names are identifiers; types are arbitrary texts.) -/
theorem C121_line_partial {v w : DwVar} (hv : ReadableVar v) (hw : ReadableVar w) :
    (variableLine false v = variableLine false w ↔ SameVar v w) ∧
    (Unbroken v.source → Unbroken w.source → (variableLine true v = variableLine true w ↔ SameVar v w ∧ v.source = w.source)) := by
  constructor
  · constructor
    · intro h
      rw [variableLine_eq, variableLine_eq] at h
      exact line_inj hv hw (List.append_cancel_right h)
    · intro ⟨h1, h2, h3, h4, h5, h6⟩
      rw [variableLine_eq, variableLine_eq]
      unfold headText
      rw [h1, h2, h3, h4, h5, h6]
      rfl
  · intro sv sw
    constructor
    · intro h
      rw [variableLine_eq, variableLine_eq] at h
      have e : ∀ (x s : Str), x ++ ' ' :: (if true = true then " /* ".toList ++ (s ++ " */".toList) else []) = ((x ++ "  /*".toList) ++ ' ' :: s) ++ " */".toList := by
        intro x s
        rw [if_pos rfl, show " /* ".toList = " /*".toList ++ [' '] from rfl, show "  /*".toList = ' ' :: " /*".toList from rfl]
        simp only [List.append_assoc, List.cons_append, List.nil_append]
      rw [e, e] at h
      obtain ⟨h, h1⟩ := last_cut sv sw (List.append_cancel_right h)
      exact ⟨line_inj hv hw (List.append_cancel_right h), h1⟩
    · intro ⟨⟨h1, h2, h3, h4, h5, h6⟩, h7⟩
      rw [variableLine_eq, variableLine_eq]
      unfold headText
      rw [h1, h2, h3, h4, h5, h6, h7]

/-- Variables for the examples. -/
def exDwVar (name type : Str) : DwVar := ⟨name, 0x4010, type, 11, 4, true, "a0".toList, "a.c:3".toList⟩

theorem exDwVar_readable {name type : Str} (h : ' ' ∉ name) (h' : '(' ∉ name) : ReadableVar (exDwVar name type) := ⟨⟨h, h'⟩, show ' ' ∉ "a0".toList by decide⟩

example : variableLine true (exDwVar "x".toList "int".toList) = "extern x(int) 4 byte @ 0000000000004010 # a0  /* a.c:3 */".toList := by decide +kernel

example : variableLine false (exDwVar "x".toList "int".toList) ≠ variableLine false (exDwVar "x".toList "long (int)".toList) := fun h =>
  absurd (((C121_line_partial (exDwVar_readable (by decide) (by decide)) (exDwVar_readable (by decide) (by decide))).1.mp h).type) (by decide)

/-- C121: names of templates with parentheses can be confused with the type. -/
theorem C121_name_counterexample : ∃ v w : DwVar, v.name ≠ w.name ∧ v.type ≠ w.type ∧ ∀ s, variableLine s v = variableLine s w :=
  ⟨exDwVar "f<void".toList "int)>(int".toList, exDwVar "f<void(int)>".toList "int".toList, by decide, by decide, fun s => by cases s <;> decide +kernel⟩

/-! ### JSON -/

/-- No text with this beginning is JSON. -/
def badStart : Str := "{'".toList

theorem space_ne {c : Char} (h : isSpace c = true) : c ≠ '{' ∧ c ≠ '[' ∧ c ≠ '\'' := by
  refine ⟨?_, ?_, ?_⟩ <;> rintro rfl <;> revert h <;> decide

theorem digit_ne {c : Char} (h : c.isDigit = true) : c ≠ '{' ∧ c ≠ '[' := by
  refine ⟨?_, ?_⟩ <;> rintro rfl <;> revert h <;> decide

/-- How values, elements and members start. -/
def StartOK : JsonKind → Str → Prop
  | .members, s => ∃ d r, s = d :: r ∧ (isSpace d = true ∨ d = '"')
  | _, s => s ≠ [] ∧ ∀ rest, ¬ badStart <+: s ++ rest

theorem number_start {s : Str} (h : JsonNumber s) : ∃ c r, s = c :: r ∧ (c = '-' ∨ c.isDigit = true) := by
  obtain ⟨p, hp, rfl⟩ := h
  rcases hp.sign with e | e
  · obtain ⟨⟨hne, hd⟩, _⟩ := hp.int
    cases hi : p.int with
    | nil => exact absurd hi hne
    | cons c r => exact ⟨c, _, by rw [e]; rfl, Or.inr (hd c (by rw [hi]; exact List.mem_cons_self))⟩
  · exact ⟨'-', _, by rw [e]; rfl, Or.inl rfl⟩

theorem start_other {c : Char} (r : Str) (h : c ≠ '{') : c :: r ≠ [] ∧ ∀ rest, ¬ badStart <+: c :: r ++ rest := by
  refine ⟨List.cons_ne_nil _ _, fun rest ⟨t, ht⟩ => ?_⟩
  exact h (List.cons.inj ht).1.symm

theorem start_brace {d : Char} (r : Str) (h : d ≠ '\'') : '{' :: d :: r ≠ [] ∧ ∀ rest, ¬ badStart <+: '{' :: d :: r ++ rest := by
  refine ⟨List.cons_ne_nil _ _, fun rest ⟨t, ht⟩ => ?_⟩
  exact h (List.cons.inj (List.cons.inj ht).2).1.symm

theorem start_spaces {a s : Str} (ha : Spaces a) (hs : s ≠ [] ∧ ∀ rest, ¬ badStart <+: s ++ rest) (t : Str) :
    a ++ (s ++ t) ≠ [] ∧ ∀ rest, ¬ badStart <+: (a ++ (s ++ t)) ++ rest := by
  cases a with
  | nil =>
    refine ⟨fun h => hs.1 (List.append_eq_nil_iff.mp (show s ++ t = [] from h)).1, fun rest h => hs.2 (t ++ rest) ?_⟩
    rw [← List.append_assoc]
    exact h
  | cons c a => exact start_other _ (space_ne (ha c List.mem_cons_self)).1

theorem json_start {k : JsonKind} {s : Str} (h : JsonPart k s) : StartOK k s := by
  induction h with
  | word h => rcases h with rfl | rfl | rfl <;> exact start_other _ (by decide)
  | number h =>
    obtain ⟨c, r, rfl, hc⟩ := number_start h
    exact start_other _ (hc.elim (fun h => h ▸ by decide) (fun h => (digit_ne h).1))
  | string h =>
    obtain ⟨t, _, rfl⟩ := h
    exact start_other _ (by decide)
  | emptyArray _ => exact start_other _ (by decide)
  | array _ _ => exact start_other _ (by decide)
  | @emptyObject w h =>
    cases w with
    | nil => exact start_brace _ (by decide)
    | cons d w => exact start_brace _ (space_ne (h d List.mem_cons_self)).2.2
  | object _ ih =>
    obtain ⟨d, r, rfl, hd⟩ := ih
    exact start_brace _ (hd.elim (fun h => (space_ne h).2.2) (fun h => h ▸ by decide))
  | element ha _ _ ih => exact start_spaces ha ih _
  | elementMore ha _ _ _ ih _ => exact start_spaces ha ih _
  | @member a k b c s d ha hk _ _ _ _ _ =>
    obtain ⟨t, _, rfl⟩ := hk
    cases a with
    | nil => exact ⟨'"', _, rfl, Or.inr rfl⟩
    | cons x a => exact ⟨x, _, rfl, Or.inl (ha x List.mem_cons_self)⟩
  | @memberMore a k b c s d t ha hk _ _ _ _ _ _ _ =>
    obtain ⟨t, _, rfl⟩ := hk
    cases a with
    | nil => exact ⟨'"', _, rfl, Or.inr rfl⟩
    | cons x a => exact ⟨x, _, rfl, Or.inl (ha x List.mem_cons_self)⟩

theorem not_json {r : Str} (h : JsonText ('[' :: (badStart ++ r))) : False := by
  obtain ⟨a, v, b, ha, hv, hb, e⟩ := h
  cases a with
  | cons c a => exact (space_ne (ha c List.mem_cons_self)).2.1 (List.cons.inj e).1.symm
  | nil =>
    replace e : '[' :: (badStart ++ r) = v ++ b := e
    cases hv with
    | word h => rcases h with rfl | rfl | rfl <;> exact absurd (List.cons.inj e).1 (by decide)
    | number h =>
      obtain ⟨c, s, rfl, hc⟩ := number_start h
      have := (List.cons.inj e).1
      exact hc.elim (fun h => absurd (this.trans h) (by decide)) (fun h => (digit_ne h).2 this.symm)
    | string h =>
      obtain ⟨t, _, rfl⟩ := h
      exact absurd (List.cons.inj e).1 (by decide)
    | @emptyArray w h =>
      have e2 := (List.cons.inj e).2
      cases w with
      | nil => exact absurd (List.cons.inj e2).1 (by decide)
      | cons c w => exact (space_ne (h c List.mem_cons_self)).1 (List.cons.inj e2).1.symm
    | @array s h =>
      refine (json_start h).2 ([']'] ++ b) ⟨r, ?_⟩
      rw [← List.append_assoc]
      exact (List.cons.inj e).2
    | emptyObject _ => exact absurd (List.cons.inj e).1 (by decide)
    | object _ => exact absurd (List.cons.inj e).1 (by decide)

/-- **C121**, JSON: with the option for JSON the output is a text of JSON if and only if there are no variables at all. -/
theorem C121_json_counterexample (quote : Str → Str) (source : Bool) (vars : List DwVar) :
    (∃ text, variableLines quote true source vars = [text] ∧ JsonText text) ↔ vars = [] := by
  constructor
  · intro ⟨text, h, hj⟩
    have h' : [listRepr quote (pySorted byValue vars)] = [text] := h
    obtain rfl := (List.cons.inj h').1
    cases hs : pySorted byValue vars with
    | nil => exact List.Perm.nil_eq (hs ▸ pySorted_perm byValue vars) |>.symm
    | cons v l =>
      rw [hs] at hj
      exfalso
      have e : ∃ r, listRepr quote (v :: l) = '[' :: (badStart ++ r) := by
        cases l with
        | nil => exact ⟨_, by unfold listRepr; rfl⟩
        | cons w l => exact ⟨_, by unfold listRepr; rfl⟩
      obtain ⟨r, e⟩ := e
      rw [e] at hj
      exact not_json hj
  · rintro rfl
    exact ⟨"[]".toList, rfl, [], "[]".toList, [], (fun _ h => absurd h List.not_mem_nil), .emptyArray (w := []) (fun _ h => absurd h List.not_mem_nil), (fun _ h => absurd h List.not_mem_nil), rfl⟩

/-! ### Representation by Python -/

theorem digitPair {a b : Nat} (ha : a < 128) (hb : b < 128) (h1 : Nat.digitChar (a / 16) = Nat.digitChar (b / 16)) (h2 : Nat.digitChar (a % 16) = Nat.digitChar (b % 16)) : a = b := by
  have key : ∀ x < 16, ∀ y < 16, Nat.digitChar x = Nat.digitChar y → x = y := by decide
  have := key _ (by omega) _ (by omega) h1
  have := key _ (by omega) _ (by omega) h2
  omega

/-- Forms of a character. -/
theorem escape_cases (q c : Char) :
    ((c = q ∨ c = '\\') ∧ escapeChar q c = ['\\', c]) ∨ (¬ (c = q ∨ c = '\\') ∧
      ((c = '\n' ∧ escapeChar q c = ['\\', 'n']) ∨ (c = '\r' ∧ escapeChar q c = ['\\', 'r']) ∨ (c = '\t' ∧ escapeChar q c = ['\\', 't']) ∨
      ((c.toNat < 128) ∧ escapeChar q c = ['\\', 'x', Nat.digitChar (c.toNat / 16), Nat.digitChar (c.toNat % 16)]) ∨ escapeChar q c = [c])) := by
  unfold escapeChar
  by_cases h1 : c = q ∨ c = '\\'
  · exact Or.inl ⟨h1, if_pos h1⟩
  · refine Or.inr ⟨h1, ?_⟩
    rw [if_neg h1]
    by_cases h2 : c = '\n'
    · exact Or.inl ⟨h2, if_pos h2⟩
    rw [if_neg h2]
    by_cases h3 : c = '\r'
    · exact Or.inr (Or.inl ⟨h3, if_pos h3⟩)
    rw [if_neg h3]
    by_cases h4 : c = '\t'
    · exact Or.inr (Or.inr (Or.inl ⟨h4, if_pos h4⟩))
    rw [if_neg h4]
    by_cases h5 : c.toNat < 32 ∨ c.toNat = 127
    · exact Or.inr (Or.inr (Or.inr (Or.inl ⟨by omega, if_pos h5⟩)))
    · exact Or.inr (Or.inr (Or.inr (Or.inr (if_neg h5))))

theorem escape_first {q : Char} (hq : q = '"' ∨ q = '\'') (c : Char) (s t : Str) : escapeChar q c ++ s ≠ q :: t := by
  have hb : '\\' ≠ q := by rcases hq with rfl | rfl <;> decide
  rcases escape_cases q c with ⟨_, e⟩ | ⟨h, ⟨_, e⟩ | ⟨_, e⟩ | ⟨_, e⟩ | ⟨_, e⟩ | e⟩ <;> rw [e] <;> intro h' <;> have h' := (List.cons.inj h').1
  · exact hb h'
  · exact hb h'
  · exact hb h'
  · exact hb h'
  · exact hb h'
  · exact h (Or.inl h')

theorem escape_inj {q : Char} (hq : q = '"' ∨ q = '\'') {c d : Char} {s t : Str} (h : escapeChar q c ++ s = escapeChar q d ++ t) : c = d ∧ s = t := by
  have hn : ∀ x : Char, (x = q ∨ x = '\\') → x ≠ 'n' ∧ x ≠ 'r' ∧ x ≠ 't' ∧ x ≠ 'x' := by
    rcases hq with rfl | rfl <;> rintro x (rfl | rfl) <;> decide
  rcases escape_cases q c with ⟨hc, e⟩ | ⟨hc, ⟨hc', e⟩ | ⟨hc', e⟩ | ⟨hc', e⟩ | ⟨hc', e⟩ | e⟩ <;>
    rcases escape_cases q d with ⟨hd, f⟩ | ⟨hd, ⟨hd', f⟩ | ⟨hd', f⟩ | ⟨hd', f⟩ | ⟨hd', f⟩ | f⟩ <;> rw [e, f] at h <;>
    simp only [List.cons_append, List.nil_append, List.cons.injEq] at h <;> first
    | exact ⟨h.2.1, h.2.2⟩
    | exact ⟨hc'.trans hd'.symm, h.2.2⟩
    | exact ⟨h.1, h.2⟩
    | exact absurd h.2.1 (by decide)
    | exact absurd h.2.1 (hn c hc).1
    | exact absurd h.2.1 (hn c hc).2.1
    | exact absurd h.2.1 (hn c hc).2.2.1
    | exact absurd h.2.1 (hn c hc).2.2.2
    | exact absurd h.2.1.symm (hn d hd).1
    | exact absurd h.2.1.symm (hn d hd).2.1
    | exact absurd h.2.1.symm (hn d hd).2.2.1
    | exact absurd h.2.1.symm (hn d hd).2.2.2
    | exact ⟨Char.toNat_inj.mp (digitPair hc' hd' h.2.2.1 h.2.2.2.1), h.2.2.2.2⟩
    | exact absurd (Or.inr h.1.symm) hd
    | exact absurd (Or.inr h.1) hc

theorem quoteMark_cases (s : Str) : quoteMark s = '"' ∨ quoteMark s = '\'' := by
  unfold quoteMark
  split
  · exact Or.inl rfl
  · exact Or.inr rfl

theorem escaped_inj {q : Char} (hq : q = '"' ∨ q = '\'') {x y s t : Str} (h : x.flatMap (escapeChar q) ++ q :: s = y.flatMap (escapeChar q) ++ q :: t) : x = y ∧ s = t := by
  induction x generalizing y with
  | nil =>
    cases y with
    | nil => exact ⟨rfl, (List.cons.inj h).2⟩
    | cons d y =>
      rw [List.flatMap_cons, List.append_assoc] at h
      exact absurd h.symm (escape_first hq _ _ _)
  | cons c x ih =>
    cases y with
    | nil =>
      rw [List.flatMap_cons, List.append_assoc] at h
      exact absurd h (escape_first hq _ _ _)
    | cons d y =>
      rw [List.flatMap_cons, List.flatMap_cons, List.append_assoc, List.append_assoc] at h
      obtain ⟨h1, h2⟩ := escape_inj hq h
      obtain ⟨h3, h4⟩ := ih h2
      exact ⟨by rw [h1, h3], h4⟩

/-- **C121**, texts: Python's representation of texts can be read. -/
theorem C121_quote : SelfDelimiting pyQuote := by
  intro x y s t h
  unfold pyQuote at h
  simp only [List.cons_append, List.append_assoc, List.nil_append] at h
  obtain ⟨h1, h2⟩ := List.cons.inj h
  rw [← h1] at h2
  exact escaped_inj (quoteMark_cases x) h2

theorem digits_comma (n : Nat) : ',' ∉ Nat.toDigits 10 n := fun h => absurd (Nat.isDigit_of_mem_toDigits (by decide) (by decide) h) (by decide)

theorem intText_comma (i : Int) : ',' ∉ intText i := by
  unfold intText
  intro h
  rcases List.mem_append.mp h with h | h
  · split at h
    · exact absurd (List.mem_singleton.mp h) (by decide)
    · cases h
  · exact digits_comma _ h

theorem label_cut {l x y : Str} (h : l ++ x = l ++ y) : x = y := List.append_cancel_left h

theorem number_cut {n m : Str} {l x y : Str} (hn : ',' ∉ n) (hm : ',' ∉ m) (h : n ++ ((',' :: l) ++ x) = m ++ ((',' :: l) ++ y)) : n = m ∧ x = y := by
  obtain ⟨h1, h2⟩ := first_cut hn hm h
  exact ⟨h1, List.append_cancel_left h2⟩

theorem bool_comma (b : Bool) : ',' ∉ boolRepr b := by cases b <;> decide

theorem boolRepr_inj {a b : Bool} (h : boolRepr a = boolRepr b) : a = b := by
  cases a <;> cases b <;> first
    | rfl
    | exact absurd h (by decide)

theorem comma_label (l : Str) (h : l.head? = some ',') : ∃ r, l = ',' :: r := by
  cases l with
  | nil => cases h
  | cons c r => exact ⟨r, by rw [Option.some.inj h]⟩

/-- Reading one variable. -/
theorem parts_inj {quote : Str → Str} (hq : SelfDelimiting quote) {l0 l1 l2 l3 l4 l5 l6 l7 : Str} (h2 : l2.head? = some ',') (h4 : l4.head? = some ',')
    (h5 : l5.head? = some ',') (h6 : l6.head? = some ',') {v w : DwVar} {s t : Str}
    (h : l0 ++ (quote v.name ++ (l1 ++ (intText v.value ++ (l2 ++ (quote v.type ++ (l3 ++ (Nat.toDigits 10 v.unit ++ (l4 ++ (intText v.size ++ (l5 ++
        (boolRepr v.external ++ (l6 ++ (quote v.hash ++ (l7 ++ (quote v.source ++ s))))))))))))))) =
      l0 ++ (quote w.name ++ (l1 ++ (intText w.value ++ (l2 ++ (quote w.type ++ (l3 ++ (Nat.toDigits 10 w.unit ++ (l4 ++ (intText w.size ++ (l5 ++
        (boolRepr w.external ++ (l6 ++ (quote w.hash ++ (l7 ++ (quote w.source ++ t)))))))))))))))) : v = w ∧ s = t := by
  obtain ⟨r2, rfl⟩ := comma_label _ h2
  obtain ⟨r4, rfl⟩ := comma_label _ h4
  obtain ⟨r5, rfl⟩ := comma_label _ h5
  obtain ⟨r6, rfl⟩ := comma_label _ h6
  obtain ⟨e1, h⟩ := hq _ _ _ _ (label_cut h)
  obtain ⟨e2, h⟩ := number_cut (intText_comma _) (intText_comma _) (label_cut h)
  obtain ⟨e3, h⟩ := hq _ _ _ _ h
  obtain ⟨e4, h⟩ := number_cut (digits_comma _) (digits_comma _) (label_cut h)
  obtain ⟨e5, h⟩ := number_cut (intText_comma _) (intText_comma _) h
  obtain ⟨e6, h⟩ := number_cut (bool_comma _) (bool_comma _) h
  obtain ⟨e7, h⟩ := hq _ _ _ _ h
  obtain ⟨e8, e9⟩ := hq _ _ _ _ (label_cut h)
  obtain ⟨a1, a2, a3, a4, a5, a6, a7, a8⟩ := v
  obtain ⟨b1, b2, b3, b4, b5, b6, b7, b8⟩ := w
  refine ⟨?_, e9⟩
  rw [show a1 = b1 from e1, show a2 = b2 from intText_inj e2, show a3 = b3 from e3, show a4 = b4 from toDigits_inj e4, show a5 = b5 from intText_inj e5,
    show a6 = b6 from boolRepr_inj e6, show a7 = b7 from e7, show a8 = b8 from e8]

theorem varRepr_delimits {quote : Str → Str} (hq : SelfDelimiting quote) {v w : DwVar} {s t : Str} (h : varRepr quote v ++ s = varRepr quote w ++ t) : v = w ∧ s = t := by
  unfold varRepr at h
  simp only [List.append_assoc] at h
  obtain ⟨h1, h2⟩ := parts_inj hq (by decide) (by decide) (by decide) (by decide) h
  exact ⟨h1, (List.cons.inj h2).2⟩

theorem varRepr_head (quote : Str → Str) (v : DwVar) : ∃ r, varRepr quote v = '{' :: r := ⟨_, rfl⟩

theorem joined_inj {quote : Str → Str} (hq : SelfDelimiting quote) {l m : List DwVar}
    (h : joinText (l.map (varRepr quote)) ++ [']'] = joinText (m.map (varRepr quote)) ++ [']']) : l = m := by
  have start : ∀ (v : DwVar) (k : List DwVar), ∃ r, joinText ((v :: k).map (varRepr quote)) = varRepr quote v ++ r ∧
      ((k = [] ∧ r = []) ∨ ∃ w k', k = w :: k' ∧ r = ',' :: ' ' :: joinText (k.map (varRepr quote))) := by
    intro v k
    cases k with
    | nil => exact ⟨[], (List.append_nil _).symm, Or.inl ⟨rfl, rfl⟩⟩
    | cons w k => exact ⟨_, rfl, Or.inr ⟨w, k, rfl, rfl⟩⟩
  induction l generalizing m with
  | nil =>
    cases m with
    | nil => rfl
    | cons w m =>
      obtain ⟨r, e, _⟩ := start w m
      obtain ⟨r', e'⟩ := varRepr_head quote w
      rw [e, e'] at h
      exact absurd (List.cons.inj h).1 (by decide)
  | cons v l ih =>
    obtain ⟨r, e, hr⟩ := start v l
    cases m with
    | nil =>
      obtain ⟨r', e'⟩ := varRepr_head quote v
      rw [e, e'] at h
      exact absurd (List.cons.inj h).1 (by decide)
    | cons w m =>
      obtain ⟨r', e', hr'⟩ := start w m
      rw [e, e', List.append_assoc, List.append_assoc] at h
      obtain ⟨h1, h2⟩ := varRepr_delimits hq h
      rcases hr with ⟨rfl, rfl⟩ | ⟨_, _, _, rfl⟩ <;> rcases hr' with ⟨rfl, rfl⟩ | ⟨_, _, _, rfl⟩
      · rw [h1]
      · exact absurd (List.cons.inj h2).1 (by decide)
      · exact absurd (List.cons.inj h2).1 (by decide)
      · rw [h1, ih (List.cons.inj (List.cons.inj h2).2).2]

/-- **C121**, representation: with the option for JSON, the output tells all variables with all of their members (as Python reads it). -/
theorem C121_repr {quote : Str → Str} (hq : SelfDelimiting quote) (source source' : Bool) (vars vars' : List DwVar) :
    variableLines quote true source vars = variableLines quote true source' vars' ↔ pySorted byValue vars = pySorted byValue vars' := by
  constructor
  · intro h
    have h' : [listRepr quote (pySorted byValue vars)] = [listRepr quote (pySorted byValue vars')] := h
    exact joined_inj hq (List.cons.inj (List.cons.inj h').1).2
  · intro h
    show [listRepr quote (pySorted byValue vars)] = [listRepr quote (pySorted byValue vars')]
    rw [h]

example : variableLines pyQuote true false [exDwVar "a".toList "int".toList] ≠ variableLines pyQuote true false [exDwVar "a".toList "long".toList] := fun h =>
  absurd ((C121_repr C121_quote _ _ _ _).mp h) (by decide +kernel)

example : pyQuote "it's".toList = "\"it's\"".toList ∧ pyQuote "a\"'\\".toList = "'a\"\\'\\\\'".toList := by decide +kernel

/-! ### Types -/

theorem digests_inj {k : Nat} (hk : 0 < k) {l m : List Str} (hl : ∀ x ∈ l, x.length = k) (hm : ∀ x ∈ m, x.length = k) (h : l.flatten = m.flatten) : l = m := by
  induction l generalizing m with
  | nil =>
    cases m with
    | nil => rfl
    | cons y m =>
      have := hm y List.mem_cons_self
      rw [List.flatten_cons] at h
      have h0 := (List.append_eq_nil_iff.mp h.symm).1
      rw [h0] at this
      simp at this
      omega
  | cons x l ih =>
    cases m with
    | nil =>
      have := hl x List.mem_cons_self
      rw [List.flatten_cons] at h
      have h0 := (List.append_eq_nil_iff.mp h).1
      rw [h0] at this
      simp at this
      omega
    | cons y m =>
      rw [List.flatten_cons, List.flatten_cons] at h
      obtain ⟨h1, h2⟩ := List.append_inj h ((hl x List.mem_cons_self).trans (hm y List.mem_cons_self).symm)
      rw [h1, ih (fun z hz => hl z (List.mem_cons_of_mem _ hz)) (fun z hz => hm z (List.mem_cons_of_mem _ hz)) h2]

theorem typeLine_inj {t u : TypeInfo} (ht : Unbroken t.hash) (hu : Unbroken u.hash) (h : typeLine t = typeLine u) : t = u := by
  have e : ∀ x : TypeInfo, typeLine x = ((x.ident ++ ' ' :: intText x.size) ++ " bytes #".toList) ++ ' ' :: x.hash := by
    intro x
    unfold typeLine
    rw [show " bytes # ".toList = " bytes #".toList ++ [' '] from rfl]
    simp only [List.append_assoc, List.cons_append, List.nil_append]
  rw [e, e] at h
  obtain ⟨h, h1⟩ := last_cut ht hu h
  obtain ⟨h, h2⟩ := last_cut (intText_word _) (intText_word _) (List.append_cancel_right h)
  obtain ⟨a, b, c⟩ := t
  obtain ⟨a', b', c'⟩ := u
  rw [show a = a' from h, show b = b' from intText_inj h2, show c = c' from h1]

/-- **C121**, types: the lines of types tell all of them: equal output for equal lists only. If the hash has no collision for the two texts, the last line alone tells whether the hashes of all
types agree, in this order. -/
theorem C121_types_partial {H : Str → Str} {k : Nat} (hk : 0 < k) (hH : ∀ x, (H x).length = k) {ts us : List TypeInfo} (ht : ∀ t ∈ ts, ∃ x, t.hash = H x)
    (hu : ∀ t ∈ us, ∃ x, t.hash = H x) (hw : ∀ x, Unbroken (H x)) :
    (typeLines H ts = typeLines H us ↔ ts = us) ∧
    ((H (ts.flatMap (·.hash)) = H (us.flatMap (·.hash)) → ts.flatMap (·.hash) = us.flatMap (·.hash)) → ((typeLines H ts).getLast? = (typeLines H us).getLast? ↔ ts.map (·.hash) = us.map (·.hash))) := by
  have un : ∀ {l : List TypeInfo}, (∀ t ∈ l, ∃ x, t.hash = H x) → ∀ t ∈ l, Unbroken t.hash := fun hl t h => by
    obtain ⟨x, e⟩ := hl t h
    rw [e]
    exact hw x
  constructor
  · constructor
    · intro h
      have h' := (List.append_inj' h rfl).1
      clear h
      induction ts generalizing us with
      | nil =>
        cases us with
        | nil => rfl
        | cons u us => cases h'
      | cons t ts ih =>
        cases us with
        | nil => cases h'
        | cons u us =>
          obtain ⟨h1, h2⟩ := List.cons.inj h'
          rw [typeLine_inj (un ht t List.mem_cons_self) (un hu u List.mem_cons_self) h1,
            ih (fun x hx => ht x (List.mem_cons_of_mem _ hx)) (fun x hx => hu x (List.mem_cons_of_mem _ hx)) h2]
    · intro h
      rw [h]
  · intro hi
    unfold typeLines
    rw [List.getLast?_append, List.getLast?_append]
    show some _ = some _ ↔ _
    rw [Option.some.injEq]
    have len : ∀ {l : List TypeInfo}, (∀ t ∈ l, ∃ x, t.hash = H x) → ∀ y ∈ l.map (·.hash), y.length = k := by
      intro l hl y hy
      obtain ⟨t, h1, rfl⟩ := List.mem_map.mp hy
      obtain ⟨x, e⟩ := hl t h1
      show t.hash.length = k
      rw [e, hH]
    constructor
    · intro h
      have h' := hi h
      rw [List.flatMap_def, List.flatMap_def] at h'
      exact digests_inj hk (len ht) (len hu) h'
    · intro h
      rw [List.flatMap_def, List.flatMap_def, h]

/-- **C121**, definitions: the line of a definition tells text and size. -/
theorem C121_globals (text text' : Str) (size size' : Int) : globalLine text size = globalLine text' size' ↔ text = text' ∧ size = size' := by
  constructor
  · intro h
    have e : ∀ t s, globalLine t s = ((t ++ ";  //".toList) ++ ' ' :: intText s) ++ " bytes".toList := by
      intro t s
      unfold globalLine
      rw [show ";  // ".toList = ";  //".toList ++ [' '] from rfl]
      simp only [List.append_assoc, List.cons_append, List.nil_append]
    rw [e, e] at h
    obtain ⟨h1, h2⟩ := last_cut (intText_word _) (intText_word _) (List.append_cancel_right h)
    exact ⟨List.append_cancel_right h1, intText_inj h2⟩
  · rintro ⟨rfl, rfl⟩
    rfl

/-- **C121**, functions: the line of a function tells its hash; for a name without blanks and a result without parentheses also result, name and parameters. -/
theorem C121_functions_partial {f g : FuncInfo} (hf : Unbroken f.hash ∧ Unbroken f.name) (hg : Unbroken g.hash ∧ Unbroken g.name) (h : functionLine f = functionLine g) :
    f.hash = g.hash ∧ ('(' ∉ f.ret ++ f.name → '(' ∉ g.ret ++ g.name → f.ret = g.ret ∧ f.name = g.name ∧ f.params = g.params) := by
  have e : ∀ x : FuncInfo, functionLine x = (((x.ret ++ ' ' :: x.name) ++ '(' :: x.params) ++ ") #".toList) ++ ' ' :: x.hash := by
    intro x
    unfold functionLine
    rw [show ") # ".toList = ") #".toList ++ [' '] from rfl]
    simp only [List.append_assoc, List.cons_append, List.nil_append]
  rw [e, e] at h
  obtain ⟨h, h1⟩ := last_cut hf.1 hg.1 h
  refine ⟨h1, fun pf pg => ?_⟩
  have np : ∀ x : FuncInfo, '(' ∉ x.ret ++ x.name → '(' ∉ x.ret ++ ' ' :: x.name := by
    intro x hx hm
    rcases List.mem_append.mp hm with hm | hm
    · exact hx (List.mem_append_left _ hm)
    · rcases List.mem_cons.mp hm with hm | hm
      · exact absurd hm (by decide)
      · exact hx (List.mem_append_right _ hm)
  obtain ⟨h2, h3⟩ := first_cut (np f pf) (np g pg) (List.append_cancel_right h)
  obtain ⟨h4, h5⟩ := last_cut hf.2 hg.2 h2
  exact ⟨h4, h5, h3⟩

/-! ### Examples -/

/-- A digest for the examples: the last character. -/
def exLast (s : Str) : Str := [match s.getLast? with
  | some c => if c = ' ' then '_' else c
  | none => '_']

theorem exLast_word (x : Str) : Unbroken (exLast x) := by
  unfold Unbroken exLast
  intro h
  have h := List.mem_singleton.mp h
  split at h
  · split at h
    · exact absurd h (by decide)
    · rename_i c hc
      exact hc h.symm
  · exact absurd h (by decide)

example : typeLines exLast [⟨"struct a".toList, 4, ['1']⟩] ≠ typeLines exLast [⟨"struct a".toList, 8, ['1']⟩] := fun h =>
  absurd ((C121_types_partial (k := 1) (by decide) (fun _ => rfl) (fun t ht => ⟨['1'], by rw [List.mem_singleton.mp ht]; rfl⟩)
    (fun t ht => ⟨['1'], by rw [List.mem_singleton.mp ht]; rfl⟩) exLast_word).1.mp h) (by decide)

theorem exTypes_hash (l : List TypeInfo) (h : ∀ t ∈ l, t.hash = exLast t.hash) : ∀ t ∈ l, ∃ x, t.hash = exLast x := fun t ht => ⟨t.hash, h t ht⟩

example : (typeLines exLast [⟨['a'], 4, ['1']⟩, ⟨['b'], 4, ['2']⟩]).getLast? ≠ (typeLines exLast [⟨['a'], 4, ['1']⟩]).getLast? := fun h =>
  absurd (((C121_types_partial (k := 1) (by decide) (fun _ => rfl) (exTypes_hash _ (by decide)) (exTypes_hash _ (by decide)) exLast_word).2 (fun hc => absurd hc (by decide))).mp h) (by decide)

example : globalLine "int x".toList 4 = "int x;  // 4 bytes".toList := by decide +kernel

example : functionLine ⟨"f".toList, 0, "void".toList, "int".toList, ['1']⟩ ≠ functionLine ⟨"f".toList, 0, "void".toList, "long".toList, ['1']⟩ := fun h =>
  absurd ((C121_functions_partial ⟨by unfold Unbroken; decide, by unfold Unbroken; decide⟩ ⟨by unfold Unbroken; decide, by unfold Unbroken; decide⟩ h).2
    (by decide) (by decide)).2.2 (by decide)

/-- C121: the same types in another order have another hash. -/
theorem C121_total_counterexample : ∃ ts us : List TypeInfo, ts.Perm us ∧ (typeLines exLast ts).getLast? ≠ (typeLines exLast us).getLast? :=
  ⟨[⟨['a'], 4, ['1']⟩, ⟨['b'], 4, ['2']⟩], [⟨['b'], 4, ['2']⟩, ⟨['a'], 4, ['1']⟩], List.Perm.swap _ _ _, by decide⟩

end Bean.Props

import Verif.Model.Styled
import Verif.Spec.Terminal
import Verif.Props.Detail
import Verif.Props.ChangeText
/-
C135: control sequences for the terminal do not change the text of the listings, and are undone at the end.
-/
namespace Bean.Props

open Bean Bean.Spec

/-! ### Text without control sequences -/

/-- Without escape character. -/
def Bare (x : Str) : Prop := Char.ofNat 27 ∉ x

instance (x : Str) : Decidable (Bare x) := inferInstanceAs (Decidable (Char.ofNat 27 ∉ x))

theorem Bare.nil : Bare [] := List.not_mem_nil

theorem Bare.append {x y : Str} (hx : Bare x) (hy : Bare y) : Bare (x ++ y) := fun h => (List.mem_append.mp h).elim hx hy

theorem Bare.cons {c : Char} {y : Str} (hc : c ≠ Char.ofNat 27) (hy : Bare y) : Bare (c :: y) := fun h => (List.mem_cons.mp h).elim (fun e => hc e.symm) hy

theorem bare_digits {b n : Nat} (hb : 1 < b) (hb' : b ≤ 16) : Bare (Nat.toDigits b n) := by
  intro h
  obtain ⟨k, hk, e⟩ := mem_digits hb h
  have : ∀ k < 16, Char.ofNat 27 ≠ Nat.digitChar k := by decide
  exact this k (by omega) e

theorem bare_replicate {n : Nat} {c : Char} (hc : c ≠ Char.ofNat 27) : Bare (List.replicate n c) := fun h => hc (List.eq_of_mem_replicate h).symm

theorem bare_hex (x : BitVec 64) : Bare (hex16 x) := (bare_replicate (by decide)).append (bare_digits (by decide) (by decide))

theorem bare_id (i : Identifier) : Bare (symIdText i) := by
  unfold symIdText
  exact ((((bare_hex _).cons (by decide)).append ((bare_hex _).cons (by decide)))).append (by decide)

theorem bare_left {n : Nat} {x : Str} (hx : Bare x) : Bare (padLeft n x) := (bare_replicate (by decide)).append hx

theorem bare_right {n : Nat} {x : Str} (hx : Bare x) : Bare (padRight n x) := hx.append (bare_replicate (by decide))

theorem bare_place (v : Addr) : Bare (placeText v) := by
  unfold placeText
  refine Bare.append ?_ (((bare_digits (by decide) (by decide)).cons (by decide)).cons (by decide))
  cases TLS.is_tls v <;> decide

/-- A name without control sequences. -/
def BareName (n : Option String) : Prop := ∀ m, n = some m → Bare m.toList

/-- Names of a symbol and its relocations are without control sequences. -/
def BareSymbol (s : Symbol) : Prop := BareName s.name ∧ BareName s.sec.name ∧ ∀ r ∈ s.rels, BareName r.name

theorem bare_shown {n : Option String} {s : Str} (hn : BareName n) (h : shownName n = some s) : Bare s := by
  unfold shownName at h
  cases n with
  | none => cases h
  | some m =>
    dsimp only at h
    by_cases he : m.toList = []
    · rw [if_pos he] at h; cases h
    · rw [if_neg he] at h
      rw [← Option.some.inj h]
      exact hn m rfl

theorem bare_address {t : SymTree} (hn : ∀ s ∈ t, BareSymbol s) (v : Addr) : Bare (addressText t v) := by
  unfold addressText
  refine (bare_place v).append ?_
  cases hf : Tree.floor t v with
  | none => exact Bare.nil
  | some y =>
    have hy := hn y (Tree.floor_mem hf)
    dsimp only
    by_cases hk : TLS.is_tls y.address = TLS.is_tls v
    · rw [if_pos hk]
      refine ((((Bare.append (by decide) ?_).append ?_).append ?_).append (by decide))
      · cases he : y.name with
        | none => exact bare_place _
        | some n => exact hy.1 n he
      · cases he : y.sec.name with
        | none => exact Bare.nil
        | some n => exact (hy.2.1 n he).cons (by decide)
      · by_cases he : y.address = v
        · rw [if_neg (not_not_intro he)]; exact Bare.nil
        · rw [if_pos he]
          exact Bare.append (by decide) (bare_digits (by decide) (by decide))
    · rw [if_neg hk]
      exact Bare.nil

theorem bare_link {t : SymTree} (hn : ∀ s ∈ t, BareSymbol s) (v : Addr) : Bare (linkLine t v) := by
  unfold linkLine linkId
  refine Bare.append (by decide) ((bare_address hn v).append ?_)
  cases Tree.floor t v with
  | none => exact Bare.nil
  | some y =>
    dsimp only
    by_cases h : y.id.internal = 0
    · rw [if_neg (not_not_intro h)]; exact Bare.nil
    · rw [if_pos h]; exact (bare_id _).cons (by decide)

theorem bare_relType (type : Addr) : Bare (relTypeText type) := by
  have key : ∀ x ∈ relTypeNames, Bare ("R_X86_64_".toList ++ x.2.toList) := by decide +kernel
  unfold relTypeText
  cases hf : relTypeNames.find? (fun x => x.1 = type.toNat) with
  | some x => exact key x (List.mem_of_find?_eq_some hf)
  | none => exact (Bare.append (by decide) (bare_digits (by decide) (by decide))).append (by decide)

theorem bare_target {t : SymTree} (hn : ∀ s ∈ t, BareSymbol s) {r : Rel} (hr : BareName r.name) : Bare (targetText t r) := by
  unfold targetText
  cases hf : Tree.floor t r.target with
  | none =>
    dsimp only
    by_cases h : r.target = 0
    · rw [if_pos h]
      exact ((bare_digits (by decide) (by decide)).cons (by decide)).cons (by decide)
    · rw [if_neg h]
      exact bare_address hn _
  | some y =>
    have hy := hn y (Tree.floor_mem hf)
    dsimp only
    refine (Bare.append ?_ (bare_id _)).append ?_
    · cases h1 : shownName r.name with
      | some n => exact (bare_shown hr h1).append (by decide)
      | none =>
        cases h2 : shownName y.name with
        | some n => exact (bare_shown hy.1 h2).append (by decide)
        | none => exact ((bare_place _).cons (by decide)).append (by decide)
    · by_cases ha : r.addend = 0
      · rw [if_neg (not_not_intro ha)]; exact Bare.nil
      · rw [if_pos ha]
        refine Bare.cons (by decide) ?_
        unfold signedText
        refine Bare.cons ?_ (bare_digits (by decide) (by decide))
        split <;> decide

theorem bare_letters (r : Rel) : Bare (accessLetters r) := by
  unfold accessLetters
  refine Bare.append ?_ (Bare.append ?_ (Bare.append ?_ ?_))
  all_goals (split <;> decide)

theorem bare_count (n : Nat) {label : Str} (hl : Bare label) (plural : Bool) : Bare (countLine n label plural) := by
  unfold countLine
  refine ((((bare_digits (by decide) (by decide)).append (hl.append ?_)).cons (by decide)).cons (by decide))
  split <;> decide

theorem bare_list (level : Nat) {s : Symbol} (h : BareSymbol s) : Bare (listLine level s) := by
  unfold listLine
  refine (bare_id _).append ?_
  by_cases hl : level = 1
  · rw [if_pos hl]
    unfold columns
    refine Bare.append (by decide) ((bare_left (bare_digits (by decide) (by decide))).append (Bare.append (by decide) ((bare_left (bare_digits (by decide) (by decide))).append
      (Bare.append (by decide) ((bare_left (bare_digits (by decide) (by decide))).append (Bare.append (by decide) ((bare_hex _).append
      ((bare_left (bare_digits (by decide) (by decide))).append (Bare.cons (by decide) ((bare_right ?_).append ((bare_right ?_).append (Bare.cons (by decide) (Bare.append ?_ ?_)))))))))))))
    · cases s.type <;> decide
    · cases s.bind <;> decide
    · unfold flagColumn
      cases s.sec.writeable <;> cases s.sec.has SECTION_RELRO <;> cases s.sec.executable <;> cases TLS.is_tls s.address <;> decide
    · unfold nameColumn
      refine Bare.append ?_ ?_
      · cases hn : shownName s.name with
        | none => exact Bare.nil
        | some n => exact (bare_shown h.1 hn).cons (by decide)
      · cases hn : s.sec.name with
        | none => exact Bare.nil
        | some n => exact (((h.2.1 n hn).cons (by decide)).cons (by decide)).append (by decide)
  · rw [if_neg hl]
    exact Bare.nil

/-! ### What a terminal shows -/

theorem Shows.append {x y v w : Str} {s s' s'' : Style} {f : Option Nat} (h1 : Shows x s v f s') (h2 : Shows y s' w f s'') : Shows (x ++ y) s (v ++ w) f s'' := by
  obtain ⟨c, e1, e2, e3⟩ := h1
  obtain ⟨d, e4, e5, e6⟩ := h2
  refine ⟨c ++ d, by rw [List.map_append, e1, e4], fun z hz => (List.mem_append.mp hz).elim (e2 z) (e5 z), fun out => ?_⟩
  rw [List.foldl_append, e3, e6, List.append_assoc]

theorem Shows.bare {x : Str} (h : Bare x) (s : Style) : Shows x s x s.colour s := by
  refine ⟨x.map (fun c => (c, s)), ?_, ?_, ?_⟩
  · rw [List.map_map]
    exact List.map_id _
  · intro z hz
    obtain ⟨c, -, rfl⟩ := List.mem_map.mp hz
    rfl
  · induction x with
    | nil => intro out; rw [List.map_nil, List.append_nil]; rfl
    | cons c l ih =>
      intro out
      have hc : c ≠ Char.ofNat 27 := fun e => h (e ▸ List.mem_cons_self)
      rw [List.foldl_cons]
      have e : Terminal.feed { cells := out, style := s } c = { cells := out ++ [(c, s)], style := s } := by
        unfold Terminal.feed
        dsimp only
        rw [if_neg hc]
      rw [e, ih (fun m => h (List.mem_cons_of_mem _ m)), List.map_cons, List.append_assoc]
      rfl

theorem shows_one (s : Style) (f : Option Nat) : Shows (color ['1']) s [] f { s with bold := true } := ⟨[], rfl, fun _ h => (by cases h), fun out => by rw [List.append_nil]; rfl⟩
theorem shows_two (s : Style) (f : Option Nat) : Shows (color ['2']) s [] f { s with faint := true } := ⟨[], rfl, fun _ h => (by cases h), fun out => by rw [List.append_nil]; rfl⟩
theorem shows_three (s : Style) (f : Option Nat) : Shows (color ['3']) s [] f { s with italic := true } := ⟨[], rfl, fun _ h => (by cases h), fun out => by rw [List.append_nil]; rfl⟩
theorem shows_normal (s : Style) (f : Option Nat) : Shows (color ['2', '2']) s [] f { s with bold := false, faint := false } := ⟨[], rfl, fun _ h => (by cases h), fun out => by rw [List.append_nil]; rfl⟩
theorem shows_upright (s : Style) (f : Option Nat) : Shows (color ['2', '3']) s [] f { s with italic := false } := ⟨[], rfl, fun _ h => (by cases h), fun out => by rw [List.append_nil]; rfl⟩
theorem shows_reset (s : Style) (f : Option Nat) : Shows (color ['0']) s [] f {} := ⟨[], rfl, fun _ h => (by cases h), fun out => by rw [List.append_nil]; rfl⟩

/-- The text is shown as `v` in the colour of the style `s`, which it keeps. -/
def Still (s : Style) (x v : Str) : Prop := Shows x s v s.colour s

theorem Still.append {s : Style} {x y v w : Str} (h1 : Still s x v) (h2 : Still s y w) : Still s (x ++ y) (v ++ w) := Shows.append h1 h2

theorem still {x : Str} (h : Bare x) (s : Style) : Still s x x := Shows.bare h s

theorem Still.cons {s : Style} {c : Char} {y w : Str} (hc : c ≠ Char.ofNat 27) (h : Still s y w) : Still s (c :: y) (c :: w) :=
  (still (x := [c]) (Bare.nil.cons hc) s).append h

theorem Still.flatMap {α : Type} {s : Style} {f g : α → Str} (l : List α) (h : ∀ a ∈ l, Still s (f a) (g a)) : Still s (l.flatMap f) (l.flatMap g) := by
  induction l with
  | nil => exact still Bare.nil s
  | cons a l ih => exact (h a List.mem_cons_self).append (ih (fun b hb => h b (List.mem_cons_of_mem _ hb)))

theorem still_bold {s : Style} (h1 : s.bold = false) (h2 : s.faint = false) {x v : Str} (hx : Still { s with bold := true } x v) : Still s (color ['1'] ++ (x ++ color ['2', '2'])) v := by
  have h := Shows.append (shows_one s s.colour) (Shows.append hx (shows_normal _ s.colour))
  rw [List.nil_append, List.append_nil] at h
  have e : ({ s with bold := false, faint := false } : Style) = s := by cases s; cases h1; cases h2; rfl
  exact (congrArg (Shows _ s v s.colour) e).mp h

theorem still_faint {s : Style} (h1 : s.bold = false) (h2 : s.faint = false) {x v : Str} (hx : Still { s with faint := true } x v) : Still s (color ['2'] ++ (x ++ color ['2', '2'])) v := by
  have h := Shows.append (shows_two s s.colour) (Shows.append hx (shows_normal _ s.colour))
  rw [List.nil_append, List.append_nil] at h
  have e : ({ s with bold := false, faint := false } : Style) = s := by cases s; cases h1; cases h2; rfl
  exact (congrArg (Shows _ s v s.colour) e).mp h

theorem still_italic {s : Style} (h1 : s.italic = false) {x v : Str} (hx : Still { s with italic := true } x v) : Still s (color ['3'] ++ (x ++ color ['2', '3'])) v := by
  have h := Shows.append (shows_three s s.colour) (Shows.append hx (shows_upright _ s.colour))
  rw [List.nil_append, List.append_nil] at h
  have e : ({ s with italic := false } : Style) = s := by cases s; cases h1; rfl
  exact (congrArg (Shows _ s v s.colour) e).mp h

/-! ### The parts of the listing -/

/-- Without control sequences. -/
def noColor : Str → Str := fun _ => []

theorem still_name {s : Symbol} (h : BareSymbol s) {y : Style} (hy : y.Calm) : Still y (styledName color s) (styledName noColor s) := by
  have hk : Bare (kindColumn s) := by
    unfold kindColumn
    refine Bare.append (by cases s.bind <;> decide) ?_
    cases hn : s.sec.name with
    | none => exact Bare.nil
    | some n => exact ((h.2.1 n hn).cons (by decide)).cons (by decide)
  have hm : Bare (markColumn s) := by
    unfold markColumn
    by_cases hf : s.flags = 0
    · rw [if_neg (not_not_intro hf)]; decide
    · rw [if_pos hf]
      cases s.has SYMBOL_ENTRY <;> cases s.has SYMBOL_TRAMPOLINE <;> cases s.has SYMBOL_USING_CET <;> decide
  have hp : Bare (permColumn s) := by
    unfold permColumn
    cases s.sec.writeable <;> cases s.sec.has SECTION_RELRO <;> cases s.sec.executable <;> decide
  unfold styledName
  refine Still.append (still (by cases TLS.is_tls s.address <;> decide) y) (Still.append ?_ (still ((bare_digits (by decide) (by decide)).append (Bare.append (by decide)
    ((bare_digits (by decide) (by decide)).append (hm.append (hk.append (hp.append ?_)))))) y))
  · cases hn : shownName s.name with
    | none => exact still (by decide) y
    | some n =>
      dsimp only
      rw [show color ['1'] ++ (n ++ (color ['2', '2'] ++ [' ', '('])) = (color ['1'] ++ (n ++ color ['2', '2'])) ++ [' ', '('] by simp only [List.append_assoc],
        show noColor ['1'] ++ (n ++ (noColor ['2', '2'] ++ [' ', '('])) = n ++ [' ', '('] from rfl]
      exact (still_bold hy.1 hy.2.1 (still (bare_shown h.1 hn) _)).append (still (by decide) y)
  · cases shownName s.name with
    | none => exact Bare.nil
    | some n => exact Bare.nil.cons (by decide)

theorem still_access (r : Rel) {y : Style} (h1 : y.bold = false) (h2 : y.faint = false) : Still y (styledAccess color r) (styledAccess noColor r) := by
  unfold styledAccess
  by_cases h : r.instruction_access = 0
  · rw [if_neg (not_not_intro h), if_neg (not_not_intro h)]
    exact still Bare.nil y
  · rw [if_pos h, if_pos h]
    refine Still.cons (by decide) ?_
    have hb : Bare ('(' :: (accessLetters r ++ ('@' :: '-' :: (Nat.toDigits 10 r.instruction_offset.toNat ++ [')', ' '])))) :=
      ((bare_letters r).append ((((bare_digits (by decide) (by decide)).append (by decide)).cons (by decide)).cons (by decide))).cons (by decide)
    have h := still_faint h1 h2 (still hb _)
    simp only [List.append_assoc, List.cons_append, List.nil_append] at h
    exact h

theorem still_place (r : Rel) {y : Style} (h : y.italic = false) : Still y (styledPlace color r) (styledPlace noColor r) := by
  have hb : Bare ("*0x".toList ++ Nat.toDigits 16 r.offset.toNat) := Bare.append (by decide) (bare_digits (by decide) (by decide))
  unfold styledPlace
  cases r.reconstructed with
  | false => exact still hb y
  | true =>
    have h := still_italic h (still hb _)
    rw [if_pos rfl, if_pos rfl, show noColor ['3'] ++ ("*0x".toList ++ (Nat.toDigits 16 r.offset.toNat ++ noColor ['2', '3'])) = "*0x".toList ++ Nat.toDigits 16 r.offset.toNat from by
      unfold noColor; rw [List.append_nil]; rfl]
    rw [List.append_assoc] at h
    exact h

theorem still_target {t : SymTree} (hn : ∀ s ∈ t, BareSymbol s) {r : Rel} (hr : BareName r.name) {y : Style} (hy : y.Calm) :
    Still y (styledTarget color t r) (styledTarget noColor t r) := by
  unfold styledTarget
  cases r.undefined with
  | true => exact (still (bare_target hn hr) y).append (still_access r hy.1 hy.2.1)
  | false =>
    have h := still_italic hy.2.2 ((still (bare_target hn hr) { y with italic := true }).append (still_access r hy.1 hy.2.1))
    rw [if_neg (by decide), if_neg (by decide), show noColor ['3'] ++ (targetText t r ++ (styledAccess noColor r ++ noColor ['2', '3'])) = targetText t r ++ styledAccess noColor r from by
      unfold noColor; rw [List.append_nil]; rfl]
    rw [List.append_assoc] at h
    exact h

theorem still_rel {t : SymTree} (hn : ∀ s ∈ t, BareSymbol s) {r : Rel} (hr : BareName r.name) {y : Style} (hy : y.Calm) :
    Still y (styledRel color t r) (styledRel noColor t r) := by
  unfold styledRel
  refine Still.append (still (by decide) y) ((still_place r hy.2.2).append (Still.append (still (by decide) y) ?_))
  have h := (still_faint hy.1 hy.2.1 (still (bare_relType r.type) _)).append (Still.cons (c := ' ') (by decide) (still_target hn hr hy))
  rw [show noColor ['2'] ++ (relTypeText r.type ++ (noColor ['2', '2'] ++ (' ' :: styledTarget noColor t r))) = relTypeText r.type ++ ' ' :: styledTarget noColor t r from rfl]
  simp only [List.append_assoc] at h
  exact h

theorem still_position (s : Symbol) (o : Addr × BitVec 64) {y : Style} (hy : y.Calm) : Still y (styledPosition color s o) (styledPosition noColor s o) := by
  unfold styledPosition
  refine Still.append (still (by decide) y) ((still (bare_digits (by decide) (by decide)) y).append (Still.cons (by decide) ?_))
  have hb : Bare ("(+ ".toList ++ (Nat.toDigits 10 o.1.toNat ++ [')'])) := Bare.append (by decide) ((bare_digits (by decide) (by decide)).append (by decide))
  have h := (still_faint hy.1 hy.2.1 (still hb _)).append (still (x := " = ".toList ++ hex16 o.2) (Bare.append (by decide) (bare_hex _)) y)
  simp only [List.append_assoc, List.cons_append, List.nil_append] at h
  exact h

theorem still_id {p v : Str} (s : Symbol) {y : Style} (hy : y.Calm) (hp : Still y p v) : Still y (styledId color p s) (styledId noColor v s) := by
  unfold styledId
  by_cases h : s.id.internal = 0
  · rw [if_neg (not_not_intro h), if_neg (not_not_intro h)]
    exact still Bare.nil y
  · rw [if_pos h, if_pos h]
    refine hp.append (Still.append (still (by decide) y) ?_)
    have h := (still_bold hy.1 hy.2.1 (still (Bare.append (x := "ID: ".toList) (by decide) (bare_id s.id)) _)).append (still (x := ['\n']) (by decide) y)
    simp only [List.append_assoc] at h
    exact h

theorem still_entries {α : Type} {p v : Str} {level : Nat} {label : Str} (hl : Bare label) (plural : Bool) {f g : α → Str} {l : List α} {y : Style} (hp : Still y p v)
    (h : ∀ a ∈ l, Still y (f a) (g a)) : Still y (entriesWith p level label plural (l.map f)) (entriesWith v level label plural (l.map g)) := by
  unfold entriesWith
  cases l with
  | nil => exact still Bare.nil y
  | cons a l =>
    rw [if_neg (show ¬ (a :: l).map f = [] from List.cons_ne_nil _ _), if_neg (show ¬ (a :: l).map g = [] from List.cons_ne_nil _ _), List.length_map, List.length_map]
    refine hp.append ((still (bare_count _ hl plural) y).append (Still.cons (by decide) ?_))
    by_cases h3 : 3 ≤ level
    · rw [if_pos h3, if_pos h3, List.flatMap_map, List.flatMap_map]
      exact Still.flatMap _ (fun b hb => hp.append ((h b hb).append (still (by decide) y)))
    · rw [if_neg h3, if_neg h3]
      exact still Bare.nil y

theorem still_body {p v : Str} (level : Nat) {t : SymTree} (hn : ∀ s ∈ t, BareSymbol s) {s : Symbol} (hs : BareSymbol s) {y : Style} (hy : y.Calm) (hp : Still y p v) :
    Still y (styledBody color p level t s) (styledBody noColor v level t s) := by
  unfold styledBody
  refine (still_entries (by decide) _ hp (fun a _ => still (bare_link hn a) y)).append ((still_entries (by decide) _ hp (fun r hr => still_rel hn (hs.2.2 r hr) hy)).append
    (Still.append ?_ ((still_entries (by decide) _ hp (fun a _ => still (bare_link hn a) y)).append ((still_id s hy hp).append (still (by decide) y)))))
  by_cases h3 : 3 ≤ level
  · rw [if_pos h3, if_pos h3]
    exact still_entries (by decide) _ hp (fun o _ => still_position s o hy)
  · rw [if_neg h3, if_neg h3]
    exact still Bare.nil y

/-- The prefix of each line leads to the style `y` and keeps it. -/
theorem shows_symbol {p v : Str} (diet : Bool) (level : Nat) {t : SymTree} (hn : ∀ s ∈ t, BareSymbol s) {s : Symbol} (hs : BareSymbol s) {x y : Style} (hy : y.Calm)
    (h0 : Shows p x v y.colour y) (hp : Still y p v) : Shows (symbolText color p diet level t s) x (symbolText noColor v diet level t s) y.colour y := by
  unfold symbolText
  by_cases hl : level ≤ 1
  · rw [if_pos hl, if_pos hl]
    exact Shows.append h0 (still ((bare_list level hs).append (by decide)) y)
  · rw [if_neg hl, if_neg hl]
    refine Shows.append h0 ((still_name hs hy).append (Still.append ?_ (still_body level hn hs hy hp)))
    cases diet with
    | true => exact still Bare.nil y
    | false =>
      refine still (Bare.append ?_ (by decide)) y
      unfold colonText
      split <;> decide

/-! ### Comparison with the text without attributes -/

theorem plain_name (s : Symbol) : styledName noColor s = detailName s := by
  unfold styledName detailName
  cases shownName s.name <;> rfl

theorem plain_access (r : Rel) : styledAccess noColor r = accessText r := by
  unfold styledAccess accessText accessLetters noColor
  simp only [List.append_assoc, List.nil_append]

theorem plain_rel (t : SymTree) (r : Rel) : styledRel noColor t r = relLine t r ++ accessText r := by
  have e1 : styledPlace noColor r = "*0x".toList ++ Nat.toDigits 16 r.offset.toNat := by
    unfold styledPlace noColor
    rw [List.append_nil, List.nil_append]
    exact ite_self _
  have e2 : styledTarget noColor t r = targetText t r ++ accessText r := by
    unfold styledTarget
    rw [plain_access]
    unfold noColor
    rw [List.append_nil, List.nil_append]
    exact ite_self _
  unfold styledRel relLine
  rw [e1, e2]
  unfold noColor
  simp only [List.append_assoc, List.nil_append, List.cons_append]
  rfl

theorem plain_position (s : Symbol) (o : Addr × BitVec 64) : styledPosition noColor s o = positionLine s o := by
  unfold styledPosition positionLine noColor
  simp only [List.nil_append]
  rfl

theorem plain_entries (level : Nat) (label : Str) (plural : Bool) (l : List Str) : entriesWith [] level label plural l = entriesText level label plural l := rfl

theorem plain_symbol (diet : Bool) {level : Nat} (hl : 2 ≤ level) (t : SymTree) (s : Symbol) :
    detailSymbol diet level (fun _ => none) t s = some (symbolText noColor [] diet level t s) := by
  have e1 : s.rels.map (styledRel noColor t) = s.rels.map (fun r => relLine t r ++ accessText r) := List.map_congr_left (fun r _ => plain_rel t r)
  have e2 : s.offset_ids.map (styledPosition noColor s) = s.offset_ids.map (positionLine s) := List.map_congr_left (fun o _ => plain_position s o)
  have e3 : styledBody noColor [] level t s = detailBody level t s := by
    unfold styledBody detailBody
    rw [e1, e2]
    rfl
  unfold symbolText
  rw [if_neg (by omega), e3, plain_name]
  cases diet <;> rfl

theorem plain_all (diet : Bool) {level : Nat} (hl : 2 ≤ level) (t : SymTree) (l : List Symbol) :
    detailAll diet level (fun _ => none) t l = some (l.flatMap (symbolText noColor [] diet level t)) := by
  induction l with
  | nil => rfl
  | cons s l ih =>
    unfold detailAll
    rw [plain_symbol diet hl, ih]
    rfl

/-- **C135**, listings: on a terminal, the text of the listing appears as if there were no control sequences, in one colour, and the attributes are the same as before at the end.
What is missing: debug text. -/
theorem C135_listing_partial (diet : Bool) (level : Nat) {t : SymTree} (hn : ∀ s ∈ t, BareSymbol s) (y : Style) (hy : y.Calm) (x : Str) (hx : styledListing diet level t = .ok x) :
    ∃ v, Shows x y v y.colour y ∧ (level ≤ 1 → listSymbols level t = .ok v) ∧ (2 ≤ level → detailListing diet level (fun _ => none) t = .ok (some v)) := by
  unfold styledListing at hx
  cases hl : t.getLast? with
  | none => rw [hl] at hx; cases hx
  | some z =>
    rw [hl] at hx
    have e := Except.ok.inj hx
    have hh : Bare (listHeader level) := by
      unfold listHeader
      split
      · decide +kernel
      · split <;> decide +kernel
    have hb : Still y (t.flatMap (symbolText color [] diet level t)) (t.flatMap (symbolText noColor [] diet level t)) :=
      Still.flatMap t (fun s hs => shows_symbol diet level hn (hn s hs) hy (still Bare.nil y) (still Bare.nil y))
    rw [← e]
    refine ⟨_, (still hh y).append hb, fun h1 => ?_, fun h2 => ?_⟩
    · unfold listSymbols
      rw [hl]
      refine congrArg (fun r => Except.ok (listHeader level ++ r)) (congrArg (List.flatMap · t) (funext fun s => ?_))
      unfold symbolText
      rw [if_pos h1]
      rfl
    · unfold detailListing
      rw [hl]
      refine congrArg Except.ok ((plain_all diet h2 t t).trans (congrArg some ?_))
      rw [show listHeader level = [] from by unfold listHeader; rw [if_neg (by omega), if_neg (by omega)]]
      rfl

/-! ### Differences -/

/-- The colour for a mark: red or green. -/
def markColour : Mark → Option Nat
  | .removed => some 1
  | .added => some 2
  | .kept => none

/-- The character for a mark. -/
def markSign : Mark → Str
  | .removed => ['-']
  | .added => ['+']
  | .kept => [' ']

theorem shows_mark (m : Mark) (s : Style) : Shows (markText m) s (markSign m) (markColour m) { colour := markColour m } := by
  refine ⟨(markSign m).map (fun c => (c, { colour := markColour m })), by cases m <;> rfl, ?_, fun out => by cases m <;> rfl⟩
  intro z hz
  obtain ⟨c, -, rfl⟩ := List.mem_map.mp hz
  rfl

/-- The text of a symbol in the listing of differences. -/
def changeShown (diet : Bool) (level : Nat) (old new : SymTree) (x : Mark × Symbol) : Str :=
  symbolText noColor (markSign x.1) diet (if x.1 = .kept then 1 else level) (if x.1 = .removed then old else new) x.2

theorem shows_block (diet : Bool) (level : Nat) {old new : SymTree} (ho : ∀ s ∈ old, BareSymbol s) (hn : ∀ s ∈ new, BareSymbol s) {x : Mark × Symbol} (hx : BareSymbol x.2) (s : Style) :
    Shows (changeBlock diet level old new x) s (changeShown diet level old new x) (markColour x.1) { colour := markColour x.1 } := by
  obtain ⟨m, z⟩ := x
  cases m with
  | removed => exact shows_symbol diet level ho hx (y := { colour := some 1 }) ⟨rfl, rfl, rfl⟩ (shows_mark .removed s) (shows_mark .removed _)
  | added => exact shows_symbol diet level hn hx (y := { colour := some 2 }) ⟨rfl, rfl, rfl⟩ (shows_mark .added s) (shows_mark .added _)
  | kept => exact shows_symbol diet 1 hn hx (y := {}) ⟨rfl, rfl, rfl⟩ (shows_mark .kept s) (shows_mark .kept _)

theorem blocks_shown (diet : Bool) (level : Nat) {old new : SymTree} (ho : ∀ s ∈ old, BareSymbol s) (hn : ∀ s ∈ new, BareSymbol s) (lines : List (Mark × Symbol))
    (hx : ∀ x ∈ lines, BareSymbol x.2) (s : Style) : ∃ (blocks : List (List (Char × Style))) (s' : Style),
      AllMatch (fun x c => c.map (·.1) = changeShown diet level old new x ∧ ∀ z ∈ c, z.2.colour = markColour x.1) lines blocks ∧
      ∀ out, (lines.flatMap (changeBlock diet level old new)).foldl Terminal.feed { cells := out, style := s } = { cells := out ++ blocks.flatten, style := s' } := by
  induction lines generalizing s with
  | nil => exact ⟨[], s, ⟨rfl, fun i a b h => (by cases h)⟩, fun out => by rw [List.flatten_nil, List.append_nil]; rfl⟩
  | cons x l ih =>
    obtain ⟨c, h1, h2, h3⟩ := shows_block diet level ho hn (hx x List.mem_cons_self) s
    obtain ⟨blocks, s', h4, h5⟩ := ih (fun z hz => hx z (List.mem_cons_of_mem _ hz)) { colour := markColour x.1 }
    refine ⟨c :: blocks, s', ⟨by rw [List.length_cons, List.length_cons, h4.1], fun i a b ha hb => ?_⟩, fun out => ?_⟩
    · cases i with
      | zero =>
        have e1 : x = a := Option.some.inj ha
        have e2 : c = b := Option.some.inj hb
        rw [← e1, ← e2]
        exact ⟨h1, h2⟩
      | succ i => exact h4.2 i a b ha hb
    · rw [List.flatMap_cons, List.foldl_append, h3, h5, List.flatten_cons, List.append_assoc]

/-- **C135**, differences: each symbol appears as in a listing without control sequences, with its mark in front of each line; removed symbols in red, new ones in green, and
the others in the usual colour. At the end, all attributes are the usual ones. What is missing: debug text. -/
theorem C135_changes_partial (diet : Bool) (level : Nat) {old new : SymTree} (ho : ∀ s ∈ old, BareSymbol s) (hn : ∀ s ∈ new, BareSymbol s) (lines : List (Mark × Symbol))
    (hx : ∀ x ∈ lines, BareSymbol x.2) : ∃ (head : List (Char × Style)) (blocks : List (List (Char × Style))),
      (styledChanges diet level old new lines).foldl Terminal.feed {} = { cells := head ++ blocks.flatten } ∧ head.map (·.1) = ' ' :: listHeader level ∧
      AllMatch (fun x c => c.map (·.1) = changeShown diet level old new x ∧ ∀ z ∈ c, z.2.colour = markColour x.1) lines blocks := by
  have hh : Bare (' ' :: listHeader level) := by
    refine Bare.cons (by decide) ?_
    unfold listHeader
    split
    · decide +kernel
    · split <;> decide +kernel
  obtain ⟨c, h1, -, h3⟩ := Shows.bare hh {}
  obtain ⟨blocks, s', h4, h5⟩ := blocks_shown diet level ho hn lines hx {}
  obtain ⟨d, h6, -, h7⟩ := shows_reset s' none
  refine ⟨c, blocks, ?_, h1, h4⟩
  unfold styledChanges
  rw [List.foldl_append, h3, List.foldl_append, h5, h7, List.map_eq_nil_iff.mp h6, List.nil_append, List.append_nil]

/-- With level `VERBOSE`, the output is the one of C110. -/
theorem changes_verbose (diet : Bool) (old new : SymTree) (lines : List (Mark × Symbol)) : styledChanges diet 1 old new lines = changesText lines := by
  unfold styledChanges changesText
  refine congrArg (fun r => ' ' :: listHeader 1 ++ (r ++ color ['0'])) (congrArg (List.flatMap · lines) (funext fun x => ?_))
  obtain ⟨m, z⟩ := x
  cases m <;> rfl

/-! ### Mappings -/

/-- **C135**, mappings: a symbol with a mapping appears in green, followed by the symbol of the new file in the usual colour, a symbol without mapping in red; at the end, all
attributes are the usual ones. What is missing: debug text. -/
theorem C135_map_partial (b : Build) (diet : Bool) (level : Nat) (m : List (Addr × Addr)) {old new : SymTree} (ho : ∀ s ∈ old, BareSymbol s) (hn : ∀ s ∈ new, BareSymbol s) {s : Symbol}
    (hs : BareSymbol s) (x : Str) (hx : styledEntry b diet level m old new s = .ok x) : ∃ (first rest : List (Char × Style)),
      (∀ out, x.foldl Terminal.feed { cells := out } = { cells := out ++ (first ++ rest) }) ∧ first.map (·.1) = symbolText noColor "sym ".toList diet level old s ∧
      (∀ z ∈ first, z.2.colour = some (if (Tree.find m s.address).isSome then 2 else 1)) ∧ (∀ z ∈ rest, z.2.colour = none) ∧
      ((Tree.find m s.address) = none → rest.map (·.1) = ['\n']) ∧
      (∀ e, Tree.find m s.address = some e → ∃ z, Tree.floor new e.2 = some z ∧ rest.map (·.1) = symbolText noColor " -> ".toList diet level new z ++ ['\n']) := by
  have pre : ∀ (n : Str) (k : Nat), Shows (color n) {} [] (some k) { colour := some k } →
      Shows (color n) { colour := some k } [] (some k) { colour := some k } →
      Shows (symbolText color (color n ++ "sym ".toList) diet level old s) {} (symbolText noColor "sym ".toList diet level old s) (some k) { colour := some k } := by
    intro n k h1 h2
    refine shows_symbol diet level ho hs (y := { colour := some k }) ⟨rfl, rfl, rfl⟩ ?_ ?_
    · exact Shows.append h1 (still (x := "sym ".toList) (by decide) { colour := some k })
    · exact Shows.append h2 (still (x := "sym ".toList) (by decide) { colour := some k })
  unfold styledEntry at hx
  cases hf : Tree.find m s.address with
  | none =>
    rw [hf] at hx
    obtain ⟨c, h1, h2, h3⟩ := pre ['3', '1'] 1 ⟨[], rfl, fun _ h => (by cases h), fun out => by rw [List.append_nil]; rfl⟩
      ⟨[], rfl, fun _ h => (by cases h), fun out => by rw [List.append_nil]; rfl⟩
    refine ⟨c, [('\n', ({} : Style))], fun out => ?_, h1, h2, fun z hz => ?_, fun _ => rfl, fun e he => (by cases he)⟩
    · rw [← Except.ok.inj hx, List.foldl_append, h3, ← List.append_assoc]
      rfl
    · rw [List.mem_singleton.mp hz]
  | some e =>
    rw [hf] at hx
    dsimp only at hx
    cases hy : Tree.floor new e.2 with
    | none =>
      rw [hy] at hx
      cases b <;> cases hx
    | some y =>
      rw [hy] at hx
      have hx : Except.ok (symbolText color (color ['3', '2'] ++ "sym ".toList) diet level old s ++ (symbolText color (color ['0'] ++ " -> ".toList) diet level new y ++
        (color ['0'] ++ ['\n']))) = (Except.ok x : M Str) := by
        cases b <;> exact hx
      obtain ⟨c, h1, h2, h3⟩ := pre ['3', '2'] 2 ⟨[], rfl, fun _ h => (by cases h), fun out => by rw [List.append_nil]; rfl⟩
        ⟨[], rfl, fun _ h => (by cases h), fun out => by rw [List.append_nil]; rfl⟩
      have hq : ∀ q, Shows (color ['0'] ++ " -> ".toList) q " -> ".toList none {} := fun q => Shows.append (shows_reset q none) (still (x := " -> ".toList) (by decide) {})
      obtain ⟨d, h4, h5, h6⟩ := shows_symbol diet level hn (hn y (Tree.floor_mem hy)) (y := {}) ⟨rfl, rfl, rfl⟩ (hq { colour := some 2 }) (hq {})
      refine ⟨c, d ++ [('\n', ({} : Style))], fun out => ?_, h1, h2, fun z hz => ?_, fun h => (by cases h), fun e' he => ⟨y, ?_, ?_⟩⟩
      · rw [← Except.ok.inj hx, List.foldl_append, h3, List.foldl_append, h6, ← List.append_assoc, ← List.append_assoc]
        rfl
      · rcases List.mem_append.mp hz with hz | hz
        · exact h5 z hz
        · rw [List.mem_singleton.mp hz]
      · rw [← Option.some.inj he]
        exact hy
      · rw [List.map_append, h4]
        rfl

/-! ### Identifiers -/

/-- **C135**, identifiers: valid ones appear as text and do not change the attributes. -/
theorem C135_id_partial (i : Identifier) (h : i.internal ≠ 0) (s : Style) : Shows (idStream i) s (symIdText i) s.colour s := by
  unfold idStream
  rw [if_pos h]
  exact Shows.bare (bare_id i) s

/-- C135 is false for unknown identifiers: a part of the control sequence appears as text, and everything behind is in italics. -/
theorem C135_id_counterexample (i : Identifier) (h : i.internal = 0) (s : Style) : Shows (idStream i) s "{unknown ID3m}".toList s.colour { s with italic := true } := by
  unfold idStream
  rw [if_neg (not_not_intro h)]
  have e : ∀ q : Style, Shows [Char.ofNat 27, '2'] q [] q.colour q := fun q => ⟨[], rfl, fun _ h => (by cases h), fun out => by rw [List.append_nil]; rfl⟩
  exact Shows.append (still (x := ['{']) (by decide) s) (Shows.append (shows_three s _) (Shows.append (still (x := "unknown ID".toList) (by decide) { s with italic := true })
    (Shows.append (e { s with italic := true }) (still (x := ['3', 'm', '}']) (by decide) { s with italic := true }))))

/-- C135 is false for names with control sequences, which are printed as they are: the text after a symbol may appear in another colour. -/
theorem C135_name_counterexample : ∃ (s : Symbol) (x : Str), styledListing false 1 [s] = .ok x ∧ (x.foldl Terminal.feed {}).style = { colour := some 1 } := by
  exact ⟨{ address := 0x1000, name := some "\x1b[31mf" }, _, rfl, by decide +kernel⟩

/-! ### Examples -/

theorem ex_bare : ∀ s ∈ [detMain, detStub], BareSymbol s := by
  intro s hs
  simp only [List.mem_cons, List.not_mem_nil, or_false] at hs
  rcases hs with rfl | rfl
  · refine ⟨fun n h => ?_, fun n h => ?_, fun r hr n h => ?_⟩
    · obtain rfl := Option.some.inj (h : some "main" = some n)
      decide
    · obtain rfl := Option.some.inj (h : some ".text" = some n)
      decide
    · rw [List.mem_singleton.mp (show r ∈ [_] from hr)] at h
      obtain rfl := Option.some.inj (h : some "puts" = some n)
      decide
  · refine ⟨fun n h => (by cases h), fun n h => ?_, fun r hr => (by cases hr)⟩
    obtain rfl := Option.some.inj (h : some ".text" = some n)
    decide

/-- The detailed listing of two symbols on a terminal with blue text. -/
example : ∃ v, Shows ([detMain, detStub].flatMap (symbolText color [] false 3 [detMain, detStub])) { colour := some 4 } v (some 4) { colour := some 4 } ∧
    detailListing false 3 (fun _ => none) [detMain, detStub] = .ok (some v) := by
  obtain ⟨v, h1, -, h3⟩ := C135_listing_partial false 3 ex_bare { colour := some 4 } ⟨rfl, rfl, rfl⟩ _ rfl
  exact ⟨v, h1, h3 (by decide)⟩

/-- A function is new, a stub was removed. -/
example : ∃ (head : List (Char × Style)) (blocks : List (List (Char × Style))),
    (styledChanges false 3 [detStub] [detMain, detStub] [(.removed, detStub), (.added, detMain)]).foldl Terminal.feed {} = { cells := head ++ blocks.flatten } ∧ head.map (·.1) = [' '] := by
  obtain ⟨head, blocks, h1, h2, -⟩ := C135_changes_partial false 3 (old := [detStub]) (new := [detMain, detStub]) (fun s hs => ex_bare s (List.mem_cons_of_mem _ hs)) ex_bare
    [(.removed, detStub), (.added, detMain)] (by
      intro x hx
      simp only [List.mem_cons, List.not_mem_nil, or_false] at hx
      rcases hx with rfl | rfl
      · exact ex_bare _ (by simp)
      · exact ex_bare _ (by simp))
  exact ⟨head, blocks, h1, h2⟩

example : ∃ (first rest : List (Char × Style)), first.map (·.1) = symbolText noColor "sym ".toList false 3 [detMain, detStub] detMain ∧ (∀ z ∈ first, z.2.colour = some 1) ∧
    rest.map (·.1) = ['\n'] := by
  obtain ⟨first, rest, -, h1, h2, -, h3, -⟩ := C135_map_partial .debug false 3 [] ex_bare (new := []) (fun s hs => (by cases hs)) (ex_bare detMain (by simp)) _ rfl
  exact ⟨first, rest, h1, h2, h3 rfl⟩

example : Shows (idStream detMain.id) {} (symIdText detMain.id) none {} := C135_id_partial detMain.id (by decide) {}

example : Shows (idStream detStub.id) {} "{unknown ID3m}".toList none { italic := true } := C135_id_counterexample detStub.id rfl {}

end Bean.Props

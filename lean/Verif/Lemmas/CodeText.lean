import Verif.Model.CodeText
import Verif.Spec.CodeText
import Verif.Props.DataDump
import Verif.Lemmas.HashInternal
/-
Notes and lines of the disassembly (for C114).
-/
namespace Bean.Props
open Bean Bean.Spec

/-! ### Blanks in texts -/

/-- Each blank is followed by a character with the given property. -/
def Follow (P : Char → Bool) : Str → Prop
  | [] => True
  | c :: s => (c = ' ' → ∃ d r, s = d :: r ∧ P d = true) ∧ Follow P s

theorem follow_append {P : Char → Bool} {x y : Str} (hx : Follow P x) (hy : Follow P y) : Follow P (x ++ y) := by
  induction x with
  | nil => exact hy
  | cons c x ih =>
    refine ⟨fun e => ?_, ih hx.2⟩
    obtain ⟨d, r, h, hd⟩ := hx.1 e
    exact ⟨d, r ++ y, by rw [h]; rfl, hd⟩

theorem follow_word {P : Char → Bool} {x : Str} (hx : ' ' ∉ x) : Follow P x := by
  induction x with
  | nil => trivial
  | cons c x ih => exact ⟨fun e => absurd (e ▸ List.mem_cons_self) hx, ih (fun h => hx (List.mem_cons_of_mem _ h))⟩

theorem follow_blank {P : Char → Bool} {d : Char} {x : Str} (hd : P d = true) (hx : Follow P (d :: x)) : Follow P (' ' :: d :: x) :=
  ⟨fun _ => ⟨d, x, rfl, hd⟩, hx⟩

theorem follow_cons {P : Char → Bool} {c : Char} {x : Str} (hc : c ≠ ' ') (hx : Follow P x) : Follow P (c :: x) := ⟨fun e => absurd e hc, hx⟩

theorem splitGaps_cons {c : Char} {s x : Str} {l : List Str} (h : ∀ s', c = ' ' → s = ' ' :: s' → False) (hs : splitGaps s = x :: l) : splitGaps (c :: s) = (c :: x) :: l := by
  rw [splitGaps.eq_3 c s h, hs]

theorem splitGaps_gap {t : Str} (h : Follow (· ≠ ' ') t) (s : Str) : splitGaps (t ++ ' ' :: ' ' :: s) = t :: splitGaps s := by
  induction t with
  | nil => rw [List.nil_append, splitGaps]
  | cons c t ih =>
    refine splitGaps_cons (fun s' e e' => ?_) (ih h.2)
    obtain ⟨d, r, h1, h2⟩ := h.1 e
    rw [h1] at e'
    rw [(List.cons.inj e').1] at h2
    exact absurd h2 (by decide)

theorem splitGaps_one {t : Str} (h : Follow (· ≠ ' ') t) : splitGaps t = [t] := by
  induction t with
  | nil => rw [splitGaps]
  | cons c t ih =>
    refine splitGaps_cons (fun s' e e' => ?_) (ih h.2)
    obtain ⟨d, r, h1, h2⟩ := h.1 e
    rw [h1] at e'
    rw [(List.cons.inj e').1] at h2
    exact absurd h2 (by decide)

theorem splitGaps_many {t : Str} (h : Follow (· ≠ ' ') t) {l : List Str} (hl : ∀ x ∈ l, Follow (· ≠ ' ') x) :
    splitGaps (t ++ l.flatMap (fun x => ' ' :: ' ' :: x)) = t :: l := by
  induction l generalizing t with
  | nil => rw [List.flatMap_nil, List.append_nil, splitGaps_one h]
  | cons x l ih =>
    rw [List.flatMap_cons, List.cons_append, List.cons_append, splitGaps_gap h, ih (hl x List.mem_cons_self) (fun y hy => hl y (List.mem_cons_of_mem _ hy))]

theorem readSlot_open {t : Str} (h : Follow (· ≠ '[') t) (s : Str) : readSlot (t ++ ' ' :: '[' :: s) = some s.dropLast := by
  induction t with
  | nil => rw [List.nil_append, readSlot]
  | cons c t ih =>
    rw [List.cons_append, readSlot.eq_3 c, ih h.2]
    intro s' e e'
    obtain ⟨d, r, h1, h2⟩ := h.1 e
    rw [h1] at e'
    rw [(List.cons.inj e').1] at h2
    exact absurd h2 (by decide)

theorem readSlot_none {t : Str} (h : Follow (· ≠ '[') t) : readSlot t = none := by
  induction t with
  | nil => rw [readSlot]
  | cons c t ih =>
    rw [readSlot.eq_3 c, ih h.2]
    intro s' e e'
    obtain ⟨d, r, h1, h2⟩ := h.1 e
    rw [h1] at e'
    rw [(List.cons.inj e').1] at h2
    exact absurd h2 (by decide)

/-! ### Notes -/

theorem digits_word {b n : Nat} (hb : 1 < b) (hb' : b ≤ 16) : ' ' ∉ Nat.toDigits b n := by
  intro h
  obtain ⟨k, hk, e⟩ := mem_digits hb h
  have : ∀ k < 16, ' ' ≠ Nat.digitChar k := by decide
  exact this k (by omega) e

theorem digits_cons {P : Char → Bool} {b n : Nat} (hb : 1 < b) (hb' : b ≤ 16) (hP : ∀ k < 16, P (Nat.digitChar k) = true) :
    Follow P (' ' :: Nat.toDigits b n) := by
  cases h : Nat.toDigits b n with
  | nil => exact absurd h Nat.toDigits_ne_nil
  | cons d r =>
    obtain ⟨k, hk, e⟩ := mem_digits (n := n) hb (h ▸ List.mem_cons_self : d ∈ Nat.toDigits b n)
    refine follow_blank (by rw [e]; exact hP k (by omega)) ?_
    rw [← h]
    exact follow_word (digits_word hb hb')

/-- Characters behind blanks: not a blank and no opening bracket. -/
def inner (c : Char) : Bool := decide (c ≠ ' ' ∧ c ≠ '[')

theorem follow_inner {x : Str} (h : Follow inner x) : Follow (· ≠ ' ') x ∧ Follow (· ≠ '[') x := by
  induction x with
  | nil => exact ⟨trivial, trivial⟩
  | cons c x ih =>
    obtain ⟨h1, h2⟩ := ih h.2
    refine ⟨⟨fun e => ?_, h1⟩, ⟨fun e => ?_, h2⟩⟩
    · obtain ⟨d, r, hd, hp⟩ := h.1 e
      exact ⟨d, r, hd, decide_eq_true (of_decide_eq_true hp).1⟩
    · obtain ⟨d, r, hd, hp⟩ := h.1 e
      exact ⟨d, r, hd, decide_eq_true (of_decide_eq_true hp).2⟩

theorem place_blank (v : Addr) : ' ' ∉ placeText v := fun h => placeText_word v ' ' h rfl

theorem addressText_follow {t : SymTree} (hn : WordNames t) (v : Addr) : Follow inner (addressText t v) := by
  unfold addressText
  refine follow_append (follow_word (place_blank v)) ?_
  cases hf : Tree.floor t v with
  | none => exact trivial
  | some y =>
    have hy := hn y (Tree.floor_mem hf)
    dsimp only
    by_cases hk : TLS.is_tls y.address = TLS.is_tls v
    · rw [if_pos hk]
      refine follow_append (follow_append (follow_append (follow_append (follow_blank (by decide) ⟨fun e => absurd e (by decide), trivial⟩) ?_) ?_) ?_) (follow_word (by decide))
      · cases he : y.name with
        | none => exact follow_word (place_blank _)
        | some n => exact follow_word (hy.1 n he).1
      · cases he : y.sec.name with
        | none => exact trivial
        | some n => exact follow_cons (by decide) (follow_word (hy.2 n he).1)
      · by_cases he : y.address = v
        · rw [if_neg (not_not_intro he)]; exact trivial
        · rw [if_pos he]
          exact follow_blank (by decide) (follow_cons (by decide) (digits_cons (by decide) (by decide) (by decide)))
    · rw [if_neg hk]
      exact trivial

theorem decimal_follow (i : Int) : Follow inner (' ' :: decimalText i) := by
  unfold decimalText
  by_cases h : i < 0
  · rw [if_pos h]
    exact follow_blank (by decide) (follow_cons (by decide) (follow_word (digits_word (by decide) (by decide))))
  · rw [if_neg h]
    exact digits_cons (by decide) (by decide) (by decide)

theorem slotSymbol_word {y : ElfSym} (hy : ∀ n, y.name = some n → Word n) : ' ' ∉ slotSymbol y := by
  unfold slotSymbol
  by_cases h : y.shndx = .undef
  · rw [if_pos h]
    cases hn : y.name with
    | none => exact List.not_mem_nil
    | some n => exact (hy n hn).1
  · rw [if_neg h]
    exact List.not_mem_cons_of_ne_of_not_mem (by decide) (List.not_mem_cons_of_ne_of_not_mem (by decide) (digits_word (by decide) (by decide)))

theorem slotText_follow {env : Env} {t : SymTree} (hn : WordNames t) {r : ElfRel} (hr : ∀ y, r.symbol = some y → ∀ n, y.name = some n → Word n) :
    Follow inner (slotText env t r) := by
  unfold slotText
  cases he : r.symbol with
  | none => exact addressText_follow hn _
  | some y =>
    refine follow_append (follow_word (slotSymbol_word (hr y he))) ?_
    by_cases ha : r.addend = 0
    · rw [if_neg (not_not_intro ha)]; exact trivial
    · rw [if_pos ha]
      exact follow_blank (by decide) (follow_cons (by decide) (decimal_follow _))

variable {env : Env} {symbols : SymTree} {relocations : List ElfRel}

theorem note_follow (hn : WordNames symbols) (hr : WordSlots relocations) (v : Addr) : Follow (· ≠ ' ') (targetNote env symbols relocations v) := by
  unfold targetNote slotAt
  refine follow_append (follow_inner (addressText_follow hn v)).1 ?_
  cases hf : Tree.find relocations v with
  | none => exact trivial
  | some r =>
    refine follow_blank (by decide) (follow_cons (by decide) (follow_append ?_ (follow_word (by decide))))
    exact (follow_inner (slotText_follow hn (hr r (Tree.find_mem hf).1))).1

theorem address_place (t : SymTree) (v : Addr) (x : Str) (hx : x = [] ∨ ∃ y, x = ' ' :: y) :
    (addressText t v ++ x).takeWhile (· ≠ ' ') = placeText v := by
  have hp : ∀ c ∈ placeText v, decide (c ≠ ' ') = true := fun c hc => decide_eq_true (placeText_word v c hc)
  obtain ⟨y, e, hy⟩ := addressText_shape t v
  rw [e]
  rcases hy with rfl | ⟨y, rfl⟩
  · rcases hx with rfl | ⟨z, rfl⟩
    · rw [List.append_nil, List.append_nil, takeWhile_all hp]
    · rw [List.append_nil, (takeWhile_cut hp (by decide)).1]
  · rw [List.append_assoc, List.cons_append, (takeWhile_cut hp (by decide)).1]

theorem slotOf_text {r : ElfRel} (hr : ∀ y, r.symbol = some y → ∀ n, y.name = some n → Word n) : SlotOf env r (slotText env symbols r) := by
  unfold SlotOf slotText
  cases he : r.symbol with
  | none =>
    dsimp only
    have := address_place symbols (env.reloc_value r 0) [] (Or.inl rfl)
    rw [List.append_nil] at this
    rw [this, readPlace_text]
  | some y =>
    dsimp only
    have hw := slotSymbol_word (hr y he)
    have hp : ∀ c ∈ slotSymbol y, decide (c ≠ ' ') = true := fun c hc => decide_eq_true (fun e => hw (e ▸ hc))
    have h : ∃ x : Str, (if r.addend ≠ 0 then ' ' :: '+' :: ' ' :: decimalText r.addend.toInt else []) = x ∧
        (slotSymbol y ++ x).takeWhile (· ≠ ' ') = slotSymbol y ∧ (slotSymbol y ++ x).dropWhile (· ≠ ' ') = x := by
      refine ⟨_, rfl, ?_⟩
      by_cases ha : r.addend = 0
      · rw [if_neg (not_not_intro ha), List.append_nil, takeWhile_all hp]
        exact ⟨rfl, dropWhile_all hp⟩
      · rw [if_pos ha]
        exact takeWhile_cut hp (by decide)
    obtain ⟨x, ex, h1, h2⟩ := h
    rw [ex, h1, h2]
    refine ⟨?_, ?_⟩
    · unfold slotSymbol
      cases hs : y.shndx with
      | undef =>
        dsimp only
        rw [if_pos rfl]
        intro n hn
        rw [hn]
      | abs => exact slot_value y
      | common => exact slot_value y
      | xindex => exact slot_value y
      | index n =>
        dsimp only
        rw [if_neg (by intro h; cases h)]
        exact slot_value y
    · by_cases ha : r.addend = 0
      · rw [if_neg (not_not_intro ha)] at ex
        rw [← ex, ha]
        rfl
      · rw [if_pos ha] at ex
        rw [← ex]
        exact readSigned_text _
where
  slot_value (y : ElfSym) : readPlace ('0' :: 'x' :: Nat.toDigits 16 y.value.toNat) = some (false, y.value) := by
    show some (false, BitVec.ofNat 64 (numeral 16 (Nat.toDigits 16 y.value.toNat))) = _
    rw [numeral_digits (by decide) (by decide), BitVec.ofNat_toNat, BitVec.setWidth_eq]

theorem noteOf_text (hs : Tree.Sorted relocations) (hn : WordNames symbols) (hr : WordSlots relocations) (v : Addr) :
    NoteOf env relocations v (targetNote env symbols relocations v) := by
  have ha := (follow_inner (addressText_follow hn v)).2
  unfold targetNote slotAt
  refine ⟨?_, ?_, ?_⟩
  · rw [address_place, readPlace_text]
    cases Tree.find relocations v with
    | none => exact Or.inl rfl
    | some r => exact Or.inr ⟨_, rfl⟩
  · intro h
    rw [Tree.find_eq_none_iff.mpr h]
    dsimp only
    rw [List.append_nil, readSlot_none ha]
  · intro r hr' e
    rw [(Tree.find_eq_some_iff hs).mpr ⟨hr', e⟩]
    dsimp only
    refine ⟨slotText env symbols r, ?_, slotOf_text (hr r hr')⟩
    rw [readSlot_open ha, List.dropLast_concat]

/-! ### All notes of a line -/

theorem refNotes_more (l : List Addr) : refNotes env symbols relocations true l =
    ((l.filter (· ≠ 0)).map (targetNote env symbols relocations)).flatMap (fun x => ' ' :: ' ' :: x) := by
  induction l with
  | nil => rfl
  | cons v l ih =>
    rw [refNotes]
    by_cases hv : v = 0
    · rw [if_neg (not_not_intro hv), ih, List.filter_cons_of_neg (by simp [hv])]
    · rw [if_pos hv, ih, List.filter_cons_of_pos (by exact decide_eq_true hv), List.map_cons, List.flatMap_cons]
      rfl

/-- Notes with the mark in front. -/
def notesText : List Str → Str
  | [] => []
  | x :: l => ' ' :: ' ' :: '#' :: ' ' :: (x ++ l.flatMap (fun x => ' ' :: ' ' :: x))

theorem refNotes_first (l : List Addr) : refNotes env symbols relocations false l = notesText ((l.filter (· ≠ 0)).map (targetNote env symbols relocations)) := by
  induction l with
  | nil => rfl
  | cons v l ih =>
    rw [refNotes]
    by_cases hv : v = 0
    · rw [if_neg (not_not_intro hv), ih, List.filter_cons_of_neg (by simp [hv])]
    · rw [if_pos hv, refNotes_more, List.filter_cons_of_pos (by exact decide_eq_true hv), List.map_cons, notesText]
      rfl

/-- Reading of a line. -/
theorem readCodeLine_text (a : Addr) (l : List (Option (BitVec 8))) (hl : l.length = 12) (w : Str) (hw : '#' ∉ w) (ns : List Str) (hn : ∀ x ∈ ns, Follow (· ≠ ' ') x) :
    readCodeLine (dumpHeader a ++ (l.flatMap cellText ++ (w ++ notesText ns))) = ⟨a, l, w, ns⟩ := by
  have hd : ∀ c ∈ Nat.toDigits 16 a.toNat, (decide (c ≠ ' ')) = true := fun c hc => decide_eq_true (hex_digit hc).1
  unfold readCodeLine dumpHeader padLeft
  dsimp only
  rw [show ∀ (x y z : Str), x ++ '0' :: 'x' :: y ++ [' '] ++ z = x ++ '0' :: ('x' :: (y ++ ' ' :: z)) by intros; simp, dropBlanks]
  simp only [List.drop_succ_cons, List.drop_zero]
  obtain ⟨h1, h2⟩ := takeWhile_cut (p := fun c => decide (c ≠ ' ')) (c := ' ') (r := l.flatMap cellText ++ (w ++ notesText ns)) hd (by decide)
  rw [h1, h2, numeral_digits (by decide) (by decide), BitVec.ofNat_toNat, BitVec.setWidth_eq]
  simp only [List.drop_succ_cons, List.drop_zero]
  rw [List.drop_left' (by rw [cells_length, hl]), ← hl, readCells_text]
  have hp : ∀ c ∈ w ++ [' ', ' '], decide (c ≠ '#') = true := by
    intro c hc
    refine decide_eq_true (fun e => ?_)
    rcases List.mem_append.mp hc with h | h
    · exact hw (e ▸ h)
    · rw [e] at h; exact absurd h (by decide)
  cases ns with
  | nil =>
    rw [notesText, List.append_nil, if_neg hw, if_neg hw]
  | cons x ns =>
    have e : w ++ notesText (x :: ns) = (w ++ [' ', ' ']) ++ '#' :: ' ' :: (x ++ ns.flatMap (fun x => ' ' :: ' ' :: x)) := by
      rw [notesText]
      simp
    obtain ⟨h3, h4⟩ := takeWhile_cut (p := fun c => decide (c ≠ '#')) (c := '#') (r := ' ' :: (x ++ ns.flatMap (fun x => ' ' :: ' ' :: x))) hp (by decide)
    have hm : '#' ∈ w ++ notesText (x :: ns) := by rw [e]; simp
    rw [if_pos hm, if_pos hm, e, h3, h4]
    simp only [List.drop_succ_cons, List.drop_zero]
    rw [splitGaps_many (hn x List.mem_cons_self) (fun y hy => hn y (List.mem_cons_of_mem _ hy)),
      show w ++ [' ', ' '] = (w ++ [' ']) ++ [' '] by simp, List.dropLast_concat, List.dropLast_concat]

end Bean.Props

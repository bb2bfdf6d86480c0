import Verif.Model.Report
import Verif.Spec.Report
import Verif.Props.ListRead
import Verif.Props.Update
/-
Report of bean-update-code (C108).
-/
namespace Bean.Props
open Bean Bean.Spec

theorem floor_spot (t : SymTree) (a : Addr) :
    spotFor t a = ⟨a, (Tree.floor t a).map (fun y => (labelFor y, (a - y.address).toNat))⟩ := by
  have h1 : (t.filter (fun y => decide (y.address.toNat ≤ a.toNat))).getLast? = Tree.floor t a := rfl
  unfold spotFor
  rw [h1]
  cases h : Tree.floor t a with
  | none => rfl
  | some y =>
    have hle : y.address ≤ a := Tree.floor_le h
    simp only [Option.map_some]
    rw [BitVec.toNat_sub_of_le hle]

theorem digit_hex {n : Nat} : ∀ c ∈ Nat.toDigits 16 n, isHex c = true := by
  intro c hc
  obtain ⟨k, hk, rfl⟩ := mem_digits (by decide) hc
  have : ∀ k : Fin 16, isHex (Nat.digitChar k) = true := by decide
  exact this ⟨k, hk⟩

/-- The text of a label, as in `reportSpot`. -/
def labelWords (y : Symbol) : Str :=
  match shownName y.name with
  | some n => n
  | none => symIdText y.id

theorem readLabel_words {y : Symbol} (h : PlainLabel y) (r : Str) : readLabel (labelWords y ++ ' ' :: r) = (labelFor y, ' ' :: r) := by
  unfold labelWords labelFor readLabel
  rw [shownName_eq]
  cases hn : y.name.filter (· ≠ "") with
  | none =>
    simp only [Option.map_none]
    rw [if_pos (by rfl), readId_text]
  | some n =>
    obtain ⟨h0, h1⟩ := Option.filter_eq_some_iff.mp hn
    obtain ⟨hs, -, hb⟩ := h n h0
    have hne : n.toList ≠ [] := by
      intro e
      rw [decide_eq_true_eq] at h1
      exact h1 (String.toList_inj.mp e)
    simp only [Option.map_some]
    have hh : (n.toList ++ ' ' :: r).head? ≠ some '{' := by
      cases hl : n.toList with
      | nil => exact absurd hl hne
      | cons c l => rw [hl] at hb; exact hb
    rw [if_neg hh, (word_cut hs).1, (word_cut hs).2]

theorem reportSpot_some {t : SymTree} {a : Addr} {y : Symbol} (h : Tree.floor t a = some y) :
    reportSpot t a = ' ' :: '(' :: (labelWords y ++ ' ' :: '+' :: ' ' :: (Nat.toDigits 10 (a - y.address).toNat ++ [')'])) := by
  unfold reportSpot labelWords
  rw [h]
  rfl

/-- The place is read as it was written, in front of a text that does not look like a part of it. -/
theorem readSpot_place {t : SymTree} (ht : ∀ y ∈ t, PlainLabel y) (p : Str) (a : Addr) {c : Char} {r : Str} (hc : isHex c = false)
    (hr : r.head? ≠ some '(') :
    readSpot p (p ++ (":0x".toList ++ (Nat.toDigits 16 a.toNat ++ (reportSpot t a ++ c :: r)))) = (spotFor t a, c :: r) := by
  unfold readSpot
  have hd : ∀ s : Str, (p ++ (":0x".toList ++ s)).drop (p.length + 3) = s := by
    intro s
    rw [← List.append_assoc]
    exact List.drop_left' (by rw [List.length_append]; rfl)
  rw [hd, floor_spot]
  cases h : Tree.floor t a with
  | none =>
    have e : reportSpot t a = [] := by unfold reportSpot; rw [h]
    rw [e, List.nil_append]
    dsimp only
    rw [(takeWhile_cut digit_hex hc).1, (takeWhile_cut digit_hex hc).2,
      numeral_digits (by decide : 1 < 16) (by decide : 16 ≤ 16), BitVec.ofNat_toNat, BitVec.setWidth_eq]
    have hn : ¬ ((c :: r).take 2 = " (".toList) := by
      intro e
      cases r with
      | nil => cases e
      | cons d r =>
        have : c :: d :: [] = [' ', '('] := e
        injection this with _ e2
        injection e2 with e2
        subst e2
        exact hr rfl
    simp only [if_neg hn]
    rfl
  | some y =>
    rw [reportSpot_some h]
    simp only [List.cons_append, List.append_assoc]
    rw [(takeWhile_cut digit_hex (by decide)).1, (takeWhile_cut digit_hex (by decide)).2,
      numeral_digits (by decide : 1 < 16) (by decide : 16 ≤ 16), BitVec.ofNat_toNat, BitVec.setWidth_eq]
    rw [if_pos (by rfl)]
    simp only [List.drop_succ_cons, List.drop_zero]
    rw [readLabel_words (ht y (Tree.floor_mem h))]
    simp only [List.drop_succ_cons, List.drop_zero]
    have hp : ∀ k : Nat, Nat.toDigits 10 k = padLeft 0 (Nat.toDigits 10 k) := fun k => by
      unfold padLeft; rw [Nat.zero_sub]; rfl
    rw [hp]
    simp only [List.nil_append]
    rw [readDec_pad (by decide)]
    rfl

/-! ### Lines -/

/-- A place with known path. -/
def placeWords (t : SymTree) (p : Str) (a : Addr) : Str := p ++ (":0x".toList ++ (Nat.toDigits 16 a.toNat ++ reportSpot t a))

theorem reportPlace_ok {f : ReportFile} {p : Str} (h : f.path = some p) (a : Addr) : reportPlace f a = .ok (placeWords f.symbols p a) := by
  unfold reportPlace
  rw [h]
  rfl

theorem readSpot_words {t : SymTree} (ht : ∀ y ∈ t, PlainLabel y) (p : Str) (a : Addr) {c : Char} {r : Str} (hc : isHex c = false)
    (hr : r.head? ≠ some '(') : readSpot p (placeWords t p a ++ c :: r) = (spotFor t a, c :: r) := by
  unfold placeWords
  simp only [List.append_assoc]
  exact readSpot_place ht p a hc hr

/-- The line of a callback, for known paths. -/
def lineWords (t u : SymTree) (p q : Str) : Event → Str
  | .redirect _ f to n _ => color ['3', '3'] ++ (" - redirecting ".toList ++ (placeWords t p f ++ (reportSize t f n ++ (" to ".toList ++ (placeWords u q to ++ color ['0'])))))
  | .relocate _ rel to _ _ => color ['3', '2'] ++ (" - relocating ".toList ++ (placeWords t p rel.offset ++ (" to ".toList ++ (placeWords u q to ++ color ['0']))))
  | .skipmsg _ f to r => color ['3', '1'] ++ (" - skipping ".toList ++ (placeWords t p f ++ ((if to ≠ 0 then " to ".toList ++ placeWords u q to else []) ++
      (" - ".toList ++ (reasonText r ++ color ['0'])))))

theorem reportLine_ok {old new : ReportFile} {p q : Str} (hp : old.path = some p) (hq : new.path = some q) (e : Event) :
    reportLine old new e = .ok (lineWords old.symbols new.symbols p q e) := by
  cases e with
  | redirect s f to n a =>
    rw [reportLine, reportPlace_ok hp, reportPlace_ok hq]
    rfl
  | relocate s rel to y a =>
    rw [reportLine, reportPlace_ok hp, reportPlace_ok hq]
    rfl
  | skipmsg s f to r =>
    have h : reportTo new to = .ok (if to ≠ 0 then " to ".toList ++ placeWords new.symbols q to else []) := by
      unfold reportTo
      rw [reportPlace_ok hq]
      by_cases h : to = 0
      · rw [if_neg (not_not_intro h), if_neg (not_not_intro h)]
      · rw [if_pos h, if_pos h]
        rfl
    rw [reportLine, reportPlace_ok hp, h]
    rfl

theorem readReason_text (r : Reason) : readReason (" - ".toList ++ (reasonText r ++ color ['0'])) = (reasonWords r).toList := by
  cases r <;> decide

theorem readAction_line {t u : SymTree} (ht : ∀ y ∈ t, PlainLabel y) (hu : ∀ y ∈ u, PlainLabel y) (p q : Str) (e : Event)
    (hf : (Tree.floor t (reportFrom e)).isSome) : readAction p q (lineWords t u p q e) = some (actionFor t u e) := by
  cases e with
  | redirect s f to n a =>
    unfold readAction lineWords
    have hd : ∀ s : Str, (color ['3', '3'] ++ (" - redirecting ".toList ++ s)).drop 8 = "redirecting".toList ++ ' ' :: s := fun _ => rfl
    have hw : ' ' ∉ "redirecting".toList := by decide
    rw [hd]
    dsimp only
    rw [(word_cut hw).1, (word_cut hw).2, if_pos rfl]
    simp only [List.drop_succ_cons, List.drop_zero]
    have hf' : (Tree.floor t f).isSome := hf
    unfold reportSize
    rw [if_pos hf']
    by_cases hn : n = 0
    · subst hn
      have hz : (if (0 : Addr) ≠ 0 then " [".toList ++ (Nat.toDigits 10 (0 : Addr).toNat ++ " bytes]".toList) else []) = [] := if_neg (by decide)
      rw [hz, List.nil_append, show " to ".toList = [' ', 't', 'o', ' '] from rfl]
      simp only [List.cons_append, List.nil_append]
      rw [readSpot_words ht p f (by decide) (by simp)]
      dsimp only
      rw [if_neg (by simp [show " [".toList = [' ', '['] from rfl])]
      simp only [List.drop_succ_cons, List.drop_zero]
      rw [show color ['0'] = Char.ofNat 27 :: ['[', '0', 'm'] from rfl, readSpot_words hu q to (by decide) (by decide)]
      rfl
    · rw [if_pos hn, show " [".toList = [' ', '['] from rfl]
      simp only [List.cons_append, List.nil_append, List.append_assoc]
      rw [readSpot_words ht p f (by decide) (by simp)]
      dsimp only
      rw [if_pos (by rfl)]
      simp only [List.drop_succ_cons, List.drop_zero]
      have hp : ∀ k : Nat, Nat.toDigits 10 k = padLeft 0 (Nat.toDigits 10 k) := fun k => by
        unfold padLeft; rw [Nat.zero_sub]; rfl
      rw [hp, show " bytes]".toList = ' ' :: "bytes]".toList from rfl, List.cons_append, readDec_pad (by decide)]
      have hd2 : ∀ s : Str, (' ' :: ("bytes]".toList ++ (" to ".toList ++ s))).drop 11 = s := fun _ => rfl
      rw [hd2, show color ['0'] = Char.ofNat 27 :: ['[', '0', 'm'] from rfl, readSpot_words hu q to (by decide) (by decide)]
      rfl
  | relocate s rel to y a =>
    unfold readAction lineWords
    have hd : ∀ s : Str, (color ['3', '2'] ++ (" - relocating ".toList ++ s)).drop 8 = "relocating".toList ++ ' ' :: s := fun _ => rfl
    have hw : ' ' ∉ "relocating".toList := by decide
    rw [hd]
    dsimp only
    rw [(word_cut hw).1, (word_cut hw).2, if_neg (by decide), if_pos rfl]
    simp only [List.drop_succ_cons, List.drop_zero]
    rw [show " to ".toList = [' ', 't', 'o', ' '] from rfl]
    simp only [List.cons_append, List.nil_append]
    rw [readSpot_words ht p rel.offset (by decide) (by simp)]
    simp only [List.drop_succ_cons, List.drop_zero]
    rw [show color ['0'] = Char.ofNat 27 :: ['[', '0', 'm'] from rfl, readSpot_words hu q to (by decide) (by decide)]
    rfl
  | skipmsg s f to r =>
    unfold readAction lineWords
    have hd : ∀ s : Str, (color ['3', '1'] ++ (" - skipping ".toList ++ s)).drop 8 = "skipping".toList ++ ' ' :: s := fun _ => rfl
    have hw : ' ' ∉ "skipping".toList := by decide
    rw [hd]
    dsimp only
    rw [(word_cut hw).1, (word_cut hw).2, if_neg (by decide), if_neg (by decide), if_pos rfl]
    simp only [List.drop_succ_cons, List.drop_zero]
    have hr : " - ".toList ++ (reasonText r ++ color ['0']) = ' ' :: '-' :: ' ' :: (reasonText r ++ color ['0']) := rfl
    by_cases h : to = 0
    · rw [if_neg (not_not_intro h), List.nil_append, hr, readSpot_words ht p f (by decide) (by simp)]
      dsimp only
      rw [if_neg (by simp [show " to ".toList = [' ', 't', 'o', ' '] from rfl]), ← hr, readReason_text]
      rw [actionFor, if_pos h]
    · rw [if_pos h, show " to ".toList = [' ', 't', 'o', ' '] from rfl]
      simp only [List.cons_append, List.nil_append, List.append_assoc]
      rw [readSpot_words ht p f (by decide) (by simp)]
      dsimp only
      rw [if_pos (by rfl)]
      simp only [List.drop_succ_cons, List.drop_zero]
      rw [hr, readSpot_words hu q to (by decide) (by simp)]
      dsimp only
      rw [← hr, readReason_text]
      rw [actionFor, if_neg h]

/-! ### Breaks -/

theorem labelWords_break {y : Symbol} (h : PlainLabel y) : '\n' ∉ labelWords y := by
  unfold labelWords
  rw [shownName_eq]
  cases hn : y.name.filter (· ≠ "") with
  | none => exact id_break _
  | some n => exact (h n (Option.filter_eq_some_iff.mp hn).1).2.1

theorem placeWords_break {t : SymTree} (ht : ∀ y ∈ t, PlainLabel y) {p : Str} (hp : '\n' ∉ p) (a : Addr) : '\n' ∉ placeWords t p a := by
  unfold placeWords
  have h0 : '\n' ∉ ":0x".toList := by decide
  have h1 : '\n' ∉ Nat.toDigits 16 a.toNat := digits_break (by decide) (by decide)
  have h2 : '\n' ∉ reportSpot t a := by
    cases h : Tree.floor t a with
    | none =>
      have e : reportSpot t a = [] := by unfold reportSpot; rw [h]
      rw [e]
      exact List.not_mem_nil
    | some y =>
      rw [reportSpot_some h]
      have h3 := labelWords_break (ht y (Tree.floor_mem h))
      have h4 : '\n' ∉ Nat.toDigits 10 (a - y.address).toNat := digits_break (by decide) (by decide)
      generalize Nat.toDigits 10 (a - y.address).toNat = d at h4
      simp [h3, h4]
  simp only [List.mem_append, hp, h0, h1, h2, or_self, not_false_eq_true]

theorem lineWords_break {t u : SymTree} (ht : ∀ y ∈ t, PlainLabel y) (hu : ∀ y ∈ u, PlainLabel y) {p q : Str} (hp : '\n' ∉ p) (hq : '\n' ∉ q)
    (e : Event) : '\n' ∉ lineWords t u p q e := by
  have hto : '\n' ∉ " to ".toList := by decide
  have hc : ∀ n : Str, '\n' ∉ n → '\n' ∉ color n := fun n h => by
    unfold color
    have : '\n' ≠ Char.ofNat 27 := by decide
    simp [h, this]
  have h33 := hc ['3', '3'] (by decide)
  have h32 := hc ['3', '2'] (by decide)
  have h31 := hc ['3', '1'] (by decide)
  have h0 := hc ['0'] (by decide)
  cases e with
  | redirect s f to n a =>
    unfold lineWords
    have hv : '\n' ∉ " - redirecting ".toList := by decide
    have hs : '\n' ∉ reportSize t f n := by
      unfold reportSize
      have h1 : '\n' ∉ " [".toList := by decide
      have h2 : '\n' ∉ " bytes]".toList := by decide
      have h3 : '\n' ∉ Nat.toDigits (if (Tree.floor t f).isSome then 10 else 16) n.toNat := by
        split <;> exact digits_break (by decide) (by decide)
      split
      · simp only [List.mem_append, h1, h2, h3, or_self, not_false_eq_true]
      · exact List.not_mem_nil
    simp only [List.mem_append, h33, hv, placeWords_break ht hp, placeWords_break hu hq, hs, hto, h0, or_self, not_false_eq_true]
  | relocate s rel to y a =>
    unfold lineWords
    have hv : '\n' ∉ " - relocating ".toList := by decide
    simp only [List.mem_append, h32, hv, placeWords_break ht hp, placeWords_break hu hq, hto, h0, or_self, not_false_eq_true]
  | skipmsg s f to r =>
    unfold lineWords
    have hv : '\n' ∉ " - skipping ".toList := by decide
    have hd : '\n' ∉ " - ".toList := by decide
    have hr : '\n' ∉ reasonText r := by cases r <;> decide
    have hx : '\n' ∉ (if to ≠ 0 then " to ".toList ++ placeWords u q to else []) := by
      split
      · simp only [List.mem_append, placeWords_break hu hq, hto, or_self, not_false_eq_true]
      · exact List.not_mem_nil
    simp only [List.mem_append, h31, hv, placeWords_break ht hp, hx, hd, hr, h0, or_self, not_false_eq_true]

/-! ### Places of the actions -/

/-- Messages are about the relocation or the start of its instruction. -/
def SkipFrom (c : Ctx) : Event → Prop
  | .skipmsg (.relocation _ r) f _ _ => f = r.offset + c.from_base ∨ f = relStart r + c.from_base
  | _ => True

theorem skipFrom_relocate {c : Ctx} (site : Site) (rel : Rel) (to : Addr) (t : Symbol) {ev : List Event} (h : ∀ e ∈ ev, SkipFrom c e) :
    ∀ e ∈ (callRelocate c site rel to t ev).2, SkipFrom c e := by
  unfold callRelocate
  split
  · intro e he
    rcases List.mem_append.mp he with he | he
    · exact h e he
    · rw [List.mem_singleton.mp he]
      trivial
  · exact h

theorem skipFrom_redirect {c : Ctx} (site : Site) (f t sz : Addr) {ev : List Event} (h : ∀ e ∈ ev, SkipFrom c e) :
    ∀ e ∈ (callRedirect c site f t sz ev).2, SkipFrom c e := by
  unfold callRedirect
  split
  · intro e he
    rcases List.mem_append.mp he with he | he
    · exact h e he
    · rw [List.mem_singleton.mp he]
      trivial
  · exact h

theorem skipFrom_skip {c : Ctx} {s : Symbol} {r : Rel} {f : Addr} (t : Addr) (reason : Reason) {ev : List Event}
    (hf : f = r.offset + c.from_base ∨ f = relStart r + c.from_base) (h : ∀ e ∈ ev, SkipFrom c e) :
    ∀ e ∈ callSkip c (.relocation s r) f t reason ev, SkipFrom c e := by
  unfold callSkip
  split
  · intro e he
    rcases List.mem_append.mp he with he | he
    · exact h e he
    · rw [List.mem_singleton.mp he]
      exact hf
  · exact h

theorem skipFrom_branch {c : Ctx} (s : Symbol) (r : Rel) (target : Addr) (t : Symbol) {ev : List Event} (h : ∀ e ∈ ev, SkipFrom c e) :
    ∀ e ∈ branchInsn c s r target t ev, SkipFrom c e := by
  unfold branchInsn
  extract_lets site o x y z
  have hz : ∀ e ∈ z.2, SkipFrom c e := by
    dsimp only [z]
    split
    · exact skipFrom_redirect _ _ _ _ h
    · exact h
  split
  · exact hz
  · exact skipFrom_skip _ _ (.inr rfl) hz

theorem skipFrom_local {c : Ctx} (s : Symbol) (r : Rel) (target : Addr) (t : Symbol) {ev : List Event} (h : ∀ e ∈ ev, SkipFrom c e) :
    ∀ e ∈ localBranch c s r target t ev, SkipFrom c e := by
  unfold localBranch
  extract_lets site x y w z
  have hz : ∀ e ∈ z.2, SkipFrom c e := by
    dsimp only [z]
    split
    · have h1 := skipFrom_relocate site r (target + c.to_base) t h
      split
      · exact h1
      · split
        · exact skipFrom_redirect _ _ _ _ h1
        · exact h1
    · exact h
  split
  · exact hz
  · exact skipFrom_branch _ _ _ _ hz

theorem skipFrom_rel {c : Ctx} (s : Symbol) (same : Bool) (r : Rel) {ev : List Event} (h : ∀ e ∈ ev, SkipFrom c e) :
    ∀ e ∈ (processRel c s same r ev).1, SkipFrom c e := by
  unfold processRel
  dsimp only
  split
  · exact skipFrom_skip _ _ (.inl rfl) h
  · split
    · exact h
    · split
      · exact h
      · split
        · exact h
        · split
          · exact skipFrom_local _ _ _ _ h
          · split
            · have h1 := fun (s : Site) (m : Addr) (t : Symbol) => skipFrom_relocate s r m t h
              split
              · exact h1 _ _ _
              · exact skipFrom_redirect _ _ _ _ (h1 _ _ _)
            · exact skipFrom_skip _ _ (.inl rfl) h

theorem skipFrom_process (c : Ctx) : ∀ e ∈ (processWith c).1, SkipFrom c e := by
  refine runAll_forall _ _ _ ?_ _ (fun e he => absurd he List.not_mem_nil)
  intro s _ ev h
  unfold processSym
  split
  · exact h
  · dsimp only
    have h1 : ∀ e ∈ (fullRedirect c s ev).2.1, SkipFrom c e := by
      unfold fullRedirect
      split
      · exact h
      · split
        · exact h
        · dsimp only
          split
          · split
            · exact h
            · exact skipFrom_redirect _ _ _ _ h
          · exact h
    unfold Trace.andThen
    split
    · exact h1
    · exact runAll_forall _ _ _ (fun r _ ev he => skipFrom_rel _ _ _ he) _ h1

theorem covers_floor {t : SymTree} (ho : Ordered t) (hd : Disjoint t) {s : Symbol} (hs : s ∈ t) {a : Addr} (h : Covers s a) :
    Tree.floor t a = some s := by
  refine (Tree.floor_eq_some_iff ((ordered_iff_sorted t).mp ho)).mpr ⟨hs, h.1, ?_⟩
  intro y hy hle
  show y.address.toNat ≤ s.address.toNat
  have hle' : y.address.toNat ≤ a.toNat := hle
  have := hd s hs y hy
  have := h.2
  omega

theorem event_covers {c : Ctx} (h0 : c.from_base = 0#64) (hw : ∀ s ∈ c.from_, NoWrap s) (hp : ∀ s ∈ c.from_, PartsInside s) {e : Event}
    (he : e ∈ (processWith c).1) : siteSymbol (siteOf e) ∈ c.from_ ∧ Covers (siteSymbol (siteOf e)) (reportFrom e) := by
  have hk := (processWith_ok c e he).1
  have hf := skipFrom_process c e he
  have hrel : ∀ {s : Symbol} {r : Rel} {a : Addr}, s ∈ c.from_ → r ∈ s.rels → (a = r.offset + c.from_base ∨ a = relStart r + c.from_base) → Covers s a := by
    intro s r a hs hr ha
    obtain ⟨h1, h2⟩ := (hp s hs).2 r hr
    rw [h0, BitVec.add_zero, BitVec.add_zero] at ha
    rcases ha with rfl | rfl
    · exact ⟨by omega, h1⟩
    · have hi : (r.instruction_offset.setWidth 64).toNat = r.instruction_offset.toNat := by
        rw [BitVec.toNat_setWidth]
        have := r.instruction_offset.isLt
        exact Nat.mod_eq_of_lt (by omega)
      have : (relStart r).toNat = r.offset.toNat - r.instruction_offset.toNat := by
        unfold relStart
        rw [BitVec.toNat_sub_of_le (by rw [BitVec.le_def, hi]; omega), hi]
      unfold Covers
      omega
  cases e with
  | redirect site f t n a =>
    cases site with
    | function s =>
      obtain ⟨hs, h1, h2, -, m, y, -, -, hf, -, -⟩ := hk
      refine ⟨hs, ?_⟩
      have hlt := (hp s hs).1 ((isFunc_iff s).mp h1) (fun h => by rw [(trampoline_iff s).mpr h] at h2; cases h2)
      have hnw := hw s hs
      unfold NoWrap at hnw
      show Covers s f
      rw [hf, h0, BitVec.add_zero]
      have ha : (s.address + redirectOffset s).toNat = s.address.toNat + endbrSize s := by
        rw [BitVec.toNat_add, redirectOffset_toNat]
        exact Nat.mod_eq_of_lt (by omega)
      unfold Covers
      omega
    | relocation s r =>
      obtain ⟨hs, hr, hf, -⟩ := hk
      exact ⟨hs, hrel hs hr (.inr hf)⟩
  | relocate site r' t y a =>
    cases site with
    | function s => exact hk.elim
    | relocation s r =>
      obtain ⟨hs, hr, rfl, -⟩ := hk
      exact ⟨hs, hrel hs hr (.inl (by rw [h0, BitVec.add_zero]; rfl))⟩
  | skipmsg site f t r =>
    cases site with
    | function s => exact hk.elim
    | relocation s r => exact ⟨hk.1, hrel hk.1 hk.2.1 hf⟩

/-! ### The text -/

/-- The lines for a sequence of callbacks. -/
def reportLines (level : Nat) (t u : SymTree) (p q : Str) : Addr → List Event → List Str
  | _, [] => []
  | prev, e :: l =>
    match Tree.floor t (reportFrom e) with
    | some y =>
      if y.address ≠ prev then [] :: listLine level y :: lineWords t u p q e :: reportLines level t u p q y.address l
      else lineWords t u p q e :: reportLines level t u p q prev l
    | none => lineWords t u p q e :: reportLines level t u p q prev l

theorem reportText_lines {level : Nat} {old new : ReportFile} {p q : Str} (hp : old.path = some p) (hq : new.path = some q) (prev : Addr)
    (ev : List Event) : reportText level old new prev ev = .ok ((reportLines level old.symbols new.symbols p q prev ev).flatMap (· ++ ['\n'])) := by
  induction ev generalizing prev with
  | nil => rfl
  | cons e l ih =>
    rw [reportText, reportLine_ok hp hq, ih, reportLines]
    unfold reportHeader
    cases Tree.floor old.symbols (reportFrom e) with
    | none => simp [bind, Except.bind, pure, Except.pure]
    | some y =>
      dsimp only
      by_cases hc : y.address ≠ prev
      · rw [if_pos hc, if_pos hc]
        simp [bind, Except.bind, pure, Except.pure]
      · rw [if_neg hc, if_neg hc]
        simp [bind, Except.bind, pure, Except.pure]

theorem listLine_break {level : Nat} {y : Symbol} (h : OneLine y) : '\n' ∉ listLine level y := by
  by_cases hl : level = 1
  · subst hl
    exact line_break h
  · unfold listLine
    rw [if_neg hl, List.append_nil]
    exact id_break _

theorem reportLines_break {level : Nat} {t u : SymTree} (ht : ∀ y ∈ t, PlainLabel y ∧ OneLine y) (hu : ∀ y ∈ u, PlainLabel y) {p q : Str}
    (hp : '\n' ∉ p) (hq : '\n' ∉ q) (prev : Addr) (ev : List Event) : ∀ l ∈ reportLines level t u p q prev ev, '\n' ∉ l := by
  induction ev generalizing prev with
  | nil => exact fun l h => absurd h List.not_mem_nil
  | cons e ev ih =>
    have hl := lineWords_break (fun y hy => (ht y hy).1) hu hp hq e
    rw [reportLines]
    cases hf : Tree.floor t (reportFrom e) with
    | none =>
      intro l h
      rcases List.mem_cons.mp h with rfl | h
      · exact hl
      · exact ih _ l h
    | some y =>
      dsimp only
      split
      · intro l h
        rcases List.mem_cons.mp h with rfl | h
        · exact List.not_mem_nil
        · rcases List.mem_cons.mp h with rfl | h
          · exact listLine_break (ht y (Tree.floor_mem hf)).2
          · rcases List.mem_cons.mp h with rfl | h
            · exact hl
            · exact ih _ l h
      · intro l h
        rcases List.mem_cons.mp h with rfl | h
        · exact hl
        · exact ih _ l h

theorem lineWords_ne (t u : SymTree) (p q : Str) (e : Event) : lineWords t u p q e ≠ [] := by
  cases e <;> (intro h; cases h)

theorem listLine_id (level : Nat) (y : Symbol) : (readId (listLine level y)).1 = y.id := by
  unfold listLine
  rw [readId_text]

theorem readReport_action {p q l : Str} (cur : Option Str) (h : l ≠ []) (rest : List Str) :
    readReport p q cur (l :: rest) = (cur, readAction p q l) :: readReport p q cur rest := by
  rw [readReport.eq_def]
  exact if_neg h

theorem readReport_head (p q h : Str) (cur : Option Str) (rest : List Str) :
    readReport p q cur ([] :: h :: rest) = readReport p q (some h) rest := by
  rw [readReport.eq_def]
  exact if_pos rfl

/-- Reading of the lines, behind the line of a symbol or at the beginning. -/
theorem readReport_lines {level : Nat} {t u : SymTree} (ho : Ordered t) (ht : ∀ y ∈ t, PlainLabel y) (hu : ∀ y ∈ u, PlainLabel y) (p q : Str) (prev : Addr)
    (cur : Option Str) (ev : List Event)
    (hc : ∀ e ∈ ev, (siteSymbol (siteOf e)).address = prev → cur.map (fun l => (readId l).1) = some (siteSymbol (siteOf e)).id)
    (hev : ∀ e ∈ ev, Tree.floor t (reportFrom e) = some (siteSymbol (siteOf e))) :
    (readReport p q cur (reportLines level t u p q prev ev)).map (fun x => (x.1.map (fun l => (readId l).1), x.2)) =
      ev.map (fun e => (some (siteSymbol (siteOf e)).id, some (actionFor t u e))) := by
  induction ev generalizing prev cur with
  | nil => rw [reportLines, readReport]; rfl
  | cons e ev ih =>
    have hf := hev e List.mem_cons_self
    have hev' : ∀ e' ∈ ev, Tree.floor t (reportFrom e') = some (siteSymbol (siteOf e')) := fun e' h => hev e' (List.mem_cons_of_mem _ h)
    have ha := readAction_line ht hu p q e (by rw [hf]; rfl)
    rw [reportLines, hf]
    dsimp only
    by_cases hn : (siteSymbol (siteOf e)).address ≠ prev
    · rw [if_pos hn, readReport_head, readReport_action _ (lineWords_ne _ _ _ _ _), List.map_cons, List.map_cons, ha,
        ih _ (some (listLine level (siteSymbol (siteOf e)))) ?_ hev']
      · rw [Option.map_some, listLine_id]
      · intro e' he' e2
        have : Tree.floor t (siteSymbol (siteOf e')).address = some (siteSymbol (siteOf e')) :=
          Tree.floor_key ((ordered_iff_sorted t).mp ho) (Tree.floor_mem (hev' e' he'))
        have h2 : Tree.floor t (siteSymbol (siteOf e)).address = some (siteSymbol (siteOf e)) :=
          Tree.floor_key ((ordered_iff_sorted t).mp ho) (Tree.floor_mem hf)
        rw [e2, h2] at this
        rw [Option.map_some, listLine_id, Option.some.inj this]
    · have he : (siteSymbol (siteOf e)).address = prev := Decidable.not_not.mp hn
      rw [if_neg hn, readReport_action _ (lineWords_ne _ _ _ _ _), List.map_cons, List.map_cons, ha, ih _ cur (fun e' h => hc e' (List.mem_cons_of_mem _ h)) hev',
        hc _ List.mem_cons_self he]

/-- C108: The report of bean-update-code lists all redirects, relocations and messages of the update in their order, each of them with the right places,
symbols, offsets, sizes and reasons, below the line of the symbol that is changed. What is missing: names with blanks, line breaks or a leading brace, and
the levels with disassembly. -/
theorem C108_report_partial (b : Build) (h : BitVec 64 → BitVec 32) (flags : BitVec 32) (level : Nat) (old new : ReportFile) {p q : List Char}
    (hp : old.path = some p) (hq : new.path = some q) (hpl : '\n' ∉ p) (hql : '\n' ∉ q) (ho : Ordered old.symbols) (hd : Disjoint old.symbols)
    (hw : ∀ s ∈ old.symbols, NoWrap s) (hi : ∀ s ∈ old.symbols, PartsInside s) (hold : ∀ s ∈ old.symbols, PlainLabel s ∧ OneLine s)
    (hnew : ∀ s ∈ new.symbols, PlainLabel s) {ev : List Event}
    (he : process b h flags reportCallbacks old.symbols new.symbols 0 0 = (ev, none)) :
    ∃ text, updateReport b h flags level old new = .ok text ∧
      (readReport p q none (readLines text)).map (fun x => (x.1.map (fun l => (readId l).1), x.2)) =
        ev.map (fun e => (some (siteSymbol (siteOf e)).id, some (actionFor old.symbols new.symbols e))) := by
  unfold updateReport
  rw [he]
  dsimp only
  refine ⟨_, reportText_lines hp hq _ ev, ?_⟩
  rw [readLines_lines (reportLines_break hold hnew hpl hql _ _)]
  have hc : ∀ e ∈ ev, siteSymbol (siteOf e) ∈ old.symbols ∧ Covers (siteSymbol (siteOf e)) (reportFrom e) := by
    intro e hm
    unfold process at he
    dsimp only at he
    cases hmap : map b h old.symbols new.symbols (UpdateFlags.ofWord flags).use_symbol_names with
    | error x => rw [hmap] at he; cases he
    | ok m =>
      rw [hmap] at he
      refine event_covers (c := ⟨b, old.symbols, new.symbols, m, 0, 0, UpdateFlags.ofWord flags, reportCallbacks⟩) rfl hw hi ?_
      show e ∈ (processWith _).1
      dsimp only at he
      rw [he]
      exact hm
  refine readReport_lines ho (fun y hy => (hold y hy).1) hnew p q _ none ev ?_ (fun e hm => covers_floor ho hd (hc e hm).1 (hc e hm).2)
  intro e hm e1
  have h1 := hw _ (hc e hm).1
  have h2 := (hc e hm).2
  unfold NoWrap at h1
  unfold Covers at h2
  have h3 : (-1 : Addr).toNat = 2 ^ 64 - 1 := rfl
  rw [e1, h3] at h1 h2
  omega

/-! ### Examples -/

/-- A function with `endbr`, a call and a branch, the called function, and a variable. -/
def reOld : SymTree :=
  [{ address := 0x10, size := 0x20, name := some "main", type := .func, flags := 4, id := { internal := 1 }, sec := { executable := true, name := some ".text" },
     rels := [{ offset := 0x1c, type := 2, target := 0x40, instruction_offset := 2, instruction_access := 4 },
       { offset := 0x24, type := 2, target := 0x60, instruction_offset := 2, instruction_access := 1 }] },
   { address := 0x40, size := 8, type := .func, id := { internal := 2, external := 7 }, sec := { executable := true } },
   { address := 0x60, size := 8, name := some "count", type := .object, id := { internal := 3 }, sec := { writeable := true } }]

/-- The same functions at other addresses, without the variable. -/
def reNew : SymTree :=
  [{ address := 0x50, size := 0x20, name := some "main", type := .func, flags := 4, id := { internal := 1 }, sec := { executable := true, name := some ".text" },
     rels := [{ offset := 0x5c, type := 2, target := 0x80, instruction_offset := 2, instruction_access := 4 },
       { offset := 0x64, type := 2, target := 0x90, instruction_offset := 2, instruction_access := 1 }] },
   { address := 0x80, size := 8, type := .func, id := { internal := 2, external := 7 }, sec := { executable := true } }]

def reEvents : List Event :=
  match reOld with
  | x :: y :: _ =>
    match x.rels, reNew with
    | r :: r' :: _, _ :: v :: _ =>
      [.redirect (.function x) 0x14 0x50 6 true, .relocate (.relocation x r) r 0x80 v true, .skipmsg (.relocation x r') 0x24 0 .noTarget,
       .redirect (.function y) 0x40 0x80 8 true]
    | _, _ => []
  | _ => []

theorem re_process (b : Build) (h : BitVec 64 → BitVec 32) : process b h 0 reportCallbacks reOld reNew 0 0 = (reEvents, none) := by
  have hm : map b h reOld reNew ((0 : BitVec 32).getLsbD 0) = .ok [(0x10, 0x50), (0x40, 0x80)] := by
    rw [map_congr b h (fun _ => 0)]
    cases b <;> rfl
  rw [process_ok hm]
  cases b <;> rfl

def reReport : String :=
  "\n{0000000000000001 0000000000000000}\n" ++
  "\x1b[33m - redirecting old.so:0x14 (main + 4) [6 bytes] to new.so:0x50 (main + 0)\x1b[0m\n" ++
  "\x1b[32m - relocating old.so:0x1c (main + 12) to new.so:0x80 ({0000000000000002 0000000000000007} + 0)\x1b[0m\n" ++
  "\x1b[31m - skipping old.so:0x24 (main + 20) - no target found\x1b[0m\n" ++
  "\n{0000000000000002 0000000000000007}\n" ++
  "\x1b[33m - redirecting old.so:0x40 ({0000000000000002 0000000000000007} + 0) [8 bytes] to new.so:0x80 ({0000000000000002 0000000000000007} + 0)\x1b[0m\n"

theorem re_text (b : Build) (h : BitVec 64 → BitVec 32) :
    updateReport b h 0 0 ⟨reOld, some "old.so".toList⟩ ⟨reNew, some "new.so".toList⟩ = .ok reReport.toList := by
  unfold updateReport
  dsimp only
  rw [re_process]
  dsimp only
  rw [reportText_lines rfl rfl]
  exact congrArg Except.ok (by decide +kernel)

theorem re_labels : (∀ s ∈ reOld, PlainLabel s ∧ OneLine s) ∧ (∀ s ∈ reNew, PlainLabel s) := by
  unfold PlainLabel OneLine
  decide +kernel

/-- What is read from the text above. -/
example (b : Build) (h : BitVec 64 → BitVec 32) : ∃ text, updateReport b h 0 0 ⟨reOld, some "old.so".toList⟩ ⟨reNew, some "new.so".toList⟩ = .ok text ∧
    (readReport "old.so".toList "new.so".toList none (readLines text)).map (fun x => (x.1.map (fun l => (readId l).1), x.2)) =
      reEvents.map (fun e => (some (siteSymbol (siteOf e)).id, some (actionFor reOld reNew e))) :=
  C108_report_partial b h 0 0 ⟨reOld, some "old.so".toList⟩ ⟨reNew, some "new.so".toList⟩ rfl rfl (by decide) (by decide) (by decide) (by unfold Disjoint; decide)
    (by unfold NoWrap; decide) (by unfold PartsInside IsFunction IsTrampoline endbrSize; decide) re_labels.1 re_labels.2 (re_process b h)

/-! ### Where it does not hold -/

/-- C108 is false for names with blanks: the same line stands for different targets. -/
theorem C108_names_counterexample : ∃ (t t' u u' : SymTree) (p q : Str) (e e' : Event) (text : Str),
    reportLine ⟨t, some p⟩ ⟨u, some q⟩ e = .ok text ∧ reportLine ⟨t', some p⟩ ⟨u', some q⟩ e' = .ok text ∧
    reportFrom e = reportFrom e' ∧ targetOf e ≠ targetOf e' := by
  refine ⟨[{ address := 0x10, size := 0x20, name := some "f" }], [{ address := 0x10, size := 0x20, name := some "f + 4) to b:0x80 (g" }],
    [{ address := 0x80, size := 0x20, name := some "g + 4) to b:0x90 (h" }], [{ address := 0x90, size := 0x20, name := some "h" }], ['a'], ['b'],
    .redirect (.function { address := 0x10 }) 0x14 0x80 0 true, .redirect (.function { address := 0x10 }) 0x14 0x90 0 true, _, reportLine_ok rfl rfl _, ?_, rfl, by decide⟩
  rw [reportLine_ok rfl rfl]
  exact congrArg Except.ok (by decide +kernel)

/-- C108: the settings of the update are those of the options, each on its own. -/
theorem C108_options (b : Build) (h : BitVec 64 → BitVec 32) (c : Cli) (old new : SymTree) (w : BitVec 32)
    (hw : UpdateFlags.ofWord w = { use_symbol_names := c.names, only_executable := c.onlyExec, only_branch_rels := c.branches, include_trampolines := c.trampolines }) :
    updateCodeMain b h c old new = updateReport b h w c.verbose.toNat ⟨old, c.oldPath⟩ ⟨new, c.newPath⟩ := by
  have e : UpdateFlags.ofWord (updateWord c) = UpdateFlags.ofWord w := by
    rw [hw]
    unfold updateWord
    cases c.names <;> cases c.onlyExec <;> cases c.branches <;> cases c.trampolines <;> rfl
  unfold updateCodeMain updateReport process
  rw [e]

/-- Only branches, with trampolines. -/
example : UpdateFlags.ofWord 12 = { use_symbol_names := false, only_executable := false, only_branch_rels := true, include_trampolines := true } := rfl

/-- C108 is false if the file is compared with itself for two directories with debug symbols, as supported by the program: it prints a
null pointer instead of the path. -/
theorem C108_path_counterexample (b : Build) (h : BitVec 64 → BitVec 32) :
    ∃ c, parseArgs .updateCode {} ["-b".toList, "old".toList, "-b".toList, "new".toList, "lib.so".toList] = .ok (.go c) ∧
      startsWith (.go c) = true ∧ (process b h (updateWord c) reportCallbacks reOld reNew 0 0).2 = none ∧
      updateCodeMain b h c reOld reNew = .error .ub := by
  refine ⟨{ oldBase := some "old".toList, newBase := some "new".toList, oldPath := some "lib.so".toList }, by rfl, by rfl, ?_, ?_⟩
  · have : updateWord { oldBase := some "old".toList, newBase := some "new".toList, oldPath := some "lib.so".toList } = 0 := by rfl
    rw [this, re_process]
  · unfold updateCodeMain updateReport
    dsimp only
    have : updateWord { oldBase := some "old".toList, newBase := some "new".toList, oldPath := some "lib.so".toList } = 0 := by rfl
    rw [this, re_process]
    rfl

end Bean.Props

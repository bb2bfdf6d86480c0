import Verif.Model.ComparePatterns
import Verif.Props.Compare
/-
C139: patterns select versions and files by their whole names.
-/
namespace Bean.Props

open Bean

/-- Texts of an expression without `^` and `$`. -/
inductive Lang : Rx → Str → Prop
  | empty : Lang .empty []
  | char (c : Char) : Lang (.char c) [c]
  | any (c : Char) : c ≠ '\n' → Lang .any [c]
  | seq {a b : Rx} {u v : Str} : Lang a u → Lang b v → Lang (.seq a b) (u ++ v)
  | left {a b : Rx} {u : Str} : Lang a u → Lang (.alt a b) u
  | right {a b : Rx} {u : Str} : Lang b u → Lang (.alt a b) u
  | nil {a : Rx} : Lang (.star a) []
  | more {a : Rx} {u v : Str} : Lang a u → Lang (.star a) v → Lang (.star a) (u ++ v)

/-- There is no `^` or `$` in the expression. -/
def Plain : Rx → Prop
  | .bol | .eol => False
  | .seq a b | .alt a b => Plain a ∧ Plain b
  | .star a => Plain a
  | _ => True

/-- The place behind a text. -/
def After (p q : RxPos) (u : Str) : Prop := p.2 = u ++ q.2 ∧ q.1 = (p.1 && u.isEmpty)

theorem after_trans {p q r : RxPos} {u v : Str} (h : After p q u) (h' : After q r v) : After p r (u ++ v) := by
  obtain ⟨h1, h2⟩ := h
  obtain ⟨h3, h4⟩ := h'
  refine ⟨by rw [h1, h3, List.append_assoc], ?_⟩
  rw [h4, h2]
  cases p.1 <;> cases u <;> cases v <;> rfl

theorem after_split {p r : RxPos} {u v : Str} (h : After p r (u ++ v)) : ∃ q, After p q u ∧ After q r v := by
  obtain ⟨h1, h2⟩ := h
  refine ⟨(p.1 && u.isEmpty, v ++ r.2), ⟨by rw [h1, List.append_assoc], rfl⟩, rfl, ?_⟩
  rw [h2]
  cases p.1 <;> cases u <;> cases v <;> rfl

theorem after_nil {p q : RxPos} : After p q [] ↔ q = p := by
  unfold After
  obtain ⟨a, s⟩ := p
  obtain ⟨b, t⟩ := q
  simp only [List.nil_append, List.isEmpty_nil, Bool.and_true, Prod.mk.injEq]
  exact ⟨fun h => ⟨h.2, h.1.symm⟩, fun h => ⟨h.2.symm, h.1⟩⟩

/-- Repetitions without those that take nothing. -/
theorem lang_star {a : Rx} {w : Str} (h : Lang (.star a) w) : w = [] ∨ ∃ u v, w = u ++ v ∧ u ≠ [] ∧ Lang a u ∧ Lang (.star a) v := by
  generalize hr : Rx.star a = r at h
  induction h with
  | nil => exact .inl rfl
  | @more b u v hu hv _ ih =>
    cases hr
    cases u with
    | nil => exact ih rfl
    | cons x l => exact .inr ⟨x :: l, v, rfl, (by simp), hu, hv⟩
  | _ => cases hr

theorem rests_iff : ∀ (r : Rx), Plain r → ∀ (p q : RxPos), q ∈ rxRests r p ↔ ∃ u, After p q u ∧ Lang r u
  | .empty, _, p, q => by
    simp only [rxRests, List.mem_singleton]
    exact ⟨fun h => ⟨[], after_nil.mpr h, .empty⟩, fun ⟨u, h, hl⟩ => by cases hl; exact after_nil.mp h⟩
  | .char c, _, p, q => by
    obtain ⟨f, s⟩ := p
    obtain ⟨g, t⟩ := q
    constructor
    · intro h
      cases s with
      | nil => cases h
      | cons x l =>
        simp only [rxRests] at h
        split at h
        · rename_i hx
          cases List.mem_singleton.mp h
          exact ⟨[c], ⟨by rw [hx]; rfl, by simp⟩, .char c⟩
        · cases h
    · rintro ⟨u, ⟨h1, h2⟩, hl⟩
      cases hl
      simp only [List.cons_append, List.nil_append] at h1
      subst h1
      simp only [List.isEmpty_cons, Bool.and_false] at h2
      subst h2
      simp [rxRests]
  | .any, _, p, q => by
    obtain ⟨f, s⟩ := p
    obtain ⟨g, t⟩ := q
    constructor
    · intro h
      cases s with
      | nil => cases h
      | cons x l =>
        simp only [rxRests] at h
        split at h
        · cases h
        · rename_i hx
          cases List.mem_singleton.mp h
          exact ⟨[x], ⟨rfl, by simp⟩, .any x hx⟩
    · rintro ⟨u, ⟨h1, h2⟩, hl⟩
      cases hl
      rename_i c hc
      simp only [List.cons_append, List.nil_append] at h1
      subst h1
      simp only [List.isEmpty_cons, Bool.and_false] at h2
      subst h2
      simp [rxRests, hc]
  | .bol, h, _, _ => h.elim
  | .eol, h, _, _ => h.elim
  | .seq a b, h, p, q => by
    simp only [rxRests, List.mem_flatMap]
    constructor
    · rintro ⟨m, hm, hq⟩
      obtain ⟨u, hu, lu⟩ := (rests_iff a h.1 p m).mp hm
      obtain ⟨v, hv, lv⟩ := (rests_iff b h.2 m q).mp hq
      exact ⟨u ++ v, after_trans hu hv, .seq lu lv⟩
    · rintro ⟨w, hw, lw⟩
      cases lw with
      | seq lu lv =>
        obtain ⟨m, h1, h2⟩ := after_split hw
        exact ⟨m, (rests_iff a h.1 p m).mpr ⟨_, h1, lu⟩, (rests_iff b h.2 m q).mpr ⟨_, h2, lv⟩⟩
  | .alt a b, h, p, q => by
    simp only [rxRests, List.mem_append]
    constructor
    · rintro (hq | hq)
      · obtain ⟨u, hu, lu⟩ := (rests_iff a h.1 p q).mp hq
        exact ⟨u, hu, .left lu⟩
      · obtain ⟨u, hu, lu⟩ := (rests_iff b h.2 p q).mp hq
        exact ⟨u, hu, .right lu⟩
    · rintro ⟨u, hu, lu⟩
      cases lu with
      | left l => exact .inl ((rests_iff a h.1 p q).mpr ⟨u, hu, l⟩)
      | right l => exact .inr ((rests_iff b h.2 p q).mpr ⟨u, hu, l⟩)
  | .star a, h, p, q => by
    have ih := rests_iff a h
    have key : ∀ (n : Nat) (p : RxPos), p.2.length ≤ n → (q ∈ starRests (rxRests a) n p ↔ ∃ u, After p q u ∧ Lang (.star a) u) := by
      intro n
      induction n with
      | zero =>
        intro p hp
        simp only [starRests, List.mem_singleton]
        constructor
        · intro e
          exact ⟨[], after_nil.mpr e, .nil⟩
        · rintro ⟨u, hu, _⟩
          have : u = [] := by
            have h1 := congrArg List.length hu.1
            rw [List.length_append] at h1
            exact List.eq_nil_of_length_eq_zero (by omega)
          subst this
          exact after_nil.mp hu
      | succ n ihn =>
        intro p hp
        simp only [starRests, List.mem_cons, List.mem_flatMap, List.mem_filter, decide_eq_true_eq]
        constructor
        · rintro (e | ⟨m, ⟨hm, hl⟩, hq⟩)
          · exact ⟨[], after_nil.mpr e, .nil⟩
          · obtain ⟨u, hu, lu⟩ := (ih p m).mp hm
            obtain ⟨v, hv, lv⟩ := (ihn m (by omega)).mp hq
            exact ⟨u ++ v, after_trans hu hv, .more lu lv⟩
        · rintro ⟨w, hw, lw⟩
          rcases lang_star lw with rfl | ⟨u, v, rfl, hne, lu, lv⟩
          · exact .inl (after_nil.mp hw)
          · obtain ⟨m, h1, h2⟩ := after_split hw
            have hlen : m.2.length < p.2.length := by
              rw [h1.1, List.length_append]
              have := List.length_pos_iff.mpr hne
              omega
            exact .inr ⟨m, ⟨(ih p m).mpr ⟨u, h1, lu⟩, hlen⟩, (ihn m (by omega)).mpr ⟨v, h2, lv⟩⟩
    exact key p.2.length p (Nat.le_refl _)

theorem search_iff (p : List Rx) (s : Str) : rxSearch p s = true ↔ ∃ u t, s = u ++ t ∧ ∃ b ∈ p, rxRests b (u.isEmpty, t) ≠ [] := by
  unfold rxSearch
  simp only [List.any_eq_true, List.mem_range, Bool.not_eq_true', List.isEmpty_eq_false_iff]
  constructor
  · rintro ⟨i, hi, b, hb, h⟩
    refine ⟨s.take i, s.drop i, (List.take_append_drop i s).symm, b, hb, ?_⟩
    have e : (s.take i).isEmpty = (i == 0) ∨ s = [] := by
      cases i with
      | zero => exact .inl rfl
      | succ i => cases s with
        | nil => exact .inr rfl
        | cons x l => exact .inl rfl
    rcases e with e | rfl
    · rw [e]; exact h
    · have : i = 0 := by simpa using hi
      subst this
      exact h
  · rintro ⟨u, t, rfl, b, hb, h⟩
    refine ⟨u.length, by rw [List.length_append]; omega, b, hb, ?_⟩
    rw [List.drop_left]
    have e : (u.length == 0) = u.isEmpty := by cases u <;> rfl
    rw [e]
    exact h

theorem closeLast_text (b : Rx) (l : List Rx) : patText (closeLast (b :: l)) = patText (b :: l) ++ ['$'] := by
  induction l generalizing b with
  | nil => simp [closeLast, patText, seqText, List.intercalate]
  | cons c l ih =>
    have h := ih c
    have hc : ∃ d m, closeLast (c :: l) = d :: m := by
      cases l with
      | nil => exact ⟨_, _, rfl⟩
      | cons e l => exact ⟨_, _, rfl⟩
    obtain ⟨d, m, hd⟩ := hc
    have step : ∀ (x y : Rx) (k : List Rx), patText (x :: y :: k) = seqText x ++ ('|' :: patText (y :: k)) := by
      intro x y k
      simp [patText, List.intercalate]
    rw [closeLast, hd, step, ← hd, h, step]
    simp

/-- **C139**: the pattern that is searched for is the one whose text is that of the option with `^` and `$` around it. -/
theorem C139_text (b : Rx) (l : List Rx) : patText (wrapPattern (b :: l)) = '^' :: patText (b :: l) ++ ['$'] := by
  unfold wrapPattern
  rw [closeLast_text]
  cases l with
  | nil => simp [patText, List.intercalate, seqText]
  | cons c l => simp [patText, List.intercalate, seqText]

theorem eol_rests (b : Rx) (p : RxPos) : rxRests (.seq b .eol) p ≠ [] ↔ ∃ q ∈ rxRests b p, q.2 = [] ∨ q.2 = ['\n'] := by
  constructor
  · intro h
    obtain ⟨x, hx⟩ := List.exists_mem_of_ne_nil _ h
    simp only [rxRests, List.mem_flatMap] at hx
    obtain ⟨q, hq, hx⟩ := hx
    split at hx
    · exact ⟨q, hq, ‹_›⟩
    · cases hx
  · rintro ⟨q, hq, he⟩
    refine List.ne_nil_of_mem (a := q) ?_
    simp only [rxRests, List.mem_flatMap]
    exact ⟨q, hq, by rw [if_pos he]; exact List.mem_singleton.mpr rfl⟩

theorem bol_rests (b : Rx) (f : Bool) (t : Str) : rxRests (.seq .bol b) (f, t) = if f then rxRests b (true, t) else [] := by
  cases f <;> simp [rxRests]

theorem closeLast_mem {b : Rx} {l : List Rx} (x : Rx) : x ∈ closeLast (l ++ [b]) ↔ x ∈ l ∨ x = .seq b .eol := by
  induction l with
  | nil => simp [closeLast]
  | cons c l ih =>
    have : closeLast (c :: l ++ [b]) = c :: closeLast (l ++ [b]) := by
      cases l with
      | nil => rfl
      | cons d l => rfl
    rw [this, List.mem_cons, ih, List.mem_cons, or_assoc]

/-- **C139**: a pattern without alternatives outside of groups fits exactly the names that it describes as a whole, up to a line feed at the end. -/
theorem C139_single_partial (b : Rx) (hb : Plain b) (name : Str) : patternFits [b] name = true ↔ Lang b name ∨ ∃ u, name = u ++ ['\n'] ∧ Lang b u := by
  unfold patternFits
  rw [search_iff]
  have e : wrapPattern [b] = [.seq (.seq .bol b) .eol] := rfl
  rw [e]
  constructor
  · rintro ⟨u, t, rfl, x, hx, h⟩
    cases List.mem_singleton.mp hx
    obtain ⟨q, hq, he⟩ := (eol_rests _ _).mp h
    rw [bol_rests] at hq
    split at hq
    · rename_i hu
      obtain ⟨v, ⟨h1, _⟩, lv⟩ := (rests_iff b hb _ _).mp hq
      rw [List.isEmpty_iff.mp hu, List.nil_append, show t = v ++ q.2 from h1]
      rcases he with he | he
      · rw [he, List.append_nil]; exact .inl lv
      · rw [he]; exact .inr ⟨v, rfl, lv⟩
    · cases hq
  · intro h
    refine ⟨[], name, rfl, _, List.mem_singleton.mpr rfl, (eol_rests _ _).mpr ?_⟩
    rw [bol_rests, if_pos (by rfl)]
    rcases h with h | ⟨u, rfl, h⟩
    · exact ⟨(true && name.isEmpty, []), (rests_iff b hb _ _).mpr ⟨name, ⟨(List.append_nil name).symm, rfl⟩, h⟩, .inl rfl⟩
    · exact ⟨(true && u.isEmpty, ['\n']), (rests_iff b hb _ _).mpr ⟨u, ⟨rfl, rfl⟩, h⟩, .inr rfl⟩

/-- What a pattern with several alternatives fits: names that start with a text of the first one, contain one of those between, or end with one of the last (up to a line feed). -/
theorem C139_alternatives (a b : Rx) (l : List Rx) (ha : Plain a) (hb : Plain b) (hl : ∀ c ∈ l, Plain c) (name : Str) :
    patternFits (a :: l ++ [b]) name = true ↔ (∃ u v, name = u ++ v ∧ Lang a u) ∨ (∃ c ∈ l, ∃ u v w, name = u ++ v ++ w ∧ Lang c v) ∨
      ∃ u v w, name = u ++ v ++ w ∧ Lang b v ∧ (w = [] ∨ w = ['\n']) := by
  unfold patternFits
  rw [search_iff]
  have e : wrapPattern (a :: l ++ [b]) = closeLast ((.seq .bol a :: l) ++ [b]) := rfl
  rw [e]
  constructor
  · rintro ⟨u, t, rfl, x, hx, h⟩
    rcases (closeLast_mem x).mp hx with hx | rfl
    · rcases List.mem_cons.mp hx with rfl | hx
      · rw [bol_rests] at h
        split at h
        · rename_i hu
          obtain ⟨q, hq⟩ := List.exists_mem_of_ne_nil _ h
          obtain ⟨v, ⟨h1, _⟩, lv⟩ := (rests_iff a ha _ _).mp hq
          exact .inl ⟨v, q.2, by rw [List.isEmpty_iff.mp hu]; exact h1, lv⟩
        · exact absurd rfl h
      · obtain ⟨q, hq⟩ := List.exists_mem_of_ne_nil _ h
        obtain ⟨v, ⟨h1, _⟩, lv⟩ := (rests_iff x (hl x hx) _ _).mp hq
        exact .inr (.inl ⟨x, hx, u, v, q.2, by rw [List.append_assoc, ← show t = v ++ q.2 from h1], lv⟩)
    · obtain ⟨q, hq, he⟩ := (eol_rests _ _).mp h
      obtain ⟨v, ⟨h1, _⟩, lv⟩ := (rests_iff b hb _ _).mp hq
      exact .inr (.inr ⟨u, v, q.2, by rw [List.append_assoc, ← show t = v ++ q.2 from h1], lv, he⟩)
  · rintro (⟨u, v, rfl, lu⟩ | ⟨c, hc, u, v, w, rfl, lv⟩ | ⟨u, v, w, rfl, lv, hw⟩)
    · refine ⟨[], u ++ v, rfl, _, (closeLast_mem _).mpr (.inl List.mem_cons_self), ?_⟩
      rw [bol_rests, if_pos (by rfl)]
      exact List.ne_nil_of_mem ((rests_iff a ha (true, u ++ v) (true && u.isEmpty, v)).mpr ⟨u, ⟨rfl, rfl⟩, lu⟩)
    · refine ⟨u, v ++ w, by rw [List.append_assoc], c, (closeLast_mem _).mpr (.inl (List.mem_cons_of_mem _ hc)), ?_⟩
      exact List.ne_nil_of_mem ((rests_iff c (hl c hc) (u.isEmpty, v ++ w) (u.isEmpty && v.isEmpty, w)).mpr ⟨v, ⟨rfl, rfl⟩, lv⟩)
    · refine ⟨u, v ++ w, by rw [List.append_assoc], _, (closeLast_mem _).mpr (.inr rfl), (eol_rests _ _).mpr ?_⟩
      exact ⟨(u.isEmpty && v.isEmpty, w), (rests_iff b hb (u.isEmpty, v ++ w) _).mpr ⟨v, ⟨rfl, rfl⟩, lv⟩, hw⟩

/-- **C139**: no name that an alternative describes is lost. -/
theorem C139_complete (p : List Rx) (hp : ∀ c ∈ p, Plain c) (name : Str) (h : ∃ c ∈ p, Lang c name) : patternFits p name = true := by
  obtain ⟨c, hc, hl⟩ := h
  match p, hp with
  | [], _ => cases hc
  | [b], hp =>
    cases List.mem_singleton.mp hc
    exact (C139_single_partial _ (hp _ hc) _).mpr (.inl hl)
  | a :: d :: r, hp =>
    have hne : d :: r ≠ [] := by simp
    have e : a :: d :: r = a :: (d :: r).dropLast ++ [(d :: r).getLast hne] := by
      rw [List.cons_append, List.dropLast_concat_getLast]
    have hm : ∀ x, x ∈ a :: d :: r ↔ x = a ∨ x ∈ (d :: r).dropLast ∨ x = (d :: r).getLast hne := by
      intro x
      conv => lhs; rw [e]
      rw [List.cons_append, List.mem_cons, List.mem_append, List.mem_singleton]
    rw [e]
    refine (C139_alternatives _ _ _ (hp _ ((hm _).mpr (.inl rfl))) (hp _ ((hm _).mpr (.inr (.inr rfl)))) (fun c h => hp _ ((hm _).mpr (.inr (.inl h)))) _).mpr ?_
    rcases (hm c).mp hc with rfl | h | rfl
    · exact .inl ⟨name, [], (List.append_nil _).symm, hl⟩
    · exact .inr (.inl ⟨c, h, [], name, [], by simp, hl⟩)
    · exact .inr (.inr ⟨[], name, [], by simp, hl, .inl rfl⟩)

/-- Expression for a text. -/
def litRx : Str → Rx
  | [] => .empty
  | c :: s => .seq (.char c) (litRx s)

theorem lit_plain : ∀ s, Plain (litRx s)
  | [] => trivial
  | _ :: s => ⟨trivial, lit_plain s⟩

theorem lit_lang : ∀ (s u : Str), Lang (litRx s) u ↔ u = s
  | [], u => ⟨fun h => by cases h; rfl, fun h => by rw [h]; exact .empty⟩
  | c :: s, u => by
    constructor
    · intro h
      cases h with
      | seq h1 h2 =>
        cases h1
        rw [(lit_lang s _).mp h2]
        rfl
    · rintro rfl
      exact .seq (.char c) ((lit_lang s s).mpr rfl)

/-- C139 is false for alternatives outside of groups: with `s|t`, directories whose names start with `s` or end with `t` are versions, too, and their objects count. -/
theorem C139_alternatives_counterexample (s t x : Str) (hx : x ≠ []) (hs : s.head? ≠ some '.') (hs' : s ≠ []) (files : List ObjFile) (ht : s ++ x ≠ t) :
    (∀ c ∈ [litRx s, litRx t], ¬ Lang c (s ++ x)) ∧ isVersion (patternArgs [[litRx s, litRx t]] []) { name := s ++ x, isDir := true, files := files } = true := by
  refine ⟨?_, ?_⟩
  · intro c hc h
    rcases List.mem_cons.mp hc with rfl | hc
    · have := (lit_lang _ _).mp h
      exact hx (by simpa using this)
    · cases List.mem_singleton.mp hc
      exact ht ((lit_lang _ _).mp h)
  · have h := (C139_alternatives (litRx s) (litRx t) [] (lit_plain s) (lit_plain t) (fun _ h => by cases h) (s ++ x)).mpr
      (.inl ⟨s, x, rfl, (lit_lang s s).mpr rfl⟩)
    have hh : (s ++ x).head? ≠ some '.' := by
      cases s with
      | nil => exact absurd rfl hs'
      | cons c s => exact hs
    unfold isVersion passes patternArgs
    have h' : patternFits [litRx s, litRx t] (s ++ x) = true := h
    have h2 : ((s ++ x).head? != some '.') = true := bne_iff_ne.mpr hh
    simp only [h2, List.map_cons, List.map_nil, List.any_cons, h', Bool.true_or, Bool.or_true, Bool.and_true]

theorem passes_pats (pats : List Rx) (hp : ∀ b ∈ pats, Plain b) (hne : pats ≠ []) (name : Str) (hn : '\n' ∉ name) :
    passes ((pats.map (fun b => [b])).map patternFits) name = true ↔ ∃ b ∈ pats, Lang b name := by
  have fits : ∀ b ∈ pats, (patternFits [b] name = true ↔ Lang b name) := by
    intro b hb
    rw [C139_single_partial b (hp b hb)]
    refine ⟨fun h => h.elim id ?_, .inl⟩
    rintro ⟨u, hu, _⟩
    exact absurd (by rw [hu]; simp) hn
  unfold passes
  simp only [Bool.or_eq_true, List.isEmpty_iff, List.map_eq_nil_iff, List.any_eq_true, List.mem_map]
  constructor
  · rintro (h | ⟨f, ⟨q, ⟨b, hb, rfl⟩, rfl⟩, hf⟩)
    · exact absurd h hne
    · exact ⟨b, hb, (fits b hb).mp hf⟩
  · rintro ⟨b, hb, hl⟩
    exact .inr ⟨_, ⟨_, ⟨b, hb, rfl⟩, rfl⟩, (fits b hb).mpr hl⟩

/-- **C139**: with patterns that have no alternatives outside of groups, the versions are the directories whose names one of the patterns describes (names without line feed). -/
theorem C139_versions_partial (pats : List Rx) (lib : List (List Rx)) (hp : ∀ b ∈ pats, Plain b) (hne : pats ≠ []) (d : VersionDir) (hn : '\n' ∉ d.name) :
    isVersion (patternArgs (pats.map (fun b => [b])) lib) d = true ↔ d.isDir = true ∧ d.name.head? ≠ some '.' ∧ ∃ b ∈ pats, Lang b d.name := by
  rw [← passes_pats pats hp hne d.name hn]
  unfold isVersion patternArgs
  simp only [Bool.and_eq_true, bne_iff_ne, ne_eq, and_assoc]

/-- **C139**: likewise, the objects of a version are the ELF files whose names one of the patterns describes. -/
theorem C139_files_partial (verdir : List (List Rx)) (pats : List Rx) (hp : ∀ b ∈ pats, Plain b) (hne : pats ≠ []) (d : VersionDir) (hn : ∀ f ∈ d.files, '\n' ∉ f.name) (o : Str) :
    o ∈ objectsOf (patternArgs verdir (pats.map (fun b => [b]))) d ↔ ∃ f ∈ d.files, f.path = o ∧ f.isFile = true ∧ f.isElf = true ∧ ∃ b ∈ pats, Lang b f.name := by
  unfold objectsOf patternArgs
  simp only [List.mem_map, List.mem_filter, Bool.and_eq_true]
  constructor
  · rintro ⟨f, ⟨hf, ⟨h1, h2⟩, h3⟩, rfl⟩
    exact ⟨f, hf, rfl, h1, h2, (passes_pats pats hp hne f.name (hn f hf)).mp h3⟩
  · rintro ⟨f, hf, rfl, h1, h2, h3⟩
    exact ⟨f, ⟨hf, ⟨h1, h2⟩, (passes_pats pats hp hne f.name (hn f hf)).mpr h3⟩, rfl⟩

/-- Reading of the text of a pattern without any operator: a character behind a backslash stands for itself, and no other may have a meaning. -/
def readLiteral : Str → Option Str
  | [] => some []
  | '\\' :: c :: s => (readLiteral s).map (c :: ·)
  | c :: s => if c ∈ ['\\', '.', '^', '$', '*', '+', '?', '{', '}', '[', ']', '|', '(', ')'] then none else (readLiteral s).map (c :: ·)

theorem read_char (c : Char) (s : Str) : readLiteral (charText c ++ s) = (readLiteral s).map (c :: ·) := by
  unfold charText
  by_cases h : c ∈ ['\\', '.', '^', '$', '*', '+', '?', '{', '}', '[', ']', '|', '(', ')']
  · rw [if_pos (by simpa using h)]
    rfl
  · rw [if_neg (by simpa using h)]
    have hc : c ≠ '\\' := fun e => h (by rw [e]; exact List.mem_cons_self)
    show readLiteral (c :: s) = _
    rw [readLiteral.eq_3 c s (fun _ _ e _ => hc e), if_neg h]

/-- **C139**, names as patterns: the text with backslashes for a name is read as this name only, and its pattern fits the name (also with a line feed behind it) and nothing else. -/
theorem C139_literal (w name : Str) : readLiteral (patText [litRx w]) = some w ∧ (patternFits [litRx w] name = true ↔ name = w ∨ name = w ++ ['\n']) := by
  constructor
  · have e : ∀ w, readLiteral (seqText (litRx w)) = some w := by
      intro w
      induction w with
      | nil => rfl
      | cons c w ih =>
        show readLiteral (charText c ++ seqText (litRx w)) = _
        rw [read_char, ih]
        rfl
    have : patText [litRx w] = seqText (litRx w) := by simp [patText, List.intercalate]
    rw [this, e]
  · rw [C139_single_partial _ (lit_plain w), lit_lang]
    constructor
    · rintro (h | ⟨u, h, hu⟩)
      · exact .inl h
      · rw [lit_lang] at hu
        exact .inr (by rw [h, hu])
    · rintro (h | h)
      · exact .inl h
      · exact .inr ⟨w, h, (lit_lang w w).mpr rfl⟩

example : patText [litRx "libc.so.6".toList] = "libc\\.so\\.6".toList ∧ patternFits [litRx "libc.so.6".toList] "libc-so.6".toList = false := by decide +kernel

example : patText (wrapPattern [litRx "1.0".toList, litRx "2.0".toList]) = "^1\\.0|2\\.0$".toList := by decide +kernel

example : patternFits [litRx "1.0".toList, litRx "2.0".toList] "1.0-rc1".toList = true ∧ patternFits [litRx "1.0".toList, litRx "2.0".toList] "12.0".toList = true ∧
    patternFits [litRx "1.0".toList, litRx "2.0".toList] "3.0".toList = false := by decide +kernel

example : patternFits [.alt (litRx "1.0".toList) (litRx "2.0".toList)] "1.0-rc1".toList = false ∧ patternFits [.alt (litRx "1.0".toList) (litRx "2.0".toList)] "2.0".toList = true := by
  decide +kernel

example : patternFits [.seq (litRx "lib".toList) (.star .any)] "libc.so".toList = true ∧ patternFits [.seq (litRx "lib".toList) (.star .any)] "mylib".toList = false := by decide +kernel

example : "-rc1".toList ≠ [] ∧ "1.0".toList.head? ≠ some '.' ∧ "1.0".toList ++ "-rc1".toList ≠ "2.0".toList := by decide

example : Plain (.seq (litRx "lib".toList) (.star .any)) ∧ '\n' ∉ "libc.so".toList := ⟨⟨lit_plain _, trivial⟩, by decide⟩

end Bean.Props

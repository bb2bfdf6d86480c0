import Verif.Spec.DwarfParse
/-
C95: entries of the debug information have the attributes of their abstract origins.
-/
namespace Bean.Props
open Bean Bean.Spec

section
variable {α : Type} {l : List (Nat × RawDie α)}

/-! ### The table -/

theorem lookup_of_mem (hd : (l.map Prod.fst).Nodup) {off : Nat} {r : RawDie α} (h : (off, r) ∈ l) : l.lookup off = some r := by
  induction l with
  | nil => cases h
  | cons x l ih =>
    obtain ⟨i, s⟩ := x
    rw [List.map_cons, List.nodup_cons] at hd
    rcases List.mem_cons.mp h with h | h
    · cases h
      rw [List.lookup_cons, beq_self_eq_true]
    · have hn : off ≠ i := fun e => hd.1 (e ▸ List.mem_map.mpr ⟨_, h, rfl⟩)
      rw [List.lookup_cons, show (off == i) = false from by simpa using hn]
      exact ih hd.2 h

theorem mem_of_lookup {off : Nat} {r : RawDie α} (h : l.lookup off = some r) : (off, r) ∈ l := by
  induction l with
  | nil => cases h
  | cons x l ih =>
    obtain ⟨i, s⟩ := x
    rw [List.lookup_cons] at h
    by_cases e : off = i
    · rw [show (off == i) = true from by simpa using e] at h
      cases h
      rw [e]
      exact List.mem_cons_self
    · rw [show (off == i) = false from by simpa using e] at h
      exact List.mem_cons_of_mem _ (ih h)

/-- An entry whose stored origin is another entry of the table. -/
def Refers (l : List (Nat × RawDie α)) (off o : Nat) : Prop :=
  ∃ r r', l.lookup off = some r ∧ r.origin.map Prod.snd = some o ∧ l.lookup o = some r' ∧ o ≠ off

theorem refers_unique {off o o' : Nat} (h : Refers l off o) (h' : Refers l off o') : o = o' := by
  obtain ⟨r, _, h1, h2, _, _⟩ := h
  obtain ⟨r', _, h1', h2', _, _⟩ := h'
  rw [h1] at h1'
  cases h1'
  rw [h2] at h2'
  exact Option.some.inj h2'

/-- The value of an attribute along the stored origins. -/
inductive Along (l : List (Nat × RawDie α)) (k : Str) (v : α) : Nat → Prop where
  | own {off : Nat} {r : RawDie α} (h : l.lookup off = some r) (a : r.attrs k = some v) : Along l k v off
  | origin {off o : Nat} {r : RawDie α} (h : l.lookup off = some r) (a : r.attrs k = none) (ho : Refers l off o) (i : Along l k v o) :
      Along l k v off

/-- What the declaration of an entry becomes in the end. -/
def finalDecl (e : DieEntry α) : Option Str := declText e.decl e.decl_file e.decl_line e.decl_column

theorem finalDecl_combine (e : DieEntry α) : finalDecl (combineDecl e) = finalDecl e := rfl

/-- Nothing is left to be taken over from an origin. -/
def Ready (l : List (Nat × RawDie α)) (off : Nat) (e : DieEntry α) : Prop := ∀ o, Refers l off o → e.resolved = true

/-- An entry that has got everything from its origin. -/
structure Settled (l : List (Nat × RawDie α)) (t : DieTable α) (off : Nat) (r : RawDie α) (e : DieEntry α) : Prop where
  attrs : ∀ k v, e.attrs k = some v ↔ Along l k v off
  ready : Ready l off e
  alone : (∀ o, ¬ Refers l off o) → finalDecl e = declText none r.decl_file r.decl_line r.decl_column
  same : ∀ o, Refers l off o → r.decl_file = none → r.decl_line = none → r.decl_column = none →
    ∃ eo, t o = some eo ∧ Ready l o eo ∧ finalDecl e = finalDecl eo
  whole : ∀ f n c, r.decl_file = some f → r.decl_line = some n → r.decl_column = some c → finalDecl e = declText none (some f) (some n) (some c)

/-- The state of an entry in the table. -/
def EntryOk (l : List (Nat × RawDie α)) (t : DieTable α) (off : Nat) (r : RawDie α) : Prop :=
  ∃ e, t off = some e ∧ e.origin = r.origin.map Prod.snd ∧
    ((e = readDie r ∧ ∃ o, Refers l off o) ∨ Settled l t off r e)

/-- The state of the table. -/
structure TableOk (l : List (Nat × RawDie α)) (t : DieTable α) : Prop where
  inside : ∀ off r, l.lookup off = some r → EntryOk l t off r
  only : ∀ off e, t off = some e → ∃ r, l.lookup off = some r

theorem along_alone {off : Nat} {r : RawDie α} (h : l.lookup off = some r) (hn : ∀ o, ¬ Refers l off o) (k : Str) (v : α) :
    r.attrs k = some v ↔ Along l k v off := by
  constructor
  · exact Along.own h
  · intro a
    cases a with
    | own h' a => rw [h] at h'; cases h'; exact a
    | origin _ _ ho _ => exact absurd ho (hn _)

theorem along_via {off o : Nat} {r : RawDie α} (h : l.lookup off = some r) (ho : Refers l off o) (k : Str) (v : α) :
    Along l k v off ↔ (r.attrs k = some v ∨ (r.attrs k = none ∧ Along l k v o)) := by
  constructor
  · intro a
    cases a with
    | own h' a => rw [h] at h'; cases h'; exact Or.inl a
    | origin h' a ho' i =>
      rw [h] at h'; cases h'
      rw [refers_unique ho ho']
      exact Or.inr ⟨a, i⟩
  · rintro (a | ⟨a, i⟩)
    · exact Along.own h a
    · exact Along.origin h a ho i

theorem readTable_ok (l : List (Nat × RawDie α)) : TableOk l (readTable l) := by
  constructor
  · intro off r h
    refine ⟨readDie r, by rw [readTable, h]; rfl, rfl, ?_⟩
    by_cases ho : ∃ o, Refers l off o
    · exact Or.inl ⟨rfl, ho⟩
    · have hn : ∀ o, ¬ Refers l off o := fun o h => ho ⟨o, h⟩
      exact Or.inr ⟨fun k v => along_alone h hn k v, fun o h => absurd h (hn o), fun _ => rfl, fun o h => absurd h (hn o),
        fun f n c h1 h2 h3 => by rw [finalDecl, readDie, h1, h2, h3]⟩
  · intro off e h
    rw [readTable] at h
    cases hl : l.lookup off with
    | none => rw [hl] at h; cases h
    | some r => exact ⟨r, rfl⟩

/-- Entries that are ready only change by combination. -/
def Keep (l : List (Nat × RawDie α)) (t t' : DieTable α) : Prop :=
  ∀ i e, t i = some e → ∃ e', t' i = some e' ∧ (Ready l i e → e' = e ∨ e' = combineDecl e)

theorem settled_keep {t t' : DieTable α} (hk : Keep l t t') {off : Nat} {r : RawDie α} {e : DieEntry α} (h : Settled l t off r e) :
    Settled l t' off r e := by
  refine ⟨h.attrs, h.ready, h.alone, ?_, h.whole⟩
  intro o ho h1 h2 h3
  obtain ⟨eo, h4, h5, h6⟩ := h.same o ho h1 h2 h3
  obtain ⟨e', h7, h8⟩ := hk o eo h4
  rcases h8 h5 with h8 | h8
  · exact ⟨e', h7, h8 ▸ h5, h8 ▸ h6⟩
  · exact ⟨e', h7, by rw [h8]; exact h5, by rw [h8, finalDecl_combine]; exact h6⟩

theorem settled_combine {t : DieTable α} {off : Nat} {r : RawDie α} {e : DieEntry α} (h : Settled l t off r e) :
    Settled l t off r (combineDecl e) :=
  ⟨h.attrs, h.ready, h.alone, h.same, h.whole⟩

theorem set_self (t : DieTable α) (off : Nat) (e : DieEntry α) : t.set off e off = some e := if_pos rfl

theorem set_other {t : DieTable α} {off i : Nat} {e : DieEntry α} (h : i ≠ off) : t.set off e i = t i := if_neg h

/-! ### Origins -/

theorem resolve_succ {n : Nat} {t t' : DieTable α} {off : Nat} (h : resolveOrigin (n + 1) t off = .ok t') :
    ∃ e, t off = some e ∧ ((t' = t ∧ (e.origin = none ∨ e.resolved = true ∨ ∃ o, e.origin = some o ∧ (t o = none ∨ o = off))) ∨
      ∃ o t1 eo e1, e.origin = some o ∧ e.resolved = false ∧ (t o).isSome ∧ o ≠ off ∧ resolveOrigin n t o = .ok t1 ∧ t1 o = some eo ∧
        t1 off = some e1 ∧ t' = t1.set off (inheritFrom eo e1)) := by
  rw [resolveOrigin] at h
  cases he : t off with
  | none => rw [he] at h; cases h
  | some e =>
    refine ⟨e, rfl, ?_⟩
    rw [he] at h
    dsimp only at h
    cases ho : e.origin with
    | none => rw [ho] at h; exact Or.inl ⟨(Except.ok.inj h).symm, Or.inl rfl⟩
    | some o =>
      rw [ho] at h
      dsimp only at h
      by_cases hr : e.resolved = true
      · rw [if_pos hr] at h
        exact Or.inl ⟨(Except.ok.inj h).symm, Or.inr (Or.inl hr)⟩
      · rw [if_neg hr] at h
        by_cases hc : (t o).isSome = true ∧ o ≠ off
        · rw [if_pos hc] at h
          cases hx : resolveOrigin n t o with
          | error x => rw [hx] at h; cases h
          | ok t1 =>
            rw [hx] at h
            dsimp only at h
            cases h1 : t1 o with
            | none => rw [h1] at h; cases h
            | some eo =>
              cases h2 : t1 off with
              | none => rw [h1, h2] at h; cases h
              | some e1 =>
                rw [h1, h2] at h
                exact Or.inr ⟨o, t1, eo, e1, rfl, by simpa using hr, hc.1, hc.2, hx, h1, h2, (Except.ok.inj h).symm⟩
        · rw [if_neg hc] at h
          refine Or.inl ⟨(Except.ok.inj h).symm, Or.inr (Or.inr ⟨o, rfl, ?_⟩)⟩
          by_cases h0 : o = off
          · exact Or.inr h0
          · refine Or.inl ?_
            cases h1 : t o with
            | none => rfl
            | some x => exact absurd ⟨by rw [h1]; rfl, h0⟩ hc

theorem resolve_next {n : Nat} {t t' : DieTable α} {off : Nat} (h : resolveOrigin n t off = .ok t') :
    resolveOrigin (n + 1) t off = .ok t' := by
  induction n generalizing t t' off with
  | zero => cases h
  | succ n ih =>
    rw [resolveOrigin] at h ⊢
    cases he : t off with
    | none => rw [he] at h; cases h
    | some e =>
      rw [he] at h
      dsimp only at h ⊢
      cases ho : e.origin with
      | none => rw [ho] at h; exact h
      | some o =>
        rw [ho] at h
        dsimp only at h ⊢
        by_cases hr : e.resolved = true
        · rw [if_pos hr] at h ⊢; exact h
        · rw [if_neg hr] at h ⊢
          by_cases hc : (t o).isSome = true ∧ o ≠ off
          · rw [if_pos hc] at h ⊢
            cases hx : resolveOrigin n t o with
            | error x => rw [hx] at h; cases h
            | ok t1 =>
              rw [hx] at h
              rw [ih hx]
              exact h
          · rw [if_neg hc] at h ⊢; exact h

theorem resolve_mono {n m : Nat} {t t' : DieTable α} {off : Nat} (hm : n ≤ m) (h : resolveOrigin n t off = .ok t') :
    resolveOrigin m t off = .ok t' := by
  induction m with
  | zero => rw [Nat.le_zero.mp hm] at h; exact h
  | succ m ih =>
    rcases Nat.lt_or_ge n (m + 1) with h1 | h1
    · exact resolve_next (ih (by omega))
    · rw [show m + 1 = n by omega]; exact h

/-- Entries that change are resolved on the way. -/
theorem resolve_changed {n : Nat} {t t' : DieTable α} {off : Nat} (h : resolveOrigin n t off = .ok t') (i : Nat) :
    t' i = t i ∨ ∃ m t'', m ≤ n ∧ resolveOrigin m t i = .ok t'' := by
  induction n generalizing t' off with
  | zero => cases h
  | succ n ih =>
    by_cases hi : i = off
    · rw [hi]
      exact Or.inr ⟨n + 1, t', Nat.le_refl _, h⟩
    · obtain ⟨e, _, ⟨h1, _⟩ | ⟨o, t1, eo, e1, _, _, _, _, h1, _, _, h2⟩⟩ := resolve_succ h
      · rw [h1]; exact Or.inl rfl
      · rcases ih h1 with h3 | ⟨m, t'', h3, h4⟩
        · rw [h2, set_other hi]; exact Or.inl h3
        · exact Or.inr ⟨m, t'', by omega, h4⟩

/-- What the origin of an entry is in the table. -/
theorem refers_table {t : DieTable α} (ht : TableOk l t) {off : Nat} {r : RawDie α} {e : DieEntry α} (hl : l.lookup off = some r)
    (he : t off = some e) (o : Nat) : Refers l off o ↔ e.origin = some o ∧ (t o).isSome = true ∧ o ≠ off := by
  obtain ⟨e', h1, h2, _⟩ := ht.inside off r hl
  rw [he] at h1
  cases h1
  constructor
  · rintro ⟨r', ro, h3, h4, h5, h6⟩
    rw [hl] at h3
    cases h3
    obtain ⟨eo, h7, _⟩ := ht.inside o ro h5
    exact ⟨h2.trans h4, by rw [h7]; rfl, h6⟩
  · rintro ⟨h3, h4, h5⟩
    obtain ⟨eo, h6⟩ := Option.isSome_iff_exists.mp h4
    obtain ⟨ro, h7⟩ := ht.only o eo h6
    exact ⟨r, ro, hl, h2.symm.trans h3, h7, h5⟩

/-- An entry takes over what its origin has. -/
theorem settled_inherit {t : DieTable α} {off o : Nat} {r ro : RawDie α} {eo : DieEntry α} (hl : l.lookup off = some r)
    (ho : Refers l off o) (hs : Settled l t o ro eo) (h1 : t o = some eo) (e' : DieEntry α) :
    Settled l (t.set off e') off r (inheritFrom eo (readDie r)) := by
  have hne : o ≠ off := by obtain ⟨_, _, _, _, _, h⟩ := ho; exact h
  refine ⟨?_, fun _ _ => rfl, fun h => absurd ho (h o), ?_, ?_⟩
  · intro k v
    rw [along_via hl ho]
    show ((r.attrs k).or (eo.attrs k) = some v) ↔ _
    rw [← hs.attrs]
    cases r.attrs k with
    | none => simp
    | some a => simp
  · intro o' ho' h2 h3 h4
    rw [← refers_unique ho ho']
    refine ⟨eo, by rw [set_other hne]; exact h1, hs.ready, ?_⟩
    show declText _ (r.decl_file.or _) (r.decl_line.or _) (r.decl_column.or _) = _
    rw [h2, h3, h4]
    rfl
  · intro f n c h2 h3 h4
    show declText _ (r.decl_file.or _) (r.decl_line.or _) (r.decl_column.or _) = _
    rw [h2, h3, h4]
    rfl

theorem resolve_ok {n : Nat} {t t' : DieTable α} {off : Nat} (ht : TableOk l t) (h : resolveOrigin n t off = .ok t') :
    TableOk l t' ∧ (∀ i e, t i = some e → Ready l i e → t' i = some e) ∧
      (∀ r e, l.lookup off = some r → t' off = some e → Settled l t' off r e) ∧ (∀ i, (t' i).isSome = (t i).isSome) := by
  induction n using Nat.strongRecOn generalizing off t' with
  | ind n ih =>
    cases n with
    | zero => cases h
    | succ n =>
      obtain ⟨e, he, hcase⟩ := resolve_succ h
      obtain ⟨r, hl⟩ := ht.only off e he
      rcases hcase with ⟨h1, h2⟩ | ⟨o, t1, eo, e1, h1, h2, h3, h4, h5, h6, h7, h8⟩
      · subst h1
        refine ⟨ht, fun i e h _ => h, ?_, fun _ => rfl⟩
        intro r' e' hl' he'
        rw [he] at he'
        cases he'
        rw [hl] at hl'
        cases hl'
        obtain ⟨e'', h3, h4, h5⟩ := ht.inside off r hl
        rw [he] at h3
        cases h3
        rcases h5 with ⟨h5, o, h6⟩ | h5
        · obtain ⟨h7, h8, h9⟩ := (refers_table ht hl he o).mp h6
          rcases h2 with h2 | h2 | ⟨o', h2, h10⟩
          · rw [h7] at h2; cases h2
          · rw [h5] at h2; cases h2
          · rw [h7] at h2
            cases h2
            rcases h10 with h10 | h10
            · rw [h10] at h8; cases h8
            · exact absurd h10 h9
        · exact h5
      · rcases resolve_changed h5 off with h9 | ⟨m, t'', h9, h10⟩
        · have href : Refers l off o := (refers_table ht hl he o).mpr ⟨h1, h3, h4⟩
          obtain ⟨g1, g2, g3, g4⟩ := ih n (by omega) h5
          have he1 : e1 = readDie r := by
            rw [h9, he] at h7
            cases h7
            obtain ⟨e'', h10, _, h11⟩ := ht.inside off r hl
            rw [he] at h10
            cases h10
            rcases h11 with ⟨h11, _⟩ | h11
            · exact h11
            · rw [h11.ready o href] at h2; cases h2
          obtain ⟨ro, hlo⟩ := g1.only o eo h6
          have hset := settled_inherit hl href (g3 ro eo hlo h6) h6 (inheritFrom eo (readDie r))
          rw [he1] at h8
          have hkeep : Keep l t1 t' := by
            intro i x hx
            by_cases hi : i = off
            · rw [hi] at hx ⊢
              refine ⟨_, by rw [h8, set_self], fun hr => ?_⟩
              rw [h7] at hx
              cases hx
              exact absurd (hr o href) (by rw [he1]; exact Bool.false_ne_true)
            · exact ⟨x, by rw [h8, set_other hi]; exact hx, fun _ => Or.inl rfl⟩
          rw [← h8] at hset
          refine ⟨⟨?_, ?_⟩, ?_, ?_, ?_⟩
          · intro i ri hli
            by_cases hi : i = off
            · rw [hi] at hli ⊢
              rw [hl] at hli
              cases hli
              refine ⟨_, by rw [h8, set_self], ?_, Or.inr hset⟩
              show (r.origin.map Prod.snd).or _ = _
              obtain ⟨e'', h10, h11, _⟩ := ht.inside off r hl
              rw [he] at h10
              cases h10
              rw [← h11, h1]
              rfl
            · obtain ⟨x, h10, h11, h12⟩ := g1.inside i ri hli
              refine ⟨x, by rw [h8, set_other hi]; exact h10, h11, ?_⟩
              rcases h12 with h12 | h12
              · exact Or.inl h12
              · exact Or.inr (settled_keep hkeep h12)
          · intro i x hx
            by_cases hi : i = off
            · rw [hi]; exact ⟨r, hl⟩
            · rw [h8, set_other hi] at hx
              exact g1.only i x hx
          · intro i x hx hr
            by_cases hi : i = off
            · rw [hi, he] at hx
              cases hx
              rw [hi] at hr
              rw [hr o href] at h2
              cases h2
            · rw [h8, set_other hi]
              exact g2 i x hx hr
          · intro r' e' hl' he'
            rw [hl] at hl'
            cases hl'
            rw [show t' off = some (inheritFrom eo (readDie r)) by rw [h8, set_self]] at he'
            cases he'
            exact hset
          · intro i
            by_cases hi : i = off
            · rw [hi, h8, set_self, he]; rfl
            · rw [h8, set_other hi]; exact g4 i
        · have := resolve_mono (show m ≤ n + 1 by omega) h10
          rw [h] at this
          cases this
          exact ih m (by omega) h10

/-! ### The loop -/

theorem step_ok {n : Nat} {t t' : DieTable α} {off : Nat} (ht : TableOk l t) (h : parseStep n t off = .ok t') :
    TableOk l t' ∧ Keep l t t' ∧ ∃ r e, l.lookup off = some r ∧ t' off = some (combineDecl e) ∧ Settled l t' off r (combineDecl e) := by
  rw [parseStep] at h
  cases h1 : resolveOrigin n t off with
  | error x => rw [h1] at h; cases h
  | ok t1 =>
    rw [h1] at h
    dsimp only at h
    obtain ⟨g1, g2, g3, g4⟩ := resolve_ok ht h1
    cases h2 : t1 off with
    | none => rw [h2] at h; cases h
    | some e =>
      rw [h2] at h
      have h3 := (Except.ok.inj h).symm
      obtain ⟨r, hl⟩ := g1.only off e h2
      have hs := g3 r e hl h2
      have hk : Keep l t1 t' := by
        intro i x hx
        by_cases hi : i = off
        · rw [hi] at hx ⊢
          rw [h2] at hx
          cases hx
          exact ⟨_, by rw [h3, set_self], fun _ => Or.inr rfl⟩
        · exact ⟨x, by rw [h3, set_other hi]; exact hx, fun _ => Or.inl rfl⟩
      have hs' := settled_keep hk (settled_combine hs)
      refine ⟨⟨?_, ?_⟩, ?_, r, e, hl, by rw [h3, set_self], hs'⟩
      · intro i ri hli
        by_cases hi : i = off
        · rw [hi] at hli ⊢
          rw [hl] at hli
          cases hli
          obtain ⟨e', h4, h5, _⟩ := g1.inside off r hl
          rw [h2] at h4
          cases h4
          exact ⟨combineDecl e, by rw [h3, set_self], h5, Or.inr hs'⟩
        · obtain ⟨x, h4, h5, h6⟩ := g1.inside i ri hli
          refine ⟨x, by rw [h3, set_other hi]; exact h4, h5, ?_⟩
          rcases h6 with h6 | h6
          · exact Or.inl h6
          · exact Or.inr (settled_keep hk h6)
      · intro i x hx
        by_cases hi : i = off
        · rw [hi]; exact ⟨r, hl⟩
        · rw [h3, set_other hi] at hx
          exact g1.only i x hx
      · intro i x hx
        by_cases hr : Ready l i x
        · obtain ⟨e', h4, h5⟩ := hk i x (g2 i x hx hr)
          exact ⟨e', h4, fun _ => h5 hr⟩
        · have h4 : (t1 i).isSome = true := by rw [g4, hx]; rfl
          obtain ⟨y, h5⟩ := Option.isSome_iff_exists.mp h4
          obtain ⟨e', h6, _⟩ := hk i y h5
          exact ⟨e', h6, fun h => absurd h hr⟩

/-- Entries the loop has come by. -/
def Passed (l : List (Nat × RawDie α)) (t : DieTable α) (off : Nat) : Prop :=
  ∃ r e, l.lookup off = some r ∧ t off = some (combineDecl e) ∧ Settled l t off r (combineDecl e)

theorem passed_keep {t t' : DieTable α} {off : Nat} (hk : Keep l t t') (h : Passed l t off) : Passed l t' off := by
  obtain ⟨r, e, h1, h2, h3⟩ := h
  obtain ⟨e', h4, h5⟩ := hk off _ h2
  rcases h5 h3.ready with h5 | h5
  · exact ⟨r, e, h1, by rw [h4, h5], settled_keep hk h3⟩
  · exact ⟨r, combineDecl e, h1, by rw [h4, h5], settled_combine (settled_keep hk h3)⟩

theorem loop_ok {n : Nat} {t t' : DieTable α} {todo done : List Nat} (ht : TableOk l t) (hp : ∀ off ∈ done, Passed l t off)
    (h : parseLoop n t todo = .ok t') : TableOk l t' ∧ ∀ off, off ∈ done ∨ off ∈ todo → Passed l t' off := by
  induction todo generalizing t done with
  | nil =>
    cases h
    exact ⟨ht, fun off h => h.elim (hp off) (fun h => by cases h)⟩
  | cons i rest ih =>
    rw [parseLoop] at h
    cases h1 : parseStep n t i with
    | error x => rw [h1] at h; cases h
    | ok t1 =>
      rw [h1] at h
      dsimp only at h
      obtain ⟨g1, g2, g3⟩ := step_ok ht h1
      obtain ⟨f1, f2⟩ := ih (done := i :: done) g1 (by
        intro off ho
        rcases List.mem_cons.mp ho with ho | ho
        · rw [ho]; exact g3
        · exact passed_keep g2 (hp off ho)) h
      refine ⟨f1, fun off ho => f2 off ?_⟩
      rcases ho with ho | ho
      · exact Or.inl (List.mem_cons_of_mem _ ho)
      · rcases List.mem_cons.mp ho with ho | ho
        · exact Or.inl (ho ▸ List.mem_cons_self)
        · exact Or.inr ho

theorem parse_ok {n : Nat} {t : DieTable α} (h : parseDwarf n l = .ok t) :
    TableOk l t ∧ ∀ off ∈ l.map Prod.fst, Passed l t off := by
  obtain ⟨h1, h2⟩ := loop_ok (done := []) (readTable_ok l) (fun _ h => by cases h) h
  exact ⟨h1, fun off h => h2 off (Or.inr h)⟩

/-! ### Exceptions -/

theorem resolve_total {n : Nat} {t : DieTable α} {off : Nat} (ht : TableOk l t) (hs : (t off).isSome = true) :
    (∃ t', resolveOrigin n t off = .ok t') ∨ resolveOrigin n t off = .error .recursion := by
  induction n generalizing off with
  | zero => exact Or.inr rfl
  | succ n ih =>
    obtain ⟨e, he⟩ := Option.isSome_iff_exists.mp hs
    rw [resolveOrigin, he]
    dsimp only
    cases ho : e.origin with
    | none => exact Or.inl ⟨t, rfl⟩
    | some o =>
      dsimp only
      by_cases hr : e.resolved = true
      · rw [if_pos hr]; exact Or.inl ⟨t, rfl⟩
      · rw [if_neg hr]
        by_cases hc : (t o).isSome = true ∧ o ≠ off
        · rw [if_pos hc]
          rcases ih hc.1 with ⟨t1, h1⟩ | h1
          · rw [h1]
            dsimp only
            obtain ⟨_, _, _, g4⟩ := resolve_ok ht h1
            obtain ⟨eo, h2⟩ := Option.isSome_iff_exists.mp ((g4 o).trans hc.1)
            obtain ⟨e1, h3⟩ := Option.isSome_iff_exists.mp ((g4 off).trans hs)
            rw [h2, h3]
            exact Or.inl ⟨_, rfl⟩
          · rw [h1]; exact Or.inr rfl
        · rw [if_neg hc]; exact Or.inl ⟨t, rfl⟩

theorem step_total {n : Nat} {t : DieTable α} {off : Nat} (ht : TableOk l t) (hs : (t off).isSome = true) :
    (∃ t', parseStep n t off = .ok t') ∨ (parseStep n t off = .error .recursion ∧ resolveOrigin n t off = .error .recursion) := by
  rw [parseStep]
  rcases resolve_total (n := n) ht hs with ⟨t1, h1⟩ | h1
  · rw [h1]
    dsimp only
    obtain ⟨_, _, _, g4⟩ := resolve_ok ht h1
    obtain ⟨e, h2⟩ := Option.isSome_iff_exists.mp ((g4 off).trans hs)
    rw [h2]
    exact Or.inl ⟨_, rfl⟩
  · rw [h1]; exact Or.inr ⟨rfl, rfl⟩

theorem table_mem {t : DieTable α} (ht : TableOk l t) {off : Nat} (h : off ∈ l.map Prod.fst) : (t off).isSome = true := by
  obtain ⟨x, h1, h2⟩ := List.mem_map.mp h
  cases hl : l.lookup off with
  | some r =>
    obtain ⟨e, h3, _⟩ := ht.inside off r hl
    rw [h3]
    rfl
  | none =>
    exfalso
    have := List.lookup_eq_none_iff.mp hl x h1
    rw [h2] at this
    simp at this

theorem loop_total {n : Nat} {t : DieTable α} {todo : List Nat} (ht : TableOk l t) (hs : ∀ off ∈ todo, off ∈ l.map Prod.fst) :
    (∃ t', parseLoop n t todo = .ok t') ∨ (parseLoop n t todo = .error .recursion ∧
      ∃ t' off, TableOk l t' ∧ off ∈ todo ∧ resolveOrigin n t' off = .error .recursion) := by
  induction todo generalizing t with
  | nil => exact Or.inl ⟨t, rfl⟩
  | cons i rest ih =>
    rw [parseLoop]
    rcases step_total (n := n) ht (table_mem ht (hs i List.mem_cons_self)) with ⟨t1, h1⟩ | ⟨h1, h2⟩
    · rw [h1]
      dsimp only
      rcases ih (step_ok ht h1).1 (fun off h => hs off (List.mem_cons_of_mem _ h)) with h | ⟨h, t', off, h2, h3, h4⟩
      · exact Or.inl h
      · exact Or.inr ⟨h, t', off, h2, List.mem_cons_of_mem _ h3, h4⟩
    · rw [h1]
      exact Or.inr ⟨rfl, t, i, ht, List.mem_cons_self, h2⟩

theorem refers_stored {off o : Nat} (h : Refers l off o) : StoredOrigin l off o := by
  obtain ⟨r, r', h1, h2, h3, h4⟩ := h
  cases h5 : r.origin with
  | none => rw [h5] at h2; cases h2
  | some x =>
    rw [h5] at h2
    cases h2
    exact ⟨r, r', x.1, mem_of_lookup h1, h5, mem_of_lookup h3, h4⟩

theorem stored_refers (hd : (l.map Prod.fst).Nodup) {off o : Nat} (h : StoredOrigin l off o) : Refers l off o := by
  obtain ⟨r, r', abs, h1, h2, h3, h4⟩ := h
  exact ⟨r, r', lookup_of_mem hd h1, by rw [h2]; rfl, lookup_of_mem hd h3, h4⟩

theorem resolve_rank {rank : Nat → Nat} (hr : ∀ off o, StoredOrigin l off o → rank o < rank off) {n : Nat} {t : DieTable α} {off : Nat}
    (ht : TableOk l t) (hn : rank off < n) : resolveOrigin n t off ≠ .error .recursion := by
  induction n generalizing off with
  | zero => cases hn
  | succ n ih =>
    intro h
    rw [resolveOrigin] at h
    cases he : t off with
    | none => rw [he] at h; cases h
    | some e =>
      rw [he] at h
      dsimp only at h
      cases ho : e.origin with
      | none => rw [ho] at h; cases h
      | some o =>
        rw [ho] at h
        dsimp only at h
        by_cases h1 : e.resolved = true
        · rw [if_pos h1] at h; cases h
        · rw [if_neg h1] at h
          by_cases hc : (t o).isSome = true ∧ o ≠ off
          · rw [if_pos hc] at h
            obtain ⟨r, hl⟩ := ht.only off e he
            have h2 := hr off o (refers_stored ((refers_table ht hl he o).mpr ⟨ho, hc.1, hc.2⟩))
            cases hx : resolveOrigin n t o with
            | error x =>
              rw [hx] at h
              cases h
              exact ih (off := o) (by omega) hx
            | ok t1 =>
              rw [hx] at h
              dsimp only at h
              split at h <;> cases h
          · rw [if_neg hc] at h; cases h

/-- Entries on a circle. -/
def Circle (l : List (Nat × RawDie α)) (S : Nat → Prop) : Prop := ∀ off, S off → ∃ o, S o ∧ Refers l off o

def Unresolved (S : Nat → Prop) (t : DieTable α) : Prop := ∀ i e, S i → t i = some e → e.resolved = false

theorem resolve_circle {S : Nat → Prop} (hc : Circle l S) {n : Nat} {t : DieTable α} (ht : TableOk l t) (hu : Unresolved S t) {off : Nat}
    (hs : S off) (t' : DieTable α) : resolveOrigin n t off ≠ .ok t' := by
  induction n generalizing off t' with
  | zero => exact fun h => by cases h
  | succ n ih =>
    intro h
    obtain ⟨o, h1, h2⟩ := hc off hs
    obtain ⟨e, he, hcase⟩ := resolve_succ h
    obtain ⟨r, hl⟩ := ht.only off e he
    obtain ⟨h3, h4, h5⟩ := (refers_table ht hl he o).mp h2
    rcases hcase with ⟨_, h6 | h6 | ⟨o', h6, h7⟩⟩ | ⟨o', t1, _, _, h6, _, _, _, h7, _⟩
    · rw [h3] at h6; cases h6
    · rw [hu off e hs he] at h6; cases h6
    · rw [h3] at h6
      cases h6
      rcases h7 with h7 | h7
      · rw [h7] at h4; cases h4
      · exact h5 h7
    · rw [h3] at h6
      cases h6
      exact ih h1 t1 h7

theorem loop_circle {S : Nat → Prop} (hc : Circle l S) {n : Nat} {t : DieTable α} (ht : TableOk l t) (hu : Unresolved S t) {todo : List Nat}
    {off : Nat} (hs : S off) (hm : off ∈ todo) (t' : DieTable α) : parseLoop n t todo ≠ .ok t' := by
  induction todo generalizing t with
  | nil => cases hm
  | cons i rest ih =>
    intro h
    rw [parseLoop] at h
    cases h1 : parseStep n t i with
    | error x => rw [h1] at h; cases h
    | ok t1 =>
      rw [h1] at h
      dsimp only at h
      have g1 := (step_ok ht h1).1
      rw [parseStep] at h1
      cases h2 : resolveOrigin n t i with
      | error x => rw [h2] at h1; cases h1
      | ok t2 =>
        have hi : ¬ S i := fun h3 => resolve_circle hc ht hu h3 t2 h2
        rw [h2] at h1
        dsimp only at h1
        cases h3 : t2 i with
        | none => rw [h3] at h1; cases h1
        | some e =>
          rw [h3] at h1
          have h4 := (Except.ok.inj h1).symm
          refine ih g1 ?_ ?_ h
          · intro j x hj hx
            have hne : j ≠ i := fun e => hi (e ▸ hj)
            rw [h4, set_other hne] at hx
            rcases resolve_changed h2 j with h5 | ⟨m, t'', _, h5⟩
            · rw [h5] at hx
              exact hu j x hj hx
            · exact absurd h5 (resolve_circle hc ht hu hj t'')
          · rcases List.mem_cons.mp hm with h5 | h5
            · exact absurd (h5 ▸ hs) hi
            · exact h5

/-! ### Properties -/

theorem plain_origin (hp : PlainOrigins l) {off : Nat} {r : RawDie α} (h : (off, r) ∈ l) : originOf r = r.origin.map Prod.snd := by
  unfold originOf
  cases h1 : r.origin with
  | none => rfl
  | some x =>
    obtain ⟨abs, v⟩ := x
    rcases hp (off, r) h abs v h1 with h2 | h2
    · rw [h2]; rfl
    · dsimp only at h2
      cases abs with
      | true => rfl
      | false => simp [h2]

theorem along_inherits (hd : (l.map Prod.fst).Nodup) (hp : PlainOrigins l) (k : Str) (v : α) (off : Nat) :
    Along l k v off ↔ Inherits l k v off := by
  constructor
  · intro h
    induction h with
    | own h a => exact Inherits.own (mem_of_lookup h) a
    | origin h a ho _ ih =>
      refine Inherits.origin (mem_of_lookup h) a ?_ ih
      rw [plain_origin hp (mem_of_lookup h)]
      obtain ⟨r', _, h1, h2, _⟩ := ho
      rw [h] at h1
      cases h1
      exact h2
  · intro h
    induction h with
    | own h a => exact Along.own (lookup_of_mem hd h) a
    | @origin off o r h a ho i ih =>
      by_cases he : o = off
      · exact he ▸ ih
      · rw [plain_origin hp h] at ho
        have : ∃ r', (o, r') ∈ l := by
          cases i with
          | own h _ => exact ⟨_, h⟩
          | origin h _ _ _ => exact ⟨_, h⟩
        obtain ⟨r', h1⟩ := this
        exact Along.origin (lookup_of_mem hd h) a ⟨r, r', lookup_of_mem hd h, ho, lookup_of_mem hd h1, he⟩ ih

end

/-- C95: each entry of the table has the attributes of its own and, apart from these, the attributes of its origin, which may have them from
its own origin and so on; there are no other entries. Missing: references that count from the start of a unit that is not the first one (see
`C95_counterexample`). -/
theorem C95_inherited_partial {α : Type} (n : Nat) (l : List (Nat × RawDie α)) (t : DieTable α) (hd : (l.map Prod.fst).Nodup)
    (hp : PlainOrigins l) (h : parseDwarf n l = .ok t) :
    (∀ off r, (off, r) ∈ l → ∃ e, t off = some e ∧ ∀ k v, e.attrs k = some v ↔ Inherits l k v off) ∧
      ∀ off e, t off = some e → ∃ r, (off, r) ∈ l := by
  obtain ⟨h1, h2⟩ := parse_ok h
  refine ⟨?_, fun off e he => ?_⟩
  · intro off r hm
    obtain ⟨r', e, h3, h4, h5⟩ := h2 off (List.mem_map.mpr ⟨_, hm, rfl⟩)
    exact ⟨_, h4, fun k v => (h5.attrs k v).trans (along_inherits hd hp k v off)⟩
  · obtain ⟨r, h3⟩ := h1.only off e he
    exact ⟨r, mem_of_lookup h3⟩

/-- C95: the table is delivered if origins are not circular and their chains are not longer than the recursion that is possible. -/
theorem C95_ends_partial {α : Type} (n : Nat) (l : List (Nat × RawDie α)) (rank : Nat → Nat)
    (hr : ∀ off o, StoredOrigin l off o → rank o < rank off) (hn : ∀ x ∈ l, rank x.1 < n) : ∃ t, parseDwarf n l = .ok t := by
  rcases loop_total (n := n) (readTable_ok l) (fun off h => h) with h | ⟨_, t, off, h1, h2, h3⟩
  · exact h
  · obtain ⟨x, h4, h5⟩ := List.mem_map.mp h2
    exact absurd h3 (resolve_rank hr h1 (h5 ▸ hn x h4))

/-- C95: circular origins exhaust the recursion, however deep it may be, and nothing is delivered. -/
theorem C95_circle {α : Type} (n : Nat) (l : List (Nat × RawDie α)) (hd : (l.map Prod.fst).Nodup) (S : Nat → Prop)
    (hc : ∀ off, S off → ∃ o, S o ∧ StoredOrigin l off o) (hs : ∃ off, S off) : parseDwarf n l = .error .recursion := by
  obtain ⟨off, hs⟩ := hs
  have hc' : Circle l S := fun off h => by
    obtain ⟨o, h1, h2⟩ := hc off h
    exact ⟨o, h1, stored_refers hd h2⟩
  have hm : off ∈ l.map Prod.fst := by
    obtain ⟨o, _, r, _, _, h, _⟩ := hc off hs
    exact List.mem_map.mpr ⟨_, h, rfl⟩
  have hu : Unresolved S (readTable l) := by
    intro i e _ he
    rw [readTable] at he
    cases hl : l.lookup i with
    | none => rw [hl] at he; cases he
    | some r => rw [hl] at he; cases he; rfl
  rcases loop_total (n := n) (readTable_ok l) (fun off h => h) with ⟨t, h⟩ | ⟨h, _⟩
  · exact absurd h (loop_circle hc' (readTable_ok l) hu hs hm t)
  · exact h

theorem declText_place (file line column : Option Str) : declText none file line column = placeText file line column := by
  cases file with
  | none => cases line <;> cases column <;> simp [declText, declStart, placeText]
  | some f => cases f <;> cases line <;> cases column <;> simp [declText, declStart, placeText]

/-- C95: the place of a declaration. An entry without origin has its own one, with file, line and column. One that has all three parts has
these, whatever its origin has. One that has none has the place of its origin. -/
theorem C95_declared_partial {α : Type} (n : Nat) (l : List (Nat × RawDie α)) (t : DieTable α) (hd : (l.map Prod.fst).Nodup)
    (h : parseDwarf n l = .ok t) (off : Nat) (r : RawDie α) (hm : (off, r) ∈ l) :
    ∃ e, t off = some e ∧
      ((∀ o, ¬ StoredOrigin l off o) → e.decl = placeText r.decl_file r.decl_line r.decl_column) ∧
      (∀ f n c, r.decl_file = some f → f ≠ [] → r.decl_line = some n → r.decl_column = some c → e.decl = some (f ++ ':' :: n ++ '#' :: c)) ∧
      (∀ o, StoredOrigin l off o → r.decl_file = none → r.decl_line = none → r.decl_column = none →
        ∃ eo, t o = some eo ∧ e.decl = eo.decl) := by
  obtain ⟨h1, h2⟩ := parse_ok h
  obtain ⟨r', e, h3, h4, h5⟩ := h2 off (List.mem_map.mpr ⟨_, hm, rfl⟩)
  rw [lookup_of_mem hd hm] at h3
  cases h3
  refine ⟨_, h4, ?_, ?_, ?_⟩
  · intro hn
    rw [← declText_place]
    exact h5.alone (fun o ho => hn o (refers_stored ho))
  · intro f n c h6 h7 h8 h9
    have := h5.whole f n c h6 h8 h9
    rw [finalDecl_combine] at this
    show finalDecl e = _
    rw [this]
    cases f with
    | nil => exact absurd rfl h7
    | cons a f => simp [declText, declStart]
  · intro o ho h6 h7 h8
    obtain ⟨eo, h9, _, h10⟩ := h5.same o (stored_refers hd ho) h6 h7 h8
    obtain ⟨ro, h11⟩ := h1.only o eo h9
    obtain ⟨_, eo', _, h12, _⟩ := h2 o (List.mem_map.mpr ⟨_, mem_of_lookup h11, rfl⟩)
    rw [h9] at h12
    cases h12
    refine ⟨_, h9, ?_⟩
    rw [finalDecl_combine, finalDecl_combine] at h10
    exact h10

/-! ### Examples -/

/-- The only attribute of the examples is a name. -/
def exAttr (name : Option Str) : Str → Option Str := fun k => if k = "name".toList then name else none

/-- A function, an inlined copy of it in front of it, and a copy of that copy with another place. -/
def exOrigins : List (Nat × RawDie Str) :=
  [(12, { unit := 0, origin := some (false, 40), attrs := exAttr none }),
   (40, { unit := 0, decl_file := some "a.c".toList, decl_line := some "7".toList, decl_column := some "5".toList,
          attrs := exAttr (some "twice".toList) }),
   (60, { unit := 0, origin := some (true, 12), decl_file := some "b.c".toList, decl_line := some "9".toList,
          decl_column := some "1".toList, attrs := exAttr none })]

theorem exOrigins_run : ∃ t, parseDwarf 3 exOrigins = .ok t ∧
    (∀ off ∈ [12, 40, 60], (t off).map (fun e => e.attrs "name".toList) = some (some "twice".toList)) ∧
    [12, 40, 60].map (fun off => (t off).bind (·.decl)) =
      [some "a.c:7#5".toList, some "a.c:7#5".toList, some "b.c:9#1".toList] := ⟨_, rfl, by decide, by decide⟩

example : (exOrigins.map Prod.fst).Nodup ∧ PlainOrigins exOrigins := by
  refine ⟨by decide, ?_⟩
  intro x hx abs v _
  refine Or.inr ?_
  simp only [exOrigins, List.mem_cons, List.not_mem_nil, or_false] at hx
  rcases hx with rfl | rfl | rfl <;> rfl

/-- The chains of the example have two steps at most. -/
example : ∃ t, parseDwarf 3 exOrigins = .ok t := by
  refine C95_ends_partial 3 exOrigins (fun off => if off = 60 then 2 else if off = 12 then 1 else 0) ?_ (by decide)
  rintro off o ⟨r, r', abs, h1, h2, _, _⟩
  simp only [exOrigins, List.mem_cons, List.not_mem_nil, or_false, Prod.mk.injEq] at h1
  rcases h1 with ⟨rfl, rfl⟩ | ⟨rfl, rfl⟩ | ⟨rfl, rfl⟩ <;> cases h2 <;> decide

/-- Two entries that refer to each other. -/
def exCircle : List (Nat × RawDie Str) :=
  [(12, { unit := 0, origin := some (true, 40), attrs := exAttr (some "a".toList) }),
   (40, { unit := 0, origin := some (true, 12), attrs := exAttr (some "b".toList) })]

example (n : Nat) : parseDwarf n exCircle = .error .recursion := by
  refine C95_circle n exCircle (by decide) (fun off => off = 12 ∨ off = 40) ?_ ⟨12, Or.inl rfl⟩
  rintro off (rfl | rfl)
  · exact ⟨40, Or.inr rfl, _, _, _, List.mem_cons_self, rfl, List.mem_cons_of_mem _ List.mem_cons_self, by decide⟩
  · exact ⟨12, Or.inl rfl, _, _, _, List.mem_cons_of_mem _ List.mem_cons_self, rfl, List.mem_cons_self, by decide⟩

/-- Two units with the same contents: a function and a copy of it. -/
def exUnits : List (Nat × RawDie Str) :=
  [(40, { unit := 0, attrs := exAttr (some "first".toList) }), (50, { unit := 0, origin := some (false, 40), attrs := exAttr none }),
   (140, { unit := 100, attrs := exAttr (some "second".toList) }), (150, { unit := 100, origin := some (false, 40), attrs := exAttr none })]

/-- C95 does not hold in general: a reference of the second unit is taken for one of the first unit, and the copy of the function of the
second unit gets the name of a function of the first unit. -/
theorem C95_counterexample : ∃ (l : List (Nat × RawDie Str)) (t : DieTable Str) (e : DieEntry Str), (l.map Prod.fst).Nodup ∧
    parseDwarf 2 l = .ok t ∧ t 150 = some e ∧ e.attrs "name".toList = some "first".toList ∧
    Inherits l "name".toList "second".toList 150 ∧ ¬ Inherits l "name".toList "first".toList 150 := by
  refine ⟨exUnits, _, _, by decide, rfl, rfl, rfl, ?_, ?_⟩
  · refine Inherits.origin (o := 140) (r := { unit := 100, origin := some (false, 40), attrs := exAttr none }) ?_ rfl rfl
      (Inherits.own (r := { unit := 100, attrs := exAttr (some "second".toList) }) ?_ rfl)
    · simp [exUnits]
    · simp [exUnits]
  · intro h
    cases h with
    | own h a =>
      simp only [exUnits, List.mem_cons, List.not_mem_nil, or_false, Prod.mk.injEq, Nat.reduceEqDiff, false_and, false_or, true_and] at h
      subst h
      cases a
    | origin h a ho i =>
      simp only [exUnits, List.mem_cons, List.not_mem_nil, or_false, Prod.mk.injEq, Nat.reduceEqDiff, false_and, false_or, true_and] at h
      subst h
      cases ho
      cases i with
      | own h a =>
        simp only [exUnits, List.mem_cons, List.not_mem_nil, or_false, Prod.mk.injEq, Nat.reduceAdd, Bool.false_eq_true, if_false,
          Nat.reduceEqDiff, false_and, false_or, true_and] at h
        subst h
        cases a
      | origin h a ho i =>
        simp only [exUnits, List.mem_cons, List.not_mem_nil, or_false, Prod.mk.injEq, Nat.reduceAdd, Bool.false_eq_true, if_false,
          Nat.reduceEqDiff, false_and, false_or, true_and] at h
        subst h
        cases ho

/-- An entry that only has a line of its own, in front of its origin or behind it. -/
def exLine (own origin : Nat) : Nat × RawDie Str :=
  (own, { unit := 0, origin := some (true, origin), decl_line := some "12".toList, attrs := exAttr none })

def exPlace (off : Nat) : Nat × RawDie Str :=
  (off, { unit := 0, decl_file := some "a.h".toList, decl_line := some "10".toList, attrs := exAttr none })

/-- The place of an entry that only has some of the parts depends on whether the entry comes before its origin. -/
theorem C95_order : (parseDwarf 2 [exLine 1 2, exPlace 2]).toOption.map (fun t => (t 1).bind (·.decl)) = some (some "a.h:12".toList) ∧
    (parseDwarf 2 [exPlace 1, exLine 2 1]).toOption.map (fun t => (t 2).bind (·.decl)) = some (some "a.h:10:12".toList) := ⟨rfl, rfl⟩

end Bean.Props

import Verif.Props.ElfSummary
/-
Types of a summary (C99).
-/
namespace Bean.Props
open Bean Bean.Spec

/-! ### Types of the debug information -/

theorem typeListed_iff {dies : Dies} {system : Bool} {e : TypeEntry} : typeListed dies system e = true ↔ ListsType dies system e := by
  unfold typeListed ListsType
  cases hd : dies e.id with
  | none => exact ⟨fun h => (by cases h), fun ⟨_, h, _⟩ => (by cases h)⟩
  | some d =>
    dsimp only
    rw [Bool.and_eq_true, isComposite_iff, Bool.or_eq_true]
    have key : (!inSystem e.decl) = true ↔
        ∀ s, e.decl = some s → ¬ ("/usr/include/".toList <+: s) ∧ ¬ ("/usr/local/include/".toList <+: s) ∧ ¬ ("/usr/lib/gcc/".toList <+: s) := by
      cases hx : e.decl with
      | none => exact ⟨fun _ s h => (by cases h), fun _ => rfl⟩
      | some s =>
        unfold inSystem
        dsimp only
        rw [Bool.not_eq_true', ← Bool.not_eq_true, List.any_eq_true]
        simp only [List.isPrefixOf_iff_prefix]
        constructor
        · intro h s' hs
          cases hs
          exact ⟨fun hp => h ⟨_, by simp [systemDirs], hp⟩, fun hp => h ⟨_, by simp [systemDirs], hp⟩, fun hp => h ⟨_, by simp [systemDirs], hp⟩⟩
        · rintro h ⟨p, hp, hs⟩
          obtain ⟨h1, h2, h3⟩ := h s rfl
          unfold systemDirs at hp
          simp only [List.mem_cons, List.not_mem_nil, or_false] at hp
          rcases hp with rfl | rfl | rfl
          · exact h3 hs
          · exact h2 hs
          · exact h1 hs
    rw [key]
    constructor
    · rintro ⟨h1, h2⟩
      exact ⟨d, rfl, h1, h2⟩
    · rintro ⟨d', h0, h1, h2⟩
      cases h0
      exact ⟨h1, h2⟩

open Classical in
/-- C99: the types of the debug information are delivered in order, whatever has been asked before. -/
theorem C99_types (o : TypeOpts) (dies : Dies) (n : Nat) (system : Bool) (m m' : TypeMemo) (es : List TypeEntry) (ts : List TypeInfo)
    (hm : RightMemo o dies m) (h : listTypes o dies n system m es = .ok (ts, m')) :
    let listed := es.filter (fun e => decide (ListsType dies system e))
    RightMemo o dies m' ∧ ts.length = listed.length ∧
      ∀ (i : Nat) e t, listed[i]? = some e → ts[i]? = some t → HasType o dies e.id true t := by
  induction es generalizing m ts with
  | nil =>
    cases h
    exact ⟨hm, rfl, fun i d f hi => by cases hi⟩
  | cons e es ih =>
    dsimp only
    rw [listTypes] at h
    rw [List.filter_cons]
    by_cases h1 : typeListed dies system e = true
    · rw [if_pos h1] at h
      rw [if_pos (decide_eq_true (typeListed_iff.mp h1))]
      cases h2 : getType o dies n m e.id true with
      | error e => rw [h2] at h; cases h
      | ok x =>
        obtain ⟨t, m1⟩ := x
        rw [h2] at h
        dsimp only at h
        obtain ⟨g1, g2⟩ := getType_right n m e.id true t m1 hm h2
        cases h4 : listTypes o dies n system m1 es with
        | error e => rw [h4] at h; cases h
        | ok x =>
          obtain ⟨gs, m3⟩ := x
          rw [h4] at h
          cases h
          obtain ⟨i1, i2, i3⟩ := ih m1 gs g1 h4
          refine ⟨i1, by rw [List.length_cons, List.length_cons, i2], fun i x y hi hj => ?_⟩
          cases i with
          | zero => cases hi; cases hj; exact g2
          | succ i => exact i3 i x y hi hj
    · rw [if_neg h1] at h
      rw [if_neg (by rw [decide_eq_true_iff, ← typeListed_iff]; exact h1)]
      exact ih m ts hm h

/-! ### One type for each identifier -/

theorem compareTypes_by : ComparesBy (fun a b : Str => a < b) (fun t : TypeInfo => t.ident) compareTypes := fun _ _ => strcmp_neg

/-- Sorted by identifier, possibly with several of one. -/
def TypesSorted (l : List TypeInfo) : Prop := l.Pairwise (fun a b => ¬ b.ident < a.ident)

theorem uniqTypesFrom_spec {L : List TypeInfo} (hs : TypesSorted L) (l : Option TypeInfo) (hl : ∀ x, l = some x → ∀ y ∈ L, ¬ y.ident < x.ident) :
    (∀ t, t ∈ uniqTypesFrom l L ↔ (∀ x, l = some x → x.ident ≠ t.ident) ∧ (L.filter (fun v => v.ident == t.ident)).head? = some t) ∧
      (uniqTypesFrom l L).Pairwise (fun a b => a.ident < b.ident) := by
  induction L generalizing l with
  | nil =>
    refine ⟨fun t => ⟨fun h => (by cases h), fun h => (by cases h.2)⟩, List.Pairwise.nil⟩
  | cons s L ih =>
    obtain ⟨hs1, hs2⟩ := List.pairwise_cons.mp hs
    rw [uniqTypesFrom]
    by_cases hc : l.any (fun l => l.ident == s.ident) = true
    · rw [if_pos hc]
      obtain ⟨x, hx, hx'⟩ : ∃ x, l = some x ∧ x.ident = s.ident := by
        cases l with
        | none => cases hc
        | some x => exact ⟨x, rfl, by simpa using hc⟩
      obtain ⟨i1, i2⟩ := ih hs2 l (fun x hx y hy => hl x hx y (List.mem_cons_of_mem _ hy))
      refine ⟨fun t => (i1 t).trans (and_congr_right fun hn => ?_), i2⟩
      rw [List.filter_cons, if_neg]
      have := hn x hx
      rw [hx'] at this
      simpa using this
    · rw [if_neg hc]
      have hne : ∀ x, l = some x → x.ident ≠ s.ident := by
        intro x hx he
        rw [hx] at hc
        exact hc (by simpa using he)
      obtain ⟨i1, i2⟩ := ih hs2 (some s) (fun x hx y hy => by cases hx; exact hs1 y hy)
      constructor
      · intro t
        rw [List.mem_cons, i1, List.filter_cons]
        by_cases he : s.ident = t.ident
        · rw [if_pos (by simpa using he)]
          constructor
          · rintro (rfl | ⟨h, _⟩)
            · exact ⟨hne, rfl⟩
            · exact absurd he (h s rfl)
          · rintro ⟨_, h⟩
            exact Or.inl (Option.some.inj h).symm
        · rw [if_neg (by simpa using he)]
          constructor
          · rintro (rfl | ⟨_, h⟩)
            · exact absurd rfl he
            · refine ⟨fun x hx e => ?_, h⟩
              have hm : t ∈ L := (List.mem_filter.mp (List.mem_of_head? h)).1
              have h1 := hl x hx s List.mem_cons_self
              have h2 := hs1 t hm
              rw [e] at h1
              exact he (str_eq h1 h2)
          · rintro ⟨_, h⟩
            exact Or.inr ⟨fun x hx => by cases hx; exact he, h⟩
      · refine List.pairwise_cons.mpr ⟨fun y hy => ?_, i2⟩
        obtain ⟨h1, h2⟩ := (i1 y).mp hy
        have hm : y ∈ L := (List.mem_filter.mp (List.mem_of_head? h2)).1
        exact Classical.byContradiction fun h => h1 s rfl (str_eq h (hs1 y hm))

theorem summaryTypes_head (l : List TypeInfo) (t : TypeInfo) :
    t ∈ summaryTypes l ↔ ((l.filter (fun t => decide (t.size > 0))).filter (fun v => v.ident == t.ident)).head? = some t := by
  unfold summaryTypes sortuniqTypes
  rw [(uniqTypesFrom_spec (pySorted_keyed strict_str compareTypes_by _) none (fun _ h => by cases h)).1,
    pySorted_keyed_stable strict_str compareTypes_by, pySorted_keyed_stable strict_str compareTypes_by]
  exact ⟨fun h => h.2, fun h => ⟨fun _ h => (by cases h), h⟩⟩

/-- The first element with a property. -/
theorem head_filter {l : List TypeInfo} {p : TypeInfo → Bool} {t : TypeInfo} :
    (l.filter p).head? = some t ↔ ∃ pre post, l = pre ++ t :: post ∧ p t = true ∧ ∀ x ∈ pre, p x = false := by
  rw [List.head?_filter]
  rw [List.find?_eq_some_iff_append]
  constructor
  · rintro ⟨h, pre, post, h1, h2⟩
    exact ⟨pre, post, h1, h, fun x hx => by simpa using h2 x hx⟩
  · rintro ⟨pre, post, h1, h, h2⟩
    exact ⟨h, pre, post, h1, fun x hx => by simpa using h2 x hx⟩

/-- C99: the types of a summary are sorted by identifier, and there is one for each identifier: the first one in the debug information. -/
theorem C99_first (l : List TypeInfo) :
    (summaryTypes l).Pairwise (fun a b => a.ident < b.ident) ∧
      (∀ t, t ∈ summaryTypes l ↔ ∃ pre post, l = pre ++ t :: post ∧ 0 < t.size ∧ ∀ x ∈ pre, 0 < x.size → x.ident ≠ t.ident) ∧
      ∀ t ∈ l, 0 < t.size → ∃ t' ∈ summaryTypes l, t'.ident = t.ident ∧ ∀ t'' ∈ summaryTypes l, t''.ident = t.ident → t'' = t' := by
  have hm : ∀ t, t ∈ summaryTypes l ↔ ∃ pre post, l = pre ++ t :: post ∧ 0 < t.size ∧ ∀ x ∈ pre, 0 < x.size → x.ident ≠ t.ident := by
    intro t
    rw [summaryTypes_head, List.filter_filter, head_filter]
    constructor
    · rintro ⟨pre, post, h1, h2, h3⟩
      refine ⟨pre, post, h1, by simpa using h2, fun x hx hp he => ?_⟩
      have := h3 x hx
      simp [he, hp] at this
    · rintro ⟨pre, post, h1, h2, h3⟩
      refine ⟨pre, post, h1, by simpa using h2, fun x hx => ?_⟩
      by_cases hp : 0 < x.size
      · have := h3 x hx hp
        simp [this]
      · simp [hp]
  refine ⟨(uniqTypesFrom_spec (pySorted_keyed strict_str compareTypes_by _) none (fun _ h => by cases h)).2, hm, fun t ht hs => ?_⟩
  have : ∃ t', ((l.filter (fun t => decide (t.size > 0))).filter (fun v => v.ident == t.ident)).head? = some t' := by
    cases hx : (l.filter (fun t => decide (t.size > 0))).filter (fun v => v.ident == t.ident) with
    | nil =>
      have : t ∈ (l.filter (fun t => decide (t.size > 0))).filter (fun v => v.ident == t.ident) := by
        rw [List.mem_filter, List.mem_filter]
        exact ⟨⟨ht, by simpa using hs⟩, by simp⟩
      rw [hx] at this
      cases this
    | cons a b => exact ⟨a, rfl⟩
  obtain ⟨t', ht'⟩ := this
  have he : t'.ident = t.ident := by simpa using (List.mem_filter.mp (List.mem_of_head? ht')).2
  refine ⟨t', (summaryTypes_head l t').mpr (by rw [he]; exact ht'), he, fun t'' h1 h2 => ?_⟩
  have h3 := (summaryTypes_head l t'').mp h1
  rw [h2, ht'] at h3
  exact (Option.some.inj h3).symm

theorem typesText_none {l : List TypeInfo} : typesText l = none ↔ ∀ t ∈ l, ¬ 0 < t.size := by
  unfold typesText
  split
  · rename_i h
    exact ⟨fun _ t ht hs => (by
      have := List.filter_eq_nil_iff.mp h t ht
      simp [hs] at this), fun _ => rfl⟩
  · rename_i h
    refine ⟨fun h => (by cases h), fun h' => absurd ?_ h⟩
    exact List.filter_eq_nil_iff.mpr (fun t ht => by simpa using h' t ht)

/-- C99: the order of the types makes no difference as long as types with the same identifier have the same hash. -/
theorem C99_order_partial (l l' : List TypeInfo) (hp : l.Perm l')
    (hu : ∀ a ∈ l, ∀ b ∈ l, 0 < a.size → 0 < b.size → a.ident = b.ident → a.hash = b.hash) : typesText l = typesText l' := by
  have key : (summaryTypes l).map (fun t => (t.ident, t.hash)) = (summaryTypes l').map (fun t => (t.ident, t.hash)) := by
    have sorted : ∀ l, ((summaryTypes l).map (fun t => (t.ident, t.hash))).Pairwise (fun a b : Str × Str => a.1 < b.1) := by
      intro l
      rw [List.pairwise_map]
      exact (C99_first l).1
    have mem : ∀ l, (∀ a ∈ l, ∀ b ∈ l, 0 < a.size → 0 < b.size → a.ident = b.ident → a.hash = b.hash) → ∀ x,
        x ∈ (summaryTypes l).map (fun t => (t.ident, t.hash)) ↔ ∃ t ∈ l, 0 < t.size ∧ (t.ident, t.hash) = x := by
      intro l hu x
      rw [List.mem_map]
      constructor
      · rintro ⟨t, h1, h2⟩
        obtain ⟨pre, post, h3, h4, _⟩ := ((C99_first l).2.1 t).mp h1
        exact ⟨t, by rw [h3]; simp, h4, h2⟩
      · rintro ⟨t, h1, h2, h3⟩
        obtain ⟨t', h4, h5, _⟩ := (C99_first l).2.2 t h1 h2
        obtain ⟨pre, post, h6, h7, _⟩ := ((C99_first l).2.1 t').mp h4
        refine ⟨t', h4, ?_⟩
        rw [← h3, h5, hu t' (by rw [h6]; simp) t h1 h7 h2 h5]
    refine List.Perm.eq_of_pairwise (fun a b _ _ h1 h2 => absurd (str_trans h1 h2) (str_irrefl _)) (sorted l) (sorted l') ?_
    rw [List.perm_ext_iff_of_nodup]
    · intro x
      rw [mem l hu, mem l' (fun a ha b hb => hu a (hp.mem_iff.mpr ha) b (hp.mem_iff.mpr hb))]
      exact exists_congr fun t => and_congr_left' hp.mem_iff
    · exact (sorted l).imp (S := (· ≠ ·)) (by rintro a b h rfl; exact str_irrefl _ h)
    · exact (sorted l').imp (S := (· ≠ ·)) (by rintro a b h rfl; exact str_irrefl _ h)
  have text : ∀ l, (summaryTypes l).flatMap (·.hash) = ((summaryTypes l).map (fun t => (t.ident, t.hash))).flatMap (·.2) := by
    intro l
    rw [List.flatMap_map]
  by_cases hn : typesText l = none
  · rw [hn, eq_comm, typesText_none]
    exact fun t ht => typesText_none.mp hn t (hp.mem_iff.mpr ht)
  · have hn' : typesText l' ≠ none := fun h => hn (typesText_none.mpr (fun t ht => typesText_none.mp h t (hp.mem_iff.mp ht)))
    unfold typesText at hn hn' ⊢
    split at hn
    · exact absurd rfl hn
    · split at hn'
      · exact absurd rfl hn'
      · rename_i h1 h2
        rw [if_neg h1, if_neg h2, text, text, key]

/-! ### The text that is hashed -/

theorem finishType_composite {o : TypeOpts} {dies : Dies} {d : Die} {ms : Option (Str × Str)} {ty : Option (Option TypeInfo)} {t : TypeInfo}
    (hc : isComposite d.tag = true) (h : finishType o dies d ms ty = .ok t) : ∃ x, t.hash = o.H x := by
  have hu : usesTypeHash o d = false := by
    unfold usesTypeHash
    rcases List.mem_cons.mp (isComposite_iff.mp hc) with h | h
    · rw [h]; rfl
    · simp only [List.mem_cons, List.not_mem_nil, or_false] at h
      rcases h with h | h | h <;> rw [h] <;> rfl
  unfold finishType at h
  split at h
  · cases h
  · dsimp only at h
    split at h
    · cases h
    · cases h
      rw [hu]
      exact ⟨_, rfl⟩

/-- The hash of a type that is listed is a digest. -/
theorem listed_digest {o : TypeOpts} {dies : Dies} {system : Bool} {e : TypeEntry} {t : TypeInfo} (hl : ListsType dies system e)
    (h : HasType o dies e.id true t) : ∃ x, t.hash = o.H x := by
  obtain ⟨n, h⟩ := h
  obtain ⟨d, h1, h2, _⟩ := hl
  cases n with
  | zero => cases h
  | succ n =>
    obtain ⟨d', ms, ty, e1, _, _, e4⟩ := typeOf_succ.mp h
    rw [h1] at e1
    cases e1
    exact finishType_composite (isComposite_iff.mpr h2) e4

theorem flatMap_inj {k : Nat} (hk : 0 < k) {l l' : List TypeInfo} (h1 : ∀ t ∈ l, t.hash.length = k) (h2 : ∀ t ∈ l', t.hash.length = k)
    (h : l.flatMap (·.hash) = l'.flatMap (·.hash)) : l.map (·.hash) = l'.map (·.hash) := by
  induction l generalizing l' with
  | nil =>
    cases l' with
    | nil => rfl
    | cons a l' =>
      have := congrArg List.length h
      have := h2 a List.mem_cons_self
      simp only [List.flatMap_nil, List.flatMap_cons, List.length_append, List.length_nil] at *
      omega
  | cons a l ih =>
    cases l' with
    | nil =>
      have := congrArg List.length h
      have := h1 a List.mem_cons_self
      simp only [List.flatMap_nil, List.flatMap_cons, List.length_append, List.length_nil] at *
      omega
    | cons b l' =>
      rw [List.flatMap_cons, List.flatMap_cons] at h
      obtain ⟨e1, e2⟩ := List.append_inj h ((h1 a List.mem_cons_self).trans (h2 b List.mem_cons_self).symm)
      rw [List.map_cons, List.map_cons, e1, ih (fun t ht => h1 t (List.mem_cons_of_mem _ ht)) (fun t ht => h2 t (List.mem_cons_of_mem _ ht)) e2]

/-- C99: digests of a fixed length and the text that is hashed determine the hashes of all types in the summary. -/
theorem C99_text (o : TypeOpts) (k : Nat) (hk : 0 < k) (hH : ∀ x, (o.H x).length = k) (dies dies' : Dies) (n n' : Nat) (system system' : Bool)
    (es es' : List TypeEntry) (ts ts' : List TypeInfo) (m m' : TypeMemo) (h : listTypes o dies n system noMemo es = .ok (ts, m))
    (h' : listTypes o dies' n' system' noMemo es' = .ok (ts', m')) :
    typesText ts = typesText ts' ↔ (summaryTypes ts).map (·.hash) = (summaryTypes ts').map (·.hash) := by
  have len : ∀ (dies : Dies) (n : Nat) (system : Bool) (es : List TypeEntry) (ts : List TypeInfo) (m : TypeMemo),
      listTypes o dies n system noMemo es = .ok (ts, m) → ∀ t ∈ summaryTypes ts, t.hash.length = k := by
    intro dies n system es ts m h t ht
    classical
    obtain ⟨_, h1, h2⟩ := C99_types o dies n system noMemo m es ts rightMemo_none h
    obtain ⟨pre, post, h3, _, _⟩ := ((C99_first ts).2.1 t).mp ht
    have hm : t ∈ ts := by rw [h3]; simp
    obtain ⟨i, hi, ht⟩ := List.getElem_of_mem hm
    have hi' := hi
    rw [h1] at hi'
    have hl := List.getElem_mem hi'
    obtain ⟨x, hx⟩ := listed_digest (of_decide_eq_true (List.mem_filter.mp hl).2)
      (h2 i _ t (List.getElem?_eq_getElem hi') (by rw [List.getElem?_eq_getElem hi, ht]))
    rw [hx, hH]
  have hl := len dies n system es ts m h
  have hl' := len dies' n' system' es' ts' m' h'
  have empty : ∀ l, typesText l = none ↔ summaryTypes l = [] := by
    intro l
    rw [typesText_none]
    constructor
    · intro h
      cases hx : summaryTypes l with
      | nil => rfl
      | cons a b =>
        obtain ⟨pre, post, h3, h4, _⟩ := ((C99_first l).2.1 a).mp (by rw [hx]; exact List.mem_cons_self)
        exact absurd h4 (h a (by rw [h3]; simp))
    · intro h t ht hs
      obtain ⟨t', h1, _⟩ := (C99_first l).2.2 t ht hs
      rw [h] at h1
      cases h1
  have some_of : ∀ l, typesText l ≠ none → typesText l = some ((summaryTypes l).flatMap (·.hash)) := by
    intro l h
    unfold typesText at h ⊢
    split at h
    · exact absurd rfl h
    · rename_i hx; rw [if_neg hx]
  constructor
  · intro h
    by_cases hn : typesText ts = none
    · rw [(empty ts).mp hn, (empty ts').mp (h ▸ hn)]
    · have hn' : typesText ts' ≠ none := h ▸ hn
      rw [some_of ts hn, some_of ts' hn'] at h
      exact flatMap_inj hk hl hl' (Option.some.inj h)
  · intro h
    by_cases hn : typesText ts = none
    · have := (empty ts).mp hn
      rw [this, List.map_nil, eq_comm, List.map_eq_nil_iff] at h
      rw [hn, (empty ts').mpr h]
    · have hn' : typesText ts' ≠ none := by
        intro h1
        rw [(empty ts').mp h1, List.map_nil, List.map_eq_nil_iff] at h
        exact hn ((empty ts).mpr h)
      rw [some_of ts hn, some_of ts' hn', List.flatMap_def, List.flatMap_def, h]

/-! ### Examples -/

/-- `struct { int a; }`, `struct { int &a; }`, `struct { volatile int a; }` and `enum { A }`, the latter from a system header. -/
def exTypeDies : Dies := exDies
  [(1, { tag := "base_type".toList, byte_size := some 4, encoding := some "signed".toList }),
   (2, { tag := "reference_type".toList, type := some 1, byte_size := some 8 }),
   (3, { tag := "volatile_type".toList, type := some 1 }),
   (10, { tag := "structure_type".toList, children := [11], byte_size := some 4 }),
   (11, { tag := "member".toList, type := some 1, location := some "0".toList }),
   (20, { tag := "structure_type".toList, children := [21], byte_size := some 8 }),
   (21, { tag := "member".toList, type := some 2, location := some "0".toList }),
   (30, { tag := "structure_type".toList, children := [31], byte_size := some 4 }),
   (31, { tag := "member".toList, type := some 3, location := some "0".toList }),
   (40, { tag := "enumeration_type".toList, children := [41], byte_size := some 4 }),
   (41, { tag := "enumerator".toList, name := some "A".toList, const_value := some "0".toList })]

/-- The types of these entries. -/
def exListed (ids : List Nat) : Except TypeError (List TypeInfo × TypeMemo) :=
  listTypes exTypeOpts exTypeDies 9 false noMemo (ids.map (fun i => ⟨i, if i = 40 then some "/usr/include/a.h:1:2".toList else none⟩))

theorem exListed_such {ids : List Nat} {p : List TypeInfo → Prop} [DecidablePred p]
    (h : (exListed ids).toOption.any (fun r => decide (p r.1)) = true) : ∃ ts m, exListed ids = .ok (ts, m) ∧ p ts := by
  cases hx : exListed ids with
  | error e => rw [hx] at h; cases h
  | ok x => rw [hx] at h; exact ⟨x.1, x.2, rfl, of_decide_eq_true h⟩

open Classical in
example : ∃ ts m, exListed [1, 10, 11, 40, 20] = .ok (ts, m) ∧ ts.length = 2 := by
  obtain ⟨ts, m, h, _⟩ := exListed_such (ids := [1, 10, 11, 40, 20]) (p := fun _ => True) (by decide +kernel)
  obtain ⟨_, h1, h2⟩ := C99_types _ _ _ _ _ _ _ _ rightMemo_none h
  obtain ⟨ts', m', h', h3⟩ := exListed_such (ids := [1, 10, 11, 40, 20]) (p := fun ts => ts.length = 2) (by decide +kernel)
  rw [h] at h'
  cases h'
  exact ⟨ts, m, h, h3⟩

/-- Two types with one identifier and another one. -/
def exTypeList : List TypeInfo := [⟨"b".toList, 4, "1".toList⟩, ⟨"a".toList, 4, "2".toList⟩, ⟨"b".toList, 8, "1".toList⟩, ⟨"c".toList, 0, "4".toList⟩]

example : summaryTypes exTypeList = [⟨"a".toList, 4, "2".toList⟩, ⟨"b".toList, 4, "1".toList⟩] := by decide +kernel

example : ∃ t' ∈ summaryTypes exTypeList, t'.ident = "b".toList := by
  obtain ⟨t', h1, h2, _⟩ := (C99_first exTypeList).2.2 ⟨"b".toList, 8, "1".toList⟩ (by decide) (by decide)
  exact ⟨t', h1, h2⟩

example : typesText exTypeList = typesText exTypeList.reverse := C99_order_partial _ _ (List.reverse_perm _).symm (by decide +kernel)

/-- A digest of a fixed length. -/
def exShort : TypeOpts where
  H := fun t => ((t ++ List.replicate 4 ' ').reverse.take 4)

example : ∃ ts ts' m m', listTypes exShort exTypeDies 9 false noMemo [⟨10, none⟩] = .ok (ts, m) ∧
    listTypes exShort exTypeDies 9 false noMemo [⟨20, none⟩] = .ok (ts', m') ∧
    (typesText ts = typesText ts' ↔ (summaryTypes ts).map (·.hash) = (summaryTypes ts').map (·.hash)) := by
  have ok : ∀ x : Except TypeError (List TypeInfo × TypeMemo), x.toOption.isSome = true → ∃ ts m, x = .ok (ts, m) := by
    intro x h
    cases x with
    | error e => cases h
    | ok x => exact ⟨x.1, x.2, rfl⟩
  obtain ⟨ts, m, h⟩ := ok (listTypes exShort exTypeDies 9 false noMemo [⟨10, none⟩]) (by decide +kernel)
  obtain ⟨ts', m', h'⟩ := ok (listTypes exShort exTypeDies 9 false noMemo [⟨20, none⟩]) (by decide +kernel)
  exact ⟨ts, ts', m, m', h, h', C99_text exShort 4 (by omega) (fun x => by simp [exShort]) _ _ _ _ _ _ _ _ _ _ _ _ h h'⟩

/-- Types with one identifier and different hashes: the order of the debug information makes a difference. `struct { int a; }` and
`struct { int &a; }` are such types. -/
theorem C99_counterexample : ∃ ts ts' m m', exListed [10, 20] = .ok (ts, m) ∧ exListed [20, 10] = .ok (ts', m') ∧ typesText ts ≠ typesText ts' := by
  obtain ⟨ts, m, h, h1⟩ := exListed_such (ids := [10, 20]) (p := fun ts => (exListed [20, 10]).toOption.any (fun r => decide (typesText ts ≠ typesText r.1)) = true)
    (by decide +kernel)
  obtain ⟨ts', m', h', h2⟩ := exListed_such (ids := [20, 10]) (p := fun ts' => (exListed [20, 10]).toOption.any (fun r => decide (r.1 = ts')) = true) (by decide +kernel)
  rw [h'] at h1
  exact ⟨ts, ts', m, m', h, h', of_decide_eq_true h1⟩

/-- The second type does not count at all: with the same text it may have another size and hash. -/
theorem C99_lost : ∃ ts ts' m m', exListed [10, 20] = .ok (ts, m) ∧ exListed [10, 30] = .ok (ts', m') ∧ typesText ts = typesText ts' ∧
    ts.map (·.hash) ≠ ts'.map (·.hash) ∧ ts.map (·.size) ≠ ts'.map (·.size) ∧ ts.length = 2 := by
  obtain ⟨ts, m, h, h1⟩ := exListed_such (ids := [10, 20]) (p := fun ts => (exListed [10, 30]).toOption.any (fun r => decide (typesText ts = typesText r.1 ∧
    ts.map (·.hash) ≠ r.1.map (·.hash) ∧ ts.map (·.size) ≠ r.1.map (·.size) ∧ ts.length = 2)) = true)
    (by decide +kernel)
  obtain ⟨ts', m', h', h2⟩ := exListed_such (ids := [10, 30]) (p := fun _ => True) (by decide +kernel)
  rw [h'] at h1
  exact ⟨ts, ts', m, m', h, h', of_decide_eq_true h1⟩

end Bean.Props

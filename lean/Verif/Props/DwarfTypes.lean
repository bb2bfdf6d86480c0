import Verif.Spec.DwarfTypes
/-
C85: types do not depend on the order of requests. C86: the search for a type ends. C87: what the hash of a type tells.
-/
namespace Bean.Props
open Bean Bean.Spec

section
variable {o : TypeOpts} {dies : Dies}

/-! Depth -/

theorem map_ok {ε α β : Type} {f : α → β} {x : Except ε α} {b : β} (h : x.map f = .ok b) : ∃ a, x = .ok a ∧ f a = b := by
  cases x with
  | error e => cases h
  | ok a => exact ⟨a, rfl, Except.ok.inj h⟩

theorem membersText_mono {get get' : Nat → Except TypeError TypeInfo} (hg : ∀ c t, get c = .ok t → get' c = .ok t) (cs : List Nat)
    (r : Str × Str) (h : membersText dies get cs = .ok r) : membersText dies get' cs = .ok r := by
  induction cs generalizing r with
  | nil => exact h
  | cons c cs ih =>
    rw [membersText] at h ⊢
    cases hc : dies c with
    | none => rw [hc] at h; cases h
    | some child =>
      rw [hc] at h
      dsimp only at h ⊢
      by_cases h1 : child.tag = "member".toList
      · rw [if_pos h1] at h ⊢
        cases hx : get c with
        | error e => rw [hx] at h; cases h
        | ok t =>
          rw [hx] at h
          rw [hg c t hx]
          dsimp only at h ⊢
          obtain ⟨r', h2, h3⟩ := map_ok h
          rw [ih r' h2, ← h3]
          rfl
      · rw [if_neg h1] at h ⊢
        by_cases h2 : child.tag = "enumerator".toList
        · rw [if_pos h2] at h ⊢
          cases hn : child.name with
          | none => rw [hn] at h; cases h
          | some n =>
            cases hv : child.const_value with
            | none => rw [hn, hv] at h; cases h
            | some v =>
              rw [hn, hv] at h
              dsimp only at h ⊢
              obtain ⟨r', h2, h3⟩ := map_ok h
              rw [ih r' h2, ← h3]
              rfl
        · rw [if_neg h2] at h ⊢
          exact ih r h

theorem memberPart_mono {get get' : Nat → Bool → Except TypeError TypeInfo} (hg : ∀ c r t, get c r = .ok t → get' c r = .ok t)
    {d : Die} {resolve : Bool} {m : Option (Str × Str)} (h : memberPart dies get d resolve = .ok m) :
    memberPart dies get' d resolve = .ok m := by
  unfold memberPart at h ⊢
  split at h
  · rename_i hc
    rw [if_pos hc]
    obtain ⟨r, h1, h2⟩ := map_ok h
    rw [membersText_mono (fun c t => hg c resolve t) _ r h1, ← h2]
    rfl
  · rename_i hc
    rw [if_neg hc]
    exact h

theorem typePart_mono {get get' : Nat → Bool → Except TypeError TypeInfo} (hg : ∀ c r t, get c r = .ok t → get' c r = .ok t)
    {d : Die} {resolve : Bool} {x : Option (Option TypeInfo)} (h : typePart dies get d resolve = .ok x) :
    typePart dies get' d resolve = .ok x := by
  unfold typePart at h ⊢
  cases ht : d.type with
  | none => rw [ht] at h; exact h
  | some t =>
    rw [ht] at h
    dsimp only at h ⊢
    cases hd : dies t with
    | none => rw [hd] at h; exact h
    | some d' =>
      rw [hd] at h
      dsimp only at h ⊢
      obtain ⟨r, h1, h2⟩ := map_ok h
      rw [hg _ _ _ h1, ← h2]
      rfl

/-- The parts of a type. -/
theorem typeOf_succ {n id : Nat} {resolve : Bool} {t : TypeInfo} : typeOf o dies (n + 1) id resolve = .ok t ↔
    ∃ d members type, dies id = some d ∧ memberPart dies (typeOf o dies n) d (resolveIn d resolve) = .ok members ∧
      typePart dies (typeOf o dies n) d (resolveIn d resolve) = .ok type ∧ finishType o dies d members type = .ok t := by
  rw [typeOf]
  constructor
  · intro h
    cases hd : dies id with
    | none => rw [hd] at h; cases h
    | some d =>
      rw [hd] at h
      dsimp only at h
      cases hm : memberPart dies (typeOf o dies n) d (resolveIn d resolve) with
      | error e => rw [hm] at h; cases h
      | ok members =>
        rw [hm] at h
        dsimp only at h
        cases ht : typePart dies (typeOf o dies n) d (resolveIn d resolve) with
        | error e => rw [ht] at h; cases h
        | ok type =>
          rw [ht] at h
          exact ⟨d, members, type, rfl, hm, ht, h⟩
  · rintro ⟨d, members, type, h1, h2, h3, h4⟩
    rw [h1]
    dsimp only
    rw [h2]
    dsimp only
    rw [h3]
    exact h4

theorem typeOf_next {n id : Nat} {resolve : Bool} {t : TypeInfo} (h : typeOf o dies n id resolve = .ok t) :
    typeOf o dies (n + 1) id resolve = .ok t := by
  induction n generalizing id resolve t with
  | zero => cases h
  | succ n ih =>
    obtain ⟨d, members, type, h1, h2, h3, h4⟩ := typeOf_succ.mp h
    exact typeOf_succ.mpr ⟨d, members, type, h1, memberPart_mono (fun c r t => ih) h2, typePart_mono (fun c r t => ih) h3, h4⟩

theorem typeOf_mono {n m id : Nat} {resolve : Bool} {t : TypeInfo} (hm : n ≤ m) (h : typeOf o dies n id resolve = .ok t) :
    typeOf o dies m id resolve = .ok t := by
  obtain ⟨k, rfl⟩ := Nat.le.dest hm
  induction k with
  | zero => exact h
  | succ k ih => exact typeOf_next (ih (by omega))

/-- There is at most one type. -/
theorem hasType_unique {id : Nat} {resolve : Bool} {t t' : TypeInfo} (h : HasType o dies id resolve t) (h' : HasType o dies id resolve t') :
    t = t' := by
  obtain ⟨n, h⟩ := h
  obtain ⟨m, h'⟩ := h'
  have h1 := typeOf_mono (Nat.le_max_left n m) h
  have h2 := typeOf_mono (Nat.le_max_right n m) h'
  rw [h1] at h2
  exact Except.ok.inj h2

/-! Size -/

theorem finishType_size {d : Die} {members members' : Option (Str × Str)} {type type' : Option (Option TypeInfo)} {t t' : TypeInfo}
    (hs : refSize type = refSize type') (h : finishType o dies d members type = .ok t)
    (h' : finishType o dies d members' type' = .ok t') : t.size = t'.size := by
  unfold finishType at h h'
  dsimp only at h h'
  generalize (if d.tag = "array_type".toList then arrayText dies d.children else .ok ([], [], 1)) = a at h h'
  cases a with
  | error e => cases h
  | ok p =>
    obtain ⟨ai, ah, f⟩ := p
    dsimp only at h h'
    split at h
    · cases h
    · split at h'
      · cases h'
      · cases h
        cases h'
        dsimp only
        rw [hs]

theorem typePart_size {n m : Nat} {d : Die} {r r' : Bool} {x x' : Option (Option TypeInfo)}
    (ih : ∀ id r r' t t', typeOf o dies n id r = .ok t → typeOf o dies m id r' = .ok t' → t.size = t'.size)
    (h : typePart dies (typeOf o dies n) d r = .ok x) (h' : typePart dies (typeOf o dies m) d r' = .ok x') : refSize x = refSize x' := by
  unfold typePart at h h'
  cases ht : d.type with
  | none =>
    rw [ht] at h h'
    cases h
    cases h'
    rfl
  | some t =>
    rw [ht] at h h'
    dsimp only at h h'
    cases hd : dies t with
    | none =>
      rw [hd] at h h'
      cases h
      cases h'
      rfl
    | some d' =>
      rw [hd] at h h'
      dsimp only at h h'
      obtain ⟨a, h1, rfl⟩ := map_ok h
      obtain ⟨a', h1', rfl⟩ := map_ok h'
      exact ih t r r' a a' h1 h1'

/-- The size is the same with and without members. -/
theorem typeOf_size {n m id : Nat} {r r' : Bool} {t t' : TypeInfo} (h : typeOf o dies n id r = .ok t)
    (h' : typeOf o dies m id r' = .ok t') : t.size = t'.size := by
  induction n generalizing m id r r' t t' with
  | zero => cases h
  | succ n ih =>
    cases m with
    | zero => cases h'
    | succ m =>
      obtain ⟨d, members, type, h1, _, h3, h4⟩ := typeOf_succ.mp h
      obtain ⟨d', members', type', h1', _, h3', h4'⟩ := typeOf_succ.mp h'
      rw [h1] at h1'
      cases h1'
      exact finishType_size (typePart_size (fun id r r' t t' => ih) h3 h3') h4 h4'

/-! Stored results -/

/-- Stored results are right. -/
def RightMemo (o : TypeOpts) (dies : Dies) (m : TypeMemo) : Prop :=
  (∀ id r i h, m.entry id r = some (i, h) → ∃ t, HasType o dies id r t ∧ t.ident = i ∧ t.hash = h ∧ m.total id = some t.size) ∧
  ∀ id s, m.total id = some s → ∃ r t, HasType o dies id r t ∧ t.size = s

theorem rightMemo_none : RightMemo o dies noMemo := ⟨fun _ _ _ _ h => (by cases h), fun _ _ h => (by cases h)⟩

theorem rightMemo_store {m : TypeMemo} {id : Nat} {r : Bool} {t : TypeInfo} (hm : RightMemo o dies m) (ht : HasType o dies id r t) :
    RightMemo o dies (m.store id r t) := by
  constructor
  · intro id' r' i h he
    unfold TypeMemo.store at he ⊢
    dsimp only at he ⊢
    split at he
    · rename_i e
      obtain ⟨e1, e2⟩ := e
      cases he
      rw [e1, e2]
      exact ⟨t, ht, rfl, rfl, if_pos rfl⟩
    · obtain ⟨t', h1, h2, h3, h4⟩ := hm.1 id' r' i h he
      refine ⟨t', h1, h2, h3, ?_⟩
      by_cases e : id' = id
      · rw [if_pos e]
        obtain ⟨n, h1⟩ := h1
        obtain ⟨k, ht⟩ := ht
        rw [e] at h1
        rw [typeOf_size h1 ht]
      · rw [if_neg e]
        exact h4
  · intro id' s he
    unfold TypeMemo.store at he
    dsimp only at he
    split at he
    · rename_i e
      cases he
      rw [e]
      exact ⟨r, t, ht, rfl⟩
    · exact hm.2 id' s he

/-- What is known of the recursive calls. -/
def RightGet (o : TypeOpts) (dies : Dies) (get : TypeMemo → Nat → Bool → Except TypeError (TypeInfo × TypeMemo)) : Prop :=
  ∀ m id r t m', RightMemo o dies m → get m id r = .ok (t, m') → RightMemo o dies m' ∧ HasType o dies id r t

theorem memberLoop_right {get : TypeMemo → Nat → Bool → Except TypeError (TypeInfo × TypeMemo)} (hg : RightGet o dies get)
    (resolve : Bool) (cs : List Nat) (m : TypeMemo) (r : Str × Str) (m' : TypeMemo) (hm : RightMemo o dies m)
    (h : memberLoop dies get resolve m cs = .ok (r, m')) :
    RightMemo o dies m' ∧ ∃ n, membersText dies (fun c => typeOf o dies n c resolve) cs = .ok r := by
  induction cs generalizing m r with
  | nil =>
    cases h
    exact ⟨hm, 0, rfl⟩
  | cons c cs ih =>
    rw [memberLoop] at h
    cases hc : dies c with
    | none => rw [hc] at h; cases h
    | some child =>
      rw [hc] at h
      dsimp only at h
      by_cases h1 : child.tag = "member".toList
      · rw [if_pos h1] at h
        cases hx : get m c resolve with
        | error e => rw [hx] at h; cases h
        | ok p =>
          obtain ⟨t, m1⟩ := p
          rw [hx] at h
          dsimp only at h
          obtain ⟨g1, k, g2⟩ := hg m c resolve t m1 hm hx
          cases hy : memberLoop dies get resolve m1 cs with
          | error e => rw [hy] at h; cases h
          | ok p =>
            obtain ⟨r', m2⟩ := p
            rw [hy] at h
            cases h
            obtain ⟨i1, n, i2⟩ := ih m1 r' g1 hy
            refine ⟨i1, max k n, ?_⟩
            rw [membersText, hc]
            dsimp only
            rw [if_pos h1, typeOf_mono (Nat.le_max_left k n) g2]
            dsimp only
            rw [membersText_mono (fun c t => typeOf_mono (Nat.le_max_right k n)) cs r' i2]
            rfl
      · rw [if_neg h1] at h
        by_cases h2 : child.tag = "enumerator".toList
        · rw [if_pos h2] at h
          cases hn : child.name with
          | none => rw [hn] at h; cases h
          | some nm =>
            cases hv : child.const_value with
            | none => rw [hn, hv] at h; cases h
            | some v =>
              rw [hn, hv] at h
              dsimp only at h
              cases hy : memberLoop dies get resolve m cs with
              | error e => rw [hy] at h; cases h
              | ok p =>
                obtain ⟨r', m2⟩ := p
                rw [hy] at h
                cases h
                obtain ⟨i1, n, i2⟩ := ih m r' hm hy
                refine ⟨i1, n, ?_⟩
                rw [membersText, hc]
                dsimp only
                rw [if_neg h1, if_pos h2, hn, hv]
                dsimp only
                rw [i2]
                rfl
        · rw [if_neg h2] at h
          obtain ⟨i1, n, i2⟩ := ih m r hm h
          refine ⟨i1, n, ?_⟩
          rw [membersText, hc]
          dsimp only
          rw [if_neg h1, if_neg h2]
          exact i2

theorem membersOf_right {get : TypeMemo → Nat → Bool → Except TypeError (TypeInfo × TypeMemo)} (hg : RightGet o dies get)
    {d : Die} {resolve : Bool} {m m' : TypeMemo} {r : Option (Str × Str)} (hm : RightMemo o dies m)
    (h : membersOf dies get d resolve m = .ok (r, m')) :
    RightMemo o dies m' ∧ ∃ n, memberPart dies (typeOf o dies n) d resolve = .ok r := by
  unfold membersOf at h
  unfold memberPart
  split at h
  · rename_i hc
    simp only [if_pos hc]
    cases hx : memberLoop dies get resolve m d.children with
    | error e => rw [hx] at h; cases h
    | ok p =>
      obtain ⟨x, m1⟩ := p
      rw [hx] at h
      cases h
      obtain ⟨i1, n, i2⟩ := memberLoop_right hg resolve _ m x _ hm hx
      exact ⟨i1, n, by rw [i2]; rfl⟩
  · rename_i hc
    simp only [if_neg hc]
    cases h
    exact ⟨hm, 0, rfl⟩

theorem referredType_right {get : TypeMemo → Nat → Bool → Except TypeError (TypeInfo × TypeMemo)} (hg : RightGet o dies get)
    {d : Die} {resolve : Bool} {m m' : TypeMemo} {r : Option (Option TypeInfo)} (hm : RightMemo o dies m)
    (h : referredType dies get d resolve m = .ok (r, m')) :
    RightMemo o dies m' ∧ ∃ n, typePart dies (typeOf o dies n) d resolve = .ok r := by
  unfold referredType at h
  unfold typePart
  cases ht : d.type with
  | none =>
    rw [ht] at h
    cases h
    exact ⟨hm, 0, rfl⟩
  | some t =>
    rw [ht] at h
    dsimp only at h ⊢
    cases hd : dies t with
    | none =>
      rw [hd] at h
      cases h
      exact ⟨hm, 0, rfl⟩
    | some d' =>
      rw [hd] at h
      dsimp only at h ⊢
      cases hx : get m t resolve with
      | error e => rw [hx] at h; cases h
      | ok p =>
        obtain ⟨ti, m1⟩ := p
        rw [hx] at h
        cases h
        obtain ⟨g1, n, g2⟩ := hg m t resolve ti _ hm hx
        exact ⟨g1, n, by rw [g2]; rfl⟩

theorem hasType_step {id : Nat} {r : Bool} {d : Die} {members : Option (Str × Str)} {type : Option (Option TypeInfo)} {t : TypeInfo}
    {n k : Nat} (hd : dies id = some d) (h1 : memberPart dies (typeOf o dies n) d (resolveIn d r) = .ok members)
    (h2 : typePart dies (typeOf o dies k) d (resolveIn d r) = .ok type) (h3 : finishType o dies d members type = .ok t) :
    HasType o dies id r t :=
  ⟨max n k + 1, typeOf_succ.mpr ⟨d, members, type, hd, memberPart_mono (fun c r t => typeOf_mono (Nat.le_max_left n k)) h1,
    typePart_mono (fun c r t => typeOf_mono (Nat.le_max_right n k)) h2, h3⟩⟩

theorem getType_right (n : Nat) : RightGet o dies (getType o dies n) := by
  induction n with
  | zero =>
    intro m id r t m' _ h
    cases h
  | succ n ih =>
    intro m id r t m' hm h
    rw [getType] at h
    cases hd : dies id with
    | none => rw [hd] at h; cases h
    | some d =>
      rw [hd] at h
      dsimp only at h
      cases he : m.entry id r with
      | some p =>
        obtain ⟨i, hs⟩ := p
        rw [he] at h
        obtain ⟨t', h1, h2, h3, h4⟩ := hm.1 id r i hs he
        rw [h4] at h
        cases h
        refine ⟨hm, ?_⟩
        rw [← h2, ← h3]
        exact h1
      | none =>
        rw [he] at h
        dsimp only at h
        cases hx : membersOf dies (getType o dies n) d (resolveIn d r) m with
        | error e => rw [hx] at h; cases h
        | ok p =>
          obtain ⟨members, m1⟩ := p
          rw [hx] at h
          dsimp only at h
          obtain ⟨a1, k1, a2⟩ := membersOf_right ih hm hx
          cases hy : referredType dies (getType o dies n) d (resolveIn d r) m1 with
          | error e => rw [hy] at h; cases h
          | ok p =>
            obtain ⟨type, m2⟩ := p
            rw [hy] at h
            dsimp only at h
            obtain ⟨b1, k2, b2⟩ := referredType_right ih a1 hy
            cases hf : finishType o dies d members type with
            | error e => rw [hf] at h; cases h
            | ok t' =>
              rw [hf] at h
              dsimp only at h
              have ht := hasType_step hd a2 b2 hf
              unfold storeType at h
              split at h
              · split at h
                · cases h
                  exact ⟨rightMemo_store b1 ht, ht⟩
                · cases h
              · cases h
                exact ⟨rightMemo_store b1 ht, ht⟩

/-- C85: whatever was asked before, the type of an entry is the one computed without stored results. So it depends neither on the
order of the requests nor on the other requests. -/
theorem C85_order (o : TypeOpts) (dies : Dies) (n : Nat) (ids : List Nat) (ts : List TypeInfo)
    (h : getTypes o dies n noMemo ids = .ok ts) : ts.length = ids.length ∧ ∀ (i : Nat) id, ids[i]? = some id →
      ∃ t, ts[i]? = some t ∧ ∀ t', HasType o dies id true t' ↔ t' = t := by
  have gen : ∀ (ids : List Nat) (m : TypeMemo) (ts : List TypeInfo), RightMemo o dies m → getTypes o dies n m ids = .ok ts →
      ts.length = ids.length ∧ ∀ (i : Nat) id, ids[i]? = some id → ∃ t, ts[i]? = some t ∧ HasType o dies id true t := by
    intro ids
    induction ids with
    | nil =>
      intro m ts _ h
      cases h
      exact ⟨rfl, fun i id hi => by cases hi⟩
    | cons id ids ih =>
      intro m ts hm h
      rw [getTypes] at h
      cases hx : getType o dies n m id true with
      | error e => rw [hx] at h; cases h
      | ok p =>
        obtain ⟨t, m1⟩ := p
        rw [hx] at h
        dsimp only at h
        cases hy : getTypes o dies n m1 ids with
        | error e => rw [hy] at h; cases h
        | ok ts' =>
          rw [hy] at h
          cases h
          obtain ⟨g1, g2⟩ := getType_right n m id true t m1 hm hx
          obtain ⟨i1, i2⟩ := ih m1 ts' g1 hy
          refine ⟨by rw [List.length_cons, List.length_cons, i1], fun i id' hi => ?_⟩
          cases i with
          | zero =>
            cases hi
            exact ⟨t, rfl, g2⟩
          | succ i => exact i2 i id' hi
  obtain ⟨h1, h2⟩ := gen ids noMemo ts rightMemo_none h
  refine ⟨h1, fun i id hi => ?_⟩
  obtain ⟨t, h3, h4⟩ := h2 i id hi
  exact ⟨t, h3, fun t' => ⟨fun h => hasType_unique h h4, fun e => by rw [e]; exact h4⟩⟩

/-- A result without stored results is also found with them. -/
theorem memberLoop_complete {get : TypeMemo → Nat → Bool → Except TypeError (TypeInfo × TypeMemo)} (hg : RightGet o dies get) {n : Nat}
    (hc : ∀ m id r t, RightMemo o dies m → typeOf o dies n id r = .ok t → ∃ m', get m id r = .ok (t, m'))
    (resolve : Bool) (cs : List Nat) (m : TypeMemo) (r : Str × Str) (hm : RightMemo o dies m)
    (h : membersText dies (fun c => typeOf o dies n c resolve) cs = .ok r) :
    ∃ m', memberLoop dies get resolve m cs = .ok (r, m') := by
  induction cs generalizing m r with
  | nil =>
    cases h
    exact ⟨m, rfl⟩
  | cons c cs ih =>
    rw [membersText] at h
    rw [memberLoop]
    cases hd : dies c with
    | none => rw [hd] at h; cases h
    | some child =>
      rw [hd] at h
      dsimp only at h ⊢
      by_cases h1 : child.tag = "member".toList
      · rw [if_pos h1] at h ⊢
        cases hx : typeOf o dies n c resolve with
        | error e => rw [hx] at h; cases h
        | ok t =>
          rw [hx] at h
          dsimp only at h
          obtain ⟨r', h2, rfl⟩ := map_ok h
          obtain ⟨m1, h3⟩ := hc m c resolve t hm hx
          obtain ⟨m2, h4⟩ := ih m1 r' (hg _ _ _ _ _ hm h3).1 h2
          rw [h3]
          dsimp only
          rw [h4]
          exact ⟨m2, rfl⟩
      · rw [if_neg h1] at h ⊢
        by_cases h2 : child.tag = "enumerator".toList
        · rw [if_pos h2] at h ⊢
          cases hn : child.name with
          | none => rw [hn] at h; cases h
          | some nm =>
            cases hv : child.const_value with
            | none => rw [hn, hv] at h; cases h
            | some v =>
              rw [hn, hv] at h
              dsimp only at h ⊢
              obtain ⟨r', h2, rfl⟩ := map_ok h
              obtain ⟨m2, h4⟩ := ih m r' hm h2
              rw [h4]
              exact ⟨m2, rfl⟩
        · rw [if_neg h2] at h ⊢
          exact ih m r hm h

theorem getType_complete (n : Nat) (m : TypeMemo) (id : Nat) (r : Bool) (t : TypeInfo) (hm : RightMemo o dies m)
    (h : typeOf o dies n id r = .ok t) : ∃ m', getType o dies n m id r = .ok (t, m') := by
  induction n generalizing m id r t with
  | zero => cases h
  | succ n ih =>
    have ht : HasType o dies id r t := ⟨_, h⟩
    obtain ⟨d, members, type, h1, h2, h3, h4⟩ := typeOf_succ.mp h
    rw [getType, h1]
    dsimp only
    cases he : m.entry id r with
    | some p =>
      obtain ⟨i, hs⟩ := p
      obtain ⟨t', g1, g2, g3, g4⟩ := hm.1 id r i hs he
      cases hasType_unique ht g1
      rw [g4]
      exact ⟨m, by rw [← g2, ← g3]⟩
    | none =>
      dsimp only
      have hx : ∃ m1, membersOf dies (getType o dies n) d (resolveIn d r) m = .ok (members, m1) := by
        unfold membersOf
        unfold memberPart at h2
        split at h2
        · rename_i hc
          rw [if_pos hc]
          obtain ⟨x, h5, rfl⟩ := map_ok h2
          obtain ⟨m1, h6⟩ := memberLoop_complete (getType_right n) ih _ _ m x hm h5
          rw [h6]
          exact ⟨m1, rfl⟩
        · rename_i hc
          rw [if_neg hc]
          cases h2
          exact ⟨m, rfl⟩
      obtain ⟨m1, hx⟩ := hx
      have hm1 := (membersOf_right (getType_right n) hm hx).1
      have hy : ∃ m2, referredType dies (getType o dies n) d (resolveIn d r) m1 = .ok (type, m2) := by
        unfold referredType
        unfold typePart at h3
        cases htt : d.type with
        | none =>
          rw [htt] at h3
          cases h3
          exact ⟨m1, rfl⟩
        | some tt =>
          rw [htt] at h3
          dsimp only at h3 ⊢
          cases hdt : dies tt with
          | none =>
            rw [hdt] at h3
            cases h3
            exact ⟨m1, rfl⟩
          | some d' =>
            rw [hdt] at h3
            dsimp only at h3 ⊢
            obtain ⟨x, h5, rfl⟩ := map_ok h3
            obtain ⟨m2, h6⟩ := ih m1 tt _ x hm1 h5
            rw [h6]
            exact ⟨m2, rfl⟩
      obtain ⟨m2, hy⟩ := hy
      have hm2 := (referredType_right (getType_right n) hm1 hy).1
      rw [hx]
      dsimp only
      rw [hy]
      dsimp only
      rw [h4]
      dsimp only
      unfold storeType
      cases htot : m2.total id with
      | none => exact ⟨_, rfl⟩
      | some s =>
        dsimp only
        obtain ⟨r', t', ⟨k, g1⟩, g2⟩ := hm2.2 id s htot
        rw [if_pos (by rw [← g2]; exact typeOf_size g1 h)]
        exact ⟨_, rfl⟩

/-- C85: stored results make no request fail: if each of the types can be computed without them, then all can be computed in turn, in
any order. (So sizes stored before always agree.) -/
theorem C85_succeeds (o : TypeOpts) (dies : Dies) (n : Nat) (ids : List Nat)
    (h : ∀ id ∈ ids, ∃ t, typeOf o dies n id true = .ok t) : ∃ ts, getTypes o dies n noMemo ids = .ok ts := by
  have gen : ∀ (ids : List Nat) (m : TypeMemo), RightMemo o dies m → (∀ id ∈ ids, ∃ t, typeOf o dies n id true = .ok t) →
      ∃ ts, getTypes o dies n m ids = .ok ts := by
    intro ids
    induction ids with
    | nil => exact fun m _ _ => ⟨[], rfl⟩
    | cons id ids ih =>
      intro m hm h
      obtain ⟨t, ht⟩ := h id (List.mem_cons_self ..)
      obtain ⟨m', h1⟩ := getType_complete n m id true t hm ht
      obtain ⟨ts, h2⟩ := ih m' (getType_right n m id true t m' hm h1).1 (fun i hi => h i (List.mem_cons_of_mem _ hi))
      rw [getTypes, h1]
      dsimp only
      rw [h2]
      exact ⟨_, rfl⟩
  exact gen ids noMemo rightMemo_none h

/-! Depth of recursion -/

theorem memberLoop_depth {get : TypeMemo → Nat → Bool → Except TypeError (TypeInfo × TypeMemo)} (resolve : Bool) (cs : List Nat)
    (hg : ∀ c ∈ cs, ∀ child, dies c = some child → child.tag = "member".toList → ∀ m, get m c resolve ≠ .error .recursion) (m : TypeMemo) :
    memberLoop dies get resolve m cs ≠ .error .recursion := by
  induction cs generalizing m with
  | nil => exact fun h => by cases h
  | cons c cs ih =>
    have ih := ih (fun c' hc' => hg c' (List.mem_cons_of_mem _ hc'))
    rw [memberLoop]
    cases hd : dies c with
    | none => exact fun h => by cases h
    | some child =>
      dsimp only
      by_cases h1 : child.tag = "member".toList
      · rw [if_pos h1]
        have hgc := hg c (List.mem_cons_self ..) child hd h1 m
        cases hx : get m c resolve with
        | error e =>
          rw [hx] at hgc
          exact fun h => hgc (by cases h; rfl)
        | ok p =>
          dsimp only
          have ih := ih p.2
          cases hy : memberLoop dies get resolve p.2 cs with
          | error e =>
            rw [hy] at ih
            exact fun h => ih (by cases h; rfl)
          | ok q => exact fun h => by cases h
      · rw [if_neg h1]
        by_cases h2 : child.tag = "enumerator".toList
        · rw [if_pos h2]
          cases child.name with
          | none => exact fun h => by cases h
          | some nm =>
            cases child.const_value with
            | none => exact fun h => by cases h
            | some v =>
              dsimp only
              have ih := ih m
              cases hy : memberLoop dies get resolve m cs with
              | error e =>
                rw [hy] at ih
                exact fun h => ih (by cases h; rfl)
              | ok q => exact fun h => by cases h
        · rw [if_neg h2]
          exact ih m

theorem arrayText_depth (cs : List Nat) : arrayText dies cs ≠ .error .recursion := by
  induction cs with
  | nil => exact fun h => by cases h
  | cons c cs ih =>
    rw [arrayText]
    cases dies c with
    | none => exact fun h => by cases h
    | some child =>
      dsimp only
      cases hy : arrayText dies cs with
      | error e =>
        rw [hy] at ih
        exact fun h => ih (by cases h; rfl)
      | ok q =>
        obtain ⟨i, h, f⟩ := q
        dsimp only
        split
        · exact fun h => by cases h
        · exact fun h => by cases h

theorem finishType_depth {d : Die} {members : Option (Str × Str)} {type : Option (Option TypeInfo)} :
    finishType o dies d members type ≠ .error .recursion := by
  unfold finishType
  by_cases h : d.tag = "array_type".toList
  · rw [if_pos h]
    have := arrayText_depth (dies := dies) d.children
    cases hy : arrayText dies d.children with
    | error e =>
      rw [hy] at this
      exact fun h => this (by cases h; rfl)
    | ok q =>
      dsimp only
      split
      · exact fun h => by cases h
      · exact fun h => by cases h
  · rw [if_neg h]
    dsimp only
    split
    · exact fun h => by cases h
    · exact fun h => by cases h

theorem isComposite_iff {tag : Str} : isComposite tag = true ↔
    tag ∈ ["structure_type".toList, "class_type".toList, "union_type".toList, "enumeration_type".toList] := by
  unfold isComposite
  simp only [Bool.or_eq_true, decide_eq_true_eq, List.mem_cons, List.not_mem_nil, or_false, or_assoc]

/-- C86: if entries do not need themselves (a rank decreases from each entry to those it needs), then the search for a type ends: the
depth of recursion is bounded by the rank. -/
theorem C86_ends_partial (o : TypeOpts) (dies : Dies) (rank : Nat → Bool → Nat)
    (hr : ∀ id r id' r', Needs dies id r id' r' → rank id' r' < rank id r) (n : Nat) (m : TypeMemo) (id : Nat)
    (resolve : Bool) (hn : rank id resolve < n) : getType o dies n m id resolve ≠ .error .recursion := by
  induction n generalizing m id resolve with
  | zero => omega
  | succ n ih =>
    rw [getType]
    cases hd : dies id with
    | none => exact fun h => by cases h
    | some d =>
      have r1 : ∀ t d', d.type = some t → dies t = some d' → rank t (resolveIn d resolve) < rank id resolve :=
        fun t d' h1 h2 => hr _ _ _ _ ⟨d, d', hd, h2, rfl, .inl h1⟩
      have r2 : isComposite d.tag = true → resolveIn d resolve = true → ∀ c ∈ d.children, ∀ child, dies c = some child →
          child.tag = "member".toList → rank c true < rank id resolve :=
        fun h1 h2 c hc child h3 h4 => hr _ _ _ _ ⟨d, child, hd, h3, h2.symm, .inr ⟨rfl, isComposite_iff.mp h1, hc, h4⟩⟩
      dsimp only
      cases m.entry id resolve with
      | some p =>
        cases m.total id with
        | none => exact fun h => by cases h
        | some s => exact fun h => by cases h
      | none =>
        dsimp only
        have hx : membersOf dies (getType o dies n) d (resolveIn d resolve) m ≠ .error .recursion := by
          unfold membersOf
          split
          · rename_i hc
            rw [Bool.and_eq_true] at hc
            have := memberLoop_depth (dies := dies) (get := getType o dies n) (resolveIn d resolve) d.children
              (fun c hc' child hch ht m' => ih m' c _ (by rw [hc.2]; have := r2 hc.1 hc.2 c hc' child hch ht; omega)) m
            cases hy : memberLoop dies (getType o dies n) (resolveIn d resolve) m d.children with
            | error e =>
              rw [hy] at this
              exact fun h => this (by cases h; rfl)
            | ok q => exact fun h => by cases h
          · exact fun h => by cases h
        cases hm : membersOf dies (getType o dies n) d (resolveIn d resolve) m with
        | error e =>
          rw [hm] at hx
          exact fun h => hx (by cases h; rfl)
        | ok p =>
          dsimp only
          have hy : referredType dies (getType o dies n) d (resolveIn d resolve) p.2 ≠ .error .recursion := by
            unfold referredType
            cases ht : d.type with
            | none => exact fun h => by cases h
            | some t =>
              dsimp only
              cases hdt : dies t with
              | none => exact fun h => by cases h
              | some d' =>
                dsimp only
                have := ih p.2 t (resolveIn d resolve) (by have := r1 t d' ht hdt; omega)
                cases hz : getType o dies n p.2 t (resolveIn d resolve) with
                | error e =>
                  rw [hz] at this
                  exact fun h => this (by cases h; rfl)
                | ok q => exact fun h => by cases h
          cases hz : referredType dies (getType o dies n) d (resolveIn d resolve) p.2 with
          | error e =>
            rw [hz] at hy
            exact fun h => hy (by cases h; rfl)
          | ok q =>
            dsimp only
            have hf := finishType_depth (o := o) (dies := dies) (d := d) (members := p.1) (type := q.1)
            cases hw : finishType o dies d p.1 q.1 with
            | error e =>
              rw [hw] at hf
              exact fun h => hf (by cases h; rfl)
            | ok t =>
              dsimp only
              unfold storeType
              split
              · split
                · exact fun h => by cases h
                · exact fun h => by cases h
              · exact fun h => by cases h

theorem membersText_needs {get : Nat → Except TypeError TypeInfo} {cs : List Nat} {r : Str × Str}
    (h : membersText dies get cs = .ok r) {c : Nat} {child : Die} (hc : c ∈ cs) (hd : dies c = some child)
    (ht : child.tag = "member".toList) : ∃ t, get c = .ok t := by
  induction cs generalizing r with
  | nil => cases hc
  | cons c' cs ih =>
    rw [membersText] at h
    cases hc' : dies c' with
    | none => rw [hc'] at h; cases h
    | some child' =>
      rw [hc'] at h
      dsimp only at h
      by_cases h1 : child'.tag = "member".toList
      · rw [if_pos h1] at h
        cases hx : get c' with
        | error e => rw [hx] at h; cases h
        | ok t =>
          rw [hx] at h
          dsimp only at h
          obtain ⟨r', h2, _⟩ := map_ok h
          cases hc with
          | head => exact ⟨t, hx⟩
          | tail _ hc => exact ih h2 hc
      · rw [if_neg h1] at h
        have hne : c ∈ cs := by
          cases hc with
          | head =>
            rw [hd] at hc'
            cases hc'
            exact absurd ht h1
          | tail _ hc => exact hc
        split at h
        · split at h
          · obtain ⟨r', h2, _⟩ := map_ok h
            exact ih h2 hne
          · cases h
        · exact ih h hne

/-- A type takes the types of all entries that are needed. -/
theorem typeOf_needs {n id id' : Nat} {r r' : Bool} {t : TypeInfo} (h : typeOf o dies (n + 1) id r = .ok t) (hn : Needs dies id r id' r') :
    ∃ t', typeOf o dies n id' r' = .ok t' := by
  obtain ⟨d, members, type, h1, h2, h3, _⟩ := typeOf_succ.mp h
  obtain ⟨e, d', g1, g2, g3, g4⟩ := hn
  rw [h1] at g1
  cases g1
  have g3 : resolveIn d r = r' := g3.symm
  rw [g3] at h2 h3
  rcases g4 with g4 | ⟨g4, g5, g6, g7⟩
  · unfold typePart at h3
    rw [g4] at h3
    dsimp only at h3
    rw [g2] at h3
    dsimp only at h3
    obtain ⟨t', h5, _⟩ := map_ok h3
    exact ⟨t', h5⟩
  · unfold memberPart at h2
    rw [if_pos (by rw [isComposite_iff.mpr g5, g4]; rfl)] at h2
    obtain ⟨x, h5, _⟩ := map_ok h2
    exact membersText_needs h5 g6 g2 g7

/-- C86: entries that need each other in a circle have no type, whatever depth of recursion is allowed. -/
theorem C86_circle (o : TypeOpts) (dies : Dies) (S : Nat → Bool → Prop)
    (hS : ∀ id r, S id r → ∃ id' r', Needs dies id r id' r' ∧ S id' r') (n : Nat) (id : Nat) (r : Bool) (h : S id r) :
    ∃ e, getType o dies n noMemo id r = .error e := by
  have gen : ∀ n id r, S id r → ∀ t, typeOf o dies n id r ≠ .ok t := by
    intro n
    induction n with
    | zero => exact fun _ _ _ _ h => by cases h
    | succ n ih =>
      intro id r h t ht
      obtain ⟨id', r', h1, h2⟩ := hS id r h
      obtain ⟨t', h3⟩ := typeOf_needs ht h1
      exact ih id' r' h2 t' h3
  cases hx : getType o dies n noMemo id r with
  | error e => exact ⟨e, rfl⟩
  | ok p =>
    obtain ⟨k, hk⟩ := (getType_right n noMemo id r p.1 p.2 rightMemo_none hx).2
    exact absurd hk (gen k id r h p.1)

end

/-! Examples -/

/-- Entries in a table. -/
def exDies (l : List (Nat × Die)) : Dies := fun i => l.lookup i

/-- `struct list { struct list *next; int value[4]; }`, and a variable of type `const struct list`. -/
def exList : Dies := exDies
  [(1, { tag := "structure_type".toList, name := some "list".toList, children := [2, 3], byte_size := some 24 }),
   (2, { tag := "member".toList, name := some "next".toList, type := some 4, location := some "0".toList }),
   (3, { tag := "member".toList, name := some "value".toList, type := some 5, location := some "8".toList }),
   (4, { tag := "pointer_type".toList, type := some 1, byte_size := some 8 }),
   (5, { tag := "array_type".toList, type := some 7, children := [6] }),
   (6, { tag := "subrange_type".toList, upper_bound := some 3 }),
   (7, { tag := "base_type".toList, name := some "int".toList, byte_size := some 4, encoding := some "signed".toList }),
   (8, { tag := "const_type".toList, type := some 1 })]

/-- Digest for examples: the text itself. -/
def exTypeOpts : TypeOpts where
  H := fun t => t

/-- Ranks for `exList`. -/
def exListRank (id : Nat) (resolve : Bool) : Nat :=
  if resolve then
    if id = 1 then 6 else if id = 2 then 5 else if id = 3 then 5 else if id = 4 then 4 else if id = 5 then 4 else if id = 8 then 7 else 0
  else if id = 2 then 3 else if id = 3 then 3 else if id = 4 then 2 else if id = 5 then 2 else if id = 8 then 1 else 0

/-- Text of the result. -/
def typeNames : Except TypeError (List TypeInfo) → List (String × Int)
  | .ok ts => ts.map (fun t => (String.ofList t.ident, t.size))
  | .error _ => []

set_option maxRecDepth 10000 in
example : typeNames (getTypes exTypeOpts exList 9 noMemo [4, 1, 8, 2]) =
    [("struct*", 8), ("struct { struct* @ 0; 4 byte signed[4] @ 8; }", 24), ("struct { struct* @ 0; 4 byte signed[4] @ 8; }", 24),
     ("struct*", 8)] := by decide +kernel

example : ∃ ts, getTypes exTypeOpts exList 9 noMemo [4, 1, 8, 2] = .ok ts := by
  refine C85_succeeds _ _ _ _ fun id hid => ?_
  have : ∀ x : Except TypeError TypeInfo, x.toOption.isSome = true → ∃ t, x = .ok t := by
    intro x hx
    cases x with
    | error e => cases hx
    | ok t => exact ⟨t, rfl⟩
  apply this
  revert id
  decide +kernel

theorem exDies_mem {l : List (Nat × Die)} {id : Nat} {d : Die} (h : exDies l id = some d) : (id, d) ∈ l := by
  unfold exDies at h
  induction l with
  | nil => cases h
  | cons p l ih =>
    rw [List.lookup_cons] at h
    split at h
    · rename_i e
      cases h
      have : id = p.1 := by simpa using e
      rw [this]
      exact List.mem_cons_self ..
    · exact List.mem_cons_of_mem _ (ih h)

theorem exList_ranked (id : Nat) (r : Bool) (id' : Nat) (r' : Bool) (h : Needs exList id r id' r') :
    exListRank id' r' < exListRank id r := by
  obtain ⟨d, d', h1, _, h3, h4⟩ := h
  have h1 := exDies_mem h1
  simp only [List.mem_cons, List.not_mem_nil, or_false, Prod.mk.injEq] at h1
  rw [h3]
  have h4 : d.type = some id' ∨ id' ∈ d.children ∧ isComposite d.tag = true ∧ (r && d.tag != "pointer_type".toList) = true := by
    rcases h4 with h4 | ⟨h5, h6, h7, _⟩
    · exact .inl h4
    · exact .inr ⟨h7, isComposite_iff.mpr h6, by rw [← h3]; exact h5⟩
  clear h3
  rcases h1 with ⟨rfl, rfl⟩ | ⟨rfl, rfl⟩ | ⟨rfl, rfl⟩ | ⟨rfl, rfl⟩ | ⟨rfl, rfl⟩ | ⟨rfl, rfl⟩ | ⟨rfl, rfl⟩ | ⟨rfl, rfl⟩ <;>
    rcases h4 with h4 | ⟨h4, h5, h6⟩ <;> dsimp only at h4 <;>
    first
    | (exact absurd h5 (by decide))
    | (cases h4; cases r <;> decide)
    | (simp only [List.mem_cons, List.not_mem_nil, or_false] at h4; cases r with
        | true => rcases h4 with rfl | rfl <;> decide
        | false => exact absurd h6 (by decide))
    | (cases h4)

example (m : TypeMemo) : getType exTypeOpts exList 8 m 8 true ≠ .error .recursion :=
  C86_ends_partial _ _ exListRank exList_ranked _ _ _ _ (by decide)

/-- `struct node { struct node &self; }`. -/
def exReference : Dies := exDies
  [(1, { tag := "structure_type".toList, name := some "node".toList, children := [2], byte_size := some 8 }),
   (2, { tag := "member".toList, name := some "self".toList, type := some 3, location := some "0".toList }),
   (3, { tag := "reference_type".toList, type := some 1, byte_size := some 8 })]

/-- `struct node { static node instance; }`, where static members are entries of kind member (version 4 of the format). -/
def exStatic : Dies := exDies
  [(1, { tag := "structure_type".toList, name := some "node".toList, children := [2], byte_size := some 1 }),
   (2, { tag := "member".toList, name := some "instance".toList, type := some 1 })]

/-- C86 does not hold for all programs: a struct with a reference to itself (or with a static member of its own type) has no type,
whatever depth of recursion is allowed. -/
theorem C86_counterexample (o : TypeOpts) (n : Nat) :
    (∃ e, getType o exReference n noMemo 1 true = .error e) ∧ ∃ e, getType o exStatic n noMemo 1 true = .error e := by
  constructor
  · refine C86_circle o exReference (fun id r => (id = 1 ∨ id = 2 ∨ id = 3) ∧ r = true) ?_ n 1 true ⟨.inl rfl, rfl⟩
    rintro id r ⟨rfl | rfl | rfl, rfl⟩
    · exact ⟨2, true, ⟨_, _, rfl, rfl, rfl, .inr ⟨rfl, by decide, by decide, rfl⟩⟩, .inr (.inl rfl), rfl⟩
    · exact ⟨3, true, ⟨_, _, rfl, rfl, rfl, .inl rfl⟩, .inr (.inr rfl), rfl⟩
    · exact ⟨1, true, ⟨_, _, rfl, rfl, rfl, .inl rfl⟩, .inl rfl, rfl⟩
  · refine C86_circle o exStatic (fun id r => (id = 1 ∨ id = 2) ∧ r = true) ?_ n 1 true ⟨.inl rfl, rfl⟩
    rintro id r ⟨rfl | rfl, rfl⟩
    · exact ⟨2, true, ⟨_, _, rfl, rfl, rfl, .inr ⟨rfl, by decide, by decide, rfl⟩⟩, .inr rfl, rfl⟩
    · exact ⟨1, true, ⟨_, _, rfl, rfl, rfl, .inl rfl⟩, .inl rfl, rfl⟩

end Bean.Props

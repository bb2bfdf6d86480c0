import Verif.Model.DwarfDefs
import Verif.Spec.DwarfDefs
import Verif.Props.DwarfTypes
/-
Sizes of global variables and types, as listed with their definitions (C101).
-/
namespace Bean.Props
open Bean Spec

section
variable {o : TypeOpts} {dies : Dies}

/-- Number of elements and size of an entry, given those of the type it refers to. -/
def Finishes (dies : Dies) (d : Die) (s f s' f' : Int) : Prop :=
  ∃ k, defFactor dies d f = .ok k ∧ f' = (if isComposite d.tag = true ∨ ((declName d).isSome ∧ d.tag ≠ "typedef".toList) then 1 else k) ∧
    s' = f' * d.byte_size.getD s

/-- Size and number of elements as found for an entry. -/
inductive Shape (dies : Dies) : Nat → Int → Int → Prop where
  | leaf {id d s f} : dies id = some d → (∀ t, d.type = some t → dies t = none) → Finishes dies d 0 1 s f → Shape dies id s f
  | ref {id d t s f s' f'} : dies id = some d → d.type = some t → Shape dies t s f → Finishes dies d s f s' f' → Shape dies id s' f'

theorem Shape.known {id : Nat} {s f : Int} (h : Shape dies id s f) : ∃ d, dies id = some d := by
  cases h with
  | leaf h => exact ⟨_, h⟩
  | ref h => exact ⟨_, h⟩

theorem finishes_unique {d : Die} {s f s1 f1 s2 f2 : Int} (h1 : Finishes dies d s f s1 f1) (h2 : Finishes dies d s f s2 f2) :
    s1 = s2 ∧ f1 = f2 := by
  obtain ⟨k, a1, a2, a3⟩ := h1
  obtain ⟨k', b1, b2, b3⟩ := h2
  rw [a1] at b1
  cases b1
  subst a2 b2
  exact ⟨by rw [a3, b3], rfl⟩

theorem shape_unique {id : Nat} {s f s' f' : Int} (h : Shape dies id s f) (h' : Shape dies id s' f') : s = s' ∧ f = f' := by
  induction h generalizing s' f' with
  | leaf hd ht hf =>
    cases h' with
    | leaf hd' ht' hf' =>
      rw [hd] at hd'; cases hd'
      exact finishes_unique hf hf'
    | ref hd' ht' hs' hf' =>
      rw [hd] at hd'; cases hd'
      obtain ⟨dt, hx⟩ := hs'.known
      rw [ht _ ht'] at hx; cases hx
  | ref hd ht hs hf ih =>
    cases h' with
    | leaf hd' ht' hf' =>
      rw [hd] at hd'; cases hd'
      obtain ⟨dt, hx⟩ := hs.known
      rw [ht' _ ht] at hx; cases hx
    | ref hd' ht' hs' hf' =>
      rw [hd] at hd'; cases hd'
      rw [ht] at ht'; cases ht'
      obtain ⟨rfl, rfl⟩ := ih hs'
      exact finishes_unique hf hf'

theorem declName_iff {d : Die} : (declName d).isSome = true ↔ ∃ n, NameIs d n ∧ n ≠ [] := by
  unfold declName NameIs
  cases hn : d.name with
  | some n =>
    by_cases h : n = []
    · simp [h]
    · simp [h]
  | none =>
    cases hl : d.linkage_name with
    | none => simp
    | some n =>
      by_cases h : n = []
      · simp [h]
      · simp [h]

theorem composite_not_array {tag : Str} (h : isComposite tag = true) : tag ≠ "array_type".toList := by
  rintro rfl
  revert h
  decide

/-- Entries other than arrays have no number of elements left. -/
theorem shape_factor (hd : DirectArrays dies) {id : Nat} {s f : Int} (h : Shape dies id s f) {d : Die} (hx : dies id = some d)
    (hn : d.tag ≠ "array_type".toList) : f = 1 := by
  induction h generalizing d with
  | leaf h1 ht hf =>
    rw [h1] at hx; cases hx
    obtain ⟨k, h2, h3, _⟩ := hf
    unfold defFactor at h2
    rw [if_neg hn] at h2
    have : k = 1 := by split at h2 <;> cases h2 <;> rfl
    rw [h3, this]
    split <;> rfl
  | @ref id d' t s f s' f' h1 ht hs hf ih =>
    rw [h1] at hx; cases hx
    obtain ⟨k, h2, h3, _⟩ := hf
    unfold defFactor at h2
    rw [if_neg hn] at h2
    obtain ⟨dt, hdt⟩ := hs.known
    by_cases hp : d'.tag = "pointer_type".toList
    · rw [if_pos hp] at h2
      cases h2
      rw [h3]
      split <;> rfl
    · rw [if_neg hp] at h2
      cases h2
      by_cases ha : dt.tag = "array_type".toList
      · rcases (hd id d' h1).2 t dt ht hdt ha with h4 | ⟨h4, h5, _⟩
        · exact absurd h4 hp
        · rw [h3, if_pos (Or.inr ⟨declName_iff.mpr h4, h5⟩)]
      · have := ih hdt ha
        rw [h3, this]
        split <;> rfl

theorem rangesFactor_elements (cs : List Nat) (f k : Int) (hb : ∀ c ∈ cs, ∀ r, dies c = some r → r.tag = "subrange_type".toList →
      r.count = none ∧ r.upper_bound ≠ none) (h : rangesFactor dies f cs = .ok k) (n : Int) (hn : Elements dies cs n) : k = f * n := by
  induction hn generalizing f with
  | nil =>
    cases h
    omega
  | @range c cs r n k' h1 h2 h3 h4 ih =>
    rw [rangesFactor, h1] at h
    dsimp only at h
    rw [if_pos h2] at h
    have := ih _ (fun c hc => hb c (List.mem_cons_of_mem _ hc)) h
    rw [this]
    obtain ⟨h5, h6⟩ := hb c (List.mem_cons_self ..) r h1 h2
    rcases h3 with h3 | ⟨_, u, h7, h8⟩
    · rw [h5] at h3; cases h3
    · have : n = r.upper_bound.getD 0 - r.lower_bound.getD 0 + 1 := by
        rw [h8, h7]
        cases r.lower_bound <;> rfl
      rw [← this, Int.mul_assoc]
  | @other c cs r k' h1 h2 h3 ih =>
    rw [rangesFactor, h1] at h
    dsimp only at h
    rw [if_neg h2] at h
    exact ih _ (fun c hc => hb c (List.mem_cons_of_mem _ hc)) h

/-- The size is the one of the standard. -/
theorem shape_size (hb : BoundedArrays dies) (hd : DirectArrays dies) {id : Nat} {s s' f : Int} (hs : SizeIs dies id s)
    (h : Shape dies id s' f) : s' = s := by
  induction hs generalizing s' f with
  | @bytes id d s h1 h2 =>
    have hn : d.tag ≠ "array_type".toList := fun e => by rw [(hb id d h1 e).1] at h2; cases h2
    have hf := shape_factor hd h h1 hn
    cases h with
    | leaf h3 _ h4 =>
      rw [h1] at h3; cases h3
      obtain ⟨k, _, _, h5⟩ := h4
      rw [h5, hf, h2]
      exact Int.one_mul _
    | ref h3 _ _ h4 =>
      rw [h1] at h3; cases h3
      obtain ⟨k, _, _, h5⟩ := h4
      rw [h5, hf, h2]
      exact Int.one_mul _
  | @array id d t s k h1 h2 h3 h4 h5 h6 ih =>
    cases h with
    | leaf h7 h8 _ =>
      rw [h1] at h7; cases h7
      have : ∃ dt, dies t = some dt := by cases h5 <;> exact ⟨_, by assumption⟩
      obtain ⟨dt, hx⟩ := this
      rw [h8 _ h4] at hx; cases hx
    | ref h7 h8 h9 h10 =>
      rw [h1] at h7; cases h7
      rw [h4] at h8; cases h8
      obtain ⟨k', h11, h12, h13⟩ := h10
      obtain ⟨dt, hdt⟩ := h9.known
      have hn : dt.tag ≠ "array_type".toList := by
        intro e
        rcases (hd id d h1).2 t dt h4 hdt e with h | ⟨_, _, h⟩
        · rw [h3] at h
          revert h; decide
        · rw [h3] at h
          revert h; decide
      rw [shape_factor hd h9 hdt hn] at h11
      unfold defFactor at h11
      rw [if_neg (by rw [h3]; decide), if_pos h3] at h11
      have hk := rangesFactor_elements _ _ _ (hb id d h1 h3).2 h11 k h6
      have hname : declName d = none := by
        obtain ⟨a, b⟩ := (hd id d h1).1 h3
        unfold declName
        rw [a, b]
      rw [if_neg] at h12
      · rw [h13, h12, h2, hk, Int.one_mul, ih h9]
        rfl
      · rw [hname, h3]
        decide
  | @same id d t s h1 h2 h3 h4 h5 ih =>
    have hn : d.tag ≠ "array_type".toList := fun e => by rw [e] at h3; revert h3; decide
    have hf := shape_factor hd h h1 hn
    cases h with
    | leaf h7 h8 _ =>
      rw [h1] at h7; cases h7
      have : ∃ dt, dies t = some dt := by cases h5 <;> exact ⟨_, by assumption⟩
      obtain ⟨dt, hx⟩ := this
      rw [h8 _ h4] at hx; cases hx
    | ref h7 h8 h9 h10 =>
      rw [h1] at h7; cases h7
      rw [h4] at h8; cases h8
      obtain ⟨_, _, _, h13⟩ := h10
      rw [h13, hf, h2, ih h9]
      exact Int.one_mul _

/-- Stored sizes are those of the entries. -/
def RightDefs (dies : Dies) (m : DefMemo) : Prop := ∀ id s, m id = some s → ∃ f, Shape dies id s f

theorem rightDefs_none : RightDefs dies (fun _ => none) := fun _ _ h => by cases h

/-- A call that keeps stored sizes right and gives size and number of elements. -/
def RightCall (dies : Dies) (get : DefMemo → Nat → Except TypeError (DefInfo × DefMemo)) : Prop :=
  ∀ m id i m', RightDefs dies m → get m id = .ok (i, m') → RightDefs dies m' ∧ Shape dies id i.size i.factor

theorem defMembers_right {get : DefMemo → Nat → Except TypeError (DefInfo × DefMemo)} (hg : RightCall dies get) (cs : List Nat)
    (m m' : DefMemo) (r : Str) (hm : RightDefs dies m) (h : defMembers dies get m cs = .ok (r, m')) : RightDefs dies m' := by
  induction cs generalizing m r with
  | nil =>
    cases h
    exact hm
  | cons c cs ih =>
    rw [defMembers] at h
    cases hc : dies c with
    | none => rw [hc] at h; cases h
    | some child =>
      rw [hc] at h
      dsimp only at h
      by_cases h1 : child.tag = "member".toList
      · rw [if_pos h1] at h
        cases hx : get m c with
        | error e => rw [hx] at h; cases h
        | ok p =>
          obtain ⟨i, m1⟩ := p
          rw [hx] at h
          dsimp only at h
          cases hy : defMembers dies get m1 cs with
          | error e => rw [hy] at h; cases h
          | ok q =>
            rw [hy] at h
            cases h
            exact ih m1 q.1 (hg m c i m1 hm hx).1 hy
      · rw [if_neg h1] at h
        by_cases h2 : child.tag = "enumerator".toList
        · rw [if_pos h2] at h
          cases hn : child.name with
          | none => rw [hn] at h; cases h
          | some n =>
            cases hv : child.const_value with
            | none => rw [hn, hv] at h; cases h
            | some v =>
              rw [hn, hv] at h
              dsimp only at h
              cases hy : defMembers dies get m cs with
              | error e => rw [hy] at h; cases h
              | ok q =>
                rw [hy] at h
                cases h
                exact ih m q.1 hm hy
        · rw [if_neg h2] at h
          exact ih m r hm h

theorem defBody_right {get : DefMemo → Nat → Except TypeError (DefInfo × DefMemo)} (hg : RightCall dies get) {d : Die} {r sk : Bool}
    {m m' : DefMemo} {t : Str} (hm : RightDefs dies m) (h : defBody dies get d r sk m = .ok (t, m')) : RightDefs dies m' := by
  unfold defBody at h
  split at h
  · cases hx : defMembers dies get m d.children with
    | error e => rw [hx] at h; cases h
    | ok q =>
      rw [hx] at h
      cases h
      exact defMembers_right hg _ _ _ _ hm hx
  · cases h
    exact hm

/-- Size and number of elements of the type an entry refers to. -/
def RefShape (dies : Dies) (d : Die) (s f : Int) : Prop :=
  ((∀ t, d.type = some t → dies t = none) ∧ s = 0 ∧ f = 1) ∨ ∃ t, d.type = some t ∧ Shape dies t s f

theorem defRef_right (ha : o.aliases = true) {get : DefMemo → Nat → Except TypeError (DefInfo × DefMemo)} (hg : RightCall dies get)
    {d : Die} {m m' : DefMemo} {i : DefInfo} (hm : RightDefs dies m) (h : defRef o dies get d m = .ok (i, m')) :
    RightDefs dies m' ∧ RefShape dies d i.size i.factor := by
  unfold defRef at h
  cases ht : d.type with
  | none =>
    rw [ht] at h
    cases h
    exact ⟨hm, .inl ⟨fun t h => (by rw [ht] at h; cases h), rfl, rfl⟩⟩
  | some t =>
    rw [ht] at h
    dsimp only at h
    rw [if_neg (by rw [ha]; rintro ⟨_, h⟩; cases h)] at h
    cases hx : dies t with
    | none =>
      rw [hx] at h
      cases h
      exact ⟨hm, .inl ⟨fun t' h => (by rw [ht] at h; cases h; exact hx), rfl, rfl⟩⟩
    | some dt =>
      rw [hx] at h
      obtain ⟨h1, h2⟩ := hg m t i m' hm h
      exact ⟨h1, .inr ⟨t, ht, h2⟩⟩

theorem defNamed_name {d : Die} {r : Bool} {text : Str} {k : Int} {n : Str} (h : nameBehind o d r = some n) :
    (defNamed o d r text k).2 = 1 := by
  unfold defNamed
  rw [h]

theorem defNamed_none {d : Die} {r : Bool} {text : Str} {k : Int} (h : nameBehind o d r = none) : (defNamed o d r text k).2 = k := by
  unfold defNamed
  rw [h]

theorem nameBehind_plain (hn : o.names = true) (ha : o.aliases = true) {d : Die} {r : Bool} (hc : isComposite d.tag = false) :
    nameBehind o d r = if d.tag = "typedef".toList then none else declName d := by
  unfold nameBehind
  rw [hc, Bool.false_and, if_neg (by decide), hn, ha]
  by_cases ht : d.tag = "typedef".toList
  · rw [if_pos ht, if_neg (by rw [ht]; decide)]
  · rw [if_neg ht, if_pos (by simpa using ht)]

theorem defNamed_factor (hn : o.names = true) (ha : o.aliases = true) {d : Die} {r : Bool} {text : Str} {k : Int}
    (hcomp : isComposite d.tag = true → k = 1) : (defNamed o d r text k).2 =
      if isComposite d.tag = true ∨ ((declName d).isSome ∧ d.tag ≠ "typedef".toList) then 1 else k := by
  by_cases hc : isComposite d.tag = true
  · rw [if_pos (Or.inl hc)]
    cases hb : nameBehind o d r with
    | none => rw [defNamed_none hb, hcomp hc]
    | some n => exact defNamed_name hb
  · have hp := nameBehind_plain (r := r) hn ha (Bool.eq_false_iff.mpr hc)
    by_cases ht : d.tag = "typedef".toList
    · rw [if_pos ht] at hp
      rw [defNamed_none hp, if_neg]
      rintro (h | ⟨_, h⟩)
      · exact hc h
      · exact h ht
    · rw [if_neg ht] at hp
      cases hd : declName d with
      | none =>
        rw [defNamed_none (hp.trans hd), if_neg]
        rintro (h | ⟨h, _⟩)
        · exact hc h
        · cases h
      | some n => rw [defNamed_name (hp.trans hd), if_pos (Or.inr ⟨rfl, ht⟩)]

/-- The last step, with names. -/
theorem finishDef_shape (hn : o.names = true) (ha : o.aliases = true) (hd : DirectArrays dies) {id : Nat} {d : Die} {r : Bool}
    {body : Str} {ref i : DefInfo} (hx : dies id = some d) (hr : RefShape dies d ref.size ref.factor)
    (h : finishDef o dies d r body ref = .ok i) : Shape dies id i.size i.factor := by
  have hf : Finishes dies d ref.size ref.factor i.size i.factor := by
    unfold finishDef at h
    cases hk : defFactor dies d ref.factor with
    | error e => rw [hk] at h; cases h
    | ok k =>
      rw [hk] at h
      cases h
      refine ⟨k, hk, ?_, rfl⟩
      have hcomp : isComposite d.tag = true → k = 1 := by
        intro hc
        have hna := composite_not_array hc
        unfold defFactor at hk
        by_cases hp : d.tag = "pointer_type".toList
        · rw [if_pos hp] at hk; cases hk; rfl
        · rw [if_neg hp, if_neg hna] at hk
          cases hk
          rcases hr with ⟨_, _, h1⟩ | ⟨t, h1, h2⟩
          · exact h1
          · obtain ⟨dt, hdt⟩ := h2.known
            refine shape_factor hd h2 hdt ?_
            intro e
            rcases (hd id d hx).2 t dt h1 hdt e with h | ⟨_, _, h⟩
            · exact hp h
            · obtain hc := isComposite_iff.mp hc
              generalize d.tag = g at hc h
              revert h
              simp only [List.mem_cons, List.not_mem_nil, or_false] at hc
              rcases hc with rfl | rfl | rfl | rfl <;> decide
      exact defNamed_factor hn ha hcomp
  rcases hr with ⟨h1, h2, h3⟩ | ⟨t, h1, h2⟩
  · rw [h2, h3] at hf
    exact .leaf hx h1 hf
  · exact .ref hx h1 h2 hf

theorem storeDef_right {m m' : DefMemo} {id : Nat} {i j : DefInfo} (hm : RightDefs dies m) (hs : Shape dies id i.size i.factor)
    (h : storeDef m id i = .ok (j, m')) : RightDefs dies m' ∧ j = i := by
  unfold storeDef at h
  cases hx : m id with
  | some s =>
    rw [hx] at h
    dsimp only at h
    split at h
    · cases h
      exact ⟨hm, rfl⟩
    · cases h
  | none =>
    rw [hx] at h
    cases h
    refine ⟨fun id' s h => ?_, rfl⟩
    dsimp only at h
    by_cases he : id' = id
    · rw [if_pos he] at h
      cases h
      rw [he]
      exact ⟨_, hs⟩
    · rw [if_neg he] at h
      exact hm id' s h

theorem getDef_right (hn : o.names = true) (ha : o.aliases = true) (hd : DirectArrays dies) (n : Nat) (r sk : Bool) :
    RightCall dies (fun m id => getDef o dies n m id r sk) := by
  induction n generalizing r sk with
  | zero =>
    intro m id i m' hm h
    cases h
  | succ n ih =>
    intro m id i m' hm h
    dsimp only at h
    rw [getDef] at h
    cases hx : dies id with
    | none => rw [hx] at h; cases h
    | some d =>
      rw [hx] at h
      dsimp only at h
      cases hb : defBody dies (fun m c => getDef o dies n m c (resolveIn d r) false) d (resolveIn d r) sk m with
      | error e => rw [hb] at h; cases h
      | ok p =>
        obtain ⟨body, m1⟩ := p
        rw [hb] at h
        dsimp only at h
        have h1 := defBody_right (ih (resolveIn d r) false) hm hb
        cases hr : defRef o dies (fun m t => getDef o dies n m t (resolveIn d r) (skipIn d sk)) d m1 with
        | error e => rw [hr] at h; cases h
        | ok p =>
          obtain ⟨ref, m2⟩ := p
          rw [hr] at h
          dsimp only at h
          obtain ⟨h2, h3⟩ := defRef_right ha (ih (resolveIn d r) (skipIn d sk)) h1 hr
          cases hf : finishDef o dies d (resolveIn d r) body ref with
          | error e => rw [hf] at h; cases h
          | ok j =>
            rw [hf] at h
            dsimp only at h
            have h4 := finishDef_shape hn ha hd hx h3 hf
            obtain ⟨h5, h6⟩ := storeDef_right h2 h4 h
            rw [h6]
            exact ⟨h5, h4⟩

/-! ### Success -/

theorem defMembers_total {get : DefMemo → Nat → Except TypeError (DefInfo × DefMemo)} (hg : RightCall dies get) (cs : List Nat)
    (hc : ∀ c ∈ cs, ∃ child, dies c = some child ∧ (child.tag = "enumerator".toList → child.name ≠ none ∧ child.const_value ≠ none) ∧
      (child.tag = "member".toList → ∀ m, RightDefs dies m → ∃ p, get m c = .ok p))
    (m : DefMemo) (hm : RightDefs dies m) : ∃ p, defMembers dies get m cs = .ok p := by
  induction cs generalizing m with
  | nil => exact ⟨_, rfl⟩
  | cons c cs ih =>
    obtain ⟨child, h1, h2, h3⟩ := hc c (List.mem_cons_self ..)
    have ih := ih (fun c h => hc c (List.mem_cons_of_mem _ h))
    rw [defMembers, h1]
    dsimp only
    by_cases hmem : child.tag = "member".toList
    · rw [if_pos hmem]
      obtain ⟨⟨i, m1⟩, h4⟩ := h3 hmem m hm
      obtain ⟨q, h5⟩ := ih m1 (hg m c i m1 hm h4).1
      rw [h4]
      dsimp only
      rw [h5]
      exact ⟨_, rfl⟩
    · rw [if_neg hmem]
      by_cases hen : child.tag = "enumerator".toList
      · rw [if_pos hen]
        obtain ⟨h4, h5⟩ := h2 hen
        obtain ⟨nm, h6⟩ := Option.ne_none_iff_exists'.mp h4
        obtain ⟨v, h7⟩ := Option.ne_none_iff_exists'.mp h5
        obtain ⟨q, h8⟩ := ih m hm
        rw [h6, h7]
        dsimp only
        rw [h8]
        exact ⟨_, rfl⟩
      · rw [if_neg hen]
        exact ih m hm

theorem rangesFactor_total (cs : List Nat) (hc : ∀ c ∈ cs, ∃ child, dies c = some child) (f : Int) :
    ∃ k, rangesFactor dies f cs = .ok k := by
  induction cs generalizing f with
  | nil => exact ⟨_, rfl⟩
  | cons c cs ih =>
    obtain ⟨child, h1⟩ := hc c (List.mem_cons_self ..)
    have ih := ih (fun c h => hc c (List.mem_cons_of_mem _ h))
    rw [rangesFactor, h1]
    dsimp only
    split
    · exact ih _
    · exact ih _

theorem getDef_total (hn : o.names = true) (ha : o.aliases = true) (hd : DirectArrays dies) (hc : CompleteChildren dies)
    (rank : Nat → Bool → Nat) (hr : ∀ id r id' r', Needs dies id r id' r' → rank id' r' < rank id r) (n : Nat) (id : Nat) (r sk : Bool)
    (hrank : rank id r < n) (hk : ∃ d, dies id = some d) (m : DefMemo) (hm : RightDefs dies m) :
    ∃ p, getDef o dies n m id r sk = .ok p := by
  induction n generalizing id r sk m with
  | zero => omega
  | succ n ih =>
    obtain ⟨d, hx⟩ := hk
    have r1 : ∀ t d', d.type = some t → dies t = some d' → rank t (resolveIn d r) < rank id r :=
      fun t d' h1 h2 => hr _ _ _ _ ⟨d, d', hx, h2, rfl, .inl h1⟩
    have r2 : isComposite d.tag = true → resolveIn d r = true → ∀ c ∈ d.children, ∀ child, dies c = some child →
        child.tag = "member".toList → rank c true < rank id r :=
      fun h1 h2 c hc child h3 h4 => hr _ _ _ _ ⟨d, child, hx, h3, h2.symm, .inr ⟨rfl, isComposite_iff.mp h1, hc, h4⟩⟩
    have hbody : ∃ p, defBody dies (fun m c => getDef o dies n m c (resolveIn d r) false) d (resolveIn d r) sk m = .ok p := by
      unfold defBody
      split
      · rename_i hcomp
        obtain ⟨h1, h2⟩ := Bool.and_eq_true_iff.mp hcomp
        obtain ⟨q, h3⟩ := defMembers_total (getDef_right hn ha hd n (resolveIn d r) false) d.children (fun c hcc => by
          obtain ⟨child, h4, h5⟩ := hc id d hx c hcc
          refine ⟨child, h4, h5, fun h6 m hm => ?_⟩
          rw [h2]
          exact ih c true false (by have := r2 h1 h2 c hcc child h4 h6; omega) ⟨child, h4⟩ m hm) m hm
        rw [h3]
        exact ⟨_, rfl⟩
      · exact ⟨_, rfl⟩
    obtain ⟨⟨body, m1⟩, hb⟩ := hbody
    have h1 := defBody_right (getDef_right hn ha hd n (resolveIn d r) false) hm hb
    have href : ∃ p, defRef o dies (fun m t => getDef o dies n m t (resolveIn d r) (skipIn d sk)) d m1 = .ok p := by
      unfold defRef
      cases ht : d.type with
      | none => exact ⟨_, rfl⟩
      | some t =>
        dsimp only
        split
        · exact ⟨_, rfl⟩
        · cases hdt : dies t with
          | none => exact ⟨_, rfl⟩
          | some dt => exact ih t _ _ (by have := r1 t dt ht hdt; omega) ⟨dt, hdt⟩ m1 h1
    obtain ⟨⟨ref, m2⟩, hrf⟩ := href
    obtain ⟨h2, h3⟩ := defRef_right ha (getDef_right hn ha hd n (resolveIn d r) (skipIn d sk)) h1 hrf
    have hfin : ∃ j, finishDef o dies d (resolveIn d r) body ref = .ok j := by
      unfold finishDef
      have : ∃ k, defFactor dies d ref.factor = .ok k := by
        unfold defFactor
        split
        · exact ⟨_, rfl⟩
        · split
          · exact rangesFactor_total _ (fun c h => by obtain ⟨child, h4, _⟩ := hc id d hx c h; exact ⟨child, h4⟩) _
          · exact ⟨_, rfl⟩
      obtain ⟨k, hk⟩ := this
      rw [hk]
      exact ⟨_, rfl⟩
    obtain ⟨j, hf⟩ := hfin
    have h4 := finishDef_shape hn ha hd hx h3 hf
    rw [getDef, hx]
    dsimp only
    rw [hb]
    dsimp only
    rw [hrf]
    dsimp only
    rw [hf]
    dsimp only
    unfold storeDef
    cases hs : m2 id with
    | none => exact ⟨_, rfl⟩
    | some s =>
      obtain ⟨f, h5⟩ := h2 id s hs
      dsimp only
      rw [if_pos (shape_unique h5 h4).1]
      exact ⟨_, rfl⟩

/-! ### Text -/

/-- The number of elements of an array. -/
theorem shape_elements (hb : BoundedArrays dies) (hd : DirectArrays dies) {id : Nat} {d : Die} {s f k : Int} (h : Shape dies id s f)
    (hx : dies id = some d) (ht : d.tag = "array_type".toList) (hk : Elements dies d.children k) : f = k := by
  have key : ∀ s0 f0, f0 = 1 → Finishes dies d s0 f0 s f → f = k := by
    rintro s0 f0 rfl ⟨k', h11, h12, h13⟩
    unfold defFactor at h11
    rw [if_neg (by rw [ht]; decide), if_pos ht] at h11
    have hk := rangesFactor_elements _ _ _ (hb id d hx ht).2 h11 k hk
    have hname : declName d = none := by
      obtain ⟨a, b⟩ := (hd id d hx).1 ht
      unfold declName
      rw [a, b]
    rw [if_neg] at h12
    · rw [h12, hk, Int.one_mul]
    · rw [hname, ht]
      decide
  cases h with
  | leaf h7 h8 h9 =>
    rw [hx] at h7; cases h7
    exact key _ _ rfl h9
  | ref h7 h8 h9 h10 =>
    rw [hx] at h7; cases h7
    obtain ⟨dt, hdt⟩ := h9.known
    refine key _ _ (shape_factor hd h9 hdt ?_) h10
    intro e
    rcases (hd id d hx).2 _ dt h8 hdt e with h | ⟨_, _, h⟩
    · rw [ht] at h
      revert h; decide
    · rw [ht] at h
      revert h; decide

/-- The text for a variable ends with its name and the number of elements. -/
theorem getDef_text (hn : o.names = true) (ha : o.aliases = true) (hd : DirectArrays dies) {n : Nat} {id : Nat} {r sk : Bool}
    {m m' : DefMemo} {i : DefInfo} (hm : RightDefs dies m) (h : getDef o dies n m id r sk = .ok (i, m')) {d : Die} (hx : dies id = some d)
    (ht : d.tag = "variable".toList) {nm : Str} (hnm : NameIs d nm) (hne : nm ≠ []) :
    ∃ pre s f, i.text = pre ++ nm ++ factorText f ∧ RefShape dies d s f := by
  cases n with
  | zero => cases h
  | succ n =>
    rw [getDef, hx] at h
    dsimp only at h
    cases hb : defBody dies (fun m c => getDef o dies n m c (resolveIn d r) false) d (resolveIn d r) sk m with
    | error e => rw [hb] at h; cases h
    | ok p =>
      obtain ⟨body, m1⟩ := p
      rw [hb] at h
      dsimp only at h
      have h1 := defBody_right (getDef_right hn ha hd n (resolveIn d r) false) hm hb
      cases hr : defRef o dies (fun m t => getDef o dies n m t (resolveIn d r) (skipIn d sk)) d m1 with
      | error e => rw [hr] at h; cases h
      | ok p =>
        obtain ⟨ref, m2⟩ := p
        rw [hr] at h
        dsimp only at h
        obtain ⟨h2, h3⟩ := defRef_right ha (getDef_right hn ha hd n (resolveIn d r) (skipIn d sk)) h1 hr
        cases hf : finishDef o dies d (resolveIn d r) body ref with
        | error e => rw [hf] at h; cases h
        | ok j =>
          rw [hf] at h
          dsimp only at h
          have h4 := finishDef_shape hn ha hd hx h3 hf
          rw [(storeDef_right h2 h4 h).2]
          unfold finishDef at hf
          have hk : defFactor dies d ref.factor = .ok ref.factor := by
            unfold defFactor
            rw [if_neg (by rw [ht]; decide), if_neg (by rw [ht]; decide)]
          rw [hk] at hf
          dsimp only at hf
          rw [← Except.ok.inj hf]
          have hdn : declName d = some nm := by
            unfold declName
            rcases hnm with e | ⟨e, e'⟩
            · rw [e]
              exact if_neg hne
            · rw [e, e']
              exact if_neg hne
          have hb : nameBehind o d (resolveIn d r) = some nm := by
            rw [nameBehind_plain hn ha (by rw [ht]; decide), if_neg (by rw [ht]; decide), hdn]
          dsimp only
          unfold defNamed
          rw [hb]
          exact ⟨_, _, ref.factor, rfl, h3⟩

/-! ### The list -/

theorem isGlobal_iff {d : Die} : isGlobal d = true ↔ GlobalTag d ∧ ∃ n, NameIs d n := by
  have h2 : (d.name.isSome || d.linkage_name.isSome) = true ↔ ∃ n, NameIs d n := by
    unfold NameIs
    cases d.name with
    | some n => simp
    | none => cases d.linkage_name <;> simp
  have h1 : (decide (d.tag = "variable".toList) || isComposite d.tag) = true ↔ GlobalTag d := by
    rw [Bool.or_eq_true, decide_eq_true_iff, isComposite_iff]
    unfold GlobalTag
    simp only [List.mem_cons]
  unfold isGlobal
  rw [Bool.and_eq_true, h1, h2]

/-- What the list contains. -/
theorem iterGlobals_lists (hn : o.names = true) (ha : o.aliases = true) (hd : DirectArrays dies) (n : Nat) (ids : List Nat) (m : DefMemo)
    (l : List (Str × Int × Nat)) (hm : RightDefs dies m) (h : iterGlobals o dies n m ids = .ok l) :
    (l.map (fun e => e.2.2)).Sublist ids ∧
    (∀ e ∈ l, 0 < e.2.1 ∧ (∃ f, Shape dies e.2.2 e.2.1 f) ∧ ∃ d, dies e.2.2 = some d ∧ isGlobal d = true ∧
      ∀ nm, d.tag = "variable".toList → NameIs d nm → nm ≠ [] → ∃ pre s f, e.1 = pre ++ nm ++ factorText f ∧ RefShape dies d s f) ∧
    ∀ id ∈ ids, ∀ d, dies id = some d → isGlobal d = true → ∃ s f, Shape dies id s f ∧ (0 < s → ∃ t, (t, s, id) ∈ l) := by
  induction ids generalizing m l with
  | nil =>
    cases h
    exact ⟨List.Sublist.refl _, fun e he => (by cases he), fun id hid => (by cases hid)⟩
  | cons id ids ih =>
    rw [iterGlobals] at h
    cases hx : dies id with
    | none => rw [hx] at h; cases h
    | some d =>
      rw [hx] at h
      dsimp only at h
      by_cases hg : isGlobal d = true
      · rw [if_pos hg] at h
        cases hi : getDef o dies n m id true false with
        | error e => rw [hi] at h; cases h
        | ok p =>
          obtain ⟨i, m1⟩ := p
          rw [hi] at h
          dsimp only at h
          by_cases hf : i.factor ≠ 1
          · rw [if_pos hf] at h; cases h
          · rw [if_neg hf] at h
            cases hr : iterGlobals o dies n m1 ids with
            | error e => rw [hr] at h; cases h
            | ok r =>
              rw [hr] at h
              dsimp only at h
              obtain ⟨h1, h2⟩ := getDef_right hn ha hd n true false m id i m1 hm hi
              obtain ⟨a1, a2, a3⟩ := ih m1 r h1 hr
              have h3 := Except.ok.inj h
              have hsub : ∀ e ∈ r, e ∈ l := by
                intro e he
                rw [← h3]
                split
                · exact List.mem_cons_of_mem _ he
                · exact he
              refine ⟨?_, ?_, ?_⟩
              · rw [← h3]
                split
                · exact List.Sublist.cons_cons _ a1
                · exact List.Sublist.cons _ a1
              · intro e he
                rw [← h3] at he
                split at he
                · rename_i hpos
                  rcases List.mem_cons.mp he with rfl | he
                  · exact ⟨hpos, ⟨_, h2⟩, d, hx, hg, fun nm ht hnm hne => getDef_text hn ha hd hm hi hx ht hnm hne⟩
                  · exact a2 e he
                · exact a2 e he
              · intro id' hid d' hx' hg'
                rcases List.mem_cons.mp hid with rfl | hid
                · refine ⟨_, _, h2, fun hpos => ⟨i.text, ?_⟩⟩
                  rw [← h3, if_pos hpos]
                  exact List.mem_cons_self ..
                · obtain ⟨s, f, b1, b2⟩ := a3 id' hid d' hx' hg'
                  exact ⟨s, f, b1, fun hpos => by obtain ⟨t, b3⟩ := b2 hpos; exact ⟨t, hsub _ b3⟩⟩
      · rw [if_neg hg] at h
        obtain ⟨a1, a2, a3⟩ := ih m l hm h
        refine ⟨List.Sublist.cons _ a1, a2, ?_⟩
        intro id' hid d' hx' hg'
        rcases List.mem_cons.mp hid with rfl | hid
        · rw [hx] at hx'; cases hx'
          exact absurd hg' hg
        · exact a3 id' hid d' hx' hg'

end

/-- C101: the list of globals (with names and aliases) gives the sizes of variables and types, in the order of the debug information, and
lists each that has a name and a size. Holds for entries whose arrays have bounds and are only the types of named entries and of pointers
(C101_array_counterexample). -/
theorem C101_sizes_partial (o : TypeOpts) (hn : o.names = true) (ha : o.aliases = true) (dies : Dies) (hb : BoundedArrays dies)
    (hd : DirectArrays dies) (n : Nat) (ids : List Nat) (l : List (Str × Int × Nat)) (h : iterGlobals o dies n (fun _ => none) ids = .ok l) :
    (∀ text size id, (text, size, id) ∈ l → 0 < size ∧ ∀ s, SizeIs dies id s → size = s) ∧
    (∀ id ∈ ids, ∀ d s, dies id = some d → GlobalTag d → (∃ nm, NameIs d nm) → SizeIs dies id s → 0 < s → ∃ text, (text, s, id) ∈ l) ∧
    (l.map (fun e => e.2.2)).Sublist ids := by
  obtain ⟨h1, h2, h3⟩ := iterGlobals_lists hn ha hd n ids _ l rightDefs_none h
  refine ⟨?_, ?_, h1⟩
  · intro text size id he
    obtain ⟨a1, ⟨f, a2⟩, _⟩ := h2 _ he
    exact ⟨a1, fun s hs => shape_size hb hd hs a2⟩
  · intro id hid d s hx hg hnm hs hpos
    obtain ⟨s', f, a1, a2⟩ := h3 id hid d hx (isGlobal_iff.mpr ⟨hg, hnm⟩)
    have := shape_size hb hd hs a1
    subst this
    exact a2 hpos

/-- C101: under the same conditions the text of a variable ends with its name and, for arrays, with the number of elements. -/
theorem C101_text_partial (o : TypeOpts) (hn : o.names = true) (ha : o.aliases = true) (dies : Dies) (hb : BoundedArrays dies)
    (hd : DirectArrays dies) (n : Nat) (ids : List Nat) (l : List (Str × Int × Nat)) (h : iterGlobals o dies n (fun _ => none) ids = .ok l)
    (text : Str) (size : Int) (id : Nat) (hl : (text, size, id) ∈ l) (d : Die) (hx : dies id = some d) (ht : d.tag = "variable".toList)
    (nm : Str) (hnm : NameIs d nm) (hne : nm ≠ []) :
    (∀ t dt k, d.type = some t → dies t = some dt → dt.tag = "array_type".toList → Elements dies dt.children k → k ≠ 1 →
      ∃ pre, text = pre ++ nm ++ '[' :: intText k ++ [']']) ∧
    ((∀ t dt, d.type = some t → dies t = some dt → dt.tag ≠ "array_type".toList) → ∃ pre, text = pre ++ nm) := by
  obtain ⟨_, h2, _⟩ := iterGlobals_lists hn ha hd n ids _ l rightDefs_none h
  obtain ⟨_, _, d', hx', _, h3⟩ := h2 _ hl
  rw [hx] at hx'; cases hx'
  obtain ⟨pre, s, f, h4, h5⟩ := h3 nm ht hnm hne
  dsimp only at h4
  constructor
  · intro t dt k a1 a2 a3 a4 a5
    rcases h5 with ⟨b1, _, _⟩ | ⟨t', b1, b2⟩
    · rw [b1 t a1] at a2; cases a2
    · rw [a1] at b1; cases b1
      refine ⟨pre, ?_⟩
      rw [h4, shape_elements hb hd b2 a2 a3 a4]
      unfold factorText
      rw [if_pos a5]
      simp only [List.append_assoc, List.cons_append]
  · intro hna
    have : f = 1 := by
      rcases h5 with ⟨_, _, b⟩ | ⟨t', b1, b2⟩
      · exact b
      · obtain ⟨dt, hdt⟩ := b2.known
        exact shape_factor hd b2 hdt (hna t' dt b1 hdt)
    refine ⟨pre, ?_⟩
    rw [h4, this]
    exact List.append_nil _

/-- C101: the list is complete if no entry needs itself, with a depth of recursion bounded by the nesting (as C86): stored sizes never
differ and no number of elements is left. -/
theorem C101_succeeds_partial (o : TypeOpts) (hn : o.names = true) (ha : o.aliases = true) (dies : Dies) (hd : DirectArrays dies)
    (hc : CompleteChildren dies) (rank : Nat → Bool → Nat) (hr : ∀ id r id' r', Needs dies id r id' r' → rank id' r' < rank id r) (n : Nat)
    (ids : List Nat) (hk : ∀ id ∈ ids, ∃ d, dies id = some d) (hrank : ∀ id ∈ ids, rank id true < n) :
    ∃ l, iterGlobals o dies n (fun _ => none) ids = .ok l := by
  have gen : ∀ m, RightDefs dies m → ∃ l, iterGlobals o dies n m ids = .ok l := by
    induction ids with
    | nil => exact fun m _ => ⟨_, rfl⟩
    | cons id ids ih =>
      intro m hm
      have ih := ih (fun i hi => hk i (List.mem_cons_of_mem _ hi)) (fun i hi => hrank i (List.mem_cons_of_mem _ hi))
      obtain ⟨d, hx⟩ := hk id (List.mem_cons_self ..)
      rw [iterGlobals, hx]
      dsimp only
      by_cases hg : isGlobal d = true
      · rw [if_pos hg]
        obtain ⟨⟨i, m1⟩, h1⟩ := getDef_total hn ha hd hc rank hr n id true false (hrank id (List.mem_cons_self ..)) ⟨d, hx⟩ m hm
        obtain ⟨h2, h3⟩ := getDef_right hn ha hd n true false m id i m1 hm h1
        have hna : d.tag ≠ "array_type".toList := by
          obtain hg := (isGlobal_iff.mp hg).1
          unfold GlobalTag at hg
          intro e
          rw [e] at hg
          revert hg
          decide
        rw [h1]
        dsimp only
        rw [if_neg (by rw [shape_factor hd h3 hx hna]; decide)]
        obtain ⟨l, h4⟩ := ih m1 h2
        rw [h4]
        exact ⟨_, rfl⟩
      · rw [if_neg hg]
        exact ih m hm
  exact gen _ rightDefs_none

/-! ### Sizes of types -/

theorem arrayText_elements {dies : Dies} (cs : List Nat) (i h : Str) (f : Int) (hb : ∀ c ∈ cs, ∀ r, dies c = some r →
      r.tag = "subrange_type".toList → r.count = none ∧ r.upper_bound ≠ none) (ht : arrayText dies cs = .ok (i, h, f)) (n : Int)
    (hn : Elements dies cs n) : f = n := by
  induction hn generalizing i h f with
  | nil =>
    cases ht
    rfl
  | @range c cs r n k' h1 h2 h3 h4 ih =>
    rw [arrayText, h1] at ht
    dsimp only at ht
    cases hx : arrayText dies cs with
    | error e => rw [hx] at ht; cases ht
    | ok q =>
      obtain ⟨i', h', f'⟩ := q
      rw [hx] at ht
      dsimp only at ht
      rw [if_pos h2] at ht
      cases ht
      rw [ih i' h' f' (fun c hc => hb c (List.mem_cons_of_mem _ hc)) hx]
      obtain ⟨h5, h6⟩ := hb c (List.mem_cons_self ..) r h1 h2
      rcases h3 with h3 | ⟨_, u, h7, h8⟩
      · rw [h5] at h3; cases h3
      · rw [h8, h7]
        cases r.lower_bound <;> rfl
  | @other c cs r k' h1 h2 h3 ih =>
    rw [arrayText, h1] at ht
    dsimp only at ht
    cases hx : arrayText dies cs with
    | error e => rw [hx] at ht; cases ht
    | ok q =>
      obtain ⟨i', h', f'⟩ := q
      rw [hx] at ht
      dsimp only at ht
      rw [if_neg h2] at ht
      cases ht
      exact ih _ _ _ (fun c hc => hb c (List.mem_cons_of_mem _ hc)) hx

/-- C101: the size of a type (as used for the list of variables and for summaries) is the one of the standard, for all options, provided that
arrays have bounds (C101_count_counterexample). -/
theorem C101_types_partial (o : TypeOpts) (dies : Dies) (hb : BoundedArrays dies) (id : Nat) (r : Bool) (t : TypeInfo)
    (ht : HasType o dies id r t) (s : Int) (hs : SizeIs dies id s) : t.size = s := by
  obtain ⟨n, ht⟩ := ht
  induction hs generalizing n r t with
  | @bytes id d s h1 h2 =>
    cases n with
    | zero => cases ht
    | succ n =>
      obtain ⟨d', ms, ty, h3, h4, h5, h6⟩ := typeOf_succ.mp ht
      rw [h1] at h3; cases h3
      have hn : d.tag ≠ "array_type".toList := fun e => by rw [(hb id d h1 e).1] at h2; cases h2
      unfold finishType at h6
      rw [if_neg hn] at h6
      dsimp only at h6
      split at h6
      · cases h6
      · cases h6
        rw [h2]
        exact Int.one_mul _
  | @array id d tt s k h1 h2 h3 h4 h5 h6 ih =>
    cases n with
    | zero => cases ht
    | succ n =>
      obtain ⟨d', ms, ty, a1, a2, a3, a4⟩ := typeOf_succ.mp ht
      rw [h1] at a1; cases a1
      have : ∃ dt, dies tt = some dt := by cases h5 <;> exact ⟨_, by assumption⟩
      obtain ⟨dt, hdt⟩ := this
      unfold typePart at a3
      rw [h4] at a3
      dsimp only at a3
      rw [hdt] at a3
      dsimp only at a3
      obtain ⟨ti, a5, a6⟩ := map_ok a3
      subst a6
      have a7 := ih _ ti n a5
      unfold finishType at a4
      rw [if_pos h3] at a4
      cases hx : arrayText dies d.children with
      | error e => rw [hx] at a4; cases a4
      | ok q =>
        obtain ⟨i', h', f'⟩ := q
        rw [hx] at a4
        dsimp only at a4
        have a8 := arrayText_elements _ _ _ _ (hb id d h1 h3).2 hx k h6
        split at a4
        · cases a4
        · rw [← Except.ok.inj a4, h2, a8]
          dsimp only
          rw [show (none : Option Int).getD (refSize (some (some ti))) = ti.size from rfl, a7]
  | @same id d tt s h1 h2 h3 h4 h5 ih =>
    cases n with
    | zero => cases ht
    | succ n =>
      obtain ⟨d', ms, ty, a1, a2, a3, a4⟩ := typeOf_succ.mp ht
      rw [h1] at a1; cases a1
      have hn : d.tag ≠ "array_type".toList := fun e => by rw [e] at h3; revert h3; decide
      have : ∃ dt, dies tt = some dt := by cases h5 <;> exact ⟨_, by assumption⟩
      obtain ⟨dt, hdt⟩ := this
      unfold typePart at a3
      rw [h4] at a3
      dsimp only at a3
      rw [hdt] at a3
      dsimp only at a3
      obtain ⟨ti, a5, a6⟩ := map_ok a3
      subst a6
      have a7 := ih _ ti n a5
      unfold finishType at a4
      rw [if_neg hn] at a4
      dsimp only at a4
      split at a4
      · cases a4
      · rw [← Except.ok.inj a4, h2]
        dsimp only
        rw [show (none : Option Int).getD (refSize (some (some ti))) = ti.size from rfl, a7]
        exact Int.one_mul _

/-! ### Examples -/

def exDefOpts : TypeOpts where
  H := fun s => s
  names := true
  aliases := true

/-- `typedef struct list { struct list *next; int value[3][4]; } list_t; list_t head[2]; const int limit;` -/
def exGlobals : Dies := exDies
  [(1, { tag := "structure_type".toList, name := some "list".toList, byte_size := some 56, children := [2, 3] }),
   (2, { tag := "member".toList, name := some "next".toList, type := some 4, location := some ['0'] }),
   (3, { tag := "member".toList, name := some "value".toList, type := some 5, location := some ['8'] }),
   (4, { tag := "pointer_type".toList, byte_size := some 8, type := some 1 }),
   (5, { tag := "array_type".toList, type := some 8, children := [6, 7] }),
   (6, { tag := "subrange_type".toList, upper_bound := some 2 }),
   (7, { tag := "subrange_type".toList, upper_bound := some 3 }),
   (8, { tag := "base_type".toList, name := some "int".toList, byte_size := some 4, encoding := some "signed".toList }),
   (9, { tag := "typedef".toList, name := some "list_t".toList, type := some 1 }),
   (10, { tag := "array_type".toList, type := some 9, children := [11] }),
   (11, { tag := "subrange_type".toList, upper_bound := some 1 }),
   (12, { tag := "variable".toList, name := some "head".toList, type := some 10 }),
   (13, { tag := "const_type".toList, type := some 8 }),
   (14, { tag := "variable".toList, name := some "limit".toList, type := some 13 })]

def exGlobalIds : List Nat := [1, 2, 3, 4, 5, 6, 7, 8, 9, 10, 11, 12, 13, 14]

def shownDefs (r : Except TypeError (List (Str × Int × Nat))) : List (String × Int) :=
  match r with
  | .ok l => l.map (fun e => (String.ofList e.1, e.2.1))
  | .error _ => []

example : shownDefs (iterGlobals exDefOpts exGlobals 20 (fun _ => none) exGlobalIds) =
    [("struct list { struct list* next;  /* offset 0 */int value[12];  /* offset 8 */}", 56),
     ("struct list { struct list* next;  /* offset 0 */int value[12];  /* offset 8 */} head[2]", 112),
     ("const int limit", 4)] := by decide +kernel

/-- Statements about all values of an option. -/
instance decAllSome {α : Type} (x : Option α) (P : α → Prop) [DecidablePred P] : Decidable (∀ a, x = some a → P a) :=
  match x with
  | none => isTrue (fun _ h => by cases h)
  | some a => if h : P a then isTrue (fun _ e => by cases e; exact h) else isFalse (fun f => h (f a rfl))

instance decExSome {α : Type} (x : Option α) (P : α → Prop) [DecidablePred P] : Decidable (∃ a, x = some a ∧ P a) :=
  match x with
  | none => isFalse (fun ⟨_, h, _⟩ => by cases h)
  | some a => if h : P a then isTrue ⟨a, rfl, h⟩ else isFalse (fun ⟨_, e, f⟩ => by cases e; exact h f)

theorem exDies_all {l : List (Nat × Die)} {P : Nat → Die → Prop} (h : ∀ p ∈ l, P p.1 p.2) (id : Nat) (d : Die) (hd : exDies l id = some d) :
    P id d := h _ (exDies_mem hd)

theorem exGlobals_bounded : BoundedArrays exGlobals :=
  exDies_all (by decide +kernel)

theorem exGlobals_complete : CompleteChildren exGlobals :=
  exDies_all (by decide +kernel)

theorem exGlobals_direct : DirectArrays exGlobals := by
  have key : ∀ id d, exGlobals id = some d → (d.tag = "array_type".toList → d.name = none ∧ d.linkage_name = none) ∧
      ∀ t, d.type = some t → ∀ dt, exGlobals t = some dt → dt.tag = "array_type".toList →
        d.tag = "pointer_type".toList ∨ ((∃ n, d.name = some n ∧ n ≠ []) ∧ d.tag ≠ "typedef".toList ∧ d.tag ∈ sameSizeTags) :=
    exDies_all (by decide +kernel)
  intro id d h
  obtain ⟨h1, h2⟩ := key id d h
  refine ⟨h1, fun t dt a b c => ?_⟩
  rcases h2 t a dt b c with h | ⟨⟨n, h3, h4⟩, h5⟩
  · exact .inl h
  · exact .inr ⟨⟨n, .inl h3, h4⟩, h5⟩

/-- The size of the variable `head`: two entries of 56 bytes. -/
theorem exGlobals_head : SizeIs exGlobals 12 112 := by
  refine .same (d := ⟨"variable".toList, some "head".toList, none, some 10, [], none, none, none, none, none, none, none⟩) (t := 10) rfl rfl
    (by decide) rfl ?_
  have h : SizeIs exGlobals 10 (2 * 1 * 56) := by
    refine .array (d := ⟨"array_type".toList, none, none, some 9, [11], none, none, none, none, none, none, none⟩) (t := 9) (s := 56)
      (k := 2 * 1) rfl rfl rfl rfl ?_ ?_
    · refine .same (d := ⟨"typedef".toList, some "list_t".toList, none, some 1, [], none, none, none, none, none, none, none⟩) (t := 1) rfl rfl
        (by decide) rfl ?_
      exact .bytes rfl rfl
    · exact .range rfl rfl (.inr ⟨rfl, 1, rfl, rfl⟩) .nil
  exact h

def exGlobalRank (id : Nat) (resolve : Bool) : Nat :=
  if id = 1 ∧ resolve = false then 0 else [0, 3, 2, 2, 1, 1, 0, 0, 0, 4, 5, 0, 6, 1, 2].getD id 0

theorem exGlobals_ranked (id : Nat) (r : Bool) (id' : Nat) (r' : Bool) (h : Needs exGlobals id r id' r') :
    exGlobalRank id' r' < exGlobalRank id r := by
  have key : ∀ id d, exGlobals id = some d → ∀ r : Bool,
      (∀ t, d.type = some t → exGlobalRank t (r && d.tag != "pointer_type".toList) < exGlobalRank id r) ∧
      ((r && d.tag != "pointer_type".toList) = true → isComposite d.tag = true → ∀ c ∈ d.children, exGlobalRank c true < exGlobalRank id r) :=
    exDies_all (by decide +kernel)
  obtain ⟨d, d', h1, h2, rfl, h3⟩ := h
  obtain ⟨k1, k2⟩ := key id d h1 r
  rcases h3 with h3 | ⟨h3, h4, h5, _⟩
  · exact k1 id' h3
  · rw [h3]
    exact k2 h3 (isComposite_iff.mpr h4) id' h5

example : ∃ l, iterGlobals exDefOpts exGlobals 7 (fun _ => none) exGlobalIds = .ok l ∧ (∃ text, (text, 112, 12) ∈ l) ∧
    ∀ text size, (text, size, 12) ∈ l → size = 112 ∧ ∃ pre, text = pre ++ "head[2]".toList := by
  obtain ⟨l, h⟩ := C101_succeeds_partial exDefOpts rfl rfl exGlobals exGlobals_direct exGlobals_complete exGlobalRank exGlobals_ranked 7
    exGlobalIds (fun id hid => Option.isSome_iff_exists.mp (by revert id; decide +kernel)) (by decide +kernel)
  obtain ⟨h1, h2, _⟩ := C101_sizes_partial exDefOpts rfl rfl exGlobals exGlobals_bounded exGlobals_direct 7 exGlobalIds l h
  refine ⟨l, h, h2 12 (by decide) _ 112 rfl (by show _ ∈ _; decide) ⟨"head".toList, .inl rfl⟩ exGlobals_head (by decide), ?_⟩
  intro text size hl
  refine ⟨(h1 text size 12 hl).2 112 exGlobals_head, ?_⟩
  obtain ⟨pre, e⟩ := (C101_text_partial exDefOpts rfl rfl exGlobals exGlobals_bounded exGlobals_direct 7 exGlobalIds l h text size 12 hl _ rfl rfl
    "head".toList (.inl rfl) (by decide)).1 10 _ (2 * 1) rfl rfl rfl (.range rfl rfl (.inr ⟨rfl, 1, rfl, rfl⟩) .nil) (by decide)
  exact ⟨pre, by rw [e, List.append_assoc, List.append_assoc]; rfl⟩

example : ∃ t, HasType exDefOpts exGlobals 12 true t ∧ t.size = 112 := by
  have h : ∃ t, typeOf exDefOpts exGlobals 9 12 true = .ok t := by
    have : ∀ x : Except TypeError TypeInfo, x.toOption.isSome = true → ∃ t, x = .ok t := by
      intro x hx
      cases x with
      | error e => cases hx
      | ok t => exact ⟨t, rfl⟩
    exact this _ (by decide +kernel)
  obtain ⟨t, h⟩ := h
  exact ⟨t, ⟨9, h⟩, C101_types_partial exDefOpts exGlobals exGlobals_bounded 12 true t ⟨9, h⟩ 112 exGlobals_head⟩

/-! ### Wrong sizes -/

/-- `const int a[4];` as a variable of a constant type that refers to an array, or the same with a `typedef`: 16 bytes. -/
def exConstArray (tag : String) : Dies := exDies
  [(1, { tag := "base_type".toList, name := some "int".toList, byte_size := some 4 }),
   (2, { tag := "array_type".toList, type := some 1, children := [3] }),
   (3, { tag := "subrange_type".toList, upper_bound := some 3 }),
   (4, { tag := tag.toList, name := if tag = "typedef" then some "quad".toList else none, type := some 2 }),
   (5, { tag := "variable".toList, name := some "a".toList, type := some 4 })]

theorem exConstArray_size (tag : String) (h : tag.toList ∈ sameSizeTags) : SizeIs (exConstArray tag) 5 16 := by
  refine .same (d := ⟨"variable".toList, some "a".toList, none, some 4, [], none, none, none, none, none, none, none⟩) (t := 4) rfl rfl
    (by decide) rfl ?_
  refine .same (d := ⟨tag.toList, if tag = "typedef" then some "quad".toList else none, none, some 2, [], none, none, none, none, none, none,
    none⟩) (t := 2) rfl rfl h rfl ?_
  have h : SizeIs (exConstArray tag) 2 (4 * 1 * 4) := by
    refine .array (d := ⟨"array_type".toList, none, none, some 1, [3], none, none, none, none, none, none, none⟩) (t := 1) (s := 4)
      (k := 4 * 1) rfl rfl rfl rfl ?_ ?_
    · exact .bytes rfl rfl
    · exact .range rfl rfl (.inr ⟨rfl, 3, rfl, rfl⟩) .nil
  exact h

/-- The number of elements of an array behind `const` or another name is multiplied twice: an array of 16 bytes has 64 bytes. -/
theorem C101_array_counterexample :
    SizeIs (exConstArray "const_type") 5 16 ∧ SizeIs (exConstArray "typedef") 5 16 ∧
    shownDefs (iterGlobals exDefOpts (exConstArray "const_type") 9 (fun _ => none) [1, 2, 3, 4, 5]) = [("const int a[4]", 64)] ∧
    shownDefs (iterGlobals exDefOpts (exConstArray "typedef") 9 (fun _ => none) [1, 2, 3, 4, 5]) = [("int a[4]", 64)] :=
  ⟨exConstArray_size _ (by decide), exConstArray_size _ (by decide), by decide +kernel, by decide +kernel⟩

/-- `int v[4]; typedef int num; num x;` -/
def exOptions : Dies := exDies
  [(1, { tag := "base_type".toList, name := some "int".toList, byte_size := some 4 }),
   (2, { tag := "array_type".toList, type := some 1, children := [3] }),
   (3, { tag := "subrange_type".toList, upper_bound := some 3 }),
   (4, { tag := "variable".toList, name := some "v".toList, type := some 2 }),
   (5, { tag := "typedef".toList, name := some "num".toList, type := some 1 }),
   (6, { tag := "variable".toList, name := some "x".toList, type := some 5 })]

/-- Without names the list ends with a failed assertion at the first array. Without aliases variables of a type with another name are
missing. -/
theorem C101_options_counterexample :
    iterGlobals { exDefOpts with names := false } exOptions 9 (fun _ => none) [1, 2, 3, 4, 5, 6] = .error .assertion ∧
    shownDefs (iterGlobals { exDefOpts with aliases := false } exOptions 9 (fun _ => none) [1, 2, 3, 4, 5, 6]) = [("int v[4]", 16)] ∧
    SizeIs exOptions 6 4 := by
  refine ⟨rfl, by decide +kernel, ?_⟩
  refine .same (d := ⟨"variable".toList, some "x".toList, none, some 5, [], none, none, none, none, none, none, none⟩) (t := 5) rfl rfl
    (by decide) rfl ?_
  refine .same (d := ⟨"typedef".toList, some "num".toList, none, some 1, [], none, none, none, none, none, none, none⟩) (t := 1) rfl rfl
    (by decide) rfl ?_
  exact .bytes rfl rfl

/-- `char buffer[n];` of a compiler that stores the number of elements. -/
def exCounted (n : Int) : Dies := exDies
  [(1, { tag := "base_type".toList, name := some "char".toList, byte_size := some 1 }),
   (2, { tag := "array_type".toList, type := some 1, children := [3] }),
   (3, { tag := "subrange_type".toList, count := some n })]

/-- Arrays that are stored with their number of elements are taken for arrays of one element: the size is wrong, and arrays of different
length have the same identifier and the same hash, whatever the options. -/
theorem C101_count_counterexample (o : TypeOpts) (n : Int) : SizeIs (exCounted n) 2 n ∧
    ∃ t, t.size = 1 ∧ ∀ k, HasType o (exCounted k) 2 true t := by
  constructor
  · have h : SizeIs (exCounted n) 2 (n * 1 * 1) := by
      refine .array (d := ⟨"array_type".toList, none, none, some 1, [3], none, none, none, none, none, none, none⟩) (t := 1) (s := 1)
        (k := n * 1) rfl rfl rfl rfl ?_ ?_
      · exact .bytes rfl rfl
      · exact .range rfl rfl (.inl rfl) .nil
    rw [Int.mul_one, Int.mul_one] at h
    exact h
  · have h : ∃ t, typeOf o (exCounted 0) 3 2 true = .ok t ∧ t.size = 1 := ⟨_, rfl, rfl⟩
    obtain ⟨t, h1, h2⟩ := h
    exact ⟨t, h2, fun k => ⟨3, h1⟩⟩

end Bean.Props

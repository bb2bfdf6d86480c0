import Verif.Props.DwarfDefs
/-
C140: what is constant in the definitions of global variables.
-/
namespace Bean.Props

open Bean

/-- Types of base types, pointers and constants. -/
inductive CTy where
  | base (n : Str)
  | ptr (t : CTy)
  | const (t : CTy)
deriving DecidableEq, Repr

/-- The type that an entry describes. -/
inductive TyAt (dies : Dies) : Nat → CTy → Prop
  | base {id : Nat} {d : Die} {n : Str} : dies id = some d → d.tag = "base_type".toList → d.type = none → d.name = some n → n ≠ [] → TyAt dies id (.base n)
  | ptr {id t : Nat} {d : Die} {ty : CTy} : dies id = some d → d.tag = "pointer_type".toList → d.type = some t → d.name = none → d.linkage_name = none →
      TyAt dies t ty → TyAt dies id (.ptr ty)
  | const {id t : Nat} {d : Die} {ty : CTy} : dies id = some d → d.tag = "const_type".toList → d.type = some t → d.name = none → d.linkage_name = none →
      TyAt dies t ty → TyAt dies id (.const ty)

/-- Name of the base type. -/
def CTy.root : CTy → Str
  | .base n => n
  | .ptr t | .const t => t.root

/-- Number of pointers. -/
def CTy.stars : CTy → Nat
  | .base _ => 0
  | .ptr t => t.stars + 1
  | .const t => t.stars

/-- Is there something constant? -/
def CTy.hasConst : CTy → Bool
  | .base _ => false
  | .ptr t => t.hasConst
  | .const _ => true

/-- The text with one mark for everything that is constant. -/
def CTy.marked (t : CTy) (skip : Bool) : Str :=
  (if t.hasConst && !skip then "const ".toList else []) ++ t.root ++ List.replicate t.stars '*'

theorem at_known {dies : Dies} {id : Nat} {ty : CTy} (h : TyAt dies id ty) : ∃ d, dies id = some d := by
  cases h <;> exact ⟨_, ‹_›⟩

theorem root_ne {dies : Dies} {id : Nat} {ty : CTy} (h : TyAt dies id ty) : ty.root ≠ [] := by
  induction h with
  | base _ _ _ _ hn => exact hn
  | ptr _ _ _ _ _ _ ih => exact ih
  | const _ _ _ _ _ _ ih => exact ih

theorem marked_skip (t : CTy) : t.marked true = t.root ++ List.replicate t.stars '*' := by
  unfold CTy.marked
  simp

theorem marked_ptr (t : CTy) (s : Bool) : (CTy.ptr t).marked s = t.marked s ++ ['*'] := by
  show _ ++ _ ++ List.replicate (t.stars + 1) '*' = _
  rw [List.replicate_succ', ← List.append_assoc]
  rfl

theorem marked_const (t : CTy) (s : Bool) : (CTy.const t).marked s = (if s then [] else "const ".toList) ++ t.marked true := by
  rw [marked_skip, ← List.append_assoc]
  cases s <;> rfl

theorem marked_base (n : Str) (s : Bool) : (CTy.base n).marked s = n := by
  show [] ++ n ++ [] = n
  rw [List.nil_append, List.append_nil]

theorem storeDef_info {m m' : DefMemo} {id : Nat} {i j : DefInfo} (h : storeDef m id i = .ok (j, m')) : j = i := by
  unfold storeDef at h
  split at h
  · split at h
    · cases h; rfl
    · cases h
  · cases h; rfl

/-- An entry with a type, in parts. -/
theorem getDef_parts {o : TypeOpts} {dies : Dies} {n : Nat} {m m' : DefMemo} {id : Nat} {r s : Bool} {i : DefInfo} {d : Die} (hd : dies id = some d) (hc : isComposite d.tag = false)
    (h : getDef o dies (n + 1) m id r s = .ok (i, m')) : ∃ ref m1, defRef o dies (fun m t => getDef o dies n m t (resolveIn d r) (skipIn d s)) d m = .ok (ref, m1) ∧
      finishDef o dies d (resolveIn d r) (defStart d s) ref = .ok i := by
  rw [getDef, hd] at h
  dsimp only at h
  have hb : ∀ get, defBody dies get d (resolveIn d r) s m = .ok (defStart d s, m) := by
    intro get
    unfold defBody
    rw [hc]
    rfl
  rw [hb] at h
  dsimp only at h
  split at h
  · cases h
  · rename_i ref m1 hr
    split at h
    · cases h
    · rename_i j hj
      rw [storeDef_info h]
      exact ⟨ref, m1, hr, hj⟩

theorem defRef_some {o : TypeOpts} {dies : Dies} {get : DefMemo → Nat → Except TypeError (DefInfo × DefMemo)} {d dt : Die} {m : DefMemo} {t : Nat} (ht : d.type = some t)
    (hx : dies t = some dt) (hn : d.tag ≠ "typedef".toList) : defRef o dies get d m = get m t := by
  unfold defRef
  rw [ht]
  dsimp only
  rw [if_neg (fun h => hn h.1), hx]

theorem getDef_marked {o : TypeOpts} (ho : o.names = true) {dies : Dies} {id : Nat} {ty : CTy} (h : TyAt dies id ty) : ∀ (n : Nat) (m m' : DefMemo) (r s : Bool) (i : DefInfo),
    getDef o dies n m id r s = .ok (i, m') → i.text = ty.marked s ∧ i.factor = 1 := by
  induction h with
  | @base id d nm hd ht hty hnm hne =>
    intro n m m' r s i h
    cases n with
    | zero => cases h
    | succ n =>
      obtain ⟨ref, m1, h1, h2⟩ := getDef_parts hd (by rw [ht]; decide) h
      unfold defRef at h1
      rw [hty] at h1
      cases h1
      have e1 : defStart d s = [] := by unfold defStart; rw [ht]; cases s <;> decide
      have e2 : defFactor dies d 1 = .ok 1 := by unfold defFactor; rw [ht]; rfl
      have e3 : ∀ x, pointerText d x = x := by intro x; unfold pointerText; rw [ht]; exact if_neg (by decide)
      have e4 : nameBehind o d (resolveIn d r) = some nm := by
        unfold nameBehind
        have hc : isComposite d.tag = false := by rw [ht]; decide
        have ht' : (d.tag != "typedef".toList) = true := by rw [ht]; decide
        rw [hc, ho, ht']
        unfold declName
        rw [hnm]
        simp [hne]
      unfold finishDef at h2
      dsimp only at h2
      rw [e2] at h2
      dsimp only at h2
      unfold defNamed at h2
      rw [e1, e3, e4] at h2
      cases h2
      refine ⟨?_, rfl⟩
      rw [marked_base]
      show [] ++ [] ++ nm ++ [] = nm
      rw [List.append_nil]
      rfl
  | @ptr id t d ty hd ht hty hnm hln hat ih =>
    intro n m m' r s i h
    cases n with
    | zero => cases h
    | succ n =>
      obtain ⟨ref, m1, h1, h2⟩ := getDef_parts hd (by rw [ht]; decide) h
      obtain ⟨dt, hdt⟩ := at_known hat
      rw [defRef_some hty hdt (by rw [ht]; decide)] at h1
      have hs : skipIn d s = s := by
        have : (decide (d.tag = "const_type".toList)) = false := by rw [ht]; decide
        unfold skipIn; rw [this, Bool.or_false]
      rw [hs] at h1
      obtain ⟨i1, i2⟩ := ih _ _ _ _ _ _ h1
      have e1 : defStart d s = [] := by unfold defStart; rw [ht]; cases s <;> decide
      have e2 : defFactor dies d ref.factor = .ok 1 := by unfold defFactor; rw [ht]; rfl
      have hne : ref.text ≠ [] := by
        rw [i1]
        unfold CTy.marked
        intro h
        exact root_ne hat (List.append_eq_nil_iff.mp (List.append_eq_nil_iff.mp h).1).2
      have e3 : pointerText d ref.text = ref.text ++ ['*'] := by
        unfold pointerText
        rw [if_pos ht, if_neg]
        rintro (h | h)
        · rw [hty] at h; cases h
        · exact hne h
      have e4 : nameBehind o d (resolveIn d r) = none := by
        unfold nameBehind declName
        rw [hnm, hln]
        simp
      unfold finishDef at h2
      rw [e2] at h2
      dsimp only at h2
      unfold defNamed at h2
      rw [e1, List.nil_append, e3, e4] at h2
      cases h2
      refine ⟨?_, rfl⟩
      dsimp only
      rw [i1, marked_ptr]
  | @const id t d ty hd ht hty hnm hln hat ih =>
    intro n m m' r s i h
    cases n with
    | zero => cases h
    | succ n =>
      obtain ⟨ref, m1, h1, h2⟩ := getDef_parts hd (by rw [ht]; decide) h
      obtain ⟨dt, hdt⟩ := at_known hat
      rw [defRef_some hty hdt (by rw [ht]; decide)] at h1
      have hs : skipIn d s = true := by
        unfold skipIn; rw [ht]; simp
      rw [hs] at h1
      obtain ⟨i1, i2⟩ := ih _ _ _ _ _ _ h1
      have e1 : defStart d s = if s then [] else "const ".toList := by unfold defStart; rw [ht]; cases s <;> decide
      have e2 : defFactor dies d ref.factor = .ok 1 := by unfold defFactor; rw [ht, i2]; rfl
      have e3 : ∀ x, pointerText d x = x := by intro x; unfold pointerText; rw [ht]; exact if_neg (by decide)
      have e4 : nameBehind o d (resolveIn d r) = none := by
        unfold nameBehind declName
        rw [hnm, hln]
        simp
      unfold finishDef at h2
      rw [e2] at h2
      dsimp only at h2
      unfold defNamed at h2
      rw [e1, e3, e4] at h2
      cases h2
      refine ⟨?_, rfl⟩
      dsimp only
      rw [i1, marked_const]

/-- **C140**: the definition of a variable has the name of the base type and a star for each pointer. `const` is there once, at the start, if anything is constant. -/
theorem C140_text_partial (o : TypeOpts) (ho : o.names = true) (dies : Dies) (n : Nat) (ids : List Nat) (l : List (Str × Int × Nat))
    (h : iterGlobals o dies n (fun _ => none) ids = .ok l) (text : Str) (size : Int) (id : Nat) (hl : (text, size, id) ∈ l) (d : Die) (hx : dies id = some d)
    (htag : d.tag = "variable".toList) (nm : Str) (hnm : d.name = some nm) (hne : nm ≠ []) (t : Nat) (ht : d.type = some t) (ty : CTy) (hty : TyAt dies t ty) :
    text = (if ty.hasConst then "const ".toList else []) ++ ty.root ++ List.replicate ty.stars '*' ++ ' ' :: nm := by
  have one : ∀ (n : Nat) (m m' : DefMemo) (i : DefInfo), getDef o dies n m id true false = .ok (i, m') → i.text = ty.marked false ++ ' ' :: nm := by
    intro n m m' i h
    cases n with
    | zero => cases h
    | succ n =>
      obtain ⟨ref, m1, h1, h2⟩ := getDef_parts hx (by rw [htag]; decide) h
      obtain ⟨dt, hdt⟩ := at_known hty
      rw [defRef_some ht hdt (by rw [htag]; decide)] at h1
      have hs : skipIn d false = false := by unfold skipIn; rw [htag]; decide
      rw [hs] at h1
      obtain ⟨i1, i2⟩ := getDef_marked ho hty _ _ _ _ _ _ h1
      have e1 : defStart d false = [] := by unfold defStart; rw [htag]; decide
      have e2 : defFactor dies d ref.factor = .ok 1 := by unfold defFactor; rw [htag, i2]; rfl
      have e3 : ∀ x, pointerText d x = x := by intro x; unfold pointerText; rw [htag]; exact if_neg (by decide)
      have e4 : nameBehind o d (resolveIn d true) = some nm := by
        unfold nameBehind
        have hc : isComposite d.tag = false := by rw [htag]; decide
        have ht' : (d.tag != "typedef".toList) = true := by rw [htag]; decide
        rw [hc, ho, ht']
        unfold declName
        rw [hnm]
        simp [hne]
      have hne' : ref.text ≠ [] := by
        rw [i1]
        unfold CTy.marked
        intro h
        exact root_ne hty (List.append_eq_nil_iff.mp (List.append_eq_nil_iff.mp h).1).2
      unfold finishDef at h2
      rw [e2] at h2
      dsimp only at h2
      unfold defNamed at h2
      rw [e1, e3, e4, List.nil_append] at h2
      cases h2
      dsimp only
      rw [if_neg hne', i1]
      simp [factorText]
  have gen : ∀ (ids : List Nat) (m : DefMemo) (l : List (Str × Int × Nat)), iterGlobals o dies n m ids = .ok l → (text, size, id) ∈ l → text = ty.marked false ++ ' ' :: nm := by
    intro ids
    induction ids with
    | nil =>
      intro m l h hl
      cases h
      cases hl
    | cons j ids ih =>
      intro m l h hl
      rw [iterGlobals] at h
      split at h
      · cases h
      · split at h
        · split at h
          · cases h
          · rename_i i m' hg
            split at h
            · cases h
            · split at h
              · cases h
              · rename_i r hr
                cases h
                split at hl
                · rcases List.mem_cons.mp hl with e | hl
                  · injection e with e1 e2
                    injection e2 with e2 e3
                    subst e3
                    rw [e1]
                    exact one _ _ _ _ hg
                  · exact ih _ _ hr hl
                · exact ih _ _ hr hl
        · exact ih _ _ h hl
  have := gen ids _ l h hl
  rw [this]
  unfold CTy.marked
  simp

/-- `char *const p`, `const char *q` and `const char *const r`, all of them with base type `char`. -/
def exConsts : Dies := exDies
  [(1, { tag := "base_type".toList, name := some "char".toList, byte_size := some 1 }),
   (2, { tag := "const_type".toList, type := some 1 }),
   (3, { tag := "pointer_type".toList, type := some 1, byte_size := some 8 }),
   (4, { tag := "pointer_type".toList, type := some 2, byte_size := some 8 }),
   (5, { tag := "const_type".toList, type := some 3 }),
   (6, { tag := "const_type".toList, type := some 4 }),
   (7, { tag := "variable".toList, name := some "p".toList, type := some 5 }),
   (8, { tag := "variable".toList, name := some "q".toList, type := some 4 }),
   (9, { tag := "variable".toList, name := some "r".toList, type := some 6 }),
   (10, { tag := "const_type".toList }),
   (11, { tag := "pointer_type".toList, type := some 10, byte_size := some 8 }),
   (12, { tag := "variable".toList, name := some "v".toList, type := some 11 }),
   (13, { tag := "const_type".toList, type := some 2 }),
   (14, { tag := "variable".toList, name := some "c".toList, type := some 13 })]

/-- C140 is false: constant pointers, pointers to constants and both have the same definition, which is the one of a pointer to constants. -/
theorem C140_place_counterexample : TyAt exConsts 5 (.const (.ptr (.base "char".toList))) ∧ TyAt exConsts 4 (.ptr (.const (.base "char".toList))) ∧
    TyAt exConsts 6 (.const (.ptr (.const (.base "char".toList)))) ∧
    shownDefs (iterGlobals exDefOpts exConsts 9 (fun _ => none) [7, 8, 9]) = [("const char* p", 8), ("const char* q", 8), ("const char* r", 8)] := by
  have h1 : TyAt exConsts 1 (.base "char".toList) := .base rfl rfl rfl rfl (by decide)
  have h4 : TyAt exConsts 4 (.ptr (.const (.base "char".toList))) := .ptr rfl rfl rfl rfl rfl (.const rfl rfl rfl rfl rfl h1)
  exact ⟨.const rfl rfl rfl rfl rfl (.ptr rfl rfl rfl rfl rfl h1), h4, .const rfl rfl rfl rfl rfl h4, by decide +kernel⟩

/-- Pointers to constants without type (`const void *v`) have a definition without type. -/
theorem C140_void_counterexample : shownDefs (iterGlobals exDefOpts exConsts 9 (fun _ => none) [12]) = [("const * v", 8)] := by
  decide +kernel

/-- A constant of constants has one mark. -/
example : shownDefs (iterGlobals exDefOpts exConsts 9 (fun _ => none) [14]) = [("const char c", 1)] := by decide +kernel

example : TyAt exConsts 13 (.const (.const (.base "char".toList))) := .const rfl rfl rfl rfl rfl (.const rfl rfl rfl rfl rfl (.base rfl rfl rfl rfl (by decide)))

end Bean.Props

import Verif.Props.DwarfConst
/-
C145: definitions of structures, unions, classes and enumerations.
-/
namespace Bean.Props

open Bean Spec

/-- Keywords of C for the types with members. -/
inductive Keyword : Str → Str → Prop
  | struct : Keyword "structure_type".toList "struct".toList
  | «class» : Keyword "class_type".toList "class".toList
  | union : Keyword "union_type".toList "union".toList
  | enum : Keyword "enumeration_type".toList "enum".toList

/-- Types behind pointers: types with members, which are only named there, pointers to them and constants. The mark for constants is separate. -/
inductive RefAt (dies : Dies) : Nat → Str → Bool → Prop
  | tagged {t : Nat} {d : Die} {kw nm : Str} : dies t = some d → Keyword d.tag kw → d.name = some nm → nm ≠ [] → d.type = none → RefAt dies t (kw ++ ' ' :: nm) false
  | ptr {t u : Nat} {d : Die} {text : Str} {c : Bool} : dies t = some d → d.tag = "pointer_type".toList → d.name = none → d.linkage_name = none → d.type = some u →
      RefAt dies u text c → RefAt dies t (text ++ ['*']) c
  | const {t u : Nat} {d : Die} {text : Str} {c : Bool} : dies t = some d → d.tag = "const_type".toList → d.name = none → d.linkage_name = none → d.type = some u →
      RefAt dies u text c → RefAt dies t text true

/-- What a text is for: the children of an entry, or the type of a member. -/
inductive DefNode where
  | kids (cs : List Nat)
  | entry (t : Nat)

/-- Texts in C. Children: members with their types, numbers of elements and offsets, and enumerators with their values. Types: as in C140, arrays of `k` elements (known bounds), types with members,
pointers to such types, which are not repeated there, and pointers without type. -/
inductive DefText (dies : Dies) : DefNode → Str → Int → Prop
  | scalar {t : Nat} {ty : CTy} : TyAt dies t ty →
      DefText dies (.entry t) ((if ty.hasConst then "const ".toList else []) ++ ty.root ++ List.replicate ty.stars '*') 1
  | array {t u : Nat} {a : Die} {text : Str} {j k : Int} : dies t = some a → a.tag = "array_type".toList → a.name = none → a.linkage_name = none → a.type = some u →
      DefText dies (.entry u) text j → (∀ c ∈ a.children, ∀ r, dies c = some r → r.tag = "subrange_type".toList → r.count = none ∧ r.upper_bound ≠ none) →
      Elements dies a.children k → DefText dies (.entry t) text (j * k)
  | composite {t : Nat} {d : Die} {kw nm body : Str} : dies t = some d → Keyword d.tag kw → d.name = some nm → nm ≠ [] → d.type = none → DefText dies (.kids d.children) body 1 →
      DefText dies (.entry t) (kw ++ ' ' :: nm ++ " { ".toList ++ body ++ ['}']) 1
  | unnamed {t : Nat} {d : Die} {kw body : Str} : dies t = some d → Keyword d.tag kw → d.name = none → d.linkage_name = none → d.type = none → DefText dies (.kids d.children) body 1 →
      DefText dies (.entry t) (kw ++ " { ".toList ++ body ++ ['}']) 1
  | pointer {t u : Nat} {p : Die} {text : Str} {c : Bool} : dies t = some p → p.tag = "pointer_type".toList → p.name = none → p.linkage_name = none → p.type = some u →
      RefAt dies u text c → DefText dies (.entry t) ((if c then "const ".toList else []) ++ text ++ ['*']) 1
  | untyped {t : Nat} {p : Die} : dies t = some p → p.tag = "pointer_type".toList → p.name = none → p.linkage_name = none → p.type = none → DefText dies (.entry t) "void*".toList 1
  | nil : DefText dies (.kids []) [] 1
  | member {c t : Nat} {e : Die} {nm text body : Str} {k : Int} {cs : List Nat} : dies c = some e → e.tag = "member".toList → e.name = some nm → nm ≠ [] → e.type = some t →
      DefText dies (.entry t) text k → DefText dies (.kids cs) body 1 →
      DefText dies (.kids (c :: cs)) (text ++ ' ' :: nm ++ (if k = 1 then [] else '[' :: intText k ++ [']']) ++ "; ".toList ++
        (match e.location with | some l => " /* offset ".toList ++ l ++ " */".toList | none => []) ++ body) 1
  | inlined {c t : Nat} {e : Die} {text body : Str} {k : Int} {cs : List Nat} : dies c = some e → e.tag = "member".toList → e.name = none → e.linkage_name = none → e.type = some t →
      DefText dies (.entry t) text k → DefText dies (.kids cs) body 1 →
      DefText dies (.kids (c :: cs)) (text ++ (if k = 1 then [] else '[' :: intText k ++ [']']) ++ "; ".toList ++
        (match e.location with | some l => " /* offset ".toList ++ l ++ " */".toList | none => []) ++ body) 1
  | enumerator {c : Nat} {e : Die} {nm v body : Str} {cs : List Nat} : dies c = some e → e.tag = "enumerator".toList → e.name = some nm → e.const_value = some v →
      DefText dies (.kids cs) body 1 → DefText dies (.kids (c :: cs)) (nm ++ " = ".toList ++ v ++ ", ".toList ++ body) 1
  | other {c : Nat} {e : Die} {body : Str} {cs : List Nat} : dies c = some e → e.tag ≠ "member".toList → e.tag ≠ "enumerator".toList → DefText dies (.kids cs) body 1 →
      DefText dies (.kids (c :: cs)) body 1

/-- Texts of children. -/
abbrev Parts (dies : Dies) (cs : List Nat) (body : Str) : Prop := DefText dies (.kids cs) body 1

theorem named_middle {d : Die} {nm : Str} (hnm : d.name = some nm) (hne : nm ≠ []) : (match declName d with | some n => ' ' :: n | none => []) = ' ' :: nm := by
  have : declName d = some nm := by unfold declName; rw [hnm]; exact if_neg hne
  rw [this]

/-- The results for a node. -/
def Yields (o : TypeOpts) (dies : Dies) (text : Str) (k : Int) : DefNode → Prop
  | .entry t => text ≠ [] ∧ (∃ d, dies t = some d) ∧ ∀ n m m' i, getDef o dies n m t true false = .ok (i, m') → i.text = text ∧ i.factor = k
  | .kids cs => ∀ n m m' x, defMembers dies (fun m c => getDef o dies n m c true false) m cs = .ok (x, m') → x = text

/-- An array. -/
theorem array_text {o : TypeOpts} {dies : Dies} {t u : Nat} {d : Die} {text : Str} {j k : Int} (hx : dies t = some d) (htag : d.tag = "array_type".toList) (hn1 : d.name = none)
    (hn2 : d.linkage_name = none) (ht : d.type = some u) (hu : Yields o dies text j (.entry u))
    (hb : ∀ c ∈ d.children, ∀ r, dies c = some r → r.tag = "subrange_type".toList → r.count = none ∧ r.upper_bound ≠ none) (hk : Elements dies d.children k) :
    Yields o dies text (j * k) (.entry t) := by
  obtain ⟨hu1, ⟨dt, hdt⟩, hu2⟩ := hu
  refine ⟨hu1, ⟨_, hx⟩, fun n m m' i h => ?_⟩
  cases n with
  | zero => cases h
  | succ n =>
    obtain ⟨ref, m1, h1, h2⟩ := getDef_parts hx (by rw [htag]; decide) h
    rw [defRef_some ht hdt (by rw [htag]; decide)] at h1
    have hs : skipIn d false = false := by unfold skipIn; rw [htag]; decide
    have hr : resolveIn d true = true := by unfold resolveIn; rw [htag]; decide
    rw [hs, hr] at h1
    obtain ⟨i1, i2⟩ := hu2 _ _ _ _ h1
    have e1 : defStart d false = [] := by unfold defStart; rw [htag]; decide
    have e2 : ∀ f, defFactor dies d f = rangesFactor dies f d.children := by intro f; unfold defFactor; rw [if_neg (by rw [htag]; decide), if_pos htag]
    have e3 : ∀ x, pointerText d x = x := by intro x; unfold pointerText; rw [htag]; exact if_neg (by decide)
    have e4 : nameBehind o d (resolveIn d true) = none := by
      unfold nameBehind
      have hc : isComposite d.tag = false := by rw [htag]; decide
      have hdn : declName d = none := by unfold declName; rw [hn1, hn2]
      rw [hc, hdn]
      simp
    unfold finishDef at h2
    rw [e2, i2] at h2
    split at h2
    · cases h2
    · rename_i f hf
      have := rangesFactor_elements _ _ _ hb hf k hk
      unfold defNamed at h2
      dsimp only at h2
      rw [e1, e3, e4, List.nil_append] at h2
      cases h2
      exact ⟨i1, this⟩

/-- A type with members that are not shown. -/
theorem tagged_text {o : TypeOpts} (ho : o.names = true) {dies : Dies} {u : Nat} {d : Die} {kw nm : Str} (hx : dies u = some d) (hk : Keyword d.tag kw) (hnm : d.name = some nm) (hne : nm ≠ [])
    (ht : d.type = none) (n : Nat) (m m' : DefMemo) (s : Bool) (i : DefInfo) (h : getDef o dies n m u false s = .ok (i, m')) : i.text = kw ++ ' ' :: nm := by
  cases n with
  | zero => cases h
  | succ n =>
    have hr : resolveIn d false = false := rfl
    have hst : defStart d s = kw := by unfold defStart; generalize d.tag = x at hk; cases hk <;> cases s <;> decide
    have htd : (d.tag != "typedef".toList) = true := by generalize d.tag = x at hk; cases hk <;> decide
    have hpt : d.tag ≠ "pointer_type".toList := by generalize d.tag = x at hk; cases hk <;> decide
    have har : d.tag ≠ "array_type".toList := by generalize d.tag = x at hk; cases hk <;> decide
    have hkw : kw ≠ [] := by generalize d.tag = x at hk; cases hk <;> decide
    have hdn : declName d = some nm := by unfold declName; rw [hnm]; exact if_neg hne
    rw [getDef, hx] at h
    dsimp only at h
    have hb : ∀ get, defBody dies get d (resolveIn d false) s m = .ok (kw, m) := by
      intro get
      unfold defBody
      rw [hr, Bool.and_false, hst]
      rfl
    rw [hb] at h
    dsimp only at h
    have href : ∀ get, defRef o dies get d m = .ok ({ text := [], size := 0, factor := 1 }, m) := by
      intro get
      unfold defRef
      rw [ht]
    rw [href] at h
    dsimp only at h
    split at h
    · cases h
    · rename_i j hj
      rw [storeDef_info h]
      unfold finishDef at hj
      have e2 : defFactor dies d 1 = .ok 1 := by unfold defFactor; rw [if_neg hpt, if_neg har]
      have e3 : ∀ x, pointerText d x = x := by intro x; unfold pointerText; exact if_neg hpt
      have e4 : nameBehind o d (resolveIn d false) = some nm := by
        unfold nameBehind
        rw [hr, Bool.and_false, ho, htd, hdn]
        rfl
      rw [e2] at hj
      dsimp only at hj
      unfold defNamed at hj
      rw [e3, e4] at hj
      cases hj
      dsimp only
      rw [List.append_nil, if_neg hkw]
      simp [factorText]

theorem refAt_known {dies : Dies} {t : Nat} {text : Str} {c : Bool} (h : RefAt dies t text c) : (∃ d, dies t = some d) ∧ text ≠ [] := by
  induction h with
  | tagged hx => exact ⟨⟨_, hx⟩, by simp⟩
  | ptr hx _ _ _ _ _ _ => exact ⟨⟨_, hx⟩, by simp⟩
  | const hx _ _ _ _ _ ih => exact ⟨⟨_, hx⟩, ih.2⟩

/-- One more pointer. -/
theorem star_text {o : TypeOpts} {dies : Dies} {p dt : Die} {t u : Nat} {text : Str} {r s : Bool} {n : Nat} {m m' : DefMemo} {i : DefInfo} (hx : dies t = some p)
    (htag : p.tag = "pointer_type".toList) (hn1 : p.name = none) (hn2 : p.linkage_name = none) (ht : p.type = some u) (hd : dies u = some dt) (hne : text ≠ [])
    (hu : ∀ m m' i, getDef o dies n m u false s = .ok (i, m') → i.text = text) (h : getDef o dies (n + 1) m t r s = .ok (i, m')) : i.text = text ++ ['*'] ∧ i.factor = 1 := by
  obtain ⟨ref, m1, h1, h2⟩ := getDef_parts hx (by rw [htag]; decide) h
  rw [defRef_some ht hd (by rw [htag]; decide)] at h1
  have hs : skipIn p s = s := by
    have : (decide (p.tag = "const_type".toList)) = false := by rw [htag]; decide
    unfold skipIn; rw [this, Bool.or_false]
  have hr : resolveIn p r = false := by unfold resolveIn; rw [htag]; cases r <;> decide
  rw [hs, hr] at h1
  have i1 := hu _ _ _ h1
  have e1 : defStart p s = [] := by unfold defStart; rw [htag]; cases s <;> decide
  have e2 : defFactor dies p ref.factor = .ok 1 := by unfold defFactor; rw [if_pos htag]
  have e3 : pointerText p (ref.text) = ref.text ++ ['*'] := by
    unfold pointerText
    rw [if_pos htag, if_neg]
    rw [i1, ht]
    simp [hne]
  have e4 : nameBehind o p (resolveIn p r) = none := by
    unfold nameBehind
    have hc : isComposite p.tag = false := by rw [htag]; decide
    have hdn : declName p = none := by unfold declName; rw [hn1, hn2]
    rw [hc, hdn]
    simp
  unfold finishDef at h2
  rw [e2] at h2
  dsimp only at h2
  unfold defNamed at h2
  rw [e1, List.nil_append, e3, e4, i1] at h2
  cases h2
  exact ⟨rfl, rfl⟩

theorem refAt_text {o : TypeOpts} (ho : o.names = true) {dies : Dies} {t : Nat} {text : Str} {c : Bool} (h : RefAt dies t text c) : ∀ (n : Nat) (m m' : DefMemo) (s : Bool) (i : DefInfo),
    getDef o dies n m t false s = .ok (i, m') → i.text = (if c = true ∧ s = false then "const ".toList else []) ++ text := by
  induction h with
  | tagged hx hk hnm hne ht =>
    intro n m m' s i h
    rw [tagged_text ho hx hk hnm hne ht n m m' s i h]
    simp
  | ptr hx htag hn1 hn2 ht hu ih =>
    intro n m m' s i h
    cases n with
    | zero => cases h
    | succ n =>
      obtain ⟨⟨dt, hd⟩, hne⟩ := refAt_known hu
      rw [(star_text hx htag hn1 hn2 ht hd (by simp [hne]) (fun m m' i h => ih n m m' s i h) h).1, List.append_assoc]
  | @const t u d text c hx htag hn1 hn2 ht hu ih =>
    intro n m m' s i h
    cases n with
    | zero => cases h
    | succ n =>
      obtain ⟨⟨dt, hd⟩, hne⟩ := refAt_known hu
      obtain ⟨ref, m1, h1, h2⟩ := getDef_parts hx (by rw [htag]; decide) h
      rw [defRef_some ht hd (by rw [htag]; decide)] at h1
      have hs : skipIn d s = true := by unfold skipIn; rw [htag]; cases s <;> decide
      rw [hs, show resolveIn d false = false from rfl] at h1
      have i1 := ih _ _ _ _ _ h1
      rw [if_neg (by simp), List.nil_append] at i1
      have e1 : defStart d s = if s = false then "const ".toList else [] := by unfold defStart; rw [htag]; cases s <;> decide
      have e2 : defFactor dies d ref.factor = .ok ref.factor := by unfold defFactor; rw [htag]; rfl
      have e3 : ∀ x, pointerText d x = x := by intro x; unfold pointerText; rw [htag]; exact if_neg (by decide)
      have e4 : nameBehind o d (resolveIn d false) = none := by
        unfold nameBehind
        have hc : isComposite d.tag = false := by rw [htag]; decide
        have hdn : declName d = none := by unfold declName; rw [hn1, hn2]
        rw [hc, hdn, Bool.false_and]
        exact ite_self _
      unfold finishDef at h2
      rw [e2] at h2
      dsimp only at h2
      unfold defNamed at h2
      rw [e1, e3, e4, i1] at h2
      cases h2
      dsimp only
      congr 1
      cases s <;> rfl

/-- A pointer to a type with members. -/
theorem pointer_text {o : TypeOpts} (ho : o.names = true) {dies : Dies} {t u : Nat} {p : Die} {text : Str} {c : Bool} (hx : dies t = some p) (htag : p.tag = "pointer_type".toList)
    (hn1 : p.name = none) (hn2 : p.linkage_name = none) (ht : p.type = some u) (hu : RefAt dies u text c) :
    Yields o dies ((if c then "const ".toList else []) ++ text ++ ['*']) 1 (.entry t) := by
  refine ⟨by simp, ⟨_, hx⟩, fun n m m' i h => ?_⟩
  cases n with
  | zero => cases h
  | succ n =>
    obtain ⟨⟨dt, hd⟩, hne⟩ := refAt_known hu
    have := star_text hx htag hn1 hn2 ht hd (by simp [hne]) (fun m m' i h => refAt_text ho hu n m m' false i h) h
    simpa using this

/-- A pointer without type. -/
theorem untyped_text {o : TypeOpts} {dies : Dies} {t : Nat} {p : Die} (hx : dies t = some p) (htag : p.tag = "pointer_type".toList) (hn1 : p.name = none) (hn2 : p.linkage_name = none)
    (ht : p.type = none) : Yields o dies "void*".toList 1 (.entry t) := by
  refine ⟨by simp, ⟨_, hx⟩, fun n m m' i h => ?_⟩
  cases n with
  | zero => cases h
  | succ n =>
    obtain ⟨ref, m1, h1, h2⟩ := getDef_parts hx (by rw [htag]; decide) h
    unfold defRef at h1
    rw [ht] at h1
    cases h1
    have e1 : defStart p false = [] := by unfold defStart; rw [htag]; decide
    have e2 : defFactor dies p 1 = .ok 1 := by unfold defFactor; rw [if_pos htag]
    have e3 : pointerText p [] = "void*".toList := by
      unfold pointerText
      rw [if_pos htag, if_pos (.inl ht)]
      decide
    have e4 : nameBehind o p (resolveIn p true) = none := by
      unfold nameBehind
      have hc : isComposite p.tag = false := by rw [htag]; decide
      have hdn : declName p = none := by unfold declName; rw [hn1, hn2]
      rw [hc, hdn]
      simp
    unfold finishDef at h2
    dsimp only at h2
    rw [e2] at h2
    dsimp only at h2
    unfold defNamed at h2
    rw [e1, List.nil_append, e3, e4] at h2
    cases h2
    exact ⟨rfl, rfl⟩

theorem member_text {o : TypeOpts} (ho : o.names = true) {dies : Dies} {id t : Nat} {d : Die} {nm text : Str} {k : Int} (hx : dies id = some d) (htag : d.tag = "member".toList)
    (hnm : d.name = some nm) (hne : nm ≠ []) (ht : d.type = some t) (hty : Yields o dies text k (.entry t)) (n : Nat) (m m' : DefMemo) (i : DefInfo)
    (h : getDef o dies n m id true false = .ok (i, m')) : i.text = text ++ ' ' :: nm ++ factorText k ∧ i.factor = 1 := by
  obtain ⟨hroot, ⟨dt, hdt⟩, hty⟩ := hty
  cases n with
  | zero => cases h
  | succ n =>
    obtain ⟨ref, m1, h1, h2⟩ := getDef_parts hx (by rw [htag]; decide) h
    rw [defRef_some ht hdt (by rw [htag]; decide)] at h1
    have hs : skipIn d false = false := by unfold skipIn; rw [htag]; decide
    have hr : resolveIn d true = true := by unfold resolveIn; rw [htag]; decide
    rw [hs, hr] at h1
    obtain ⟨i1, i2⟩ := hty _ _ _ _ h1
    have e1 : defStart d false = [] := by unfold defStart; rw [htag]; decide
    have e2 : defFactor dies d ref.factor = .ok k := by unfold defFactor; rw [htag, i2]; rfl
    have e3 : ∀ x, pointerText d x = x := by intro x; unfold pointerText; rw [htag]; exact if_neg (by decide)
    have e4 : nameBehind o d (resolveIn d true) = some nm := by
      unfold nameBehind
      have hc : isComposite d.tag = false := by rw [htag]; decide
      have ht' : (d.tag != "typedef".toList) = true := by rw [htag]; decide
      rw [hc, ho, ht']
      unfold declName
      rw [hnm]
      simp [hne]
    unfold finishDef at h2
    rw [e2] at h2
    dsimp only at h2
    unfold defNamed at h2
    rw [e1, e3, e4, List.nil_append] at h2
    cases h2
    dsimp only
    rw [i1, if_neg hroot]
    exact ⟨by simp, rfl⟩

/-- A member without name. -/
theorem inlined_text {o : TypeOpts} {dies : Dies} {id t : Nat} {d : Die} {text : Str} {k : Int} (hx : dies id = some d) (htag : d.tag = "member".toList)
    (hn1 : d.name = none) (hn2 : d.linkage_name = none) (ht : d.type = some t) (hty : Yields o dies text k (.entry t)) (n : Nat) (m m' : DefMemo) (i : DefInfo)
    (h : getDef o dies n m id true false = .ok (i, m')) : i.text = text ∧ i.factor = k := by
  obtain ⟨hroot, ⟨dt, hdt⟩, hty⟩ := hty
  cases n with
  | zero => cases h
  | succ n =>
    obtain ⟨ref, m1, h1, h2⟩ := getDef_parts hx (by rw [htag]; decide) h
    rw [defRef_some ht hdt (by rw [htag]; decide)] at h1
    have hs : skipIn d false = false := by unfold skipIn; rw [htag]; decide
    have hr : resolveIn d true = true := by unfold resolveIn; rw [htag]; decide
    rw [hs, hr] at h1
    obtain ⟨i1, i2⟩ := hty _ _ _ _ h1
    have e1 : defStart d false = [] := by unfold defStart; rw [htag]; decide
    have e2 : defFactor dies d ref.factor = .ok k := by unfold defFactor; rw [htag, i2]; rfl
    have e3 : ∀ x, pointerText d x = x := by intro x; unfold pointerText; rw [htag]; exact if_neg (by decide)
    have e4 : nameBehind o d (resolveIn d true) = none := by
      unfold nameBehind
      have hc : isComposite d.tag = false := by rw [htag]; decide
      have hdn : declName d = none := by unfold declName; rw [hn1, hn2]
      rw [hc, hdn, Bool.false_and]
      exact ite_self _
    unfold finishDef at h2
    rw [e2] at h2
    dsimp only at h2
    unfold defNamed at h2
    rw [e1, e3, e4, List.nil_append] at h2
    cases h2
    exact ⟨i1, rfl⟩

theorem composite_text {o : TypeOpts} (ho : o.names = true) {dies : Dies} {id : Nat} {d : Die} {kw mid body behind : Str} (hx : dies id = some d) (hk : Keyword d.tag kw)
    (hdn : (match declName d with | some n => ' ' :: n | none => []) = mid) (hp : Yields o dies body 1 (.kids d.children)) (hb : (d.type = none ∧ behind = []) ∨ ∃ t, d.type = some t ∧ TyAt dies t (.base behind)) (n : Nat) (m m' : DefMemo) (i : DefInfo)
    (h : getDef o dies n m id true false = .ok (i, m')) : i.text = kw ++ mid ++ " { ".toList ++ body ++ '}' :: behind ∧ (d.type = none → i.factor = 1) := by
  cases n with
  | zero => cases h
  | succ n =>
    have hc : isComposite d.tag = true := by generalize d.tag = x at hk; cases hk <;> decide
    have hr : resolveIn d true = true := by unfold resolveIn; generalize d.tag = x at hk; cases hk <;> decide
    have hs : skipIn d false = false := by unfold skipIn; generalize d.tag = x at hk; cases hk <;> decide
    have hst : defStart d false = kw := by unfold defStart; generalize d.tag = x at hk; cases hk <;> decide
    have htd : d.tag ≠ "typedef".toList := by generalize d.tag = x at hk; cases hk <;> decide
    have hpt : d.tag ≠ "pointer_type".toList := by generalize d.tag = x at hk; cases hk <;> decide
    have har : d.tag ≠ "array_type".toList := by generalize d.tag = x at hk; cases hk <;> decide
    rw [getDef, hx] at h
    dsimp only at h
    rw [hr, hs] at h
    split at h
    · cases h
    · rename_i b m1 hbody
      have eb : b = kw ++ mid ++ " { ".toList ++ body ++ ['}'] := by
        unfold defBody at hbody
        rw [hc, if_pos (by rfl)] at hbody
        split at hbody
        · cases hbody
        · rename_i y m2 hy
          cases hbody
          rw [hp _ _ _ _ hy, hst, ← hdn]
          cases declName d <;> rfl
      split at h
      · cases h
      · rename_i ref m2 href
        have er : ref.text = behind := by
          rcases hb with ⟨h1, h2⟩ | ⟨t, h1, h2⟩
          · unfold defRef at href
            rw [h1] at href
            cases href
            exact h2.symm
          · obtain ⟨dt, hdt⟩ := at_known h2
            rw [defRef_some h1 hdt htd] at href
            rw [(getDef_marked ho h2 _ _ _ _ _ _ href).1, marked_base]
        split at h
        · cases h
        · rename_i j hj
          rw [storeDef_info h]
          unfold finishDef at hj
          have e2 : defFactor dies d ref.factor = .ok ref.factor := by unfold defFactor; rw [if_neg hpt, if_neg har]
          have e3 : ∀ x, pointerText d x = x := by intro x; unfold pointerText; exact if_neg hpt
          have e4 : nameBehind o d true = none := by unfold nameBehind; rw [hc]; rfl
          rw [e2] at hj
          dsimp only at hj
          unfold defNamed at hj
          rw [e3, e4] at hj
          cases hj
          dsimp only
          refine ⟨by rw [eb, er]; simp, fun h1 => ?_⟩
          unfold defRef at href
          rw [h1] at href
          cases href
          rfl

theorem defText_yields {o : TypeOpts} (ho : o.names = true) {dies : Dies} {x : DefNode} {text : Str} {k : Int} (h : DefText dies x text k) : Yields o dies text k x := by
  induction h with
  | @scalar t ty hty =>
    refine ⟨?_, at_known hty, fun n m m' i h => ?_⟩
    · intro h
      exact root_ne hty (List.append_eq_nil_iff.mp (List.append_eq_nil_iff.mp h).1).2
    · obtain ⟨i1, i2⟩ := getDef_marked ho hty _ _ _ _ _ _ h
      refine ⟨?_, i2⟩
      rw [i1]
      unfold CTy.marked
      simp
  | array hx htag hn1 hn2 ht _ hb hk ih => exact array_text hx htag hn1 hn2 ht ih hb hk
  | composite hx hk hnm hne ht _ ih =>
    refine ⟨by simp, ⟨_, hx⟩, fun n m m' i h => ?_⟩
    obtain ⟨h1, h2⟩ := composite_text ho hx hk (named_middle hnm hne) ih (.inl ⟨ht, rfl⟩) n m m' i h
    exact ⟨h1, h2 ht⟩
  | unnamed hx hk hn1 hn2 ht _ ih =>
    refine ⟨by simp, ⟨_, hx⟩, fun n m m' i h => ?_⟩
    obtain ⟨h1, h2⟩ := composite_text (mid := []) ho hx hk (by unfold declName; rw [hn1, hn2]) ih (.inl ⟨ht, rfl⟩) n m m' i h
    exact ⟨by rw [h1, List.append_nil], h2 ht⟩
  | pointer hx htag hn1 hn2 ht hu => exact pointer_text ho hx htag hn1 hn2 ht hu
  | untyped hx htag hn1 hn2 ht => exact untyped_text hx htag hn1 hn2 ht
  | nil =>
    intro n m m' x hx
    rw [defMembers] at hx
    cases hx
    rfl
  | @member c t e nm text body k cs hd htag hnm hne ht _ _ ih1 ih2 =>
    intro n m m' x hx
    rw [defMembers, hd] at hx
    dsimp only at hx
    rw [if_pos htag] at hx
    split at hx
    · cases hx
    · rename_i i m1 hg
      obtain ⟨i1, i2⟩ := member_text ho hd htag hnm hne ht ih1 _ _ _ _ hg
      split at hx
      · cases hx
      · rename_i y m2 hy
        cases hx
        rw [ih2 _ _ _ _ hy]
        unfold memberDef
        rw [i1, i2]
        unfold factorText
        by_cases hk : k = 1 <;> cases e.location <;> simp [hk]
  | @inlined c t e text body k cs hd htag hn1 hn2 ht _ _ ih1 ih2 =>
    intro n m m' x hx
    rw [defMembers, hd] at hx
    dsimp only at hx
    rw [if_pos htag] at hx
    split at hx
    · cases hx
    · rename_i i m1 hg
      obtain ⟨i1, i2⟩ := inlined_text hd htag hn1 hn2 ht ih1 _ _ _ _ hg
      split at hx
      · cases hx
      · rename_i y m2 hy
        cases hx
        rw [ih2 _ _ _ _ hy]
        unfold memberDef
        rw [i1, i2]
        unfold factorText
        by_cases hk : k = 1 <;> cases e.location <;> simp [hk]
  | @enumerator c e nm v body cs hd htag hnm hv _ ih =>
    intro n m m' x hx
    rw [defMembers, hd] at hx
    dsimp only at hx
    rw [if_neg (by rw [htag]; decide), if_pos htag, hnm, hv] at hx
    dsimp only at hx
    split at hx
    · cases hx
    · rename_i y m2 hy
      cases hx
      rw [ih _ _ _ _ hy]
      rfl
  | @other c e body cs hd h1 h2 _ ih =>
    intro n m m' x hx
    rw [defMembers, hd] at hx
    dsimp only at hx
    rw [if_neg h1, if_neg h2] at hx
    exact ih _ _ _ _ hx

/-- What is listed is the result of `getDef`. -/
theorem globals_from {o : TypeOpts} {dies : Dies} {n : Nat} {text : Str} {size : Int} {id : Nat} : ∀ (ids : List Nat) (m : DefMemo) (l : List (Str × Int × Nat)),
    iterGlobals o dies n m ids = .ok l → (text, size, id) ∈ l → ∃ m1 m2 i, getDef o dies n m1 id true false = .ok (i, m2) ∧ i.text = text := by
  intro ids
  induction ids with
  | nil =>
    intro m l h hl
    cases h
    cases hl
  | cons j ids ih =>
    intro m l h hl
    rw [iterGlobals] at h
    split at h
    · cases h
    · split at h
      · split at h
        · cases h
        · rename_i i m' hg
          split at h
          · cases h
          · split at h
            · cases h
            · rename_i r hr
              cases h
              split at hl
              · rcases List.mem_cons.mp hl with e | hl
                · injection e with e1 e2
                  injection e2 with e2 e3
                  subst e3
                  exact ⟨m, m', i, hg, e1.symm⟩
                · exact ih _ _ hr hl
              · exact ih _ _ hr hl
      · exact ih _ _ h hl

/-- **C145**: the definition of a named type has its keyword, its name and, in order, its members with types, names and offsets, or its enumerators with their values. -/
theorem C145_text_partial (o : TypeOpts) (ho : o.names = true) (dies : Dies) (n : Nat) (ids : List Nat) (l : List (Str × Int × Nat)) (h : iterGlobals o dies n (fun _ => none) ids = .ok l)
    (text : Str) (size : Int) (id : Nat) (hl : (text, size, id) ∈ l) (d : Die) (hx : dies id = some d) (kw : Str) (hk : Keyword d.tag kw) (nm : Str) (hnm : d.name = some nm) (hne : nm ≠ [])
    (ht : d.type = none) (body : Str) (hp : Parts dies d.children body) : text = kw ++ ' ' :: nm ++ " { ".toList ++ body ++ ['}'] := by
  obtain ⟨m1, m2, i, hg, rfl⟩ := globals_from ids _ l h hl
  exact (composite_text ho hx hk (named_middle hnm hne) (defText_yields ho hp) (.inl ⟨ht, rfl⟩) n m1 m2 i hg).1

/-- C145 is false for enumerations with an underlying type, which current compilers describe: its name follows the closing brace. -/
theorem C145_enum_counterexample (o : TypeOpts) (ho : o.names = true) (dies : Dies) (n : Nat) (ids : List Nat) (l : List (Str × Int × Nat)) (h : iterGlobals o dies n (fun _ => none) ids = .ok l)
    (text : Str) (size : Int) (id : Nat) (hl : (text, size, id) ∈ l) (d : Die) (hx : dies id = some d) (hk : d.tag = "enumeration_type".toList) (nm : Str) (hnm : d.name = some nm) (hne : nm ≠ [])
    (t : Nat) (ht : d.type = some t) (base : Str) (hb : TyAt dies t (.base base)) (body : Str) (hp : Parts dies d.children body) :
    text = "enum ".toList ++ nm ++ " { ".toList ++ body ++ '}' :: base := by
  obtain ⟨m1, m2, i, hg, rfl⟩ := globals_from ids _ l h hl
  have hkw : Keyword d.tag "enum".toList := by
    rw [hk]
    exact .enum
  rw [(composite_text ho hx hkw (named_middle hnm hne) (defText_yields ho hp) (.inr ⟨t, ht, hb⟩) n m1 m2 i hg).1]
  rfl

/-- `struct s { const char *p; int x; }`, `union u { int y; }`, `enum e { A, B }` without and `enum f { C }` with underlying type, `struct b { int v[3]; }`, `struct l { const struct l *next; struct s s; }`, `union w { void *v; const struct l **q; }`. -/
def exTypeDefs : Dies := exDies
  [(1, { tag := "base_type".toList, name := some "char".toList, byte_size := some 1 }),
   (2, { tag := "const_type".toList, type := some 1 }),
   (3, { tag := "pointer_type".toList, type := some 2, byte_size := some 8 }),
   (4, { tag := "base_type".toList, name := some "int".toList, byte_size := some 4 }),
   (5, { tag := "structure_type".toList, name := some "s".toList, byte_size := some 16, children := [6, 7] }),
   (6, { tag := "member".toList, name := some "p".toList, type := some 3, location := some "0".toList }),
   (7, { tag := "member".toList, name := some "x".toList, type := some 4, location := some "8".toList }),
   (8, { tag := "union_type".toList, name := some "u".toList, byte_size := some 4, children := [9] }),
   (9, { tag := "member".toList, name := some "y".toList, type := some 4 }),
   (10, { tag := "enumeration_type".toList, name := some "e".toList, byte_size := some 4, children := [11, 12] }),
   (11, { tag := "enumerator".toList, name := some "A".toList, const_value := some "0".toList }),
   (12, { tag := "enumerator".toList, name := some "B".toList, const_value := some "1".toList }),
   (13, { tag := "enumeration_type".toList, name := some "f".toList, type := some 4, byte_size := some 4, children := [14] }),
   (14, { tag := "enumerator".toList, name := some "C".toList, const_value := some "0".toList }),
   (15, { tag := "structure_type".toList, name := some "b".toList, byte_size := some 12, children := [16] }),
   (16, { tag := "member".toList, name := some "v".toList, type := some 17, location := some "0".toList }),
   (17, { tag := "array_type".toList, type := some 4, children := [18] }),
   (18, { tag := "subrange_type".toList, upper_bound := some 2 }),
   (19, { tag := "structure_type".toList, name := some "l".toList, byte_size := some 24, children := [20, 21] }),
   (20, { tag := "member".toList, name := some "next".toList, type := some 22, location := some "0".toList }),
   (21, { tag := "member".toList, name := some "s".toList, type := some 5, location := some "8".toList }),
   (22, { tag := "pointer_type".toList, type := some 23, byte_size := some 8 }),
   (23, { tag := "const_type".toList, type := some 19 }),
   (24, { tag := "union_type".toList, name := some "w".toList, byte_size := some 8, children := [25, 26] }),
   (25, { tag := "member".toList, name := some "v".toList, type := some 27 }),
   (26, { tag := "member".toList, name := some "q".toList, type := some 28 }),
   (27, { tag := "pointer_type".toList, byte_size := some 8 }),
   (28, { tag := "pointer_type".toList, type := some 22, byte_size := some 8 })]

example : ∃ body, Parts exTypeDefs [25, 26] body :=
  ⟨_, .member rfl rfl rfl (by decide) rfl (.untyped rfl rfl rfl rfl rfl)
    (.member rfl rfl rfl (by decide) rfl (.pointer rfl rfl rfl rfl rfl (.ptr rfl rfl rfl rfl rfl (.const rfl rfl rfl rfl rfl (.tagged rfl .struct rfl (by decide) rfl)))) .nil)⟩

example : shownDefs (iterGlobals exDefOpts exTypeDefs 9 (fun _ => none) [5, 8, 10, 13, 15, 19, 24]) =
    [("struct s { const char* p;  /* offset 0 */int x;  /* offset 8 */}", 16), ("union u { int y; }", 4), ("enum e { A = 0, B = 1, }", 4), ("enum f { C = 0, }int", 4),
     ("struct b { int v[3];  /* offset 0 */}", 12),
     ("struct l { const struct l* next;  /* offset 0 */struct s { const char* p;  /* offset 0 */int x;  /* offset 8 */} s;  /* offset 8 */}", 24),
     ("union w { void* v; const struct l** q; }", 8)] := by decide +kernel

example : ∃ body, Parts exTypeDefs [6, 7] body :=
  ⟨_, .member rfl rfl rfl (by decide) rfl (.scalar (.ptr rfl rfl rfl rfl rfl (.const rfl rfl rfl rfl rfl (.base rfl rfl rfl rfl (by decide)))))
    (.member rfl rfl rfl (by decide) rfl (.scalar (.base rfl rfl rfl rfl (by decide))) .nil)⟩

example : ∃ body, Parts exTypeDefs [20, 21] body :=
  ⟨_, .member rfl rfl rfl (by decide) rfl (.pointer rfl rfl rfl rfl rfl (.const rfl rfl rfl rfl rfl (.tagged rfl .struct rfl (by decide) rfl)))
    (.member rfl rfl rfl (by decide) rfl (.composite rfl .struct rfl (by decide) rfl
      (.member rfl rfl rfl (by decide) rfl (.scalar (.ptr rfl rfl rfl rfl rfl (.const rfl rfl rfl rfl rfl (.base rfl rfl rfl rfl (by decide)))))
        (.member rfl rfl rfl (by decide) rfl (.scalar (.base rfl rfl rfl rfl (by decide))) .nil))) .nil)⟩

example : ∃ text, DefText exTypeDefs (.entry 17) text (1 * 3) := by
  refine ⟨_, .array rfl rfl rfl rfl rfl (.scalar (.base rfl rfl rfl rfl (by decide))) ?_ ?_⟩
  · intro c hc r hr _
    rw [List.mem_singleton.mp hc] at hr
    cases hr
    exact ⟨rfl, by decide⟩
  · have : (3 : Int) = 3 * 1 := rfl
    rw [this]
    exact .range (dies := exTypeDefs) (r := { tag := "subrange_type".toList, upper_bound := some 2 }) rfl rfl (.inr ⟨rfl, 2, rfl, rfl⟩) .nil

example : Parts exTypeDefs [14] "C = 0, ".toList ∧ TyAt exTypeDefs 4 (.base "int".toList) := by
  refine ⟨?_, .base rfl rfl rfl rfl (by decide)⟩
  have : "C = 0, ".toList = "C".toList ++ " = ".toList ++ "0".toList ++ ", ".toList ++ [] := by decide
  rw [this]
  exact .enumerator rfl rfl rfl rfl .nil

/-- `struct r { struct { int x; } *p; union { int y; char z; }; }`, and the same with `char` for `int` behind the pointer. -/
def exUnnamed (x : Nat) : Dies := exDies
  [(1, { tag := "base_type".toList, name := some "char".toList, byte_size := some 1 }),
   (2, { tag := "base_type".toList, name := some "int".toList, byte_size := some 4 }),
   (3, { tag := "structure_type".toList, name := some "r".toList, byte_size := some 16, children := [4, 5] }),
   (4, { tag := "member".toList, name := some "p".toList, type := some 6, location := some "0".toList }),
   (5, { tag := "member".toList, type := some 7, location := some "8".toList }),
   (6, { tag := "pointer_type".toList, type := some 8, byte_size := some 8 }),
   (7, { tag := "union_type".toList, byte_size := some 4, children := [9, 10] }),
   (8, { tag := "structure_type".toList, byte_size := some 4, children := [11] }),
   (9, { tag := "member".toList, name := some "y".toList, type := some 2 }),
   (10, { tag := "member".toList, name := some "z".toList, type := some 1 }),
   (11, { tag := "member".toList, name := some "x".toList, type := some x, location := some "0".toList })]

/-- C145 is false for pointers to types without name: their members are not shown anywhere, so that different types have the same definition. -/
theorem C145_unnamed_counterexample :
    shownDefs (iterGlobals exDefOpts (exUnnamed 1) 9 (fun _ => none) [3]) = [("struct r { struct* p;  /* offset 0 */union { int y; char z; };  /* offset 8 */}", 16)] ∧
    shownDefs (iterGlobals exDefOpts (exUnnamed 2) 9 (fun _ => none) [3]) = shownDefs (iterGlobals exDefOpts (exUnnamed 1) 9 (fun _ => none) [3]) ∧
    (∃ text, DefText (exUnnamed 1) (.kids [11]) text 1 ∧ ¬ DefText (exUnnamed 2) (.kids [11]) text 1) := by
  refine ⟨by decide +kernel, by decide +kernel, _, .member rfl rfl rfl (by decide) rfl (.scalar (.base rfl rfl rfl rfl (by decide))) .nil, fun h => ?_⟩
  have hy := defText_yields (o := exDefOpts) rfl h 9 (fun _ => none)
  have : (defMembers (exUnnamed 2) (fun m c => getDef exDefOpts (exUnnamed 2) 9 m c true false) (fun _ => none) [11]).toOption.map Prod.fst = some "int x;  /* offset 0 */".toList := by
    decide +kernel
  cases hd : defMembers (exUnnamed 2) (fun m c => getDef exDefOpts (exUnnamed 2) 9 m c true false) (fun _ => none) [11] with
  | error e => rw [hd] at this; cases this
  | ok r =>
    rw [hd] at this
    have e := (hy r.2 r.1 hd).symm.trans (Option.some.inj this)
    revert e
    decide +kernel

example : ∃ body, Parts (exUnnamed 1) [5] body :=
  ⟨_, .inlined rfl rfl rfl rfl rfl (.unnamed rfl .union rfl rfl rfl (.member rfl rfl rfl (by decide) rfl (.scalar (.base rfl rfl rfl rfl (by decide)))
    (.member rfl rfl rfl (by decide) rfl (.scalar (.base rfl rfl rfl rfl (by decide))) .nil))) .nil⟩

end Bean.Props

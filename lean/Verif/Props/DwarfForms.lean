import Verif.Model.DwarfForms
import Verif.Props.DwarfVars
import Verif.Props.DwarfTypes
/-
C137: types of variables do not depend on the form in which numbers are stored in the debug information.
-/
namespace Bean.Props

open Bean

/-- Forms for constants (DWARF 5, 7.5.5), without those for blocks of 16 bytes. -/
def constantForms : List String :=
  ["DW_FORM_data1", "DW_FORM_data2", "DW_FORM_data4", "DW_FORM_data8", "DW_FORM_sdata", "DW_FORM_udata", "DW_FORM_implicit_const"]

theorem constant_cases {form : String} (h : form ∈ constantForms) (cu v : Int) :
    describeRaw cu (.num form v) = .num v ∨ describeRaw cu (.num form v) = .text (intText v) := by
  unfold constantForms at h
  simp only [List.mem_cons, List.not_mem_nil, or_false] at h
  rcases h with rfl | rfl | rfl | rfl | rfl | rfl | rfl
  · exact .inl rfl
  · exact .inl rfl
  · exact .inl rfl
  · exact .inl rfl
  · exact .inr rfl
  · exact .inr rfl
  · exact .inr rfl

/-- **C137**, bounds: the bound of a range stored as a constant is this number, in all forms; an absent one is zero. -/
theorem C137_bound_partial (cu : Int) : boundOf cu none = some 0 ∧ ∀ form ∈ constantForms, ∀ v, boundOf cu (some (.num form v)) = some v := by
  refine ⟨rfl, fun form hf v => ?_⟩
  unfold boundOf
  dsimp only
  rcases constant_cases hf cu v with h | h
  · rw [h]; rfl
  · rw [h]; exact pyInt_dec v

/-- C137 is false for bounds that are computed: a bound given by an expression ends the program, although it should count as zero (dwarfvars.py:170-174); a bound given by
a reference to a variable is the place of this variable in the debug information. -/
theorem C137_bound_counterexample (cu : Int) : boundOf cu (some .expr) = none ∧ ∀ form ∈ refForms, ∀ v, boundOf cu (some (.num form v)) = some (cu + v) := by
  refine ⟨rfl, fun form hf v => ?_⟩
  unfold refForms at hf
  simp only [List.mem_cons, List.not_mem_nil, or_false] at hf
  rcases hf with rfl | rfl | rfl | rfl | rfl <;> rfl

/-- **C137**, sizes: if all sizes are stored in forms that are taken as numbers, the types of variables are those of the numbers, as in C85. -/
theorem C137_sizes_partial (o : TypeOpts) (dies : Dies) (forms : Nat → String) (h : ∀ id d v, dies id = some d → d.byte_size = some v → forms id ∈ plainForms) (n : Nat)
    (m : TypeMemo) (ids : List Nat) : getTypesForm o dies forms n m ids = getTypes o dies n m ids := by
  have ht : ∀ id, sizeIsText forms dies id = false := by
    intro id
    unfold sizeIsText
    cases hd : dies id with
    | none => rfl
    | some d =>
      dsimp only
      cases hb : d.byte_size with
      | none => rfl
      | some v =>
        dsimp only
        unfold describeRaw
        dsimp only
        rw [if_pos (h id d v hd hb)]
  have one : ∀ n, getTypeForm o dies forms n = getType o dies n := by
    intro n
    induction n with
    | zero => funext m id r; rfl
    | succ n ih =>
      funext m id r
      unfold getTypeForm getType
      rw [ih]
      simp only [ht, storeForm, Bool.false_eq_true, if_false]
      rfl
  induction ids generalizing m with
  | nil => rfl
  | cons id ids ih =>
    unfold getTypesForm getTypes
    rw [one]
    cases getType o dies n m id true with
    | error e => rfl
    | ok r => dsimp only; rw [ih]; rfl

/-- Requests keep the sizes that are stored. -/
def KeepsSizes (get : TypeMemo → Nat → Bool → Except TypeError (TypeInfo × TypeMemo)) : Prop :=
  ∀ m c r t m', get m c r = .ok (t, m') → ∀ i, (m.total i).isSome → (m'.total i).isSome

theorem memberLoop_sizes {dies : Dies} {get : TypeMemo → Nat → Bool → Except TypeError (TypeInfo × TypeMemo)} (hg : KeepsSizes get) (r : Bool) (cs : List Nat) :
    ∀ m x m', memberLoop dies get r m cs = .ok (x, m') → ∀ i, (m.total i).isSome → (m'.total i).isSome := by
  induction cs with
  | nil =>
    intro m x m' h i hi
    cases h
    exact hi
  | cons c cs ih =>
    intro m x m' h i hi
    unfold memberLoop at h
    cases hd : dies c with
    | none => rw [hd] at h; cases h
    | some child =>
      rw [hd] at h
      dsimp only at h
      split at h
      · cases h1 : get m c r with
        | error e => rw [h1] at h; cases h
        | ok y =>
          obtain ⟨t, m1⟩ := y
          rw [h1] at h
          dsimp only at h
          cases h2 : memberLoop dies get r m1 cs with
          | error e => rw [h2] at h; cases h
          | ok z =>
            obtain ⟨z, m2⟩ := z
            rw [h2] at h
            cases h
            exact ih _ _ _ h2 i (hg _ _ _ _ _ h1 i hi)
      · split at h
        · split at h
          · cases h2 : memberLoop dies get r m cs with
            | error e => rw [h2] at h; cases h
            | ok z =>
              obtain ⟨z, m2⟩ := z
              rw [h2] at h
              cases h
              exact ih _ _ _ h2 i hi
          · cases h
        · exact ih _ _ _ h i hi

theorem membersOf_sizes {dies : Dies} {get : TypeMemo → Nat → Bool → Except TypeError (TypeInfo × TypeMemo)} (hg : KeepsSizes get) {d : Die} {r : Bool} {m m' : TypeMemo}
    {x : Option (Str × Str)} (h : membersOf dies get d r m = .ok (x, m')) : ∀ i, (m.total i).isSome → (m'.total i).isSome := by
  intro i hi
  unfold membersOf at h
  split at h
  · cases h2 : memberLoop dies get r m d.children with
    | error e => rw [h2] at h; cases h
    | ok z =>
      obtain ⟨z, m2⟩ := z
      rw [h2] at h
      cases h
      exact memberLoop_sizes hg r d.children _ _ _ h2 i hi
  · cases h
    exact hi

theorem referredType_sizes {dies : Dies} {get : TypeMemo → Nat → Bool → Except TypeError (TypeInfo × TypeMemo)} (hg : KeepsSizes get) {d : Die} {r : Bool} {m m' : TypeMemo}
    {x : Option (Option TypeInfo)} (h : referredType dies get d r m = .ok (x, m')) : ∀ i, (m.total i).isSome → (m'.total i).isSome := by
  intro i hi
  unfold referredType at h
  split at h
  · cases h; exact hi
  · split at h
    · cases h; exact hi
    · split at h
      · cases h
      · next h1 =>
        cases h
        exact hg _ _ _ _ _ h1 i hi

theorem store_sizes (m : TypeMemo) (id : Nat) (r : Bool) (t : TypeInfo) (i : Nat) (hi : (m.total i).isSome) : ((m.store id r t).total i).isSome := by
  unfold TypeMemo.store
  dsimp only
  split
  · rfl
  · exact hi

theorem getForm_sizes (o : TypeOpts) (dies : Dies) (forms : Nat → String) (n : Nat) : KeepsSizes (getTypeForm o dies forms n) := by
  induction n with
  | zero => intro m c r t m' h; cases h
  | succ n ih =>
    intro m c r t m' h i hi
    unfold getTypeForm at h
    split at h
    · cases h
    · split at h
      · cases h; exact hi
      · cases h
      · split at h
        · cases h
        · next h1 =>
          split at h
          · cases h
          · next h2 =>
            have h3 := referredType_sizes ih h2 i (membersOf_sizes ih h1 i hi)
            split at h
            · cases h
            · unfold storeForm storeType at h
              split at h
              · split at h
                · cases h
                · split at h
                  · cases h; exact store_sizes _ _ _ _ _ h3
                  · cases h
              · split at h
                · split at h
                  · cases h; exact store_sizes _ _ _ _ _ h3
                  · cases h
                · cases h; exact store_sizes _ _ _ _ _ h3

/-- Forms of constants that are taken as text. -/
def textForms : List String := ["DW_FORM_sdata", "DW_FORM_udata", "DW_FORM_implicit_const"]

theorem text_size {forms : Nat → String} {dies : Dies} {id : Nat} {d : Die} {v : Int} (hd : dies id = some d) (hv : d.byte_size = some v) (hf : forms id ∈ textForms) :
    sizeIsText forms dies id = true := by
  unfold sizeIsText
  rw [hd]
  dsimp only
  rw [hv]
  dsimp only
  unfold textForms at hf
  simp only [List.mem_cons, List.not_mem_nil, or_false] at hf
  rcases hf with h | h | h <;> rw [h] <;> rfl

/-- C137 is false in general: if the size of an entry is stored in one of these forms, asking for its type both with and without members ends the program, since
the number is compared with its text (dwarfvars.py:193). -/
theorem C137_twice_counterexample (o : TypeOpts) (dies : Dies) (forms : Nat → String) (n : Nat) (m : TypeMemo) (id : Nat) (resolve : Bool) (d : Die) (v s : Int)
    (hd : dies id = some d) (hv : d.byte_size = some v) (hf : forms id ∈ textForms) (hm : m.total id = some s) (he : m.entry id resolve = none) :
    ∀ r, getTypeForm o dies forms n m id resolve ≠ .ok r := by
  intro r h
  cases n with
  | zero => cases h
  | succ n =>
    unfold getTypeForm at h
    rw [hd, he, text_size hd hv hf] at h
    dsimp only at h
    split at h
    · cases h
    · next h1 =>
      split at h
      · cases h
      · next h2 =>
        have h3 := referredType_sizes (getForm_sizes o dies forms n) h2 id (membersOf_sizes (getForm_sizes o dies forms n) h1 id (by rw [hm]; rfl))
        split at h
        · cases h
        · unfold storeForm at h
          rw [if_pos rfl] at h
          split at h
          · cases h
          · next h4 => rw [h4] at h3; cases h3

/-- Each result of the first function is one of the second. -/
def RefinesGet (f g : TypeMemo → Nat → Bool → Except TypeError (TypeInfo × TypeMemo)) : Prop := ∀ m c r x, f m c r = .ok x → g m c r = .ok x

theorem memberLoop_refines {dies : Dies} {f g : TypeMemo → Nat → Bool → Except TypeError (TypeInfo × TypeMemo)} (hg : RefinesGet f g) (r : Bool) (cs : List Nat) :
    ∀ m x, memberLoop dies f r m cs = .ok x → memberLoop dies g r m cs = .ok x := by
  induction cs with
  | nil => exact fun m x h => h
  | cons c cs ih =>
    intro m x h
    unfold memberLoop at h ⊢
    cases hd : dies c with
    | none => rw [hd] at h; cases h
    | some child =>
      rw [hd] at h
      dsimp only at h ⊢
      by_cases h1 : child.tag = "member".toList
      · rw [if_pos h1] at h ⊢
        cases h2 : f m c r with
        | error e => rw [h2] at h; cases h
        | ok y =>
          obtain ⟨t, m1⟩ := y
          rw [h2] at h
          rw [hg _ _ _ _ h2]
          dsimp only at h ⊢
          cases h3 : memberLoop dies f r m1 cs with
          | error e => rw [h3] at h; cases h
          | ok z =>
            rw [h3] at h
            rw [ih _ _ h3]
            exact h
      · rw [if_neg h1] at h ⊢
        by_cases h4 : child.tag = "enumerator".toList
        · rw [if_pos h4] at h ⊢
          split at h
          · cases h3 : memberLoop dies f r m cs with
            | error e => rw [h3] at h; cases h
            | ok z =>
              rw [h3] at h
              rw [ih _ _ h3]
              exact h
          · cases h
        · rw [if_neg h4] at h ⊢
          exact ih _ _ h

theorem membersOf_refines {dies : Dies} {f g : TypeMemo → Nat → Bool → Except TypeError (TypeInfo × TypeMemo)} (hg : RefinesGet f g) {d : Die} {r : Bool} {m : TypeMemo}
    {x : Option (Str × Str) × TypeMemo} (h : membersOf dies f d r m = .ok x) : membersOf dies g d r m = .ok x := by
  unfold membersOf at h ⊢
  split
  · next hc =>
    rw [if_pos hc] at h
    cases h2 : memberLoop dies f r m d.children with
    | error e => rw [h2] at h; cases h
    | ok z =>
      rw [h2] at h
      rw [memberLoop_refines hg r d.children _ _ h2]
      exact h
  · next hc =>
    rw [if_neg hc] at h
    exact h

theorem referredType_refines {dies : Dies} {f g : TypeMemo → Nat → Bool → Except TypeError (TypeInfo × TypeMemo)} (hg : RefinesGet f g) {d : Die} {r : Bool} {m : TypeMemo}
    {x : Option (Option TypeInfo) × TypeMemo} (h : referredType dies f d r m = .ok x) : referredType dies g d r m = .ok x := by
  unfold referredType at h ⊢
  cases ht : d.type with
  | none => rw [ht] at h; exact h
  | some t =>
    rw [ht] at h
    dsimp only at h ⊢
    cases hd : dies t with
    | none => rw [hd] at h; exact h
    | some d' =>
      rw [hd] at h
      dsimp only at h ⊢
      cases h2 : f m t r with
      | error e => rw [h2] at h; cases h
      | ok z =>
        rw [h2] at h
        rw [hg _ _ _ _ h2]
        exact h

theorem store_refines {o : TypeOpts} {dies : Dies} {d : Die} {members : Option (Str × Str)} {type : Option (Option TypeInfo)} {t : TypeInfo} {text : Bool} {m : TypeMemo} {id : Nat}
    {r : Bool} {x : TypeInfo × TypeMemo} (ht : text = true → d.tag ≠ "array_type".toList ∧ d.byte_size ≠ none) (hf : finishType o dies d members type = .ok t)
    (h : storeForm text dies d m id r t = .ok x) : storeType m id r t = .ok x := by
  unfold storeForm at h
  cases text with
  | false => exact h
  | true =>
    obtain ⟨h1, h2⟩ := ht rfl
    rw [if_pos rfl] at h
    unfold storeType
    cases hm : m.total id with
    | some s => rw [hm] at h; cases h
    | none =>
      rw [hm] at h
      dsimp only at h ⊢
      cases hv : d.byte_size with
      | none => exact absurd hv h2
      | some v =>
        have e1 : textTotal dies d = some v := by
          unfold textTotal
          rw [hv, if_neg h1]
          dsimp only
          rw [show (1 : Int).toNat = 1 from rfl, List.replicate_one, List.flatten_cons, List.flatten_nil, List.append_nil, pyInt_dec]
        have e2 : t.size = v := by
          unfold finishType at hf
          rw [if_neg h1, hv] at hf
          dsimp only at hf
          split at hf
          · cases hf
          · rw [← Except.ok.inj hf]
            exact Int.one_mul v
        rw [e1] at h
        dsimp only at h
        rw [← e2] at h
        exact h

/-- **C137**, sizes: if the program ends without exception, the types are those of the numbers, whatever their forms are. (The size of an array must not be given in one of the
forms taken as text: it is computed from its elements.) -/
theorem C137_same_partial (o : TypeOpts) (dies : Dies) (forms : Nat → String) (ha : ∀ id d, dies id = some d → d.tag = "array_type".toList → sizeIsText forms dies id = false)
    (n : Nat) (m : TypeMemo) (ids : List Nat) (ts : List TypeInfo) (h : getTypesForm o dies forms n m ids = .ok ts) : getTypes o dies n m ids = .ok ts := by
  have one : ∀ n, RefinesGet (getTypeForm o dies forms n) (getType o dies n) := by
    intro n
    induction n with
    | zero => intro m c r x h; cases h
    | succ n ih =>
      intro m c r x h
      unfold getTypeForm at h
      unfold getType
      cases hd : dies c with
      | none => rw [hd] at h; cases h
      | some d =>
        rw [hd] at h
        dsimp only at h ⊢
        cases he : m.entry c r with
        | some e =>
          rw [he] at h
          cases ht : m.total c with
          | none => rw [ht] at h; cases h
          | some s => rw [ht] at h; exact h
        | none =>
          rw [he] at h
          dsimp only at h ⊢
          cases h1 : membersOf dies (getTypeForm o dies forms n) d (resolveIn d r) m with
          | error e => rw [h1] at h; cases h
          | ok y =>
            obtain ⟨members, m1⟩ := y
            rw [h1] at h
            rw [membersOf_refines ih h1]
            dsimp only at h ⊢
            cases h2 : referredType dies (getTypeForm o dies forms n) d (resolveIn d r) m1 with
            | error e => rw [h2] at h; cases h
            | ok z =>
              obtain ⟨type, m2⟩ := z
              rw [h2] at h
              rw [referredType_refines ih h2]
              dsimp only at h ⊢
              cases h3 : finishType o dies d members type with
              | error e => rw [h3] at h; cases h
              | ok t =>
                rw [h3] at h
                dsimp only at h ⊢
                refine store_refines (fun e => ⟨fun e' => ?_, fun e' => ?_⟩) h3 h
                · rw [ha c d hd e'] at e
                  cases e
                · unfold sizeIsText at e
                  rw [hd] at e
                  dsimp only at e
                  rw [e'] at e
                  cases e
  induction ids generalizing m ts with
  | nil => exact h
  | cons id ids ih =>
    unfold getTypesForm at h
    unfold getTypes
    cases h1 : getTypeForm o dies forms n m id true with
    | error e => rw [h1] at h; cases h
    | ok r =>
      rw [h1] at h
      rw [one n _ _ _ _ h1]
      dsimp only at h ⊢
      cases h2 : getTypesForm o dies forms n r.2 ids with
      | error e => rw [h2] at h; cases h
      | ok ts' =>
        rw [h2] at h
        rw [ih _ _ h2]
        exact h

/-- A number, a pointer to it, and a pointer to the pointer. -/
def formDies : Dies
  | 1 => some { tag := "base_type".toList, name := some "int".toList, byte_size := some 4, encoding := some "signed".toList }
  | 2 => some { tag := "pointer_type".toList, type := some 1, byte_size := some 8 }
  | 3 => some { tag := "pointer_type".toList, type := some 2, byte_size := some 8 }
  | _ => none

/-- The size of pointers is part of the abbreviation, as for compilers that use version 5 of the format. -/
def formForms (id : Nat) : String := if id = 1 then "DW_FORM_data1" else "DW_FORM_implicit_const"

/-- C85 is false in general: the types of both pointers are found on their own, but not if both are asked for, as for the variables `int *p, **q`; with another form
for the size of pointers, there is no difference. -/
theorem C85_form_counterexample (o : TypeOpts) (n : Nat) :
    (∃ t, getTypesForm o formDies formForms (n + 4) noMemo [2] = .ok t) ∧ (∃ t, getTypesForm o formDies formForms (n + 4) noMemo [3] = .ok t) ∧
      getTypesForm o formDies formForms (n + 4) noMemo [2, 3] = .error .assertion ∧
      ∃ t, getTypesForm o formDies (fun _ => "DW_FORM_data1") (n + 4) noMemo [2, 3] = .ok t := by
  exact ⟨⟨_, rfl⟩, ⟨_, rfl⟩, rfl, ⟨_, rfl⟩⟩

example : ∀ id d v, formDies id = some d → d.byte_size = some v → (fun _ => "DW_FORM_data1") id ∈ plainForms := by
  intro _ _ _ _ _
  show "DW_FORM_data1" ∈ plainForms
  decide

/-- After the first pointer was asked for. -/
example : ∃ m d, (∃ t, getTypeForm ⟨id, false, false⟩ formDies formForms 9 noMemo 2 true = .ok (t, m)) ∧ formDies 2 = some d ∧ d.byte_size = some 8 ∧ formForms 2 ∈ textForms ∧
    m.total 2 = some 8 ∧ m.entry 2 false = none := by
  refine ⟨_, _, ⟨_, rfl⟩, rfl, rfl, by decide, ?_, ?_⟩
  · decide +kernel
  · decide +kernel

example : (∀ id d, formDies id = some d → d.tag = "array_type".toList → sizeIsText formForms formDies id = false) ∧
    ∃ ts, getTypesForm ⟨id, false, false⟩ formDies formForms 9 noMemo [3] = .ok ts := by
  refine ⟨fun id d hd ht => ?_, _, rfl⟩
  unfold formDies at hd
  split at hd
  · cases hd; exact absurd ht (by decide)
  · cases hd; exact absurd ht (by decide)
  · cases hd; exact absurd ht (by decide)
  · cases hd

example : boundOf 0 (some (.num "DW_FORM_sdata" (-3))) = some (-3) ∧ boundOf 0 (some (.num "DW_FORM_data1" 7)) = some 7 := by decide +kernel

/-- **C137**, offsets of members: they do not depend on the form, for the forms used by most compilers, and different offsets are different. -/
theorem C137_offset_partial : (∀ form ∈ ["DW_FORM_data1", "DW_FORM_data2", "DW_FORM_data4", "DW_FORM_data8", "DW_FORM_implicit_const"], ∀ v,
      describeOffset form v = describeOffset "DW_FORM_data1" v) ∧ ∀ v v', describeOffset "DW_FORM_data1" v = describeOffset "DW_FORM_data1" v' → v = v' := by
  have e : ∀ form ∈ ["DW_FORM_data1", "DW_FORM_data2", "DW_FORM_data4", "DW_FORM_data8", "DW_FORM_implicit_const"], ∀ v, describeOffset form v = some (intText v) := by
    intro form hf v
    unfold describeOffset
    rw [if_pos]
    revert form
    decide +kernel
  refine ⟨fun form hf v => (e form hf v).trans (e _ (by decide) v).symm, fun v v' h => ?_⟩
  rw [e _ (by decide), e _ (by decide)] at h
  have h2 := congrArg pyInt (Option.some.inj h)
  rw [pyInt_dec, pyInt_dec] at h2
  exact Option.some.inj h2

/-- C137 is false for offsets stored as `udata` or `sdata`: they are lost, so that types with different layouts are the same. -/
theorem C137_offset_counterexample (o : TypeOpts) (dies : Dies) (n : Nat) (m : TypeMemo) (member : Nat) (ids : List Nat) (v v' : Int) :
    ∀ form ∈ ["DW_FORM_udata", "DW_FORM_sdata"], getTypes o (withOffset dies member form v) n m ids = getTypes o (withOffset dies member form v') n m ids := by
  have e : ∀ form ∈ ["DW_FORM_udata", "DW_FORM_sdata"], ∀ v, describeOffset form v = none := by
    intro form hf v
    unfold describeOffset
    rw [if_neg]
    revert form
    decide +kernel
  intro form hf
  unfold withOffset
  rw [e form hf, e form hf]

/-- A structure with one member. -/
def offsetDies : Dies
  | 1 => some { tag := "base_type".toList, byte_size := some 4, encoding := some "signed".toList }
  | 2 => some { tag := "structure_type".toList, children := [3], byte_size := some 16 }
  | 3 => some { tag := "member".toList, type := some 1 }
  | _ => none

/-- The offset counts if it is stored as `data1`. -/
example : (getTypes ⟨id, false, false⟩ (withOffset offsetDies 3 "DW_FORM_data1" 4) 9 noMemo [2]).toOption.map (·.map (·.hash)) ≠
    (getTypes ⟨id, false, false⟩ (withOffset offsetDies 3 "DW_FORM_data1" 8) 9 noMemo [2]).toOption.map (·.map (·.hash)) := by
  decide +kernel

example : ((getTypes ⟨id, false, false⟩ (withOffset offsetDies 3 "DW_FORM_udata" 4) 9 noMemo [2]).toOption.map (·.map (·.ident))) =
    some ["struct { 4 byte signed; }".toList] := by
  decide +kernel

end Bean.Props

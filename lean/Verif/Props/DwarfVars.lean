import Verif.Spec.DwarfVars
import Verif.Props.DwarfTypes
/-
C96: variables of the debug information.
-/
namespace Bean.Props
open Bean Bean.Spec

/-! ### Numbers -/

theorem parseDigits_append (b acc : Nat) (s t : Str) :
    parseDigits b acc (s ++ t) = (parseDigits b acc s).bind (fun a => parseDigits b a t) := by
  induction s generalizing acc with
  | nil => rfl
  | cons c s ih =>
    rw [List.cons_append, parseDigits, parseDigits]
    cases digitValue c with
    | none => rfl
    | some d =>
      dsimp only
      by_cases h : d < b
      · rw [if_pos h, if_pos h]; exact ih _
      · rw [if_neg h, if_neg h]; rfl

theorem digitValue_char : ∀ k < 16, digitValue (Nat.digitChar k) = some k := by decide

theorem parseDigits_toDigits {b : Nat} (hb : 1 < b) (hb' : b ≤ 16) (n : Nat) : parseDigits b 0 (Nat.toDigits b n) = some n := by
  induction n using Nat.strongRecOn with
  | ind n ih =>
    rw [Nat.toDigits_eq_if hb]
    by_cases h : n < b
    · rw [if_pos h, parseDigits, digitValue_char n (by omega)]
      dsimp only
      rw [if_pos h, parseDigits]
      simp
    · rw [if_neg h, parseDigits_append, ih (n / b) (Nat.div_lt_self (by omega) hb)]
      have hm := Nat.mod_lt n (show 0 < b by omega)
      show parseDigits b (n / b) [Nat.digitChar (n % b)] = some n
      rw [parseDigits, digitValue_char _ (by omega)]
      dsimp only
      rw [if_pos hm, parseDigits, Nat.div_add_mod]

theorem toDigits_head_zero {n : Nat} {cs : Str} (h : Nat.toDigits 10 n = '0' :: cs) : n = 0 := by
  induction n using Nat.strongRecOn generalizing cs with
  | ind n ih =>
    rw [Nat.toDigits_eq_if (by decide)] at h
    by_cases hn : n < 10
    · rw [if_pos hn] at h
      have h1 := (List.cons.inj h).1
      have key : ∀ k < 10, Nat.digitChar k = '0' → k = 0 := by decide
      exact key n hn h1
    · rw [if_neg hn] at h
      cases hd : Nat.toDigits 10 (n / 10) with
      | nil => exact absurd hd Nat.toDigits_ne_nil
      | cons c l =>
        rw [hd, List.cons_append] at h
        have h1 := (List.cons.inj h).1
        have := ih (n / 10) (by omega) (h1 ▸ hd)
        omega

theorem pyNat_dec (n : Nat) : pyNat (Nat.toDigits 10 n) = some n := by
  have hp := parseDigits_toDigits (b := 10) (by decide) (by decide) n
  by_cases hz : n = 0
  · rw [hz]; decide
  · cases hd : Nat.toDigits 10 n with
    | nil => exact absurd hd Nat.toDigits_ne_nil
    | cons c l =>
      have hc : c ≠ '0' := fun e => hz (toDigits_head_zero (e ▸ hd))
      rw [hd] at hp
      unfold pyNat
      split
      · rename_i h; cases h
      · rename_i h; exact absurd (List.cons.inj h).1 hc
      · rename_i h
        cases h
        rw [if_neg (fun h => hc h.1)]
        exact hp

theorem pyNat_hex (n : Nat) : pyNat ('0' :: 'x' :: Nat.toDigits 16 n) = some n := by
  have hp := parseDigits_toDigits (b := 16) (by decide) (by decide) n
  cases hd : Nat.toDigits 16 n with
  | nil => exact absurd hd Nat.toDigits_ne_nil
  | cons c l =>
    rw [hd] at hp
    exact hp

theorem pyInt_plain {c : Char} {s : Str} (h : c ≠ '-') (h' : c ≠ '+') : pyInt (c :: s) = (pyNat (c :: s)).map Int.ofNat := by
  unfold pyInt
  split
  · rename_i e; exact absurd (List.cons.inj e).1 h
  · rename_i e; exact absurd (List.cons.inj e).1 h'
  · rfl

theorem pyInt_hex (i : Int) : pyInt (hexText i) = some i := by
  unfold hexText
  by_cases h : i < 0
  · rw [if_pos h]
    show (pyNat ('0' :: 'x' :: Nat.toDigits 16 i.natAbs)).map _ = _
    rw [pyNat_hex, Option.map_some]
    congr 1
    simp only [Int.ofNat_eq_natCast]
    omega
  · rw [if_neg h, List.nil_append, pyInt_plain (by decide) (by decide), pyNat_hex, Option.map_some]
    congr 1
    simp only [Int.ofNat_eq_natCast]
    omega

theorem pyInt_signed (i : Int) : pyInt (signedText i) = some i := by
  unfold signedText
  by_cases h : i < 0
  · rw [if_pos h]
    show (pyNat _).map _ = _
    rw [pyNat_dec, Option.map_some]
    congr 1
    simp only [Int.ofNat_eq_natCast]
    omega
  · rw [if_neg h]
    show (pyNat _).map _ = _
    rw [pyNat_dec, Option.map_some]
    congr 1
    simp only [Int.ofNat_eq_natCast]
    omega

theorem pyInt_dec (i : Int) : pyInt (intText i) = some i := by
  unfold intText
  by_cases h : i < 0
  · rw [if_pos h]
    show (pyNat (Nat.toDigits 10 i.natAbs)).map _ = _
    rw [pyNat_dec, Option.map_some]
    congr 1
    simp only [Int.ofNat_eq_natCast]
    omega
  · rw [if_neg h, List.nil_append]
    cases hd : Nat.toDigits 10 i.natAbs with
    | nil => exact absurd hd Nat.toDigits_ne_nil
    | cons c l =>
      have hc : c.isDigit = true := Nat.isDigit_of_mem_toDigits (b := 10) (n := i.natAbs) (by decide) (by decide) (by rw [hd]; exact List.mem_cons_self)
      rw [pyInt_plain (by rintro rfl; revert hc; decide) (by rintro rfl; revert hc; decide), ← hd, pyNat_dec, Option.map_some]
      congr 1
      simp only [Int.ofNat_eq_natCast]
      omega

/-! ### Sets -/

section
variable {β : Type} [DecidableEq β]

theorem setAdd_mem {s : List β} {x y : β} : y ∈ setAdd s x ↔ y ∈ s ∨ y = x := by
  unfold setAdd
  split
  · rename_i h
    exact ⟨Or.inl, fun h' => h'.elim id (fun e => e ▸ h)⟩
  · simp

theorem setAdd_nodup {s : List β} {x : β} (h : s.Nodup) : (setAdd s x).Nodup := by
  unfold setAdd
  split
  · exact h
  · rename_i hx
    rw [List.nodup_append]
    exact ⟨h, by simp, fun a ha b hb e => hx (by rw [← List.mem_singleton.mp hb, ← e]; exact ha)⟩

theorem setUnion_mem {s t : List β} {y : β} : y ∈ setUnion s t ↔ y ∈ s ∨ y ∈ t := by
  unfold setUnion
  induction t generalizing s with
  | nil => simp
  | cons x t ih =>
    rw [List.foldl_cons, ih, setAdd_mem, List.mem_cons]
    constructor
    · rintro ((h | h) | h)
      · exact Or.inl h
      · exact Or.inr (Or.inl h)
      · exact Or.inr (Or.inr h)
    · rintro (h | h | h)
      · exact Or.inl (Or.inl h)
      · exact Or.inl (Or.inr h)
      · exact Or.inr h

theorem setUnion_nodup {s t : List β} (h : s.Nodup) : (setUnion s t).Nodup := by
  unfold setUnion
  induction t generalizing s with
  | nil => exact h
  | cons x t ih => exact ih (setAdd_nodup h)

omit [DecidableEq β] in
/-- The only element of a set. -/
theorem only_iff {s : List β} (h : s.Nodup) {v : β} : s = [v] ↔ v ∈ s ∧ ∀ w ∈ s, w = v := by
  constructor
  · rintro rfl
    exact ⟨List.mem_cons_self, fun w hw => List.mem_singleton.mp hw⟩
  · rintro ⟨h1, h2⟩
    cases s with
    | nil => cases h1
    | cons a s =>
      rw [h2 a List.mem_cons_self]
      congr 1
      cases s with
      | nil => rfl
      | cons b s =>
        have := h2 b (List.mem_cons_of_mem _ List.mem_cons_self)
        have h3 := h2 a List.mem_cons_self
        rw [List.nodup_cons] at h
        exact absurd (by rw [this, h3]; exact List.mem_cons_self) h.1

end

theorem foldl_add_op (l : List LocDesc) (d : LocDesc) (o : Str) :
    o ∈ (l.foldl LocDesc.add d).op ↔ o ∈ d.op ∨ ∃ x ∈ l, o ∈ x.op := by
  induction l generalizing d with
  | nil => simp
  | cons x l ih =>
    rw [List.foldl_cons, ih]
    show (o ∈ setUnion d.op x.op ∨ _) ↔ _
    rw [setUnion_mem]
    simp [or_assoc]

theorem foldl_add_value (l : List LocDesc) (d : LocDesc) (v : LocVal) :
    v ∈ (l.foldl LocDesc.add d).value ↔ v ∈ d.value ∨ ∃ x ∈ l, v ∈ x.value := by
  induction l generalizing d with
  | nil => simp
  | cons x l ih =>
    rw [List.foldl_cons, ih]
    show (v ∈ setUnion d.value x.value ∨ _) ↔ _
    rw [setUnion_mem]
    simp [or_assoc]

theorem foldl_add_nodup (l : List LocDesc) (d : LocDesc) (h : d.op.Nodup ∧ d.value.Nodup) :
    (l.foldl LocDesc.add d).op.Nodup ∧ (l.foldl LocDesc.add d).value.Nodup := by
  induction l generalizing d with
  | nil => exact h
  | cons x l ih => exact ih _ ⟨setUnion_nodup h.1, setUnion_nodup h.2⟩

theorem merge_op (l : List LocDesc) (o : Str) : o ∈ (mergeDescs l).op ↔ ∃ x ∈ l, o ∈ x.op := by
  rw [mergeDescs, foldl_add_op]
  simp

theorem merge_value (l : List LocDesc) (v : LocVal) : v ∈ (mergeDescs l).value ↔ ∃ x ∈ l, v ∈ x.value := by
  rw [mergeDescs, foldl_add_value]
  simp

theorem merge_nodup (l : List LocDesc) : (mergeDescs l).op.Nodup ∧ (mergeDescs l).value.Nodup :=
  foldl_add_nodup l {} ⟨List.nodup_nil, List.nodup_nil⟩

/-! ### Operations -/

theorem hexText_ne (i : Int) : hexText i ≠ [] := by
  unfold hexText
  split <;> exact fun h => by cases h

theorem intText_ne (i : Int) : intText i ≠ [] := by
  intro h
  have := pyInt_dec i
  rw [h] at this
  cases this

theorem valueSet_text {s : Str} (h : s ≠ []) : valueSet (.text s) = [.text s] := by
  cases s with
  | nil => exact absurd rfl h
  | cons c s => rfl

section
variable {reg : Nat → Str} {unit : Nat}

/-- The name of an operation is among the names. -/
theorem descOp_name {op : DwOp} {d : LocDesc} (h : descOp reg unit op = some d) : op.name ∈ d.op := by
  unfold descOp at h
  by_cases h1 : 0x50 ≤ op.code ∧ op.code ≤ 0x6f
  · rw [if_pos h1] at h; cases h; exact List.mem_cons_self
  rw [if_neg h1] at h
  by_cases h2 : 0x70 ≤ op.code ∧ op.code ≤ 0x8f
  · rw [if_pos h2] at h
    split at h
    · cases h; exact List.mem_cons_self
    · cases h
  rw [if_neg h2] at h
  by_cases h3 : op.name ∈ ["fbreg".toList, "bra".toList, "skip".toList, "consts".toList]
  · rw [if_pos h3] at h
    split at h
    · cases h; exact List.mem_cons_self
    · cases h
  rw [if_neg h3] at h
  by_cases h4 : op.name ∈ ["const1s".toList, "const2s".toList]
  · rw [if_pos h4] at h
    split at h
    · cases h; exact List.mem_cons_self
    · cases h
  rw [if_neg h4] at h
  by_cases h5 : op.name ∈ ["entry_value".toList, "GNU_entry_value".toList]
  · rw [if_pos h5] at h
    split at h
    · cases h; exact setAdd_mem.mpr (Or.inr rfl)
    · cases h
  rw [if_neg h5] at h
  by_cases h6 : op.name = "regval_type".toList
  · rw [if_pos h6] at h
    split at h
    · cases h; exact List.mem_cons_self
    · cases h
  rw [if_neg h6] at h
  by_cases h7 : op.name = "convert".toList
  · rw [if_pos h7] at h
    split at h
    · cases h; exact List.mem_cons_self
    · cases h
  rw [if_neg h7] at h
  by_cases h8 : op.args ≠ []
  · rw [if_pos h8] at h; cases h; exact setAdd_mem.mpr (Or.inr rfl)
  · rw [if_neg h8] at h; cases h; exact List.mem_cons_self

/-- The spelling of a number depends on the operation. -/
def argText (name : Str) (a : Int) : Str :=
  if name = "consts".toList then signedText a
  else if name ∈ ["const1s".toList, "const2s".toList] then intText a
  else hexText a

theorem pyInt_argText (name : Str) (a : Int) : pyInt (argText name a) = some a := by
  unfold argText
  split
  · exact pyInt_signed a
  · split
    · exact pyInt_dec a
    · exact pyInt_hex a

theorem argText_ne (name : Str) (a : Int) : argText name a ≠ [] := by
  intro h
  have := pyInt_argText name a
  rw [h] at this
  cases this

/-- Operations with a number as only argument that is spelled as such. -/
theorem descOp_number {op : DwOp} {a : Int} (hc : op.code < 0x50 ∨ 0x8f < op.code) (ha : op.args = [.num a])
    (hn : op.name = "addr".toList ∨ IsConst op) :
    descOp reg unit op = some { op := [op.name], value := [.text (argText op.name a)] } := by
  have hs : valueSet (.text (hexText a)) = [.text (hexText a)] := valueSet_text (hexText_ne a)
  have hx : ∀ s : Str, ¬ (s = op.name) ∨ "addr".toList = s ∨ "const".toList <+: s := by
    intro s
    by_cases e : s = op.name
    · rw [e]
      exact Or.inr (hn.elim (fun h => Or.inl h.symm) Or.inr)
    · exact Or.inl e
  have hno : ∀ s : Str, ("addr".toList ≠ s ∧ ¬ "const".toList <+: s) → op.name ≠ s := by
    rintro s ⟨h1, h2⟩ e
    rcases hx s with h | h | h
    · exact h e.symm
    · exact h1 h
    · exact h2 h
  unfold descOp
  rw [if_neg (by omega), if_neg (by omega)]
  by_cases h3 : op.name = "consts".toList
  · rw [if_pos (by rw [h3]; decide), ha]
    dsimp only
    rw [valueSet_text (fun h => by unfold signedText at h; cases h), argText, if_pos h3]
  rw [if_neg (by
    intro h
    simp only [List.mem_cons, List.not_mem_nil, or_false] at h
    rcases h with h | h | h | h
    · exact hno _ (by decide) h
    · exact hno _ (by decide) h
    · exact hno _ (by decide) h
    · exact h3 h)]
  by_cases h4 : op.name ∈ ["const1s".toList, "const2s".toList]
  · rw [if_pos h4, ha]
    dsimp only
    rw [valueSet_text (intText_ne a), argText, if_neg h3, if_pos h4]
  rw [if_neg h4]
  rw [if_neg (by
    intro h
    simp only [List.mem_cons, List.not_mem_nil, or_false] at h
    rcases h with h | h
    · exact hno _ (by decide) h
    · exact hno _ (by decide) h), if_neg (hno _ (by decide)), if_neg (hno _ (by decide)), if_pos (by rw [ha]; exact List.cons_ne_nil _ _), ha,
    argText, if_neg h3, if_neg h4]
  show some (((mergeDescs [descArg (.num a)])).addOp op.name) = _
  simp only [mergeDescs, List.foldl_cons, List.foldl_nil, descArg, LocDesc.add, LocDesc.addOp, setUnion, hs, setAdd, List.not_mem_nil, if_false,
    List.nil_append]

theorem descOp_tls {op : DwOp} (hv : ValidOp op) (hn : op.name = "form_tls_address".toList) :
    descOp reg unit op = some { op := ["form_tls_address".toList] } := by
  obtain ⟨h1, h2⟩ := hv.2.1 hn
  unfold descOp
  rw [h1, hn, h2]
  rfl

theorem mapM_some {γ δ : Type} {f : γ → Option δ} {l : List γ} {r : List δ} (h : l.mapM f = some r) :
    (∀ x ∈ l, ∃ y ∈ r, f x = some y) ∧ ∀ y ∈ r, ∃ x ∈ l, f x = some y := by
  induction l generalizing r with
  | nil =>
    cases h
    exact ⟨fun x h => (by cases h), fun x h => (by cases h)⟩
  | cons a l ih =>
    rw [List.mapM_cons] at h
    cases ha : f a with
    | none => rw [ha] at h; cases h
    | some b =>
      rw [ha] at h
      cases hl : l.mapM f with
      | none => rw [hl] at h; cases h
      | some r' =>
        rw [hl] at h
        cases h
        obtain ⟨h1, h2⟩ := ih hl
        refine ⟨?_, ?_⟩
        · intro x hx
          rcases List.mem_cons.mp hx with rfl | hx
          · exact ⟨b, List.mem_cons_self, ha⟩
          · obtain ⟨y, h3, h4⟩ := h1 x hx
            exact ⟨y, List.mem_cons_of_mem _ h3, h4⟩
        · intro y hy
          rcases List.mem_cons.mp hy with rfl | hy
          · exact ⟨a, List.mem_cons_self, ha⟩
          · obtain ⟨x, h3, h4⟩ := h2 y hy
            exact ⟨x, List.mem_cons_of_mem _ h3, h4⟩

/-- What is in a description. -/
theorem descExpr_parts {ops : List DwOp} {d : LocDesc} (h : descExpr reg unit ops = some d) :
    d.op.Nodup ∧ d.value.Nodup ∧ (∀ o, o ∈ d.op ↔ ∃ op ∈ ops, ∃ x, descOp reg unit op = some x ∧ o ∈ x.op) ∧
      (∀ v, v ∈ d.value ↔ ∃ op ∈ ops, ∃ x, descOp reg unit op = some x ∧ v ∈ x.value) ∧ ∀ op ∈ ops, op.name ∈ d.op := by
  unfold descExpr at h
  cases hm : ops.mapM (descOp reg unit) with
  | none => rw [hm] at h; cases h
  | some l =>
    rw [hm] at h
    cases h
    obtain ⟨h1, h2⟩ := mapM_some hm
    have key : ∀ (P : LocDesc → Prop), (∃ x ∈ l, P x) ↔ ∃ op ∈ ops, ∃ x, descOp reg unit op = some x ∧ P x := by
      intro P
      constructor
      · rintro ⟨x, hx, hp⟩
        obtain ⟨op, h3, h4⟩ := h2 x hx
        exact ⟨op, h3, x, h4, hp⟩
      · rintro ⟨op, h3, x, h4, hp⟩
        obtain ⟨y, h5, h6⟩ := h1 op h3
        rw [h4] at h6
        cases h6
        exact ⟨x, h5, hp⟩
    refine ⟨(merge_nodup l).1, (merge_nodup l).2, fun o => (merge_op l o).trans (key _), fun v => (merge_value l v).trans (key _), ?_⟩
    intro op hop
    obtain ⟨x, h3, h4⟩ := h1 op hop
    exact (merge_op l _).mpr ⟨x, h3, descOp_name h4⟩

end

theorem getLoc_eq {tls : Bool} {d : LocDesc} {a : Int} (h : getLoc tls d = .ok (some a)) :
    ∃ v, d.value = [v] ∧ locValue v = .ok (some a) ∧ (tls = true → d.op.all tlsOp = true) ∧
      (tls = false → d.op.length = 1 ∧ "addr".toList ∈ d.op) := by
  unfold getLoc at h
  split at h
  · rename_i v hv
    refine ⟨v, hv, ?_⟩
    cases tls with
    | true =>
      rw [if_pos rfl] at h
      by_cases hc : d.op.all tlsOp = true
      · rw [if_pos hc] at h
        exact ⟨h, fun _ => hc, fun e => by cases e⟩
      · rw [if_neg hc] at h; cases h
    | false =>
      rw [if_neg (by decide)] at h
      by_cases hc : d.op.length = 1 ∧ "addr".toList ∈ d.op
      · rw [if_pos hc] at h
        exact ⟨h, (fun e => by cases e), fun _ => hc⟩
      · rw [if_neg hc] at h; cases h
  · cases h

theorem locValue_text {s : Str} {a : Int} (h : pyInt s = some a) : locValue (.text s) = .ok (some a) := by
  show (match pyInt s with
    | some i => (.ok (some i) : Except VarError (Option Int))
    | none => .error .valueError) = _
  rw [h]

theorem isConst_iff (op : DwOp) : "const".toList.isPrefixOf op.name = true ↔ IsConst op := List.isPrefixOf_iff_prefix

/-- C96: the place of a variable is understood as an address iff it is a fixed address, and this is the address delivered. Nothing goes wrong for
other places. -/
theorem C96_static (reg : Nat → Str) (unit : Nat) (ops : List DwOp) (d : LocDesc) (hv : ∀ op ∈ ops, ValidOp op)
    (hd : descExpr reg unit ops = some d) :
    (∀ a, getLoc false d = .ok (some a) ↔ FixedAt ops a) ∧ ∀ e, getLoc false d ≠ .error e := by
  obtain ⟨n1, n2, ho, hw, hn⟩ := descExpr_parts hd
  -- operations are `addr` only
  have only : d.op.length = 1 ∧ "addr".toList ∈ d.op → ∀ op ∈ ops, op.name = "addr".toList := by
    rintro ⟨h1, h2⟩ op hop
    obtain ⟨o, h3⟩ := List.length_eq_one_iff.mp h1
    have h4 := hn op hop
    rw [h3] at h2 h4
    rw [List.mem_singleton.mp h4, List.mem_singleton.mp h2]
  have number : ∀ op ∈ ops, op.name = "addr".toList → ∃ a, op.args = [.num a] ∧
      descOp reg unit op = some { op := ["addr".toList], value := [.text (hexText a)] } := by
    intro op hop he
    obtain ⟨h1, a, h2⟩ := (hv op hop).1 he
    refine ⟨a, h2, ?_⟩
    rw [descOp_number (Or.inl (by rw [h1]; decide)) h2 (Or.inl he), he]
    rfl
  constructor
  · intro a
    constructor
    · intro h
      obtain ⟨v, h1, h2, _, h3⟩ := getLoc_eq h
      have hall := only (h3 rfl)
      obtain ⟨hv1, hv2⟩ := (only_iff n2).mp h1
      have hval : ∀ op ∈ ops, op.args = [.num a] := by
        intro op hop
        obtain ⟨b, h4, h5⟩ := number op hop (hall op hop)
        have h6 := hv2 _ ((hw (.text (hexText b))).mpr ⟨op, hop, _, h5, List.mem_cons_self⟩)
        rw [← h6, locValue_text (pyInt_hex b)] at h2
        cases h2
        exact h4
      refine ⟨?_, fun op hop => ⟨hall op hop, hval op hop⟩⟩
      rintro rfl
      obtain ⟨op, h4, _⟩ := (hw v).mp hv1
      cases h4
    · rintro ⟨h1, h2⟩
      have hop : ∀ o, o ∈ d.op ↔ o = "addr".toList := by
        intro o
        rw [ho]
        constructor
        · rintro ⟨op, h3, x, h4, h5⟩
          obtain ⟨b, _, h7⟩ := number op h3 (h2 op h3).1
          rw [h4] at h7
          cases h7
          exact List.mem_singleton.mp h5
        · rintro rfl
          cases ops with
          | nil => exact absurd rfl h1
          | cons op ops =>
            obtain ⟨b, _, h7⟩ := number op List.mem_cons_self (h2 op List.mem_cons_self).1
            exact ⟨op, List.mem_cons_self, _, h7, List.mem_cons_self⟩
      have hval : ∀ v, v ∈ d.value ↔ v = .text (hexText a) := by
        intro v
        rw [hw]
        constructor
        · rintro ⟨op, h3, x, h4, h5⟩
          obtain ⟨b, h6, h7⟩ := number op h3 (h2 op h3).1
          rw [(h2 op h3).2] at h6
          cases h6
          rw [h4] at h7
          cases h7
          exact List.mem_singleton.mp h5
        · rintro rfl
          cases ops with
          | nil => exact absurd rfl h1
          | cons op ops =>
            obtain ⟨b, h6, h7⟩ := number op List.mem_cons_self (h2 op List.mem_cons_self).1
            rw [(h2 op List.mem_cons_self).2] at h6
            cases h6
            exact ⟨op, List.mem_cons_self, _, h7, List.mem_cons_self⟩
      have e1 : d.op = ["addr".toList] := (only_iff n1).mpr ⟨(hop _).mpr rfl, fun w h => (hop w).mp h⟩
      have e2 : d.value = [.text (hexText a)] := (only_iff n2).mpr ⟨(hval _).mpr rfl, fun w h => (hval w).mp h⟩
      unfold getLoc
      rw [e2]
      dsimp only
      rw [if_neg (by decide), if_pos (by rw [e1]; exact ⟨rfl, List.mem_cons_self⟩)]
      exact locValue_text (pyInt_hex a)
  · intro e h
    unfold getLoc at h
    split at h
    · rename_i v hv0
      rw [if_neg (by decide)] at h
      by_cases hc : d.op.length = 1 ∧ "addr".toList ∈ d.op
      · rw [if_pos hc] at h
        obtain ⟨op, h3, x, h4, h5⟩ := (hw v).mp (by rw [hv0]; exact List.mem_cons_self)
        obtain ⟨b, _, h7⟩ := number op h3 (only hc op h3)
        rw [h4] at h7
        cases h7
        rw [List.mem_singleton.mp h5, locValue_text (pyInt_hex b)] at h
        cases h
      · rw [if_neg hc] at h; cases h
    · cases h

theorem tlsOp_iff (op : DwOp) : tlsOp op.name = true ↔ op.name = "form_tls_address".toList ∨ IsConst op := by
  unfold tlsOp
  rw [Bool.or_eq_true, beq_iff_eq, isConst_iff]

theorem const_ne_tls {op : DwOp} (h : IsConst op) : op.name ≠ "form_tls_address".toList := by
  intro e
  unfold IsConst at h
  rw [e] at h
  revert h
  decide

/-- C96: thread-local variables are found by constants and the operation for thread-local addresses; the offset is the constant. If
several constants of different kinds occur nothing may be found. Missing: the operation for thread-local addresses must not be left out, and
there are other names for it (see `C96_counterexample`). -/
theorem C96_tls_partial (reg : Nat → Str) (unit : Nat) (ops : List DwOp) (d : LocDesc) (hv : ∀ op ∈ ops, ValidOp op)
    (hd : descExpr reg unit ops = some d) :
    (∀ a, getLoc true d = .ok (some a) → ConstantAt ops a) ∧ (∀ a, OneKind ops → ConstantAt ops a → getLoc true d = .ok (some a)) ∧
      ∀ e, getLoc true d ≠ .error e := by
  obtain ⟨n1, n2, ho, hw, hn⟩ := descExpr_parts hd
  have kinds : d.op.all tlsOp = true → ∀ op ∈ ops, op.name = "form_tls_address".toList ∨ IsConst op := by
    intro h op hop
    exact (tlsOp_iff op).mp (List.all_eq_true.mp h _ (hn op hop))
  have number : ∀ op ∈ ops, IsConst op → ∃ a, op.args = [.num a] ∧
      descOp reg unit op = some { op := [op.name], value := [.text (argText op.name a)] } := by
    intro op hop he
    obtain ⟨h1, a, h2⟩ := (hv op hop).2.2 he
    exact ⟨a, h2, descOp_number h1 h2 (Or.inr he)⟩
  -- values come from constants
  have origin : (∀ op ∈ ops, op.name = "form_tls_address".toList ∨ IsConst op) → ∀ v, v ∈ d.value ↔ ∃ op ∈ ops, IsConst op ∧
      ∃ a, op.args = [.num a] ∧ v = .text (argText op.name a) := by
    intro hk v
    rw [hw]
    constructor
    · rintro ⟨op, h1, x, h2, h3⟩
      rcases hk op h1 with h4 | h4
      · rw [descOp_tls (hv op h1) h4] at h2
        cases h2
        cases h3
      · obtain ⟨a, h5, h6⟩ := number op h1 h4
        rw [h6] at h2
        cases h2
        exact ⟨op, h1, h4, a, h5, List.mem_singleton.mp h3⟩
    · rintro ⟨op, h1, h2, a, h3, h4⟩
      obtain ⟨b, h5, h6⟩ := number op h1 h2
      rw [h3] at h5
      cases h5
      exact ⟨op, h1, _, h6, by rw [h4]; exact List.mem_cons_self⟩
  refine ⟨?_, ?_, ?_⟩
  · intro a h
    obtain ⟨v, h1, h2, h3, _⟩ := getLoc_eq h
    have hk := kinds (h3 rfl)
    obtain ⟨hv1, hv2⟩ := (only_iff n2).mp h1
    obtain ⟨op, h4, h5, _⟩ := (origin hk v).mp hv1
    refine ⟨⟨op, h4, h5⟩, fun op' hop' => ?_⟩
    rcases hk op' hop' with h6 | h6
    · exact Or.inr h6
    · obtain ⟨b, h7, _⟩ := number op' hop' h6
      have h8 := hv2 _ ((origin hk _).mpr ⟨op', hop', h6, b, h7, rfl⟩)
      rw [← h8, locValue_text (pyInt_argText _ b)] at h2
      cases h2
      exact Or.inl ⟨h6, h7⟩
  · rintro a h1 ⟨⟨op, h2, h3⟩, h4⟩
    have hk : ∀ op ∈ ops, op.name = "form_tls_address".toList ∨ IsConst op := fun op h => (h4 op h).elim (fun h => Or.inr h.1) Or.inl
    have hall : d.op.all tlsOp = true := by
      rw [List.all_eq_true]
      intro o hoo
      obtain ⟨op', h5, x, h6, h7⟩ := (ho o).mp hoo
      rcases hk op' h5 with h8 | h8
      · rw [descOp_tls (hv op' h5) h8] at h6
        cases h6
        rw [List.mem_singleton.mp h7]
        decide
      · obtain ⟨b, _, h9⟩ := number op' h5 h8
        rw [h9] at h6
        cases h6
        rw [List.mem_singleton.mp h7]
        exact (tlsOp_iff op').mpr (Or.inr h8)
    have harg : ∀ op' ∈ ops, IsConst op' → op'.args = [.num a] := by
      intro op' h5 h6
      rcases h4 op' h5 with h7 | h7
      · exact h7.2
      · exact absurd h7 (const_ne_tls h6)
    have e2 : d.value = [.text (argText op.name a)] := by
      refine (only_iff n2).mpr ⟨(origin hk _).mpr ⟨op, h2, h3, a, harg op h2 h3, rfl⟩, ?_⟩
      intro w hw'
      obtain ⟨op', h5, h6, b, h7, h8⟩ := (origin hk w).mp hw'
      rw [harg op' h5 h6] at h7
      cases h7
      rw [h8, h1 op h2 op' h5 h3 h6]
    unfold getLoc
    rw [e2]
    dsimp only
    rw [if_pos rfl, if_pos hall]
    exact locValue_text (pyInt_argText _ a)
  · intro e h
    unfold getLoc at h
    split at h
    · rename_i v hv0
      rw [if_pos rfl] at h
      by_cases hc : d.op.all tlsOp = true
      · rw [if_pos hc] at h
        obtain ⟨op, _, _, b, _, h5⟩ := (origin (kinds hc) v).mp (by rw [hv0]; exact List.mem_cons_self)
        rw [h5, locValue_text (pyInt_argText _ b)] at h
        cases h
      · rw [if_neg hc] at h; cases h
    · cases h

/-- C96: no place is both a fixed address and thread-local. -/
theorem C96_disjoint (d : LocDesc) (a : Int) (h : getLoc false d = .ok (some a)) : getLoc true d = .ok none := by
  obtain ⟨v, h1, _, _, h2⟩ := getLoc_eq h
  unfold getLoc
  rw [h1]
  dsimp only
  rw [if_pos rfl, if_neg]
  intro hc
  have := List.all_eq_true.mp hc _ (h2 rfl).2
  revert this
  decide

/-! ### The list -/

theorem varPlace_ok {dies : Dies} {tls : Bool} {d : VarDie} {a : Int} {t : Nat} :
    varPlace dies tls d = .ok (some (a, t)) ↔ ListedAt dies tls d a t := by
  unfold varPlace ListedAt
  cases hl : d.location with
  | none => exact ⟨fun h => (by cases h), fun ⟨_, ⟨_, h, _⟩, _⟩ => by cases h⟩
  | some loc =>
    cases ht : d.type with
    | none => exact ⟨fun h => (by cases h), fun ⟨_, _, h, _⟩ => by cases h⟩
    | some t' =>
      dsimp only
      by_cases h1 : d.tag = "variable".toList
      · rw [if_pos h1]
        cases loc with
        | none => exact ⟨fun h => (by cases h), fun ⟨_, ⟨_, h, _⟩, _⟩ => by cases h⟩
        | some l =>
          dsimp only
          cases hg : getLoc tls l with
          | error e =>
            exact ⟨fun h => (by cases h), fun ⟨_, ⟨_, h, h'⟩, _⟩ => by cases h; rw [hg] at h'; cases h'⟩
          | ok x =>
            cases x with
            | none => exact ⟨fun h => (by cases h), fun ⟨_, ⟨_, h, h'⟩, _⟩ => by cases h; rw [hg] at h'; cases h'⟩
            | some b =>
              dsimp only
              by_cases h2 : b = 0 ∧ tls = false
              · rw [if_pos h2]
                refine ⟨fun h => (by cases h), fun ⟨_, ⟨_, h, h'⟩, _, _, h3⟩ => ?_⟩
                cases h
                rw [hg] at h'
                cases h'
                exact absurd h2.1 (h3 h2.2)
              · rw [if_neg h2]
                by_cases h3 : (dies t').isSome = true
                · rw [if_pos h3]
                  constructor
                  · intro h
                    cases h
                    exact ⟨h1, ⟨l, rfl, hg⟩, rfl, Option.isSome_iff_exists.mp h3, fun e h => h2 ⟨h, e⟩⟩
                  · rintro ⟨_, ⟨_, h, h'⟩, h4, _⟩
                    cases h
                    rw [hg] at h'
                    cases h'
                    cases h4
                    rfl
                · rw [if_neg h3]
                  refine ⟨fun h => (by cases h), fun ⟨_, _, h, ⟨td, h'⟩, _⟩ => ?_⟩
                  cases h
                  rw [h'] at h3
                  exact absurd rfl h3
      · rw [if_neg h1]
        exact ⟨fun h => (by cases h), fun h => absurd h.1 h1⟩

theorem dwVar_described {o : TypeOpts} {dies : Dies} {tls : Bool} {d : VarDie} {a : Int} {t : Nat} {ti : TypeInfo}
    (h : ListedAt dies tls d a t) (ht : HasType o dies t true ti) : DescribedBy o dies tls d (dwVar d a ti) := by
  refine ⟨t, h, ⟨ti, ht, rfl, rfl, rfl⟩, ?_, ?_, rfl, rfl, ?_, ?_⟩
  · intro n hn; unfold dwVar; rw [hn]
  · intro hn; unfold dwVar; rw [hn]
  · intro n hn; unfold dwVar; rw [hn]
  · intro hn; unfold dwVar; rw [hn]

/-- Entries and the variables delivered for them, in order. -/
inductive Lists (o : TypeOpts) (dies : Dies) (tls : Bool) : List VarDie → List DwVar → Prop where
  | nil : Lists o dies tls [] []
  | skip {d : VarDie} {ds : List VarDie} {vs : List DwVar} (h : ∀ a t, ¬ ListedAt dies tls d a t) (r : Lists o dies tls ds vs) :
      Lists o dies tls (d :: ds) vs
  | take {d : VarDie} {v : DwVar} {ds : List VarDie} {vs : List DwVar} (h : DescribedBy o dies tls d v) (r : Lists o dies tls ds vs) :
      Lists o dies tls (d :: ds) (v :: vs)

theorem getVars_lists {o : TypeOpts} {dies : Dies} {n : Nat} {tls : Bool} {m m' : TypeMemo} {ds : List VarDie} {vs : List DwVar}
    (hm : RightMemo o dies m) (h : getVars o dies n tls m ds = .ok (vs, m')) : Lists o dies tls ds vs ∧ RightMemo o dies m' := by
  induction ds generalizing m vs with
  | nil => cases h; exact ⟨.nil, hm⟩
  | cons d ds ih =>
    rw [getVars] at h
    cases hp : varPlace dies tls d with
    | error e => rw [hp] at h; cases h
    | ok x =>
      rw [hp] at h
      cases x with
      | none =>
        dsimp only at h
        obtain ⟨h1, h2⟩ := ih hm h
        refine ⟨.skip (fun a t hl => ?_) h1, h2⟩
        rw [varPlace_ok.mpr hl] at hp
        cases hp
      | some x =>
        obtain ⟨a, t⟩ := x
        dsimp only at h
        cases hg : getType o dies n m t true with
        | error e => rw [hg] at h; cases h
        | ok y =>
          obtain ⟨ti, m1⟩ := y
          rw [hg] at h
          dsimp only at h
          obtain ⟨g1, g2⟩ := getType_right n m t true ti m1 hm hg
          cases hv : getVars o dies n tls m1 ds with
          | error e => rw [hv] at h; cases h
          | ok z =>
            obtain ⟨vs', m2⟩ := z
            rw [hv] at h
            cases h
            obtain ⟨h1, h2⟩ := ih g1 hv
            exact ⟨.take (dwVar_described (varPlace_ok.mp hp) g2) h1, h2⟩

open Classical in
theorem lists_zip {o : TypeOpts} {dies : Dies} {tls : Bool} {ds : List VarDie} {vs : List DwVar} (h : Lists o dies tls ds vs) :
    let listed := ds.filter (fun d => decide (∃ a t, ListedAt dies tls d a t))
    vs.length = listed.length ∧ ∀ (i : Nat) d v, listed[i]? = some d → vs[i]? = some v → DescribedBy o dies tls d v := by
  induction h with
  | nil => exact ⟨rfl, fun i d v h => by cases h⟩
  | skip h _ ih =>
    dsimp only
    rw [List.filter_cons_of_neg (by simpa using h)]
    exact ih
  | take h _ ih =>
    dsimp only
    obtain ⟨t, hl, _⟩ := id h
    rw [List.filter_cons_of_pos (by simpa using ⟨_, t, hl⟩)]
    refine ⟨by rw [List.length_cons, List.length_cons, ih.1], fun i d v h1 h2 => ?_⟩
    cases i with
    | zero => cases h1; cases h2; exact h
    | succ i => exact ih.2 i d v h1 h2

open Classical in
/-- C96: the variables delivered are those of the entries for variables with a place of the requested kind and a known type, in the order of
the file and with name, address, and the size and hash of the type, whatever has been asked before. -/
theorem C96_listed (o : TypeOpts) (dies : Dies) (n : Nat) (tls : Bool) (before : List VarDie) (ds : List VarDie) (bs vs : List DwVar)
    (m m' : TypeMemo) (hb : getVars o dies n (!tls) noMemo before = .ok (bs, m)) (h : getVars o dies n tls m ds = .ok (vs, m')) :
    let listed := ds.filter (fun d => decide (∃ a t, ListedAt dies tls d a t))
    vs.length = listed.length ∧ ∀ (i : Nat) d v, listed[i]? = some d → vs[i]? = some v → DescribedBy o dies tls d v :=
  lists_zip (getVars_lists (getVars_lists rightMemo_none hb).2 h).1

/-! ### Examples -/

def exReg (n : Nat) : Str := 'R' :: Nat.toDigits 10 n

/-- A fixed address, a thread-local variable, one on the stack and one in a register. -/
def exAddr (a : Int) : DwOp := { code := 3, name := "addr".toList, args := [.num a] }
def exConst (a : Int) : DwOp := { code := 14, name := "const8u".toList, args := [.num a] }
def exTlsOp : DwOp := { code := 0x9b, name := "form_tls_address".toList }
def exFrame : DwOp := { code := 0x91, name := "fbreg".toList, args := [.num (-20)] }
def exDeref : DwOp := { code := 6, name := "deref".toList }

theorem exOps_valid : ∀ op ∈ [exAddr 0x4010, exConst 0x4010, exTlsOp, exFrame, exDeref], ValidOp op := by
  intro op h
  unfold ValidOp IsConst
  simp only [List.mem_cons, List.not_mem_nil, or_false] at h
  rcases h with rfl | rfl | rfl | rfl | rfl
  · exact ⟨fun _ => ⟨rfl, _, rfl⟩, fun h => absurd h (by decide), fun h => absurd h (by decide)⟩
  · exact ⟨fun h => absurd h (by decide), fun h => absurd h (by decide), fun _ => ⟨Or.inl (by decide), _, rfl⟩⟩
  · exact ⟨fun h => absurd h (by decide), fun _ => ⟨rfl, rfl⟩, fun h => absurd h (by decide)⟩
  · exact ⟨fun h => absurd h (by decide), fun h => absurd h (by decide), fun h => absurd h (by decide)⟩
  · exact ⟨fun h => absurd h (by decide), fun h => absurd h (by decide), fun h => absurd h (by decide)⟩

example : (descExpr exReg 0 [exAddr 0x4010]).map (getLoc false) = some (.ok (some 0x4010)) ∧
    (descExpr exReg 0 [exAddr 0x4010, exDeref]).map (getLoc false) = some (.ok none) ∧
    (descExpr exReg 0 [exFrame]).map (getLoc false) = some (.ok none) ∧ FixedAt [exAddr 0x4010] 0x4010 :=
  ⟨rfl, rfl, rfl, by decide, fun op h => by rw [List.mem_singleton.mp h]; exact ⟨rfl, rfl⟩⟩

example : (descExpr exReg 0 [exConst 0x10, exTlsOp]).map (getLoc true) = some (.ok (some 0x10)) ∧
    (descExpr exReg 0 [exAddr 0x10]).map (getLoc true) = some (.ok none) ∧ ConstantAt [exConst 0x10, exTlsOp] 0x10 ∧
    OneKind [exConst 0x10, exTlsOp] := by
  refine ⟨rfl, rfl, ⟨⟨exConst 0x10, List.mem_cons_self, ?_⟩, ?_⟩, ?_⟩
  · unfold IsConst; decide
  · intro op h
    simp only [List.mem_cons, List.not_mem_nil, or_false] at h
    rcases h with rfl | rfl
    · exact Or.inl ⟨by unfold IsConst; decide, rfl⟩
    · exact Or.inr rfl
  · intro op h op' h' hc hc'
    simp only [List.mem_cons, List.not_mem_nil, or_false] at h h'
    unfold IsConst at hc hc'
    rcases h with rfl | rfl <;> rcases h' with rfl | rfl
    · rfl
    · revert hc'; decide
    · revert hc; decide
    · rfl

/-- A variable at a constant address (which is no thread-local one) is taken for a thread-local variable, while one that uses the GNU name
of the operation for thread-local addresses is missed. -/
theorem C96_counterexample :
    (descExpr exReg 0 [exConst 0x4010]).map (getLoc true) = some (.ok (some 0x4010)) ∧
    (descExpr exReg 0 [exConst 0x10, { code := 0xe0, name := "GNU_push_tls_address".toList }]).map (getLoc true) = some (.ok none) :=
  ⟨rfl, rfl⟩

/-- The location of a variable with a list of places in a unit without base address is no location: the list of variables fails. -/
theorem C96_no_base (o : TypeOpts) (dies : Dies) (n : Nat) (m : TypeMemo) (tls : Bool) (t offset : Nat) (entries : List (List DwOp)) :
    descLocation exReg 0 (.list offset false entries) = some none ∧
    getVars o dies n tls m [{ tag := "variable".toList, location := some none, type := some t }] = .error .attributeError := ⟨rfl, rfl⟩

/-- The definition of a variable that is declared before (`extern` in a header, or a static member of a class) refers to its declaration,
which has the type. The definition has the address but no type, the declaration has no address: neither is listed. -/
theorem C96_declared_counterexample (o : TypeOpts) (dies : Dies) (n : Nat) (m : TypeMemo) (tls : Bool) (id t : Nat) (name : Str)
    (loc : LocDesc) :
    getVars o dies n tls m [{ tag := "variable".toList, name := some name, type := some t },
      { tag := "variable".toList, location := some (some loc), specification := some id }] = .ok ([], m) := rfl

/-- Variables of an integer type and one of an unknown type. -/
def exInt : Dies := fun id => if id = 1 then some { tag := "base_type".toList, byte_size := some 4, encoding := some "signed".toList } else none

def exVars : List VarDie :=
  [{ tag := "base_type".toList },
   { tag := "variable".toList, name := some "counter".toList, type := some 1, location := some (descExpr exReg 0 [exAddr 0x4010]) },
   { tag := "variable".toList, name := some "local".toList, type := some 1, location := some (descExpr exReg 0 [exFrame]) },
   { tag := "variable".toList, name := some "errno".toList, type := some 1, location := some (descExpr exReg 0 [exConst 0, exTlsOp]) },
   { tag := "variable".toList, name := some "lost".toList, type := some 7, location := some (descExpr exReg 0 [exAddr 0x4020]) }]

example : ∃ bs vs m m', getVars exTypeOpts exInt 5 false noMemo exVars = .ok (bs, m) ∧ getVars exTypeOpts exInt 5 true m exVars = .ok (vs, m') ∧
    bs.map (fun v => (v.name, v.value, v.size)) = [("counter".toList, 0x4010, 4)] ∧
    vs.map (fun v => (v.name, v.value, v.size)) = [("errno".toList, 0, 4)] := ⟨_, _, _, _, rfl, rfl, by decide, by decide⟩

end Bean.Props

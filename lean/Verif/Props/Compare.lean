import Verif.Spec.Compare
/-
C60: objects of the comparison. C83: verdicts. C84: their number.
-/
namespace Bean.Props
open Bean Bean.Spec

theorem gather_fold (args : CompareArgs) (base : List VersionDir) (acc : List VersionDir × List Str) :
    (base.foldl (gatherStep args) acc).1 = acc.1 ++ base.filter (isVersion args) ∧
    ∀ o, o ∈ (base.foldl (gatherStep args) acc).2 ↔
      ((acc.1 = [] → base.filter (isVersion args) = [] → o ∈ acc.2) ∧ (acc.1 ≠ [] → o ∈ acc.2) ∧
        ∀ d ∈ base.filter (isVersion args), o ∈ objectsOf args d) := by
  induction base generalizing acc with
  | nil =>
    refine ⟨by simp, fun o => ?_⟩
    by_cases h : acc.1 = [] <;> simp [h]
  | cons d base ih =>
    rw [List.foldl_cons]
    obtain ⟨i1, i2⟩ := ih (gatherStep args acc d)
    rw [i1]
    cases hv : isVersion args d with
    | false =>
      have e : gatherStep args acc d = acc := by unfold gatherStep; rw [hv]; rfl
      rw [e] at i2 ⊢
      rw [List.filter_cons, if_neg (by rw [hv]; decide)]
      exact ⟨rfl, i2⟩
    | true =>
      have e : gatherStep args acc d = (acc.1 ++ [d], if acc.1.length = 0 then objectsOf args d
          else acc.2.filter (fun o => (objectsOf args d).contains o)) := by unfold gatherStep; rw [hv]; rfl
      rw [e] at i2 ⊢
      rw [List.filter_cons, if_pos hv]
      refine ⟨by simp, fun o => ?_⟩
      rw [i2 o]
      dsimp only
      by_cases h : acc.1 = []
      · simp [h]
      · have hl : acc.1.length ≠ 0 := fun e => h (List.eq_nil_of_length_eq_zero e)
        simp [h, hl, and_assoc]

theorem passes_iff {patterns : List (Str → Bool)} {name : Str} : passes patterns name = true ↔ Admits patterns name := by
  unfold passes Admits
  rw [Bool.or_eq_true, List.isEmpty_iff, List.any_eq_true]

/-- C60: the objects are exactly those present in each version, and none without versions. -/
theorem C60_objects (args : CompareArgs) (base : List VersionDir) (o : Str) : o ∈ (gatherObjects args base).2 ↔
    (∃ d ∈ base, d.isDir = true ∧ d.name.head? ≠ some '.' ∧ Admits args.verdir d.name) ∧
    ∀ d ∈ base, d.isDir = true → d.name.head? ≠ some '.' → Admits args.verdir d.name →
      ∃ f ∈ d.files, f.path = o ∧ f.isFile = true ∧ f.isElf = true ∧ Admits args.lib f.name := by
  obtain ⟨_, h⟩ := gather_fold args base ([], [])
  unfold gatherObjects
  rw [h o]
  have hver : ∀ d, isVersion args d = true ↔ d.isDir = true ∧ d.name.head? ≠ some '.' ∧ Admits args.verdir d.name := by
    intro d
    unfold isVersion
    simp [and_assoc, passes_iff]
  have hobj : ∀ d, o ∈ objectsOf args d ↔ ∃ f ∈ d.files, f.path = o ∧ f.isFile = true ∧ f.isElf = true ∧ Admits args.lib f.name := by
    intro d
    unfold objectsOf
    rw [List.mem_map]
    constructor
    · rintro ⟨f, hf, e⟩
      obtain ⟨hf, hp⟩ := List.mem_filter.mp hf
      simp only [Bool.and_eq_true] at hp
      exact ⟨f, hf, e, hp.1.1, hp.1.2, passes_iff.mp hp.2⟩
    · rintro ⟨f, hf, e, p1, p2, p3⟩
      exact ⟨f, List.mem_filter.mpr ⟨hf, by simp [p1, p2, passes_iff.mpr p3]⟩, e⟩
  constructor
  · rintro ⟨h1, _, h3⟩
    constructor
    · cases hb : base.filter (isVersion args) with
      | nil => exact absurd (h1 rfl hb) List.not_mem_nil
      | cons d ds =>
        have hm : d ∈ base.filter (isVersion args) := by rw [hb]; exact List.mem_cons_self
        obtain ⟨hm, hv⟩ := List.mem_filter.mp hm
        exact ⟨d, hm, (hver d).mp hv⟩
    · intro d hd v1 v2 v3
      exact (hobj d).mp (h3 d (List.mem_filter.mpr ⟨hd, (hver d).mpr ⟨v1, v2, v3⟩⟩))
  · rintro ⟨⟨d, hd, hv⟩, h3⟩
    refine ⟨fun _ e => ?_, fun e => absurd rfl e, ?_⟩
    · have : d ∈ base.filter (isVersion args) := List.mem_filter.mpr ⟨hd, (hver d).mpr hv⟩
      rw [e] at this
      cases this
    · intro d hd
      obtain ⟨hd, hv⟩ := List.mem_filter.mp hd
      obtain ⟨v1, v2, v3⟩ := (hver d).mp hv
      exact (hobj d).mpr (h3 d hd v1 v2 v3)

/-- An object of the examples. -/
def exObj (name : String) (elf : Bool) : ObjFile where
  path := name.toList
  name := name.toList
  isFile := true
  isElf := elf

/-- A version of the examples. -/
def exVersion (name : String) (files : List ObjFile) : VersionDir where
  name := name.toList
  isDir := true
  files := files

example : (gatherObjects {} [exVersion ".git" [], exVersion "1.0" [exObj "a.so" true, exObj "b.so" true, exObj "README" false],
    exVersion "1.1" [exObj "b.so" true, exObj "c.so" true, exObj "README" false]]).2 = ["b.so".toList] := by
  decide +kernel

/-! Verdicts -/

theorem cellVerdict_fold (hs : Bool) (result : List DiffMember) (acc : Option Bool) (v : Bool)
    (h : result.filterMap (fun m => match m with
      | .patchable d => some d
      | .other => none) = [v]) :
    result.foldl (fun patchable m => match m with
      | .patchable data => some (data && hs)
      | .other => patchable) acc = some (v && hs) := by
  have rest : ∀ (l : List DiffMember) (a : Option Bool), l.filterMap (fun m => match m with
      | .patchable d => some d
      | .other => none) = [] → l.foldl (fun patchable m => match m with
      | .patchable data => some (data && hs)
      | .other => patchable) a = a := by
    intro l
    induction l with
    | nil => exact fun a _ => rfl
    | cons m l ih =>
      intro a h
      cases m with
      | patchable d => cases h
      | other => exact ih a h
  induction result generalizing acc with
  | nil => cases h
  | cons m l ih =>
    cases m with
    | other => exact ih acc h
    | patchable d =>
      rw [List.filterMap_cons] at h
      dsimp only at h
      injection h with h1 h2
      rw [List.foldl_cons]
      dsimp only
      rw [rest l _ h2, h1]

/-- The tool for differences says so, once. -/
def Says (result : List DiffMember) (v : Bool) : Prop :=
  result.filterMap (fun m => match m with
    | .patchable d => some d
    | .other => none) = [v]

/-- C83: what the verdict of a cell says. -/
theorem C83_verdict (t : CompareTools) (base obj : Str) (v : Bool) (h : Says (t.diff base obj) v) :
    verdict t base obj = some (v && ((t.hash base).isEmpty || (t.hash obj).isEmpty || dictEq (t.hash base) (t.hash obj))) :=
  cellVerdict_fold _ _ none v h

theorem nodup_of_map {α β : Type} {f : α → β} {l : List α} (h : (l.map f).Nodup) : l.Nodup :=
  (List.pairwise_map.mp h).imp (fun hne e => hne (congrArg f e))

theorem dictEq_iff {a b : Hashes} (ha : (a.map (·.1)).Nodup) (hb : (b.map (·.1)).Nodup) :
    dictEq a b = true ↔ ∀ k, a.lookup k = b.lookup k := by
  have look : ∀ {l : Hashes}, (l.map (·.1)).Nodup → ∀ {k v}, l.lookup k = some v ↔ (k, v) ∈ l := by
    intro l hl k v
    induction l with
    | nil => simp
    | cons p l ih =>
      rw [List.map_cons, List.nodup_cons] at hl
      rw [List.lookup_cons, List.mem_cons]
      cases hk : k == p.1 with
      | true =>
        have hk := eq_of_beq hk
        dsimp only
        constructor
        · intro e
          exact Or.inl (by rw [hk, ← Option.some.inj e])
        · rintro (e | e)
          · rw [← e]
          · exact absurd (List.mem_map.mpr ⟨_, e, hk⟩) hl.1
      | false =>
        have hk := ne_of_beq_false hk
        dsimp only
        rw [ih hl.2]
        constructor
        · exact Or.inr
        · rintro (e | e)
          · exact absurd (congrArg Prod.fst e) hk
          · exact e
  unfold dictEq
  rw [Bool.and_eq_true, beq_iff_eq, List.all_eq_true]
  constructor
  · rintro ⟨hl, hm⟩ k
    have sub : a ⊆ b := by
      intro p hp
      exact (look hb).mp (eq_of_beq (hm p hp))
    have nd : a.Nodup := nodup_of_map ha
    have ndb : b.Nodup := nodup_of_map hb
    have sup : b ⊆ a := by
      intro p hp
      refine Classical.byContradiction (fun hn => ?_)
      have := List.Nodup.length_le_of_subset (List.nodup_cons.mpr ⟨hn, nd⟩) (List.cons_subset.mpr ⟨hp, sub⟩)
      rw [List.length_cons] at this
      omega
    have perm : a.Perm b := (List.perm_ext_iff_of_nodup nd ndb).mpr (fun p => ⟨fun h => sub h, fun h => sup h⟩)
    cases ek : a.lookup k with
    | some v => exact ((look hb).mpr (perm.mem_iff.mp ((look ha).mp ek))).symm
    | none =>
      cases eb : b.lookup k with
      | none => rfl
      | some v =>
        have := (look ha).mpr (perm.mem_iff.mpr ((look hb).mp eb))
        rw [ek] at this
        cases this
  · intro h
    have mem : ∀ p, p ∈ a ↔ p ∈ b := by
      intro p
      obtain ⟨k, v⟩ := p
      rw [← look ha, ← look hb, h k]
    have perm : a.Perm b := (List.perm_ext_iff_of_nodup (nodup_of_map ha) (nodup_of_map hb)).mpr mem
    refine ⟨perm.length_eq, fun p hp => ?_⟩
    rw [← h p.1, (look ha).mpr (show (p.1, p.2) ∈ a from hp)]
    exact beq_self_eq_true _

/-- C83, partial: if the variables of both versions could be hashed, an update is only offered if the tool for differences allows
it and the hashes agree. -/
theorem C83_update_partial (t : CompareTools) (base obj : Str) (v : Bool) (h : Says (t.diff base obj) v) (hb : t.hash base ≠ [])
    (ho : t.hash obj ≠ []) (nb : ((t.hash base).map (·.1)).Nodup) (no : ((t.hash obj).map (·.1)).Nodup) :
    verdict t base obj = some true ↔ v = true ∧ ∀ k, (t.hash base).lookup k = (t.hash obj).lookup k := by
  rw [C83_verdict t base obj v h, ← dictEq_iff nb no]
  have e1 : (t.hash base).isEmpty = false := by cases hh : t.hash base with
    | nil => exact absurd hh hb
    | cons x xs => rfl
  have e2 : (t.hash obj).isEmpty = false := by cases hh : t.hash obj with
    | nil => exact absurd hh ho
    | cons x xs => rfl
  rw [e1, e2]
  cases v <;> simp

/-- Tools of the examples: everything can be patched; the variables of version `1` and `2` differ, those of `3` cannot be hashed. -/
def exTools : CompareTools where
  diff := fun _ _ => [.other, .patchable true, .other]
  hash := fun n => if n = ['1'] then [("RW".toList, "aa".toList), ("TLS".toList, "cc".toList)]
    else if n = ['2'] then [("TLS".toList, "cc".toList), ("RW".toList, "bb".toList)] else []

example : verdict exTools ['1'] ['2'] = some false ∧ verdict exTools ['1'] ['1'] = some true ∧ Says (exTools.diff ['1'] ['2']) true := by
  refine ⟨by decide +kernel, by decide +kernel, rfl⟩

/-- C83, negation: if the variables of a version cannot be hashed, updates from and to it are offered although nothing is known about
its variables. -/
theorem C83_missing (t : CompareTools) (base obj : Str) (h : Says (t.diff base obj) true) (hm : t.hash base = [] ∨ t.hash obj = []) :
    verdict t base obj = some true := by
  rw [C83_verdict t base obj true h]
  rcases hm with e | e <;> rw [e] <;> simp

example : verdict exTools ['1'] ['3'] = some true ∧ verdict exTools ['3'] ['2'] = some true ∧ verdict exTools ['1'] ['2'] = some false :=
  ⟨C83_missing _ _ _ rfl (Or.inr rfl), C83_missing _ _ _ rfl (Or.inl rfl), by decide +kernel⟩

/-! Number of updates -/

theorem linearCount_le (t : CompareTools) (last : Option Str) (names : List Str) :
    linearCount t last names + (if last = none ∧ names ≠ [] then 1 else 0) ≤ names.length := by
  induction names generalizing last with
  | nil => simp [linearCount]
  | cons n names ih =>
    have := ih (some n)
    rw [if_neg (by rintro ⟨h, _⟩; cases h)] at this
    rw [List.length_cons]
    cases last with
    | none =>
      rw [linearCount]
      simp
      omega
    | some l =>
      rw [if_neg (show ¬(some l = none ∧ n :: names ≠ []) from fun h => nomatch h.1), linearCount]
      split <;> omega

/-- The row of a version before it is reached. -/
theorem rowCount_skip (t : CompareTools) (col : Str) (last : Option Str) (hl : last ≠ some col) (names : List Str) (h : col ∉ names) :
    rowCount t col last names = 0 := by
  induction names generalizing last with
  | nil => rfl
  | cons n names ih =>
    rw [rowCount, ih (some n) (by intro e; cases e; exact h List.mem_cons_self) (fun hm => h (List.mem_cons_of_mem _ hm))]
    rw [if_neg (by simp [hl])]

theorem rowCount_at (t : CompareTools) (col : Str) (pre rest : List Str) (last : Option Str) (hl : last ≠ some col) (hp : col ∉ pre)
    (hr : col ∉ rest) : rowCount t col last (pre ++ col :: rest) =
      match rest with
      | [] => 0
      | n :: _ => if verdict t col n == some true then 1 else 0 := by
  induction pre generalizing last with
  | nil =>
    rw [List.nil_append, rowCount, if_neg (by simp [hl]), Nat.zero_add]
    cases rest with
    | nil => rfl
    | cons n rest =>
      rw [rowCount, rowCount_skip t col (some n) (by intro e; cases e; exact hr List.mem_cons_self) rest
        (fun hm => hr (List.mem_cons_of_mem _ hm))]
      simp
  | cons x pre ih =>
    rw [List.cons_append, rowCount, if_neg (by simp [hl]), Nat.zero_add]
    exact ih (some x) (by intro e; cases e; exact hp List.mem_cons_self) (fun hm => hp (List.mem_cons_of_mem _ hm))

theorem matrix_sum (t : CompareTools) (pre rest : List Str) (hn : (pre ++ rest).Nodup) (c : Str) :
    ((c :: rest).Nodup → c ∉ pre → ((c :: rest).map (fun col => rowCount t col none (pre ++ c :: rest))).sum = linearCount t (some c) rest) := by
  induction rest generalizing pre c with
  | nil =>
    intro _ hc
    rw [List.map_cons, rowCount_at t c pre [] none (by simp) hc List.not_mem_nil]
    rfl
  | cons n rest ih =>
    intro hcn hc
    rw [List.nodup_cons] at hcn
    rw [List.map_cons, List.sum_cons, rowCount_at t c pre (n :: rest) none (by simp) hc hcn.1, linearCount]
    dsimp only
    have e : pre ++ c :: n :: rest = (pre ++ [c]) ++ n :: rest := by simp
    have hn' : (pre ++ [c] ++ rest).Nodup := by
      rw [List.nodup_append] at hn ⊢
      obtain ⟨n1, n2, n3⟩ := hn
      refine ⟨?_, (List.nodup_cons.mp n2).2, ?_⟩
      · rw [List.nodup_append]
        refine ⟨n1, by simp, ?_⟩
        intro a ha b hb
        simp at hb
        subst hb
        exact fun e => hc (e ▸ ha)
      · intro a ha b hb
        rcases List.mem_append.mp ha with ha | ha
        · exact n3 a ha b (List.mem_cons_of_mem _ hb)
        · simp at ha
          subst ha
          intro e
          exact hcn.1 (e ▸ List.mem_cons_of_mem _ hb)
    have hnp : n ∉ pre ++ [c] := by
      rw [List.nodup_append] at hn
      intro hm
      rcases List.mem_append.mp hm with hm | hm
      · exact hn.2.2 n hm n List.mem_cons_self rfl
      · simp at hm
        subst hm
        exact hcn.1 List.mem_cons_self
    have := ih (pre ++ [c]) hn' n hcn.2 hnp
    rw [e, this]

/-- C84: both kinds of tables count the same updates: those from a version to the next one. -/
theorem C84_modes (t : CompareTools) (names : List Str) (hn : names.Nodup) : matrixCount t names = linearCount t none names := by
  unfold matrixCount
  cases names with
  | nil => rfl
  | cons c rest =>
    have := matrix_sum t [] rest (by rw [List.nil_append]; exact (List.nodup_cons.mp hn).2) c hn List.not_mem_nil
    rw [List.nil_append] at this
    rw [this, linearCount]
    simp

/-- C84: the number of updates is at most the number of versions minus one. -/
theorem C84_bound (t : CompareTools) (names : List Str) : linearCount t none names ≤ names.length - 1 := by
  have := linearCount_le t none names
  cases names with
  | nil => exact this
  | cons n names => simp at this ⊢; omega

example : linearCount exTools none [['1'], ['2'], ['3'], ['4']] = 2 ∧ matrixCount exTools [['1'], ['2'], ['3'], ['4']] = 2 := by
  decide +kernel

/-- C84: the summary is computed for at least two versions, or for at least one if there are no objects. -/
theorem C84_summary (matrix : Bool) (t : Str → CompareTools) (names objs : List Str) :
    (∃ l, compareSummary matrix t names objs = .ok l) ↔ 2 ≤ names.length ∨ (names.length = 1 ∧ objs = []) := by
  unfold compareSummary
  cases names with
  | nil =>
    constructor
    · rintro ⟨l, h⟩; cases h
    · rintro (h | ⟨h, _⟩) <;> simp at h
  | cons n rest =>
    dsimp only
    cases rest with
    | nil =>
      cases objs with
      | nil => exact ⟨fun _ => Or.inr ⟨rfl, rfl⟩, fun _ => ⟨[], rfl⟩⟩
      | cons o objs =>
        constructor
        · rintro ⟨l, h⟩
          cases h
        · rintro (h | ⟨_, h⟩)
          · simp at h
          · cases h
    | cons m rest =>
      constructor
      · intro _
        exact Or.inl (by simp)
      · intro h
        clear h
        induction objs with
        | nil => exact ⟨[], rfl⟩
        | cons o objs ih =>
          obtain ⟨l, h⟩ := ih
          rw [List.mapM_cons, h]
          exact ⟨_, rfl⟩

/-- C84, negation: the comparison fails for a base directory with a single version, after all work was done. -/
theorem C84_single (matrix : Bool) (t : Str → CompareTools) (n o : Str) (objs : List Str) :
    compareSummary matrix t [n] (o :: objs) = .error .zeroDivision := rfl

end Bean.Props

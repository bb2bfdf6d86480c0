import Verif.Spec.DwarfRefs
import Verif.Props.DwarfParse
/-
C126: references between entries of the debug information, names of origins and address ranges.
-/
namespace Bean.Props
open Bean Bean.Spec

section
variable {α : Type} {l : FileDies α}

theorem fileDie_lookup (hd : (l.map Prod.fst).Nodup) {off : Nat} {d : FileDie α} (h : (off, d) ∈ l) : l.lookup off = some d := by
  induction l with
  | nil => cases h
  | cons x l ih =>
    obtain ⟨i, s⟩ := x
    rw [List.map_cons, List.nodup_cons] at hd
    rcases List.mem_cons.mp h with h | h
    · cases h
      rw [List.lookup_cons, beq_self_eq_true]
    · have hn : off ≠ i := fun e => hd.1 (e ▸ List.mem_map.mpr ⟨_, h, rfl⟩)
      rw [List.lookup_cons, show (off == i) = false from by simpa using hn]
      exact ih hd.2 h

theorem fileDie_mem {off : Nat} {d : FileDie α} (h : l.lookup off = some d) : (off, d) ∈ l := by
  induction l with
  | nil => cases h
  | cons x l ih =>
    obtain ⟨i, s⟩ := x
    rw [List.lookup_cons] at h
    by_cases e : off = i
    · rw [show (off == i) = true from by simpa using e] at h
      cases h
      rw [e]
      exact List.mem_cons_self
    · rw [show (off == i) = false from by simpa using e] at h
      exact List.mem_cons_of_mem _ (ih h)

theorem means_offset (d : FileDie α) (r : DieRef) (off : Nat) :
    MeansOffset d r off ↔ off = if r.absolute then r.value else d.unit + r.value := by
  unfold MeansOffset
  cases r.absolute <;> simp

theorem follow_means (hd : (l.map Prod.fst).Nodup) (d f : FileDie α) (r : DieRef) : followRef l d r = some f ↔ Means l d r f := by
  unfold followRef Means
  constructor
  · intro h
    exact ⟨_, (means_offset d r _).mpr rfl, fileDie_mem h⟩
  · rintro ⟨off, h1, h2⟩
    rw [← (means_offset d r off).mp h1]
    exact fileDie_lookup hd h2

theorem called_iff (d : FileDie α) (n : Str) : Called d n ↔ n ≠ [] ∧ linkageName d = some n := by
  unfold Called linkageName
  cases d.linkage <;> simp

theorem called_unique {d : FileDie α} {m n : Str} (h : Called d m) (h' : Called d n) : m = n := by
  rw [called_iff] at h h'
  exact Option.some.inj (h.2.symm.trans h'.2)

/-- The name of a declaration. -/
theorem specName_ok (hd : (l.map Prod.fst).Nodup) (hw : WholeRefs l) (hs : NamedSpecs l) {x : Nat × FileDie α} (hx : x ∈ l) :
    (x.2.spec = none ∧ specName l x.2 = .ok (some [])) ∨
      ∃ r f n, x.2.spec = some r ∧ Means l x.2 r f ∧ Called f n ∧ specName l x.2 = .ok (some n) := by
  unfold specName
  cases h : x.2.spec with
  | none => exact Or.inl ⟨rfl, rfl⟩
  | some r =>
    obtain ⟨f, hf⟩ := (hw x hx).1 r h
    obtain ⟨n, hn⟩ := hs x hx r f h hf
    refine Or.inr ⟨r, f, n, rfl, hf, hn, ?_⟩
    dsimp only
    rw [(follow_means hd x.2 f r).mpr hf]
    dsimp only
    rw [((called_iff f n).mp hn).2]

theorem originName_step (hd : (l.map Prod.fst).Nodup) {n : Nat} {d f : FileDie α} {r : DieRef} (hr : d.origin = some r) (hf : Means l d r f) :
    (∃ m, Called f m ∧ originName l (n + 1) d = .ok (some m)) ∨
      (∀ m, ¬ Called f m) ∧ originName l (n + 1) d = (match specName l f with
        | .error e => .error e
        | .ok name => if f.origin.isSome then originName l n f else .ok name) := by
  have h1 : d.origin.bind (followRef l d) = some f := by rw [hr]; exact (follow_means hd d f r).mpr hf
  rw [originName, h1]
  dsimp only
  cases h2 : linkageName f with
  | none =>
    refine Or.inr ⟨fun m hm => ?_, rfl⟩
    rw [called_iff, h2] at hm
    cases hm.2
  | some s =>
    cases s with
    | nil =>
      refine Or.inr ⟨fun m hm => ?_, rfl⟩
      rw [called_iff, h2] at hm
      exact hm.1 (Option.some.inj hm.2).symm
    | cons c cs => exact Or.inl ⟨c :: cs, (called_iff f _).mpr ⟨by simp, h2⟩, rfl⟩

theorem means_mem {d f : FileDie α} {r : DieRef} (h : Means l d r f) : ∃ off, (off, f) ∈ l := by
  obtain ⟨off, _, h⟩ := h
  exact ⟨off, h⟩

theorem means_unique (hd : (l.map Prod.fst).Nodup) {d f g : FileDie α} {r : DieRef} (h : Means l d r f) (h' : Means l d r g) : f = g := by
  rw [← follow_means hd] at h h'
  exact Option.some.inj (h.symm.trans h')

end

/-- C126: references to types and to declarations lead to the entry that is meant. Missing: references that count from the start of the section
in a unit that is not the first one (see `C126_section_counterexample`), and types elftools has no text for (see
`C126_text_counterexample`). -/
theorem C126_reference_partial {α : Type} (n : Nat) (l : FileDies α) (t : DieTable α) (hd : (l.map Prod.fst).Nodup) (h : parseFile n l = .ok t)
    (d f : FileDie α) (r : DieRef) (off : Nat) (hp : r.absolute = false ∨ d.unit = 0) (hm : MeansOffset d r off) (hf : (off, f) ∈ l) :
    (∀ s, ∃ e, typeEntry t (describeType d r (some s)) = .entry off e) ∧ ∀ m, Called f m → describeSpec l d r = .ok (off, m) := by
  have ho : describeRef d r = off := by
    rcases hm with ⟨h1, h2⟩ | ⟨_, h2⟩
    · rcases hp with h3 | h3
      · rw [h1] at h3; cases h3
      · rw [describeRef, h3, h2, Nat.zero_add]
    · exact h2.symm
  refine ⟨fun s => ?_, fun m hc => ?_⟩
  · obtain ⟨_, h2⟩ := parse_ok h
    obtain ⟨_, e, _, h4, _⟩ := h2 off (by
      rw [List.map_map]
      exact List.mem_map.mpr ⟨_, hf, rfl⟩)
    refine ⟨combineDecl e, ?_⟩
    show typeEntry t (.pair (describeRef d r) s) = _
    rw [ho, typeEntry, h4]
  · rw [describeSpec, (follow_means hd d f r).mpr ⟨off, hm, hf⟩]
    dsimp only
    rw [((called_iff f m).mp hc).2, ho]

/-- C126: the description of an entry shows the name of its origin, which the origin may have from a declaration or its own origin. Missing: see
`C126_lost_counterexample` for declarations without name and `C126_both_counterexample` for entries with declaration and origin. -/
theorem C126_name_partial {α : Type} (n : Nat) (l : FileDies α) (rank : FileDie α → Nat) (hd : (l.map Prod.fst).Nodup) (hw : WholeRefs l)
    (hs : NamedSpecs l) (h1 : OneSource l) (he : OriginsEnd l rank) (x : Nat × FileDie α) (hx : x ∈ l) (hn : rank x.2 ≤ n) (r : DieRef)
    (hr : x.2.origin = some r) :
    ∃ o, describeOrigin l n x.2 r = .ok (r.value, o) ∧ ∀ m, m ≠ [] → (o = some m ↔ ∃ f, Means l x.2 r f ∧ Named l m f) := by
  suffices hm : ∃ o, originName l n x.2 = .ok o ∧ ∀ m, m ≠ [] → (o = some m ↔ ∃ f, Means l x.2 r f ∧ Named l m f) by
    obtain ⟨o, h2, h3⟩ := hm
    exact ⟨o, by rw [describeOrigin, h2], h3⟩
  induction n generalizing x r with
  | zero =>
    obtain ⟨f, hf⟩ := (hw x hx).2 r hr
    have := he x hx r f hr hf
    omega
  | succ n ih =>
    obtain ⟨f, hf⟩ := (hw x hx).2 r hr
    obtain ⟨off, hfm⟩ := means_mem hf
    have hlt := he x hx r f hr hf
    have hred : ∀ m, (∃ g, Means l x.2 r g ∧ Named l m g) ↔ Named l m f :=
      fun m => ⟨fun ⟨g, h2, h3⟩ => means_unique hd hf h2 ▸ h3, fun h => ⟨f, hf, h⟩⟩
    rcases originName_step (n := n) hd hr hf with ⟨m, h2, h3⟩ | ⟨h2, h3⟩
    · refine ⟨some m, h3, fun m' hm' => ?_⟩
      rw [hred]
      constructor
      · rintro ⟨⟩
        exact Named.own h2
      · intro h4
        cases h4 with
        | own h => rw [called_unique h2 h]
        | spec h => exact absurd h2 (h m)
        | origin h => exact absurd h2 (h m)
    · rw [h3]
      rcases specName_ok hd hw hs hfm with ⟨h4, h5⟩ | ⟨r', g, m, h4, h5, h6, h7⟩
      · rw [h5]
        dsimp only at h4 ⊢
        cases h8 : f.origin with
        | none =>
          refine ⟨some [], rfl, fun m hm => ?_⟩
          rw [hred]
          constructor
          · rintro ⟨⟩
            exact absurd rfl hm
          · intro h9
            cases h9 with
            | own h => exact absurd h (h2 _)
            | spec _ hr' => rw [h4] at hr'; cases hr'
            | origin _ hr' => rw [h8] at hr'; cases hr'
        | some r' =>
          rw [if_pos (show (some r').isSome = true from rfl)]
          obtain ⟨o, h9, h10⟩ := ih (off, f) hfm (by dsimp only; omega) r' h8
          refine ⟨o, h9, fun m hm => ?_⟩
          rw [hred, h10 m hm]
          constructor
          · rintro ⟨g, h11, h12⟩
            exact Named.origin h2 h8 h11 h12
          · intro h11
            cases h11 with
            | own h => exact absurd h (h2 _)
            | spec _ hr' => rw [h4] at hr'; cases hr'
            | origin _ hr' hf' i =>
              rw [h8] at hr'
              cases hr'
              exact ⟨_, hf', i⟩
      · rw [h7]
        have h8 : f.origin = none := by
          rcases h1 (off, f) hfm with ⟨k, h⟩ | h | h
          · exact absurd h (h2 k)
          · rw [h] at h4; cases h4
          · exact h
        dsimp only at h4 h5 ⊢
        rw [h8]
        refine ⟨some m, rfl, fun m' hm' => ?_⟩
        rw [hred]
        constructor
        · rintro ⟨⟩
          exact Named.spec h2 h4 h5 (Named.own h6)
        · intro h9
          cases h9 with
          | own h => exact absurd h (h2 _)
          | origin _ hr' => rw [h8] at hr'; cases hr'
          | spec _ hr' hf' i =>
            rw [h4] at hr'
            cases hr'
            rw [← means_unique hd h5 hf'] at i
            cases i with
            | own h => rw [called_unique h6 h]
            | spec h => exact absurd h6 (h _)
            | origin h => exact absurd h6 (h _)

section
variable {α : Type} {l : FileDies α}

theorem originName_kept (hd : (l.map Prod.fst).Nodup) (hw : WholeRefs l) (hs : NamedSpecs l) (n : Nat) (x : Nat × FileDie α) (hx : x ∈ l) :
    ∃ o, originName l n x.2 = .ok o := by
  induction n generalizing x with
  | zero => exact ⟨none, rfl⟩
  | succ n ih =>
    cases hr : x.2.origin with
    | none => exact ⟨none, by rw [originName, hr]; rfl⟩
    | some r =>
      obtain ⟨f, hf⟩ := (hw x hx).2 r hr
      obtain ⟨off, hfm⟩ := means_mem hf
      rcases originName_step (n := n) hd hr hf with ⟨m, _, h3⟩ | ⟨_, h3⟩
      · exact ⟨_, h3⟩
      · rw [h3]
        rcases specName_ok hd hw hs hfm with ⟨_, h5⟩ | ⟨_, _, m, _, _, _, h5⟩
        all_goals
          dsimp only at h5
          rw [h5]
          dsimp only
          split
          · exact ih (off, f) hfm
          · exact ⟨_, rfl⟩

theorem described_stored (hd : (l.map Prod.fst).Nodup) (hw : WholeRefs l) (hs : NamedSpecs l) (n : Nat) :
    l.map (fun x => (x.1, describeDie l n x.2)) = storedDies l := by
  unfold storedDies
  refine List.map_congr_left fun x hx => ?_
  obtain ⟨o, h⟩ := originName_kept hd hw hs n x hx
  rw [Prod.mk.injEq]
  refine ⟨rfl, ?_⟩
  unfold describeDie storedDie
  rw [RawDie.mk.injEq]
  refine ⟨rfl, ?_, rfl, rfl, rfl, rfl⟩
  rw [keepOrigin]
  cases x.2.origin with
  | none => rfl
  | some r =>
    dsimp only
    rw [describeOrigin, h]
    rfl

end

/-- C126: the naming of origins does no harm to the attributes entries have from their origins. Missing: declarations without name (see
`C126_lost_counterexample`), and the restriction of C95. -/
theorem C126_inherited_partial {α : Type} (n : Nat) (l : FileDies α) (t : DieTable α) (hd : (l.map Prod.fst).Nodup) (hw : WholeRefs l)
    (hs : NamedSpecs l) (hp : PlainOrigins (storedDies l)) (h : parseFile n l = .ok t) (off : Nat) (d : FileDie α) (hm : (off, d) ∈ l) :
    ∃ e, t off = some e ∧ ∀ k v, e.attrs k = some v ↔ Inherits (storedDies l) k v off := by
  rw [parseFile, described_stored hd hw hs n] at h
  have hd' : ((storedDies l).map Prod.fst).Nodup := by
    rw [storedDies, List.map_map]
    exact hd
  exact (C95_inherited_partial n (storedDies l) t hd' hp h).1 off (storedDie d) (List.mem_map.mpr ⟨_, hm, rfl⟩)

theorem rangeLines_length (ip : Nat) (items : List RangeItem) : (rangeLines ip items).length = (items.filter isRange).length := by
  induction items generalizing ip with
  | nil => rfl
  | cons x items ih =>
    cases x with
    | range a b e => rw [List.filter_cons, if_pos (show isRange (.range a b e) = true from rfl), rangeLines, List.length_cons, List.length_cons, ih]
    | base a => rw [List.filter_cons, if_neg (show ¬ isRange (.base a) = true from nofun), rangeLines, ih]

theorem baseAt_base (start : Option Nat) (a : Nat) (before : List RangeItem) :
    baseAt start (.base a :: before) = baseAt (some a) before := by
  unfold baseAt
  rw [List.filterMap_cons]
  dsimp only
  rw [List.getLast?_cons]
  cases (before.filterMap (fun | RangeItem.base a => some a | _ => none)).getLast? <;> rfl

theorem baseAt_range (start : Option Nat) (a : Bool) (b e : Nat) (before : List RangeItem) :
    baseAt start (.range a b e :: before) = baseAt start before := by
  unfold baseAt
  rw [List.filterMap_cons]

theorem rangeLines_at (ip : Nat) (before after : List RangeItem) (abs : Bool) (b e : Nat) :
    ∃ base, baseAt (some ip) before = some base ∧ (rangeLines ip (before ++ .range abs b e :: after))[(before.filter isRange).length]? =
      some (if abs then (b, e) else (base + b, base + e)) := by
  induction before generalizing ip with
  | nil =>
    refine ⟨ip, rfl, ?_⟩
    cases abs <;> simp [rangeLines]
  | cons x before ih =>
    cases x with
    | range a b' e' =>
      obtain ⟨base, h1, h2⟩ := ih ip
      refine ⟨base, by rw [baseAt_range]; exact h1, ?_⟩
      rw [List.filter_cons, if_pos (show isRange (.range a b' e') = true from rfl), List.cons_append, rangeLines, List.length_cons, List.getElem?_cons_succ]
      exact h2
    | base a =>
      obtain ⟨base, h1, h2⟩ := ih a
      refine ⟨base, by rw [baseAt_base]; exact h1, ?_⟩
      rw [List.filter_cons, if_neg (show ¬ isRange (.base a) = true from nofun), List.cons_append, rangeLines]
      exact h2

/-- C126: the address ranges of an entry are those of its list, in this order, each with its addresses. Missing: units without start address (see
`C126_ranges_counterexample`). -/
theorem C126_ranges_partial (low entry : Option Nat) (value ip : Nat) (items : List RangeItem)
    (hb : low = some ip ∨ (low = none ∧ entry = some ip)) :
    ∃ lines, describeRanges low entry value items = .lines lines ∧ lines.length = (items.filter isRange).length ∧
      ∀ before abs b e after, items = before ++ .range abs b e :: after →
        ∃ base, baseAt (some ip) before = some base ∧
          lines[(before.filter isRange).length]? = some (if abs then (b, e) else (base + b, base + e)) := by
  refine ⟨rangeLines ip items, ?_, rangeLines_length ip items, ?_⟩
  · rcases hb with h | ⟨h, h'⟩
    · rw [describeRanges, h]; rfl
    · rw [describeRanges, h, h']; rfl
  · intro before abs b e after h
    rw [h]
    exact rangeLines_at ip before after abs b e

/-- C126 does not hold in general: if the unit has no start address, the ranges are not given although they do not need it. -/
theorem C126_ranges_counterexample : ∃ items : List RangeItem, (∀ before abs b e after, items = before ++ .range abs b e :: after →
      abs = true ∨ (baseAt none before).isSome = true) ∧ items.filter isRange ≠ [] ∧
    ∀ value, describeRanges none none value items = .offset value := by
  refine ⟨[.range true 4096 4128, .base 8192, .range false 16 32], ?_, by decide, fun _ => rfl⟩
  intro before abs b e after h
  match before with
  | [] => cases h; exact Or.inl rfl
  | [x] => cases h
  | [x, y] => cases h; exact Or.inr rfl
  | [x, y, z] => cases h
  | x :: y :: z :: u :: rest =>
    have := congrArg List.length h
    simp at this

/-- Ranges relative to the unit, then absolute ones, then relative to another address. -/
example : describeRanges (some 4096) none 64 [.range false 0 16, .range true 32 48, .base 8192, .range false 16 32] =
    .lines [(4096, 4112), (32, 48), (8208, 8224)] := by decide

/-! ### Examples -/

def refAttr (k : String) (v : Str) : Str → Option Str := fun x => if x = k.toList then some v else none

def refNone : Str → Option Str := fun _ => none

/-- A method declared in a class, its definition, a copy of the definition for inlining, a copy of that, and a variable with a type. -/
def refFile : FileDies Str :=
  [(20, { unit := 0, linkage := some "_ZN1A1fEv".toList, name := some "f".toList, attrs := refNone }),
   (40, { unit := 0, spec := some ⟨false, 20⟩, attrs := refAttr "inline" "inlined".toList }),
   (60, { unit := 0, origin := some ⟨true, 40⟩, attrs := refNone }),
   (80, { unit := 0, origin := some ⟨false, 60⟩, attrs := refNone })]

theorem refFile_nodup : (refFile.map Prod.fst).Nodup := by decide

theorem refFile_follow {x : Nat × FileDie Str} {r : DieRef} {f : FileDie Str} (h : Means refFile x.2 r f) :
    followRef refFile x.2 r = some f := (follow_means refFile_nodup x.2 f r).mpr h

theorem refFile_whole : WholeRefs refFile := by
  intro x hx
  simp only [refFile, List.mem_cons, List.not_mem_nil, or_false] at hx
  refine ⟨fun r hr => ?_, fun r hr => ?_⟩
  all_goals
    rcases hx with rfl | rfl | rfl | rfl <;> cases hr
    all_goals exact ⟨_, (follow_means refFile_nodup _ _ _).mp rfl⟩

theorem refFile_specs : NamedSpecs refFile := by
  intro x hx r f hr hf
  have h := refFile_follow hf
  simp only [refFile, List.mem_cons, List.not_mem_nil, or_false] at hx
  rcases hx with rfl | rfl | rfl | rfl <;> cases hr
  cases h
  exact ⟨_, by decide, Or.inl rfl⟩

theorem refFile_one : OneSource refFile := by
  intro x hx
  simp only [refFile, List.mem_cons, List.not_mem_nil, or_false] at hx
  rcases hx with rfl | rfl | rfl | rfl
  · exact Or.inr (Or.inl rfl)
  · exact Or.inr (Or.inr rfl)
  · exact Or.inr (Or.inl rfl)
  · exact Or.inr (Or.inl rfl)

/-- The number of steps to the end of the chain of origins. -/
def refRank (d : FileDie Str) : Nat :=
  match d.origin with
  | none => 0
  | some r => if r.absolute then 1 else 2

theorem refFile_ends : OriginsEnd refFile refRank := by
  intro x hx r f hr hf
  have h := refFile_follow hf
  simp only [refFile, List.mem_cons, List.not_mem_nil, or_false] at hx
  rcases hx with rfl | rfl | rfl | rfl <;> cases hr <;> cases h <;> decide

theorem refFile_plain : PlainOrigins (storedDies refFile) := by
  intro x hx abs v _
  refine Or.inr ?_
  simp only [storedDies, refFile, List.map_cons, List.map_nil, List.mem_cons, List.not_mem_nil, or_false] at hx
  rcases hx with rfl | rfl | rfl | rfl <;> rfl

/-- The copy of the copy has the name of the method. -/
example : (originName refFile 2 { unit := 0, origin := some ⟨false, 60⟩, attrs := refNone }).toOption =
    some (some "_ZN1A1fEv".toList) := by decide

example : ∃ o, describeOrigin refFile 2 { unit := 0, origin := some ⟨false, 60⟩, attrs := refNone } ⟨false, 60⟩ = .ok (60, o) :=
  (C126_name_partial 2 refFile refRank refFile_nodup refFile_whole refFile_specs refFile_one refFile_ends
    (80, { unit := 0, origin := some ⟨false, 60⟩, attrs := refNone }) (by simp [refFile]) (by decide) ⟨false, 60⟩ rfl).imp fun _ h => h.1

/-- It has the attribute of the definition. -/
theorem refFile_run : ∃ t, parseFile 3 refFile = .ok t ∧ (t 80).map (fun e => e.attrs "inline".toList) = some (some "inlined".toList) :=
  ⟨_, rfl, by decide⟩

example : ∃ t e, parseFile 3 refFile = .ok t ∧ t 80 = some e ∧ Inherits (storedDies refFile) "inline".toList "inlined".toList 80 := by
  obtain ⟨t, h, h'⟩ := refFile_run
  obtain ⟨e, h1, h2⟩ := C126_inherited_partial 3 refFile t refFile_nodup refFile_whole refFile_specs refFile_plain h 80 _
    (List.mem_cons_of_mem _ (List.mem_cons_of_mem _ (List.mem_cons_of_mem _ List.mem_cons_self)))
  rw [h1] at h'
  exact ⟨t, e, h, h1, (h2 _ _).mp (Option.some.inj h')⟩

example : ∃ t, parseFile 3 refFile = .ok t ∧ ∃ e, typeEntry t (describeType { unit := 0, attrs := refNone } ⟨true, 20⟩ (some "A".toList)) =
    .entry 20 e := by
  obtain ⟨t, h, _⟩ := refFile_run
  exact ⟨t, h, (C126_reference_partial 3 refFile t refFile_nodup h { unit := 0, attrs := refNone } _ ⟨true, 20⟩ 20 (Or.inr rfl)
    (Or.inl ⟨rfl, rfl⟩) List.mem_cons_self).1 _⟩

/-- Two units; a variable of the second one has a type of the first one. -/
def refUnits : FileDies Str :=
  [(20, { unit := 0, name := some "int".toList, attrs := refNone }),
   (120, { unit := 100, name := some "long".toList, attrs := refNone }),
   (140, { unit := 100, name := some "v".toList, type := some (⟨true, 20⟩, some "int".toList), attrs := refNone })]

/-- C126 does not hold in general: the type of a variable is taken for another one if the reference to it counts from the start of the section. -/
theorem C126_section_counterexample : ∃ t, parseFile 3 refUnits = .ok t ∧ ∃ d r s off e, (140, d) ∈ refUnits ∧
    d.type = some (r, some s) ∧ (∃ f, (20, f) ∈ refUnits) ∧ MeansOffset d r 20 ∧ typeEntry t (describeType d r (some s)) = .entry off e ∧ off ≠ 20 :=
  ⟨_, rfl, _, _, _, 120, _, List.mem_cons_of_mem _ (List.mem_cons_of_mem _ List.mem_cons_self), rfl, ⟨_, List.mem_cons_self⟩, Or.inl ⟨rfl, rfl⟩, rfl, by decide⟩

/-- C126 does not hold in general: a type elftools has no text for is not found, although the reference is right, but makes the program fail. -/
theorem C126_text_counterexample : ∃ t, parseFile 3 refFile = .ok t ∧ ∃ (d : FileDie Str) (r : DieRef) (off : Nat) (f : FileDie Str),
    MeansOffset d r off ∧ (off, f) ∈ refFile ∧ r.absolute = false ∧ typeEntry t (describeType d r none) = .typeError :=
  ⟨_, rfl, { unit := 0, attrs := refNone }, ⟨false, 20⟩, 20, _, Or.inr ⟨rfl, rfl⟩, List.mem_cons_self, rfl, rfl⟩

/-- A definition of a declaration without name, and a copy of the definition. -/
def refNameless : FileDies Str :=
  [(20, { unit := 0, attrs := refNone }),
   (40, { unit := 0, spec := some ⟨false, 20⟩, attrs := refAttr "inline" "inlined".toList }),
   (60, { unit := 0, origin := some ⟨false, 40⟩, attrs := refNone })]

/-- C126 does not hold in general: if there is no name, the reference to the origin is lost with all attributes of the origin. -/
theorem C126_lost_counterexample : WholeRefs refNameless ∧ PlainOrigins (storedDies refNameless) ∧ ∃ t, parseFile 3 refNameless = .ok t ∧
    Inherits (storedDies refNameless) "inline".toList "inlined".toList 60 ∧
    (t 60).map (fun e => e.attrs "inline".toList) = some none := by
  have hd : (refNameless.map Prod.fst).Nodup := by decide
  refine ⟨?_, ?_, _, rfl, ?_, by decide⟩
  · intro x hx
    simp only [refNameless, List.mem_cons, List.not_mem_nil, or_false] at hx
    refine ⟨fun r hr => ?_, fun r hr => ?_⟩
    all_goals
      rcases hx with rfl | rfl | rfl <;> cases hr
      all_goals exact ⟨_, (follow_means hd _ _ _).mp rfl⟩
  · intro x hx abs v _
    refine Or.inr ?_
    simp only [storedDies, refNameless, List.map_cons, List.map_nil, List.mem_cons, List.not_mem_nil, or_false] at hx
    rcases hx with rfl | rfl | rfl <;> rfl
  · exact Inherits.origin (o := 40) (r := storedDie { unit := 0, origin := some ⟨false, 40⟩, attrs := refNone }) (by simp [storedDies, refNameless])
      rfl rfl (Inherits.own (r := storedDie { unit := 0, spec := some ⟨false, 20⟩, attrs := refAttr "inline" "inlined".toList })
        (by simp [storedDies, refNameless]) (by decide))

/-- A definition that has both a declaration and an origin, which has no name. -/
def refBoth : FileDies Str :=
  [(20, { unit := 0, name := some "f".toList, attrs := refNone }),
   (30, { unit := 0, attrs := refNone }),
   (40, { unit := 0, spec := some ⟨false, 20⟩, origin := some ⟨false, 30⟩, attrs := refNone }),
   (60, { unit := 0, origin := some ⟨false, 40⟩, attrs := refNone })]

/-- C126 does not hold in general: the name of the declaration is dropped if there is an origin as well. -/
theorem C126_both_counterexample : ∃ d f r, (60, d) ∈ refBoth ∧ d.origin = some r ∧ Means refBoth d r f ∧ Named refBoth "f".toList f ∧
    (describeOrigin refBoth 3 d r).toOption = some (40, some []) := by
  have hd : (refBoth.map Prod.fst).Nodup := by decide
  refine ⟨{ unit := 0, origin := some ⟨false, 40⟩, attrs := refNone }, _, _, by simp [refBoth], rfl, (follow_means hd _ _ _).mp rfl, ?_, by decide⟩
  refine Named.spec (f := { unit := 0, name := some "f".toList, attrs := refNone }) ?_ rfl ((follow_means hd _ _ _).mp rfl)
    (Named.own ⟨by decide, Or.inr ⟨rfl, rfl⟩⟩)
  rintro m ⟨_, h | ⟨_, h⟩⟩ <;> cases h

end Bean.Props

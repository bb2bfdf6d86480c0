import Verif.Lemmas.Map
/-
Property theorems C18 to C21 and C61: mapping of addresses between two binaries.
-/
namespace Bean.Props
open Bean Spec

/-! ### Invariant of the gathering phase -/

/-- all pairs are justified and compatible; everything noted in `skip` is the second target of some address -/
structure MInv (names : Bool) (this other : SymTree) (st : MapState) : Prop where
  sorted : Tree.Sorted st.mapping
  just : ∀ e ∈ st.mapping, Justified names this other e.1 e.2 ∧ Compatible this other e.1 e.2
  skip : ∀ t ∈ st.skip, ∃ f t', (f, t') ∈ st.mapping ∧ t' ≠ t ∧ Justified names this other f t

theorem mapping_mono {this other : SymTree} (ht : Tree.Sorted this) (ho : Tree.Sorted other) (st : MapState)
    (f t : Addr) : ∀ e ∈ st.mapping, e ∈ (insertMapping this other st f t).mapping := by
  intro e he
  rcases insertMapping_cases ht ho st f t with ⟨_, _, _, h⟩ | ⟨_, _, _, h⟩ | ⟨_, _, h⟩ | ⟨_, _, h⟩ <;> rw [h]
  · exact he
  · exact he
  · exact he
  · exact Tree.mem_insert.mpr (.inl he)

theorem skip_mono {this other : SymTree} (ht : Tree.Sorted this) (ho : Tree.Sorted other) (st : MapState)
    (f t : Addr) : ∀ a ∈ st.skip, a ∈ (insertMapping this other st f t).skip := by
  intro e he
  rcases insertMapping_cases ht ho st f t with ⟨_, _, _, h⟩ | ⟨_, _, _, h⟩ | ⟨_, _, h⟩ | ⟨_, _, h⟩ <;> rw [h]
  · exact he
  · simp only [HSet.add, HSet.insert]; split <;> simp [he]
  · exact he
  · exact he

theorem MInv.step {names : Bool} {this other : SymTree} (ht : Tree.Sorted this) (ho : Tree.Sorted other)
    {st : MapState} {f t : Addr} (hj : Justified names this other f t) (hi : MInv names this other st) :
    MInv names this other (insertMapping this other st f t) := by
  rcases insertMapping_cases ht ho st f t with ⟨m, hm, he, h⟩ | ⟨m, hm, he, h⟩ | ⟨hm, hc, h⟩ | ⟨hm, hc, h⟩ <;> rw [h]
  · exact hi
  · refine ⟨hi.sorted, hi.just, ?_⟩
    intro a ha
    simp only [HSet.add, HSet.insert] at ha
    split at ha
    · exact hi.skip a ha
    · simp at ha
      rcases ha with ha | ha
      · exact hi.skip a ha
      · subst ha
        obtain ⟨hmem, hk⟩ := Tree.find_mem hm
        exact ⟨f, m.2, by change m.1 = f at hk; rw [← hk]; exact hmem, he, hj⟩
  · exact hi
  · refine ⟨Tree.sorted_insert hi.sorted _, ?_, ?_⟩
    · intro e he
      rcases Tree.mem_insert.mp he with he | ⟨rfl, -⟩
      · exact hi.just e he
      · exact ⟨hj, hc⟩
    · intro a ha
      obtain ⟨f', t', h1, h2, h3⟩ := hi.skip a ha
      exact ⟨f', t', Tree.mem_insert.mpr (.inl h1), h2, h3⟩

theorem varKey_eq {x y : Symbol} (h : varKey y = varKey x) : x.sec.name = y.sec.name ∧ secOffset x = secOffset y := by
  unfold varKey at h
  simp only [Prod.mk.injEq] at h
  exact ⟨h.1.symm, h.2.symm⟩

theorem page_iff (x y : Addr) : x % 0x1000 = y % 0x1000 ↔ x.toNat % 4096 = y.toNat % 4096 := by
  rw [← BitVec.toNat_inj]; simp [BitVec.toNat_umod]

theorem relsAgree_iff {x y : Symbol} {p q : Rel} : relsAgree x y p q = true ↔
    p.undefined = false ∧ q.undefined = false ∧ p.offset - x.address = q.offset - y.address ∧ p.type = q.type
      ∧ p.addend = q.addend := by
  simp [relsAgree, and_assoc]

theorem map_inv {b : Build} {h : BitVec 64 → BitVec 32} {this other : SymTree} (ht : Tree.Sorted this)
    (ho : Tree.Sorted other) {names : Bool} {st : MapState} (hr : mapGather b h this other names = .ok st) :
    MInv names this other st := by
  refine mapGather_ind hr (MInv names this other) ⟨Tree.sorted_nil, by simp, by simp⟩ ?_ ?_ ?_ ?_ ?_ ?_ ?_ ?_
  · intro sc hsc x hx y st he hy hst
    obtain ⟨h1, h2⟩ := hsc.entry y hy
    exact hst.step ht ho (.entry hx h1 he h2)
  · intro sc hsc x hx y st hw hne hf hp hs hst
    obtain ⟨h1, h2, h3, -⟩ := hsc.var _ y hf
    obtain ⟨h4, h5⟩ := varKey_eq h3
    exact hst.step ht ho (.var hx h1 ⟨hw, h2, h4, h5, (page_iff _ _).mp hp, hs⟩)
  · intro hn x hx y st hname hf h1 h2 h3 _ hst
    obtain ⟨h4, h5, h6⟩ := nameIndex_spec.1 _ y hf
    obtain ⟨n, hn'⟩ : ∃ n, x.name = some n := by
      cases hxn : x.name with
      | none => simp [hasName, hxn] at hname
      | some n => exact ⟨n, rfl⟩
    have : n ≠ "" := by simpa [hasName, hn'] using hname
    exact hst.step ht ho (.name hn hx h4 hn' (h6.trans hn') this h1.symm h2.symm
      ((Section.same_iff _ _).mp (by
        rw [Section.same_iff] at *
        exact ⟨h3.1.symm, h3.2.1.symm, h3.2.2.1.symm, h3.2.2.2.symm⟩)))
  · intro x hx y st hf hst
    exact hst.step ht ho (.identity hx (SymHash.mem_ofTree (SymHash.find_mem hf)) (SymHash.find_same (extCmp_lawful h) hf))
  · intro x hx y p q st hf hl hm ha hst
    have hsame := SymHash.find_same (extCmp_lawful h) hf
    obtain ⟨hp, hq⟩ := List.of_mem_zip hm
    obtain ⟨a1, a2, a3, a4, a5⟩ := relsAgree_iff.mp ha
    exact hst.step ht ho (.reloc hx (SymHash.mem_ofTree (SymHash.find_mem hf)) ⟨hsame.1, hsame.2.2.1⟩ hl
      ⟨hp, hq, a1, a2, a3, a4, a5⟩)
  · intro x hx y p q st _ hf hl hm ha hst
    obtain ⟨hp, hq⟩ := List.of_mem_zip hm
    obtain ⟨a1, a2, a3, a4, a5⟩ := relsAgree_iff.mp ha
    exact hst.step ht ho (.reloc hx (SymHash.mem_ofTree (SymHash.find_mem hf)) (SymHash.find_same (intCmp_lawful h) hf) hl
      ⟨hp, hq, a1, a2, a3, a4, a5⟩)
  · intro x hx m y p v st hmem hf hp h1 h2 h3 h4 hst
    obtain ⟨hy, hk⟩ := Tree.find_mem hf
    have hj := (hst.just _ hmem).1
    simp only at hj
    change y.address = m at hk
    rw [← hk] at hj
    exact hst.step ht ho (.branch hx hy hj hp h1 h2 rfl h3 h4)
  · intro st f t e he _
    exact mapping_mono ht ho st f t e he

/-! ### C18 / C21 -/

/-- C18: for each mapped pair the closest symbols at or below have equal section attributes and compatible types. -/
theorem C18_mapped_compatible (b : Build) (h : BitVec 64 → BitVec 32) (this other : SymTree) (ht : Ordered this)
    (ho : Ordered other) (names : Bool) (m : List (Addr × Addr)) (hm : map b h this other names = .ok m) :
    ∀ e ∈ m, Compatible this other e.1 e.2 := by
  obtain ⟨st, hg, rfl⟩ := map_ok hm
  intro e he
  exact ((map_inv ((ordered_iff_sorted _).mp ht) ((ordered_iff_sorted _).mp ho) hg).just e (mem_cleanup.mp he).1).2

/-- C21: each mapped pair has a reason, and the mapping is a function. -/
theorem C21_mapped_justified (b : Build) (h : BitVec 64 → BitVec 32) (this other : SymTree) (ht : Ordered this)
    (ho : Ordered other) (names : Bool) (m : List (Addr × Addr)) (hm : map b h this other names = .ok m) :
    (∀ e ∈ m, Justified names this other e.1 e.2) ∧ (∀ e ∈ m, ∀ e' ∈ m, e.1 = e'.1 → e = e') := by
  obtain ⟨st, hg, rfl⟩ := map_ok hm
  have hi := map_inv ((ordered_iff_sorted _).mp ht) ((ordered_iff_sorted _).mp ho) hg
  exact ⟨fun e he => (hi.just e (mem_cleanup.mp he).1).1,
    fun e he e' he' hk => (sorted_cleanup hi.sorted).inj he he' hk⟩

/-! ### C61: completeness for unchanged symbols -/

theorem mapped_of_insert {this other : SymTree} (ht : Tree.Sorted this) (ho : Tree.Sorted other) (st : MapState)
    (hs : Tree.Sorted st.mapping) {f t : Addr} (hc : Compatible this other f t) :
    ∃ e ∈ (insertMapping this other st f t).mapping, e.1 = f := by
  rcases insertMapping_cases ht ho st f t with ⟨m, hm, he, h⟩ | ⟨m, hm, he, h⟩ | ⟨hm, hn, h⟩ | ⟨hm, _, h⟩ <;> rw [h]
  · exact ⟨m, Tree.find_mem hm⟩
  · exact ⟨m, Tree.find_mem hm⟩
  · exact (hn hc).elim
  · exact ⟨(f, t), (Tree.mem_insert' hs).mpr (.inr ⟨rfl, Tree.find_eq_none_iff.mp hm⟩), rfl⟩

theorem sorted_step {this other : SymTree} (ht : Tree.Sorted this) (ho : Tree.Sorted other) (st : MapState)
    (hs : Tree.Sorted st.mapping) (f t : Addr) : Tree.Sorted (insertMapping this other st f t).mapping := by
  rcases insertMapping_cases ht ho st f t with ⟨_, _, _, h⟩ | ⟨_, _, _, h⟩ | ⟨_, _, h⟩ | ⟨_, _, h⟩ <;> rw [h]
  · exact hs
  · exact hs
  · exact hs
  · exact Tree.sorted_insert hs _

/-- A fact established by the comparison of full identities of one symbol and kept by `insert_mapping` holds in
the end. -/
theorem full_phase {b : Build} {h : BitVec 64 → BitVec 32} {this other : SymTree} (ht : Tree.Sorted this)
    (ho : Tree.Sorted other) {names : Bool} {st : MapState} (hr : mapGather b h this other names = .ok st)
    (Q : MapState → Prop) (hQ : ∀ st f t, Q st → Q (insertMapping this other st f t)) (x : Symbol) (hx : x ∈ this)
    (hE : ∀ st, Tree.Sorted st.mapping → Q (matchFull h this other st x)) : Q st := by
  obtain ⟨sc, es, hsc, -, hes, rfl⟩ := mapGather_ok hr
  let S : MapState → Prop := fun st => Tree.Sorted st.mapping
  have hS : ∀ st f t, S st → S (insertMapping this other st f t) := fun st f t hs => sorted_step ht ho st hs f t
  have s0 : S es.st := (entryVars_spec hes S Tree.sorted_nil (fun _ _ _ _ _ _ h => hS _ _ _ h)
    (fun _ _ _ _ _ _ _ _ _ h => hS _ _ _ h)).1
  have s1 : S (if names = true then this.foldl (matchName this other (nameIndex other)) es.st else es.st) := by
    split
    · refine foldl_ind S _ _ _ s0 ?_
      intro st x _ hs
      unfold matchName
      repeat' split
      all_goals first | exact hs | exact hS _ _ _ hs
    · exact s0
  have hrel : ∀ (R : MapState → Prop), (∀ st f t, R st → R (insertMapping this other st f t)) →
      ∀ st x y, R st → R (processRelocations this other st x y) :=
    fun R hR st x y hq => processRelocations_ind R hq (fun p q st _ _ _ hq => hR _ _ _ hq)
  have hfull : ∀ (R : MapState → Prop), (∀ st f t, R st → R (insertMapping this other st f t)) →
      ∀ st x, R st → R (matchFull h this other st x) := by
    intro R hR st x hq
    unfold matchFull
    split
    · exact hrel R hR _ _ _ (hR _ _ _ hq)
    · exact hq
  have h1 := foldl_establish S Q (matchFull h this other) this _ x hx s1 (fun st y _ hs => hfull S hS st y hs)
    (fun st y _ _ hq => hfull Q hQ st y hq) hE
  have h2 := foldl_ind Q (matchInternal h this other es.skip_internal_id) this _ h1 (by
    intro st x _ hq
    unfold matchInternal
    split
    · exact hq
    · split
      · exact hrel Q hQ _ _ _ hq
      · exact hq)
  refine foldl_ind Q (matchLocal this other es.skip_internal_id) this _ h2 ?_
  intro st x _ hq
  unfold matchLocal
  split
  · exact hq
  · split
    · exact hq
    · split
      · exact hq
      · refine foldl_ind Q _ _ _ hq ?_
        intro st p _ hq
        unfold matchLocalRel
        split
        · simp only
          split
          · split
            · exact hQ _ _ _ hq
            · exact hq
          · exact hq
        · exact hq

theorem closest_self {t : SymTree} (ht : Tree.Sorted t) {x : Symbol} (hx : x ∈ t) : Closest t x.address x :=
  (closest_of_floor ht).mp (Tree.floor_key ht hx)

theorem full_mapped {b : Build} {h : BitVec 64 → BitVec 32} {this other : SymTree} (ht' : Tree.Sorted this)
    (ho' : Tree.Sorted other) {names : Bool} {st : MapState} (hg : mapGather b h this other names = .ok st) (x : Symbol)
    (hx : x ∈ this) (hex : ∃ y ∈ other, SameIdentity y x)
    (hty : ∀ y ∈ other, SameIdentity y x → TypesCompatible x y) : ∃ e ∈ st.mapping, e.1 = x.address := by
  refine full_phase ht' ho' hg (fun st => ∃ e ∈ st.mapping, e.1 = x.address) ?_ x hx ?_
  · rintro st f t ⟨e, he, hk⟩
    exact ⟨e, mapping_mono ht' ho' st f t e he, hk⟩
  · intro st hs
    unfold matchFull
    have hcont := (SymHash.contains_ofTree (extCmp_lawful h)).mpr hex
    unfold SymHash.contains at hcont
    split
    · rename_i o hfo
      have hmem := SymHash.mem_ofTree (SymHash.find_mem hfo)
      have hsame := SymHash.find_same (extCmp_lawful h) hfo
      have hc : Compatible this other x.address o.address :=
        ⟨x, o, closest_self ht' hx, closest_self ho' hmem, (by
            obtain ⟨-, -, ⟨a, b, c, d⟩, -⟩ := hsame
            exact ⟨a.symm, b.symm, c.symm, d.symm⟩), hty o hmem hsame⟩
      obtain ⟨e, he, hk⟩ := mapped_of_insert ht' ho' st hs hc
      exact processRelocations_ind (fun st => ∃ e ∈ st.mapping, e.1 = x.address) ⟨e, he, hk⟩
        (fun p q st _ _ _ ⟨e, he, hk⟩ => ⟨e, mapping_mono ht' ho' st _ _ e he, hk⟩)
    · rename_i hnone
      rw [hnone] at hcont; simp at hcont

/-- C61: a symbol with a counterpart of equal identity (and compatible type) is mapped, unless its address happens
to equal one of several targets proposed for some source address (see C19). -/
theorem C61_unchanged_mapped (b : Build) (h : BitVec 64 → BitVec 32) (this other : SymTree) (ht : Ordered this)
    (ho : Ordered other) (names : Bool) (m : List (Addr × Addr)) (hm : map b h this other names = .ok m) (x : Symbol)
    (hx : x ∈ this) (hex : ∃ y ∈ other, SameIdentity y x)
    (hty : ∀ y ∈ other, SameIdentity y x → TypesCompatible x y) :
    (∃ t, (x.address, t) ∈ m) ∨ AmbiguousTarget names this other x.address := by
  have ht' := (ordered_iff_sorted _).mp ht
  have ho' := (ordered_iff_sorted _).mp ho
  obtain ⟨st, hg, rfl⟩ := map_ok hm
  have hinv := map_inv ht' ho' hg
  obtain ⟨e, he, hk⟩ := full_mapped ht' ho' hg x hx hex hty
  by_cases hsk : x.address ∈ st.skip
  · obtain ⟨f, t', h1, h2, h3⟩ := hinv.skip _ hsk
    exact .inr ⟨f, t', h2, h3, (hinv.just _ h1).1⟩
  · exact .inl ⟨e.2, mem_cleanup.mpr ⟨by rw [← hk]; exact he, hsk⟩⟩

/-! ### C19 -/

/-- C19: if no source address has two justified targets, all proposals for unchanged symbols survive, with the
proposed target. What is missing for the full claim: see the two counterexamples. -/
theorem C19_unambiguous_partial (b : Build) (h : BitVec 64 → BitVec 32) (this other : SymTree) (ht : Ordered this)
    (ho : Ordered other) (names : Bool) (m : List (Addr × Addr)) (hm : map b h this other names = .ok m)
    (hun : ∀ f t t', Justified names this other f t → Justified names this other f t' → t = t') (x y : Symbol)
    (hx : x ∈ this) (hy : y ∈ other) (hs : SameIdentity y x) (hty : TypesCompatible x y) :
    (x.address, y.address) ∈ m := by
  have ho' := (ordered_iff_sorted _).mp ho
  have huniq : ∀ z ∈ other, SameIdentity z x → z = y := by
    intro z hz hzs
    exact ho'.inj hz hy (hun x.address _ _ (.identity hx hz hzs) (.identity hx hy hs))
  rcases C61_unchanged_mapped b h this other ht ho names m hm x hx ⟨y, hy, hs⟩
      (fun z hz hzs => huniq z hz hzs ▸ hty) with ⟨t, hmem⟩ | ⟨f, t', hne, h1, h2⟩
  · have := (C21_mapped_justified b h this other ht ho names m hm).1 _ hmem
    rw [hun _ _ _ (.identity hx hy hs) this]
    exact hmem
  · exact (hne (hun f _ _ h2 h1)).elim

/-- a variable that moved: `x` has moved from offset 1 to 2, another variable of the same size took its place;
`z` is unchanged but moved from 2 to 3 -/
def movedThis : SymTree :=
  [{ address := 1, size := 8, id := { internal := 5 }, sec := { writeable := true } },
   { address := 2, size := 4, id := { internal := 9 }, sec := { writeable := true } }]
/-- see `movedThis` -/
def movedOther : SymTree :=
  [{ address := 1, size := 8, id := { internal := 6 }, sec := { writeable := true } },
   { address := 2, size := 8, id := { internal := 5 }, sec := { writeable := true } },
   { address := 3, size := 4, id := { internal := 9 }, sec := { writeable := true } }]

theorem moved_result (b : Build) (h : BitVec 64 → BitVec 32) : map b h movedThis movedOther false = .ok [(1, 1)] := by
  rw [map_congr b h (fun _ => 0)]
  cases b <;> rfl

/-- C19 is false: two different compatible targets are proposed for address 1, but the mapping contains it. -/
theorem C19_ambiguous_counterexample (b : Build) (h : BitVec 64 → BitVec 32) :
    ∃ (this other : SymTree) (m : List (Addr × Addr)) (f t t' : Addr), Ordered this ∧ Ordered other
      ∧ map b h this other false = .ok m ∧ t ≠ t' ∧ Justified false this other f t ∧ Justified false this other f t'
      ∧ Compatible this other f t ∧ Compatible this other f t' ∧ (f, t) ∈ m := by
  refine ⟨movedThis, movedOther, _, 1, 1, 2, by decide, by decide, moved_result b h, by decide, ?_, ?_, ?_, ?_, by decide⟩
  · exact .var (x := { address := 1, size := 8, id := { internal := 5 }, sec := { writeable := true } })
      (y := { address := 1, size := 8, id := { internal := 6 }, sec := { writeable := true } })
      (by decide) (by decide) (by decide)
  · exact .identity (x := { address := 1, size := 8, id := { internal := 5 }, sec := { writeable := true } })
      (y := { address := 2, size := 8, id := { internal := 5 }, sec := { writeable := true } })
      (by decide) (by decide) (by decide)
  · exact ⟨{ address := 1, size := 8, id := { internal := 5 }, sec := { writeable := true } },
      { address := 1, size := 8, id := { internal := 6 }, sec := { writeable := true } },
      by unfold Closest; decide, by unfold Closest; decide, by decide, .inl rfl⟩
  · exact ⟨{ address := 1, size := 8, id := { internal := 5 }, sec := { writeable := true } },
      { address := 2, size := 8, id := { internal := 5 }, sec := { writeable := true } },
      by unfold Closest; decide, by unfold Closest; decide, by decide, .inl rfl⟩

/-- C19 is false: address 2 has only one justified (and compatible) target, 3, but has no entry, because it equals
the second target proposed for address 1. -/
theorem C19_unambiguous_lost_counterexample (b : Build) (h : BitVec 64 → BitVec 32) :
    ∃ (this other : SymTree) (m : List (Addr × Addr)) (f t : Addr), Ordered this ∧ Ordered other
      ∧ map b h this other false = .ok m ∧ (∀ t', Justified false this other f t' ↔ t' = t)
      ∧ Compatible this other f t ∧ ∀ t', (f, t') ∉ m := by
  refine ⟨movedThis, movedOther, _, 2, 3, by decide, by decide, moved_result b h, ?_, ?_, by intro t'; simp⟩
  · have hrels : ∀ x ∈ movedThis, x.rels = [] := by decide
    intro t'
    constructor
    · intro hj
      generalize hf : (2 : Addr) = f at hj
      cases hj with
      | @entry x y hx hy he _ => exact ((by decide : ∀ x ∈ movedThis, ¬ IsEntry x) x hx he).elim
      | @var x y hx hy hs =>
        revert hs hf
        exact (by decide : ∀ x ∈ movedThis, ∀ y ∈ movedOther, SamePlace x y → (2 : Addr) = x.address → y.address = 3)
          x hx y hy
      | name hn => simp at hn
      | @identity x y hx hy hs =>
        revert hs hf
        exact (by decide : ∀ x ∈ movedThis, ∀ y ∈ movedOther, SameIdentity y x → (2 : Addr) = x.address → y.address = 3)
          x hx y hy
      | reloc hx _ _ _ hr => have := hr.1; rw [hrels _ hx] at this; simp at this
      | branch hx _ _ hp => rw [hrels _ hx] at hp; simp at hp
    · rintro rfl
      exact .identity (x := { address := 2, size := 4, id := { internal := 9 }, sec := { writeable := true } })
        (y := { address := 3, size := 4, id := { internal := 9 }, sec := { writeable := true } })
        (by decide) (by decide) (by decide)
  · exact ⟨{ address := 2, size := 4, id := { internal := 9 }, sec := { writeable := true } },
      { address := 3, size := 4, id := { internal := 9 }, sec := { writeable := true } },
      by unfold Closest; decide, by unfold Closest; decide, by decide, .inl rfl⟩

/-! ### C20 -/

theorem filter_le_one {l : List Symbol} (hl : l.Nodup) (p : Symbol → Bool)
    (hp : ∀ x ∈ l, ∀ y ∈ l, p x = true → p y = true → x = y) : (l.filter p).length ≤ 1 := by
  have hn : (l.filter p).Nodup := hl.filter p
  match hf : l.filter p with
  | [] => simp
  | [_] => simp
  | x :: y :: r =>
    have hx : x ∈ l.filter p := by rw [hf]; simp
    have hy : y ∈ l.filter p := by rw [hf]; simp
    rw [List.mem_filter] at hx hy
    have := hp x hx.1 y hy.1 hx.2 hy.2
    rw [hf] at hn
    subst this
    simp at hn

/-- `map` of a well-formed binary onto itself does not fault. -/
theorem self_gather_ok (b : Build) (h : BitVec 64 → BitVec 32) (t : SymTree) (hs : Tree.Sorted t) (names : Bool)
    (hent : OneEntry t) (hafter : AfterSection t) : ∃ st, mapGather b h t t names = .ok st := by
  obtain ⟨sc, hsc, -⟩ := foldlM_ok (fun _ => True) (scanOther b) t {} trivial (by
    intro s x hx _
    unfold scanOther
    split
    · exact ⟨_, rfl, trivial⟩
    · split
      · rename_i hw
        rw [massert_ok (by simpa [BitVec.le_def] using hafter x hx hw)]
        exact ⟨_, rfl, trivial⟩
      · exact ⟨_, rfl, trivial⟩)
  have hspec := scan_spec hsc
  have hcnt : sc.entries ≤ 1 := by
    rw [hspec.count]
    refine filter_le_one hs.nodup _ ?_
    intro x hx y hy h1 h2
    exact hent x hx y hy ((has_entry_iff x).mp h1) ((has_entry_iff y).mp h2)
  obtain ⟨es, hes, -⟩ := foldlM_ok (fun _ => True) (matchEntryVars b t t sc) t {} trivial (by
    intro s x hx _
    unfold matchEntryVars
    simp only
    split
    · rename_i oe hoe
      split at hoe
      · rename_i he
        obtain ⟨hm, hme⟩ := hspec.entry oe hoe
        have : oe = x := hent oe hm x hx hme ((has_entry_iff x).mp he)
        subst this
        rw [massert_ok (by simp [Section.same])]
        exact ⟨_, rfl, trivial⟩
      · simp at hoe
    · split
      · split
        · split <;> exact ⟨_, rfl, trivial⟩
        · exact ⟨_, rfl, trivial⟩
      · exact ⟨_, rfl, trivial⟩)
  unfold mapGather
  rw [hsc]
  simp only [bind, Except.bind]
  rw [massert_ok (by simpa using hcnt)]
  simp only
  rw [hes]
  exact ⟨_, rfl⟩

/-- C20: the mapping of a binary onto itself is the identity on (at least) all symbol addresses. -/
theorem C20_self_map_identity (b : Build) (h : BitVec 64 → BitVec 32) (t : SymTree) (hs : Ordered t) (names : Bool)
    (hid : Distinct SameIdentity t) (hpl : DistinctPlaces t) (hent : OneEntry t) (hafter : AfterSection t)
    (hnm : names = true → DistinctNames t) :
    ∃ m, map b h t t names = .ok m ∧ (∀ e ∈ m, e.1 = e.2) ∧ ∀ x ∈ t, (x.address, x.address) ∈ m := by
  have hs' := (ordered_iff_sorted _).mp hs
  obtain ⟨st, hg⟩ := self_gather_ok b h t hs' names hent hafter
  let P : MapState → Prop := fun st => (∀ e ∈ st.mapping, e.1 = e.2) ∧ st.skip = []
  have step : ∀ st a, P st → P (insertMapping t t st a a) := by
    rintro st a ⟨h1, h2⟩
    rcases insertMapping_cases hs' hs' st a a with ⟨m, hm, he, h⟩ | ⟨m, hm, he, h⟩ | ⟨hm, hc, h⟩ | ⟨hm, hc, h⟩ <;> rw [h]
    · exact ⟨h1, h2⟩
    · obtain ⟨hmem, hk⟩ := Tree.find_mem hm
      exact (he ((h1 m hmem).symm.trans hk)).elim
    · exact ⟨h1, h2⟩
    · refine ⟨?_, h2⟩
      intro e he
      rcases Tree.mem_insert.mp he with he | ⟨rfl, -⟩
      · exact h1 e he
      · rfl
  have hP : P st := by
    refine mapGather_ind hg P ⟨by simp, rfl⟩ ?_ ?_ ?_ ?_ ?_ ?_ ?_ ?_
    · intro sc hsc x hx y st he hy hst
      obtain ⟨h1, h2⟩ := hsc.entry y hy
      rw [hent y h1 x hx h2 he]; exact step st _ hst
    · intro sc hsc x hx y st hw _ hf _ _ hst
      obtain ⟨h1, h2, h3, -⟩ := hsc.var _ y hf
      obtain ⟨h4, h5⟩ := varKey_eq h3
      rw [← hpl x hx y h1 hw h2 h4 h5]; exact step st _ hst
    · intro hn x hx y st hname hf _ _ _ _ hst
      obtain ⟨h4, h5, h6⟩ := nameIndex_spec.1 _ y hf
      obtain ⟨n, hn'⟩ : ∃ n, x.name = some n := by
        cases hxn : x.name with
        | none => simp [hasName, hxn] at hname
        | some n => exact ⟨n, rfl⟩
      have : n ≠ "" := by simpa [hasName, hn'] using hname
      rw [hnm hn y h4 x hx n this (h6.trans hn') hn']; exact step st _ hst
    · intro x hx y st hf hst
      rw [hid y (SymHash.mem_ofTree (SymHash.find_mem hf)) x hx (SymHash.find_same (extCmp_lawful h) hf)]
      exact step st _ hst
    · intro x hx y p q st hf _ hm _ hst
      have e := hid y (SymHash.mem_ofTree (SymHash.find_mem hf)) x hx (SymHash.find_same (extCmp_lawful h) hf)
      subst e
      have : p = q := by
        rw [List.zip_eq_zipWith, List.zipWith_self] at hm
        simp at hm
        obtain ⟨r, _, rfl, rfl⟩ := hm; rfl
      subst this
      exact step st _ hst
    · intro x hx y p q st hu hf _ hm _ hst
      have e := hu y (SymHash.mem_ofTree (SymHash.find_mem hf)) (SymHash.find_same (intCmp_lawful h) hf).1
      subst e
      have : p = q := by
        rw [List.zip_eq_zipWith, List.zipWith_self] at hm
        simp at hm
        obtain ⟨r, _, rfl, rfl⟩ := hm; rfl
      subst this
      exact step st _ hst
    · intro x hx m y p v st hmem hf _ _ _ _ _ hst
      have hmx : x.address = m := hst.1 _ hmem
      obtain ⟨hy, hk⟩ := Tree.find_mem hf
      have e : y = x := hs'.inj hy hx (hk.trans hmx.symm)
      subst e
      have : y.address + (p.target - y.address) = p.target := by bv_omega
      rw [this]; exact step st _ hst
    · intro st f tt e he _
      exact mapping_mono hs' hs' st f tt e he
  refine ⟨cleanup st, by simp [map, hg, bind, Except.bind, pure, Except.pure], ?_, ?_⟩
  · intro e he; exact hP.1 e (mem_cleanup.mp he).1
  · intro x hx
    obtain ⟨e, he, hk⟩ := full_mapped hs' hs' hg x hx ⟨x, hx, (extCmp_lawful h).refl x⟩
      (fun y hy hsame => hid y hy x hx hsame ▸ .inl rfl)
    refine mem_cleanup.mpr ⟨?_, by rw [hP.2]; simp⟩
    have : e = (x.address, x.address) := by
      rw [← hk]; exact Prod.ext rfl (hP.1 e he).symm
    rw [← this]; exact he

/-- a binary with an entry point, a variable and a function that meets the hypotheses of C20 -/
example : ∃ t : SymTree, t.length = 3 ∧ Ordered t ∧ Distinct SameIdentity t ∧ DistinctPlaces t ∧ OneEntry t
    ∧ AfterSection t :=
  ⟨[{ address := 1, size := 1, flags := SYMBOL_ENTRY, id := { internal := 1 }, sec := { executable := true } },
    { address := 2, size := 1, id := { internal := 2 }, sec := { executable := true } },
    { address := 9, size := 1, id := { internal := 3 }, sec := { address := 8, writeable := true } }],
   by decide, by decide, by decide, by decide, by decide, by decide⟩

/-- The condition on names in C20 is needed: two static functions of the same name. The second one is mapped to the
first one by name, then found ambiguous, and loses its entry. -/
theorem C20_names_needed (b : Build) (h : BitVec 64 → BitVec 32) :
    ∃ t : SymTree, Ordered t ∧ Distinct SameIdentity t ∧ DistinctPlaces t ∧ OneEntry t ∧ AfterSection t
      ∧ map b h t t true = .ok [(1, 1)] := by
  refine ⟨[{ address := 1, size := 1, name := some "f", id := { internal := 1 }, sec := { executable := true } },
    { address := 2, size := 1, name := some "f", id := { internal := 2 }, sec := { executable := true } }],
    by decide, by decide, by decide, by decide, by decide, ?_⟩
  rw [map_congr b h (fun _ => 0)]
  cases b <;> rfl

/-! ### C16 for `map` -/

/-- C16: the mapping does not depend on the bucket hash function either. -/
theorem C16_map_hash_irrelevant (b : Build) (h h' : BitVec 64 → BitVec 32) (this other : SymTree) (names : Bool) :
    map b h this other names = map b h' this other names := map_congr b h h' this other names

end Bean.Props

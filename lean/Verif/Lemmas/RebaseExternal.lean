import Verif.Lemmas.RebaseData
/-
External identifiers and dependencies of a moved file (C100).
-/
namespace Bean
open Bean.Spec

variable {m : Rebase} {env : Env} {got : Addr} {t0 t : SymTree}

/-- The closest symbol in front of the address is of the same address space (or the address is thread-local although there
is no thread-local storage). -/
def AnchoredAt (m : Rebase) (t : SymTree) (a : Addr) : Prop :=
  (TLS.is_tls a = true ∧ m.tls = false) ∨ ∃ y, Tree.floor t a = some y ∧ TLS.is_tls y.address = TLS.is_tls a

/-- What is known about the symbols while they get their external identifiers. -/
structure ExtGood (m : Rebase) (t0 t : SymTree) : Prop where
  good : ∀ s ∈ t, GoodOut m.tls m.dist s
  refs : ∀ s ∈ t, ∀ a ∈ s.refs, AnchoredAt m t0 a
  rels : ∀ s ∈ t, ∀ r ∈ s.rels, r.target ≠ 0 → AnchoredAt m t0 r.target
  same : t.map core = t0.map core

theorem ExtGood.anchored (h : ExtGood m t0 t) {a : Addr} (ha : AnchoredAt m t0 a) : AnchoredAt m t a := by
  rcases ha with ha | ⟨y, h1, h2⟩
  · exact Or.inl ha
  · have := floor_core h.same a
    rw [h1] at this
    obtain ⟨y', e1, e2⟩ := Option.map_eq_some_iff.mp this
    refine Or.inr ⟨y', e1, ?_⟩
    rw [← h2]
    have e3 : y'.address = y.address := by have := congrArg Symbol.address e2; exact this
    rw [e3]

/-! ### Relocations -/

theorem extRelBytes_rebase {a : Addr} {r : Rel} (ha : AddressedT m.tls m.dist a) (hr : GoodRel m.tls m.dist r) :
    extRelBytes (a + m.dist) (rebaseRel m.tls m.dist r) = extRelBytes a r := by
  unfold extRelBytes
  rw [ha.lowT.virt]
  show le64 (r.offset + m.dist - (TLS.virt_addr a + m.dist)) ++ le64 r.type ++
    (if rebaseTarget m.tls m.dist r.target = 0 then _ ++ le64 (if RelativeType r.type then r.addend + m.dist else r.addend) else []) = _
  rw [sub_shift]
  by_cases hz : r.target = 0
  · rw [if_pos hz, if_pos (hr.target.eq_zero.mpr hz), if_neg (fun h => (hr.relative h).1 hz)]
    rfl
  · rw [if_neg hz, if_neg (fun h => hz (hr.target.eq_zero.mp h))]

def rebaseExtRel (m : Rebase) (acc : List (BitVec 8) × List Addr) : List (BitVec 8) × List Addr :=
  (acc.1, acc.2.map (rebaseRef m.tls m.dist))

theorem extRels_rebase {b : Build} {a : Addr} (ha : AddressedT m.tls m.dist a) (rels : List Rel) (hr : ∀ r ∈ rels, GoodRel m.tls m.dist r)
    {Q : Addr → Prop} (hq : ∀ r ∈ rels, r.target ≠ 0 → Q r.target) {acc : List (BitVec 8) × List Addr}
    (hacc : ∀ x ∈ acc.2, GoodRef m.tls m.dist x ∧ Q x) :
    Carries (rebaseExtRel m) (fun acc => ∀ x ∈ acc.2, GoodRef m.tls m.dist x ∧ Q x) (rels.foldlM (extRelStep b a) acc)
      ((rels.map (rebaseRel m.tls m.dist)).foldlM (extRelStep b (a + m.dist)) (rebaseExtRel m acc)) := by
  refine Carries.foldlM (P := fun acc : List (BitVec 8) × List Addr => ∀ x ∈ acc.2, GoodRef m.tls m.dist x ∧ Q x)
    (f := extRelStep b a) (k := rebaseRel m.tls m.dist) (fun r hrm acc hacc => ?_) hacc
  have g := hr r hrm
  unfold extRelStep
  refine Carries.assert (fun h => ?_) (Carries.ok ?_ ?_)
  · rw [decide_eq_true_eq] at h ⊢
    show r.offset + m.dist ≥ TLS.virt_addr (a + m.dist)
    rw [ha.lowT.virt]
    exact (add_le_iff ha.lowT.virt_low.noWrap g.offset.noWrap).mpr h
  · rw [extRelBytes_rebase ha g]
    show (acc.1 ++ extRelBytes a r, if rebaseTarget m.tls m.dist r.target = 0 then acc.2.map (rebaseRef m.tls m.dist) else
      HSet.add (acc.2.map (rebaseRef m.tls m.dist)) (rebaseTarget m.tls m.dist r.target)) = rebaseExtRel m _
    unfold rebaseExtRel
    by_cases hz : r.target = 0
    · rw [if_pos (g.target.eq_zero.mpr hz), if_pos hz]
    · rw [if_neg (fun h => hz (g.target.eq_zero.mp h)), if_neg hz]
      dsimp only
      rw [← refs_add (fun y hy => (hacc y hy).1) (g.target.ref hz), rebaseTarget_ref hz]
  · intro x hx
    dsimp only at hx
    split at hx
    · exact hacc x hx
    · next hz =>
      rcases mem_hset_add.mp hx with hx | rfl
      · exact hacc x hx
      · exact ⟨g.target.ref hz, hq r hrm hz⟩

/-! ### References -/

theorem AddressedT.eq_got {k a b : Addr} {tls : Bool} (ha : AddressedT tls k a) (hb : ZeroOr k b) : a + k = rebaseZero k b ↔ a = b := by
  rcases hb with rfl | h
  · rw [rebaseZero_zero]
    have h0 : a.toNat ≠ 0 := AddressedT.ne_zero ha
    constructor
    · intro e
      have := congrArg BitVec.toNat e
      rw [add_toNat ha.lowT.noWrap, show BitVec.toNat (0 : Addr) = 0 from rfl] at this
      omega
    · rintro rfl; exact absurd rfl h0
  · rw [h.zero]; exact add_inj_iff

/-- What a reference adds to the identifier, and the symbol that depends on it. -/
theorem ref_rebase (hgot : ZeroOr m.dist got) (ht : ∀ s ∈ t, GoodOut m.tls m.dist s) {a : Addr} (ha : GoodRef m.tls m.dist a)
    (hanch : AnchoredAt m t a) :
    refBytes (rebaseEnv m.dist env) (rebaseZero m.dist got) (Tree.floor (t.map (rebaseSymbol m.tls m.dist)) (rebaseRef m.tls m.dist a))
        (rebaseRef m.tls m.dist a) = refBytes env got (Tree.floor t a) a ∧
    refDep (rebaseZero m.dist got) (Tree.floor (t.map (rebaseSymbol m.tls m.dist)) (rebaseRef m.tls m.dist a))
        (rebaseRef m.tls m.dist a) = (refDep got (Tree.floor t a) a).map (· + m.dist) := by
  by_cases hf : m.tls = false ∧ TLS.is_tls a = true
  · rw [rebaseRef_fixed hf]
    have key : ∀ (e : Env) (g : Addr) (o : Option Symbol), (∀ y, o = some y → TLS.is_tls y.address = false) →
        refBytes e g o a = le64 a ∧ refDep g o a = none := by
      intro e g o ho
      cases o with
      | none => exact ⟨rfl, rfl⟩
      | some y =>
        have hne : ¬ TLS.is_tls y.address = TLS.is_tls a := by rw [ho y rfl, hf.2]; decide
        unfold refBytes refDep
        simp only [if_neg hne, and_self]
    have hreg : ∀ y ∈ t, TLS.is_tls y.address = false := by
      intro y hy
      cases hc : TLS.is_tls y.address with
      | false => rfl
      | true =>
        have := (ht y hy).address.lowT.has_tls hc
        rw [hf.1] at this
        cases this
    obtain ⟨k1, k2⟩ := key env got (Tree.floor t a) (fun y hy => hreg y (Tree.floor_mem hy))
    obtain ⟨k3, k4⟩ := key (rebaseEnv m.dist env) (rebaseZero m.dist got) (Tree.floor (t.map (rebaseSymbol m.tls m.dist)) a) (fun y hy => by
      obtain ⟨y0, hy0, rfl⟩ := List.mem_map.mp (Tree.floor_mem hy)
      show TLS.is_tls (y0.address + m.dist) = false
      rw [(ht y0 hy0).address.lowT.is_tls]
      exact hreg y0 hy0)
    rw [k1, k2, k3, k4]
    exact ⟨rfl, rfl⟩
  · have hl : LowT m.tls m.dist a := ha.resolve_right hf
    obtain ⟨y, hy, hsame⟩ : ∃ y, Tree.floor t a = some y ∧ TLS.is_tls y.address = TLS.is_tls a :=
      hanch.resolve_left (fun h => hf ⟨h.2, h.1⟩)
    have hg := ht y (Tree.floor_mem hy)
    rw [hl.ref, floor_shift (fun s hs => symbol_shifts (ht s hs).address.lowT) hl.noWrap, hy]
    have hsame' : TLS.is_tls (rebaseSymbol m.tls m.dist y).address = TLS.is_tls (a + m.dist) := by
      show TLS.is_tls (y.address + m.dist) = _
      rw [hg.address.lowT.is_tls, hl.is_tls, hsame]
    have hadr : (rebaseSymbol m.tls m.dist y).address = y.address + m.dist := rfl
    have hge := AddressedT.eq_got hg.address hgot
    have hfind : (if (rebaseSymbol m.tls m.dist y).address = rebaseZero m.dist got then
          (Tree.find (rebaseSymbol m.tls m.dist y).rels (a + m.dist)).filter (·.undefined) else none) =
        (if y.address = got then (Tree.find y.rels a).filter (·.undefined) else none).map (rebaseRel m.tls m.dist) := by
      rw [hadr]
      simp only [hge]
      split
      · show (Tree.find (y.rels.map (rebaseRel m.tls m.dist)) (a + m.dist)).filter (·.undefined) = _
        rw [find_shift (fun _ _ => rfl)]
        cases Tree.find y.rels a with
        | none => rfl
        | some r =>
          show (some (rebaseRel m.tls m.dist r)).filter (·.undefined) = Option.map (rebaseRel m.tls m.dist) ((some r).filter (·.undefined))
          rw [Option.filter_some, Option.filter_some]
          show (if r.undefined then _ else _) = _
          split <;> rfl
      · rfl
    have hund : ∀ rel, (if y.address = got then (Tree.find y.rels a).filter (·.undefined) else none) = some rel → ¬ RelativeType rel.type := by
      intro rel hrel ht
      split at hrel
      · obtain ⟨h1, h2⟩ := Option.filter_eq_some_iff.mp hrel
        have := (hg.rels rel (Tree.find_mem h1).1).relative ht
        rw [this.2] at h2
        cases h2
      · cases hrel
    unfold refBytes refDep
    dsimp only [Option.map_some]
    rw [if_pos hsame, if_pos hsame, if_pos hsame', if_pos hsame', hfind]
    have hsp : ((rebaseSymbol m.tls m.dist y).address = rebaseZero m.dist got ∧ a + m.dist - (rebaseSymbol m.tls m.dist y).address < 24) ↔
        (y.address = got ∧ a - y.address < 24) := by
      rw [hadr, hge, sub_shift]
    by_cases hc : y.address = got ∧ a - y.address < 24
    · rw [if_pos hc, if_pos hc, if_pos (hsp.mpr hc), if_pos (hsp.mpr hc), hadr, sub_shift]
      exact ⟨rfl, rfl⟩
    · rw [if_neg hc, if_neg hc, if_neg (fun h => hc (hsp.mp h)), if_neg (fun h => hc (hsp.mp h))]
      generalize (if y.address = got then (Tree.find y.rels a).filter (·.undefined) else none) = o at hund
      cases o with
      | some rel =>
        refine ⟨?_, rfl⟩
        show le64 rel.type ++ env.str_bytes rel.name ++ le64 (if RelativeType rel.type then rel.addend + m.dist else rel.addend) = _
        rw [if_neg (hund rel rfl)]
      | none =>
        simp only [Option.map_none]
        rw [show (rebaseSymbol m.tls m.dist y).bind = y.bind from rfl, hadr, sub_shift]
        by_cases hb : y.bind = .global
        · simp only [if_pos hb]; exact ⟨rfl, rfl⟩
        · simp only [if_neg hb]; exact ⟨rfl, rfl⟩

theorem ExtGood.modify {b : Addr} {f : Symbol → Symbol} (h : ExtGood m t0 t) (hf : ∀ s ∈ t, core (f s) = core s)
    (hrefs : ∀ s ∈ t, ∀ a ∈ (f s).refs, GoodRef m.tls m.dist a ∧ AnchoredAt m t0 a) (hrels : ∀ s, (f s).rels = s.rels) :
    ExtGood m t0 (Tree.modify t b f) := by
  have hmem : ∀ s ∈ Tree.modify t b f, s ∈ t ∨ ∃ y ∈ t, s = f y := by
    intro s hs
    unfold Tree.modify at hs
    obtain ⟨y, hy, rfl⟩ := List.mem_map.mp hs
    split
    · exact Or.inr ⟨y, hy, rfl⟩
    · exact Or.inl hy
  refine ⟨fun s hs => ?_, fun s hs => ?_, fun s hs => ?_, ?_⟩
  · rcases hmem s hs with hs | ⟨y, hy, rfl⟩
    · exact h.good s hs
    · have g := h.good y hy
      refine ⟨?_, fun a ha => (hrefs y hy a ha).1, by rw [hrels]; exact g.rels⟩
      have e : (f y).address = y.address := by have := congrArg Symbol.address (hf y hy); exact this
      rw [e]
      exact g.address
  · rcases hmem s hs with hs | ⟨y, hy, rfl⟩
    · exact h.refs s hs
    · exact fun a ha => (hrefs y hy a ha).2
  · rcases hmem s hs with hs | ⟨y, hy, rfl⟩
    · exact h.rels s hs
    · rw [hrels]; exact h.rels y hy
  · rw [← h.same]
    unfold Tree.modify
    rw [List.map_map]
    refine List.map_congr_left (fun z hz => ?_)
    rw [Function.comp_apply]
    split
    · exact hf z hz
    · rfl

theorem addDep_rebase (a : Addr) (z : Symbol) :
    rebaseSymbol m.tls m.dist (addDep a z) = addDep (a + m.dist) (rebaseSymbol m.tls m.dist z) := by
  unfold rebaseSymbol addDep
  dsimp only
  rw [hset_add_map (g := (· + m.dist)) (fun _ _ e => add_inj_iff.mp e)]

def rebaseExtRef (m : Rebase) (acc : SymTree × List (BitVec 8)) : SymTree × List (BitVec 8) :=
  (acc.1.map (rebaseSymbol m.tls m.dist), acc.2)

theorem extRefs_rebase (hgot : ZeroOr m.dist got) {a : Addr} (refs : List Addr)
    (hr : ∀ x ∈ refs, GoodRef m.tls m.dist x ∧ AnchoredAt m t0 x) {acc : SymTree × List (BitVec 8)} (hacc : ExtGood m t0 acc.1) :
    (refs.map (rebaseRef m.tls m.dist)).foldl (extRefStep (rebaseEnv m.dist env) (rebaseZero m.dist got) (a + m.dist)) (rebaseExtRef m acc) =
      rebaseExtRef m (refs.foldl (extRefStep env got a) acc) ∧ ExtGood m t0 (refs.foldl (extRefStep env got a) acc).1 := by
  induction refs generalizing acc with
  | nil => exact ⟨rfl, hacc⟩
  | cons x refs ih =>
    obtain ⟨hx1, hx2⟩ := hr x List.mem_cons_self
    obtain ⟨e1, e2⟩ := ref_rebase (env := env) hgot hacc.good hx1 (hacc.anchored hx2)
    have ih' := fun {acc} h => ih (fun y hy => hr y (List.mem_cons_of_mem _ hy)) (acc := acc) h
    rw [List.map_cons, List.foldl_cons, List.foldl_cons]
    have step : extRefStep (rebaseEnv m.dist env) (rebaseZero m.dist got) (a + m.dist) (rebaseExtRef m acc) (rebaseRef m.tls m.dist x) =
        rebaseExtRef m (extRefStep env got a acc x) ∧ ExtGood m t0 (extRefStep env got a acc x).1 := by
      rw [extRefStep_eq, extRefStep_eq]
      dsimp only [rebaseExtRef]
      rw [e1, e2]
      cases refDep got (Tree.floor acc.1 x) x with
      | none => exact ⟨rfl, hacc⟩
      | some b =>
        dsimp only [Option.map_some]
        rw [modify_shift (g := rebaseSymbol m.tls m.dist) (f := addDep a) (fun _ _ => rfl) (fun y _ _ => addDep_rebase a y)]
        refine ⟨rfl, hacc.modify (fun _ _ => rfl) (fun s hs y hy => ⟨(hacc.good s hs).refs y hy, hacc.refs s hs y hy⟩) (fun _ => rfl)⟩
    rw [step.1]
    exact ih' step.2

/-! ### Symbols -/

theorem extStep_rebase (hgot : ZeroOr m.dist got) (ht : ExtGood m t0 t) (a : Addr) :
    Carries (List.map (rebaseSymbol m.tls m.dist)) (ExtGood m t0) (extStep env got t a)
      (extStep (rebaseEnv m.dist env) (rebaseZero m.dist got) (t.map (rebaseSymbol m.tls m.dist)) (a + m.dist)) := by
  unfold extStep
  rw [find_shift (g := rebaseSymbol m.tls m.dist) (fun _ _ => rfl)]
  cases hf : Tree.find t a with
  | none => exact Carries.error
  | some s =>
    have hs := (Tree.find_mem hf).1
    have g := ht.good s hs
    dsimp only [Option.map_some]
    have he : ((rebaseSymbol m.tls m.dist s).rels.isEmpty && (rebaseSymbol m.tls m.dist s).refs.isEmpty) = (s.rels.isEmpty && s.refs.isEmpty) := by
      unfold rebaseSymbol
      simp only [List.isEmpty_map]
    rw [he]
    refine Carries.ite Iff.rfl (fun _ => Carries.ok rfl ht) (fun _ => ?_)
    refine Carries.bind (extRels_rebase (Q := AnchoredAt m t0) g.address s.rels g.rels (ht.rels s hs) (acc := ([], s.refs))
      (fun x hx => ⟨g.refs x hx, ht.refs s hs x hx⟩)) (fun acc hacc => ?_)
    have ht1 : ExtGood m t0 (Tree.modify t a (fun z => { z with refs := acc.2 })) :=
      ht.modify (fun _ _ => rfl) (fun _ _ => hacc) (fun _ => rfl)
    have e1 : Tree.modify (t.map (rebaseSymbol m.tls m.dist)) (a + m.dist) (fun z => { z with refs := (rebaseExtRel m acc).2 }) =
        (Tree.modify t a (fun z => { z with refs := acc.2 })).map (rebaseSymbol m.tls m.dist) :=
      modify_shift (fun _ _ => rfl) (fun _ _ _ => rfl)
    rw [e1]
    obtain ⟨e2, h2⟩ := extRefs_rebase (env := env) hgot (a := s.address) acc.2 hacc (acc := (Tree.modify t a (fun z => { z with refs := acc.2 }), acc.1)) ht1
    refine Carries.ok ?_ ?_
    · rw [show ((Tree.modify t a (fun z => { z with refs := acc.2 })).map (rebaseSymbol m.tls m.dist), (rebaseExtRel m acc).1) =
        rebaseExtRef m (Tree.modify t a (fun z => { z with refs := acc.2 }), acc.1) from rfl,
        show (rebaseExtRel m acc).2 = acc.2.map (rebaseRef m.tls m.dist) from rfl,
        show (rebaseSymbol m.tls m.dist s).address = s.address + m.dist from rfl, e2]
      exact modify_shift (fun _ _ => rfl) (fun _ _ _ => rfl)
    · refine h2.modify (fun _ _ => rfl) (fun s hs y hy => ⟨(h2.good s hs).refs y hy, h2.refs s hs y hy⟩) (fun _ => rfl)

theorem mem_targetFold {rels : List Rel} {l : List Addr} {a : Addr} :
    a ∈ rels.foldl (fun acc rel => if rel.target = 0 then acc else HSet.add acc rel.target) l ↔
      a ∈ l ∨ ∃ r ∈ rels, r.target ≠ 0 ∧ r.target = a := by
  induction rels generalizing l with
  | nil => simp
  | cons r rels ih =>
    rw [List.foldl_cons, ih]
    by_cases hz : r.target = 0
    · rw [if_pos hz]; simp [hz]
    · rw [if_neg hz, mem_hset_add]
      simp only [List.mem_cons, exists_eq_or_imp, hz, ne_eq, not_false_eq_true, true_and]
      rw [or_assoc, eq_comm (a := a)]

/-- External identifiers of the moved file, provided that the references of the result are anchored. -/
theorem hashExternal_rebase {st r : AState} {secs : List ElfSec} (hsort : Tree.Sorted st.symbols) (hgot : ZeroOr m.dist st.global_offset_table)
    (hg : ∀ s ∈ st.symbols, GoodOut m.tls m.dist s) (h : hashExternal env st = .ok r) (ha : Anchored m r.symbols) :
    hashExternal (rebaseEnv m.dist env) (rebaseState m secs st) = .ok (rebaseState m secs r) := by
  have hc := hashExternal_closed hsort h
  have hanch : ∀ s ∈ st.symbols, ∀ a ∈ allRefs s, AnchoredAt m st.symbols a := by
    intro s hs a has
    rw [hc] at ha
    have := ha (extSym env st.global_offset_table st.symbols st.symbols s) (List.mem_map_of_mem hs) a (by
      unfold extSym
      dsimp only
      rw [if_pos (List.mem_map_of_mem hs)]
      exact has)
    rcases this with h | ⟨y, h1, h2⟩
    · exact Or.inl h
    · dsimp only at h1
      rw [floor_map (f := extSym env st.global_offset_table st.symbols st.symbols) (fun _ => rfl)] at h1
      obtain ⟨y0, h3, rfl⟩ := Option.map_eq_some_iff.mp h1
      exact Or.inr ⟨y0, h3, h2⟩
  have h0 : ExtGood m st.symbols st.symbols := by
    refine ⟨hg, fun s hs a ha => hanch s hs a (mem_targetFold.mpr (Or.inl ha)), fun s hs q hq hz => ?_, rfl⟩
    exact hanch s hs _ (mem_targetFold.mpr (Or.inr ⟨q, hq, hz, rfl⟩))
  have key : Carries (rebaseState m secs) (fun _ => True) (hashExternal env st) (hashExternal (rebaseEnv m.dist env) (rebaseState m secs st)) := by
    unfold hashExternal
    have hmap : (rebaseState m secs st).symbols.map (·.address) = (st.symbols.map (·.address)).map (· + m.dist) := by
      show (st.symbols.map (rebaseSymbol m.tls m.dist)).map (·.address) = _
      rw [List.map_map, List.map_map]
      rfl
    rw [hmap]
    refine Carries.bind (g := List.map (rebaseSymbol m.tls m.dist)) (P := ExtGood m st.symbols) ?_ (fun t _ => Carries.ok rfl trivial)
    exact Carries.foldlM (f := extStep env st.global_offset_table) (k := (· + m.dist)) (fun a _ t ht => extStep_rebase hgot ht a) h0
  exact (key r h).1

end Bean

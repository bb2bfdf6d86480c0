import Verif.Lemmas.Clear
import Verif.Model.Map
/-
Comparison and mapping of symbols whose relocations are cleared (C47).
-/
namespace Bean
open Bean.Spec

/-! Comparison -/

/-- A comparison that does not see the cleared parts. -/
def Blind (c : Cmp) : Prop := ∀ x y, c.hash (clearSym x) = c.hash x ∧ c.equal (clearSym x) (clearSym y) = c.equal x y

theorem same_clear (x y : Symbol) : (clearSym x).same (clearSym y) = x.same y := by
  unfold Symbol.same clearSym
  simp only [List.length_map]

theorem extCmp_blind (h : BitVec 64 → BitVec 32) : Blind (extCmp h) := fun x y => ⟨rfl, same_clear x y⟩

theorem intCmp_blind (h : BitVec 64 → BitVec 32) : Blind (intCmp h) := fun _ _ => ⟨rfl, rfl⟩

section
variable {c : Cmp} (hc : Blind c)
include hc

theorem symFind_clear (l : List Symbol) (s : Symbol) :
    SymHash.find c (l.map clearSym) (clearSym s) = (SymHash.find c l s).map clearSym := by
  unfold SymHash.find
  rw [List.find?_map]
  simp only [Function.comp_def, (hc _ s).1, (hc _ _).2]

theorem symContains_clear (l : List Symbol) (s : Symbol) :
    SymHash.contains c (l.map clearSym) (clearSym s) = SymHash.contains c l s := by
  unfold SymHash.contains
  rw [symFind_clear hc, Option.isSome_map]

theorem symInsert_clear (l : List Symbol) (s : Symbol) :
    SymHash.insert c (l.map clearSym) (clearSym s) = ((SymHash.insert c l s).1.map clearSym, (SymHash.insert c l s).2) := by
  unfold SymHash.insert
  rw [symContains_clear hc]
  split
  · rfl
  · simp

theorem ofTree_clear (t : SymTree) : SymHash.ofTree c (t.map clearSym) = (SymHash.ofTree c t).map clearSym := by
  unfold SymHash.ofTree
  exact (foldl_map_eq clearSym (List.map clearSym) (fun l s => by rw [symInsert_clear hc]) t []).symm

theorem dependencies_clear (symbols : SymTree) (n : Nat) (a : Addr) (r : List Symbol) :
    dependencies c (symbols.map clearSym) n a (r.map clearSym) = (dependencies c symbols n a r).map clearSym := by
  induction n generalizing a r with
  | zero => rfl
  | succ n ih =>
    unfold dependencies
    rw [Tree.ceil_map clearSym_key]
    cases Tree.ceil symbols a with
    | none => rfl
    | some sym =>
      simp only [Option.map_some, symInsert_clear hc]
      refine Eq.symm (ite_map (List.map clearSym) Iff.rfl ?_ rfl)
      refine ite_map (List.map clearSym) Iff.rfl ?_ rfl
      have h := foldl_map_eq (f := fun r d => dependencies c symbols n d r)
        (f' := fun r d => dependencies c (symbols.map clearSym) n d r) id (List.map clearSym)
        (fun r d => (ih d r).symm) sym.deps (SymHash.insert c r sym).1
      rw [List.map_id] at h
      exact h

theorem diffStep_clear (symbols : SymTree) (other : List Symbol) (deps : Bool) (r : List Symbol) (s : Symbol) :
    (diffStep c symbols other deps none r s).map clearSym =
      diffStep c (symbols.map clearSym) (other.map clearSym) deps none (r.map clearSym) (clearSym s) := by
  unfold diffStep
  simp only [symContains_clear hc, symInsert_clear hc, List.length_map]
  refine ite_map (List.map clearSym) Iff.rfl rfl ?_
  refine ite_map (List.map clearSym) Iff.rfl ?_ rfl
  refine ite_map (List.map clearSym) Iff.rfl ?_ rfl
  have h := foldl_map_eq (f := fun r d => dependencies c symbols symbols.length d r)
    (f' := fun r d => dependencies c (symbols.map clearSym) symbols.length d r) id (List.map clearSym)
    (fun r d => (dependencies_clear hc symbols _ d r).symm) s.deps (SymHash.insert c r s).1
  rw [List.map_id] at h
  exact h

theorem diffT_clear (this other : SymTree) (deps : Bool) :
    diffT c (this.map clearSym) (SymHash.ofTree c (other.map clearSym)) deps none =
      (diffT c this (SymHash.ofTree c other) deps none).map clearSym := by
  unfold diffT
  rw [ofTree_clear hc]
  exact (foldl_map_eq clearSym (List.map clearSym) (fun r s => diffStep_clear hc this _ deps r s) this []).symm

end

theorem diff_clear (b : Build) (h : BitVec 64 → BitVec 32) (this other : SymTree) (deps : Bool) (mode : Nat) :
    diff b h (this.map clearSym) (other.map clearSym) deps mode = (diff b h this other deps mode).map (List.map clearSym) := by
  have he := diffT_clear (extCmp_blind h) this other deps
  have hi := diffT_clear (intCmp_blind h) this other deps
  have hk : ∀ (f f' : Symbol → Bool) (l : List Symbol), (∀ s, f' (clearSym s) = f s) →
      (l.map clearSym).foldl (fun r s => if f' s then (Tree.insert r s).1 else r) [] =
        (l.foldl (fun r s => if f s then (Tree.insert r s).1 else r) []).map clearSym := by
    intro f f' l hf
    refine Eq.symm (foldl_map_eq (f := fun r s => if f s then (Tree.insert r s).1 else r)
      (f' := fun r s => if f' s then (Tree.insert r s).1 else r) clearSym (List.map clearSym) (fun r s => ?_) l [])
    refine ite_map (List.map clearSym) (by rw [hf]) ?_ rfl
    rw [Tree.insert_map clearSym_key]
  unfold diff diff_extended diff_internal
  rw [he, hi]
  split
  · rw [Tree.ofList_map clearSym_key]; rfl
  · simp only [ofTree_clear (intCmp_blind h)]
    refine congrArg Except.ok (hk _ _ _ fun s => ?_)
    rw [symContains_clear (intCmp_blind h)]
    rfl
  · simp only [ofTree_clear (intCmp_blind h)]
    refine congrArg Except.ok (hk _ _ _ fun s => ?_)
    rw [symContains_clear (intCmp_blind h)]
    rfl
  · rw [Tree.ofList_map clearSym_key]; rfl
  · cases b <;> rfl

/-! Mapping -/

theorem insertMapping_clear (this other : SymTree) (st : MapState) (a b : Addr) :
    insertMapping (this.map clearSym) (other.map clearSym) st a b = insertMapping this other st a b := by
  unfold insertMapping
  rw [Tree.floor_map clearSym_key, Tree.floor_map clearSym_key]
  cases Tree.find st.mapping a with
  | some m => rfl
  | none =>
    cases Tree.floor this a with
    | none => rfl
    | some x =>
      cases Tree.floor other b with
      | none => rfl
      | some y => rfl

theorem processRelocations_clear (this other : SymTree) (st : MapState) (x y : Symbol) :
    processRelocations (this.map clearSym) (other.map clearSym) st (clearSym x) (clearSym y) =
      processRelocations this other st x y := by
  unfold processRelocations
  have e : ∀ s : Symbol, (clearSym s).rels = s.rels.map clearRel := fun _ => rfl
  simp only [e, List.isEmpty_map, List.length_map, List.zip_map, List.foldl_map, insertMapping_clear]
  have hr : ∀ p : Rel × Rel, relsAgree (clearSym x) (clearSym y) (Prod.map clearRel clearRel p).1 (Prod.map clearRel clearRel p).2 =
      relsAgree x y p.1 p.2 := by
    intro p
    unfold relsAgree
    obtain ⟨h1, h2, h3, h4, h5, h6⟩ := clearRel_ext p.1
    obtain ⟨k1, k2, k3, k4, k5, k6⟩ := clearRel_ext p.2
    simp only [Prod.map, h1, h2, h4, h6, k1, k2, k4, k6]
    rfl
  simp only [hr]
  simp only [Prod.map, (clearRel_ext _).2.2.2.2.1]

def clearScan (sc : Scan) : Scan where
  entries := sc.entries
  other_entry := sc.other_entry.map clearSym
  vars := sc.vars.map (fun p => (p.1, clearSym p.2))

theorem lookup_clear {κ : Type} [DecidableEq κ] (m : List (κ × Symbol)) (k : κ) :
    (m.map (fun p => (p.1, clearSym p.2))).lookup k = (m.lookup k).map clearSym := by
  induction m with
  | nil => rfl
  | cons p m ih =>
    obtain ⟨a, s⟩ := p
    simp only [List.map_cons, List.lookup_cons, ih]
    cases k == a <;> rfl

theorem hmapInsert_clear {κ : Type} [DecidableEq κ] (m : List (κ × Symbol)) (k : κ) (s : Symbol) :
    HMap.insert (m.map (fun p => (p.1, clearSym p.2))) k (clearSym s) =
      (HMap.insert m k s).map (fun p => (p.1, clearSym p.2)) := by
  unfold HMap.insert
  rw [lookup_clear]
  cases m.lookup k with
  | none => simp
  | some x => rfl

theorem scanOther_clear (b : Build) (sc : Scan) (s : Symbol) :
    (scanOther b sc s).map clearScan = scanOther b (clearScan sc) (clearSym s) := by
  unfold scanOther
  refine ite_map (Except.map clearScan) Iff.rfl rfl ?_
  refine ite_map (Except.map clearScan) Iff.rfl ?_ rfl
  refine map_bind_same fun _ => ?_
  refine congrArg Except.ok ?_
  have := hmapInsert_clear sc.vars (varKey s) s
  unfold clearScan
  simp only [← this]
  rfl

theorem matchEntryVars_clear (b : Build) (this other : SymTree) (sc : Scan) (es : EntryState) (s : Symbol) :
    matchEntryVars b (this.map clearSym) (other.map clearSym) (clearScan sc) es (clearSym s) =
      matchEntryVars b this other sc es s := by
  unfold matchEntryVars
  simp only [insertMapping_clear]
  have e1 : (if (clearSym s).has SYMBOL_ENTRY then (clearScan sc).other_entry else none) =
      (if s.has SYMBOL_ENTRY then sc.other_entry else none).map clearSym := by
    change (if s.has SYMBOL_ENTRY then sc.other_entry.map clearSym else none) = _
    split <;> rfl
  have e2 : HMap.find (clearScan sc).vars (varKey (clearSym s)) = (HMap.find sc.vars (varKey s)).map clearSym :=
    lookup_clear sc.vars (varKey s)
  rw [e1, e2]
  cases (if s.has SYMBOL_ENTRY then sc.other_entry else none) with
  | some o => rfl
  | none =>
    cases HMap.find sc.vars (varKey s) with
    | some v => rfl
    | none => rfl

theorem nameIndex_clear (other : SymTree) :
    nameIndex (other.map clearSym) = (nameIndex other).map (fun p => (p.1, clearSym p.2)) := by
  unfold nameIndex
  refine Eq.symm (foldl_map_eq clearSym (List.map (fun p : Option String × Symbol => (p.1, clearSym p.2))) (fun m s => ?_) other [])
  refine ite_map (List.map (fun p : Option String × Symbol => (p.1, clearSym p.2))) Iff.rfl ?_ rfl
  exact (hmapInsert_clear m s.name s).symm

theorem matchName_clear (this other : SymTree) (st : MapState) (s : Symbol) :
    matchName (this.map clearSym) (other.map clearSym) (nameIndex (other.map clearSym)) st (clearSym s) =
      matchName this other (nameIndex other) st s := by
  unfold matchName
  have e : HMap.find (nameIndex (other.map clearSym)) (clearSym s).name = (HMap.find (nameIndex other) s.name).map clearSym := by
    rw [nameIndex_clear]
    exact lookup_clear _ _
  rw [e]
  simp only [insertMapping_clear]
  cases HMap.find (nameIndex other) s.name with
  | none => rfl
  | some o => rfl

theorem matchFull_clear (h : BitVec 64 → BitVec 32) (this other : SymTree) (st : MapState) (s : Symbol) :
    matchFull h (this.map clearSym) (other.map clearSym) st (clearSym s) = matchFull h this other st s := by
  unfold matchFull
  rw [ofTree_clear (extCmp_blind h), symFind_clear (extCmp_blind h)]
  cases SymHash.find (extCmp h) (SymHash.ofTree (extCmp h) other) s with
  | none => rfl
  | some o =>
    simp only [Option.map_some, processRelocations_clear, insertMapping_clear]
    rfl

theorem matchInternal_clear (h : BitVec 64 → BitVec 32) (this other : SymTree) (skip : List (BitVec 64)) (st : MapState)
    (s : Symbol) : matchInternal h (this.map clearSym) (other.map clearSym) skip st (clearSym s) =
      matchInternal h this other skip st s := by
  unfold matchInternal
  rw [ofTree_clear (intCmp_blind h), symFind_clear (intCmp_blind h)]
  cases SymHash.find (intCmp h) (SymHash.ofTree (intCmp h) other) s with
  | none => rfl
  | some o =>
    simp only [Option.map_some, processRelocations_clear]
    rfl

theorem matchLocal_none (this other : SymTree) (skip : List (BitVec 64)) (st : MapState) (s : Symbol) (hs : s.offset_ids = []) :
    matchLocal this other skip st s = st := by
  unfold matchLocal
  split
  · rfl
  · cases Tree.find st.mapping s.address with
    | none => rfl
    | some m =>
      simp only
      cases Tree.find other m.2 with
      | none => rfl
      | some o =>
        simp only
        have h : ∀ st rel, matchLocalRel this other s o st rel = st := by
          intro st rel
          unfold matchLocalRel
          rw [hs]
          split
          · rfl
          · rfl
        generalize s.rels = l
        induction l generalizing st with
        | nil => rfl
        | cons r l ih => rw [List.foldl_cons, h, ih]

theorem foldl_same {α σ : Type} {f : σ → α → σ} {l : List α} (h : ∀ s, ∀ a ∈ l, f s a = s) (s : σ) : l.foldl f s = s := by
  induction l generalizing s with
  | nil => rfl
  | cons a l ih => rw [List.foldl_cons, h s a List.mem_cons_self, ih fun s x hx => h s x (List.mem_cons_of_mem _ hx)]

theorem map_clear (b : Build) (h : BitVec 64 → BitVec 32) (this other : SymTree) (names : Bool)
    (hids : ∀ s ∈ this, s.offset_ids = []) :
    map b h (this.map clearSym) (other.map clearSym) names = map b h this other names := by
  unfold map mapGather
  have h1 : (other.map clearSym).foldlM (scanOther b) {} = (other.foldlM (scanOther b) {}).map clearScan :=
    (foldlM_map_eq clearSym clearScan (fun sc s => scanOther_clear b sc s) other {}).symm
  have h2 : ∀ sc, (this.map clearSym).foldlM (matchEntryVars b (this.map clearSym) (other.map clearSym) (clearScan sc)) {} =
      this.foldlM (matchEntryVars b this other sc) {} := by
    intro sc
    rw [List.foldlM_map]
    simp only [matchEntryVars_clear]
  have h3 : ∀ st, (this.map clearSym).foldl (matchName (this.map clearSym) (other.map clearSym) (nameIndex (other.map clearSym))) st =
      this.foldl (matchName this other (nameIndex other)) st := by
    intro st
    rw [List.foldl_map]
    simp only [matchName_clear]
  have h4 : ∀ st, (this.map clearSym).foldl (matchFull h (this.map clearSym) (other.map clearSym)) st =
      this.foldl (matchFull h this other) st := by
    intro st
    rw [List.foldl_map]
    simp only [matchFull_clear]
  have h5 : ∀ skip st, (this.map clearSym).foldl (matchInternal h (this.map clearSym) (other.map clearSym) skip) st =
      this.foldl (matchInternal h this other skip) st := by
    intro skip st
    rw [List.foldl_map]
    simp only [matchInternal_clear]
  have h6 : ∀ skip st, this.foldl (matchLocal this other skip) st = st :=
    fun skip st => foldl_same (fun st s hs => matchLocal_none this other skip st s (hids s hs)) st
  have h7 : ∀ skip st, (this.map clearSym).foldl (matchLocal (this.map clearSym) (other.map clearSym) skip) st = st := by
    intro skip st
    refine foldl_same (fun st s hs => matchLocal_none _ _ skip st s ?_) st
    obtain ⟨x, hx, rfl⟩ := List.mem_map.mp hs
    exact hids x hx
  simp only [h1, h3, h4, h5, h6, h7]
  cases other.foldlM (scanOther b) {} with
  | error e => rfl
  | ok sc =>
    change (massert b (decide (sc.entries ≤ 1)) >>= fun _ =>
      (this.map clearSym).foldlM (matchEntryVars b (this.map clearSym) (other.map clearSym) (clearScan sc)) {} >>= _) >>= _ = _
    rw [h2]
    rfl

end Bean

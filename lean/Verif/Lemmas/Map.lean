import Verif.Model.Map
import Verif.Spec.Map
import Verif.Lemmas.Diff
import Verif.Props.Patchable
/-
Lemmas about the address mapping.
-/
namespace Bean
open Spec

/-! ### Generic folds -/

theorem foldl_ind {σ α : Type} (P : σ → Prop) (f : σ → α → σ) (l : List α) (s : σ) (h0 : P s)
    (hs : ∀ s, ∀ x ∈ l, P s → P (f s x)) : P (l.foldl f s) := by
  induction l generalizing s with
  | nil => exact h0
  | cons x l ih =>
    exact ih _ (hs s x List.mem_cons_self h0) (fun s y hy => hs s y (List.mem_cons_of_mem _ hy))

theorem foldlM_ind {σ α : Type} (P : σ → Prop) (f : σ → α → M σ) (l : List α) (s r : σ) (h : l.foldlM f s = .ok r)
    (h0 : P s) (hs : ∀ s, ∀ x ∈ l, ∀ s', f s x = .ok s' → P s → P s') : P r := by
  induction l generalizing s with
  | nil => simp [List.foldlM, pure, Except.pure] at h; exact h ▸ h0
  | cons x l ih =>
    rw [List.foldlM_cons] at h
    cases hx : f s x with
    | error e => rw [hx] at h; simp [bind, Except.bind] at h
    | ok s' =>
      rw [hx] at h
      exact ih s' h (hs s x List.mem_cons_self s' hx h0) (fun s y hy => hs s y (List.mem_cons_of_mem _ hy))

/-- fold with knowledge of the processed prefix -/
theorem foldlM_ind_prefix {σ α : Type} (P : List α → σ → Prop) (f : σ → α → M σ) (l : List α) (s r : σ)
    (h : l.foldlM f s = .ok r) (h0 : P [] s)
    (hs : ∀ pre x post s s', l = pre ++ x :: post → f s x = .ok s' → P pre s → P (pre ++ [x]) s') : P l r := by
  have gen : ∀ (rest pre : List α) (s : σ), pre ++ rest = l → rest.foldlM f s = .ok r → P pre s → P l r := by
    intro rest
    induction rest with
    | nil =>
      intro pre s he hf hp
      simp [List.foldlM, pure, Except.pure] at hf he
      exact he ▸ hf ▸ hp
    | cons x rest ih =>
      intro pre s he hf hp
      rw [List.foldlM_cons] at hf
      cases hx : f s x with
      | error e => rw [hx] at hf; simp [bind, Except.bind] at hf
      | ok s' =>
        rw [hx] at hf
        exact ih (pre ++ [x]) s' (by simpa using he) hf (hs pre x rest s s' he.symm hx hp)
  exact gen l [] s (by simp) h h0

theorem foldlM_ok {σ α : Type} (P : σ → Prop) (f : σ → α → M σ) (l : List α) (s : σ) (h0 : P s)
    (hs : ∀ s, ∀ x ∈ l, P s → ∃ s', f s x = .ok s' ∧ P s') : ∃ r, l.foldlM f s = .ok r ∧ P r := by
  induction l generalizing s with
  | nil => exact ⟨s, rfl, h0⟩
  | cons x l ih =>
    obtain ⟨s', he, hp⟩ := hs s x List.mem_cons_self h0
    rw [List.foldlM_cons, he]
    exact ih s' hp (fun s y hy => hs s y (List.mem_cons_of_mem _ hy))

/-- something that is established by one element and kept by all others -/
theorem foldl_establish {σ α : Type} (P Q : σ → Prop) (f : σ → α → σ) (l : List α) (s : σ) (x : α) (hx : x ∈ l)
    (h0 : P s) (hP : ∀ s, ∀ y ∈ l, P s → P (f s y)) (hQ : ∀ s, ∀ y ∈ l, P s → Q s → Q (f s y))
    (hE : ∀ s, P s → Q (f s x)) : Q (l.foldl f s) := by
  induction l generalizing s with
  | nil => simp at hx
  | cons y l ih =>
    rw [List.foldl_cons]
    have hP' : P (f s y) := hP s y List.mem_cons_self h0
    rcases List.mem_cons.mp hx with rfl | hx
    · exact (foldl_ind (fun s => P s ∧ Q s) f l _ ⟨hP', hE s h0⟩
        (fun s z hz hpq => ⟨hP s z (List.mem_cons_of_mem _ hz) hpq.1, hQ s z (List.mem_cons_of_mem _ hz) hpq.1 hpq.2⟩)).2
    · exact ih _ hx hP' (fun s z hz => hP s z (List.mem_cons_of_mem _ hz))
        (fun s z hz => hQ s z (List.mem_cons_of_mem _ hz))

theorem massert_ok {b : Build} {c : Bool} (h : c = true) : massert b c = .ok () := by
  subst h; cases b <;> rfl

theorem massert_bind_ok {α : Type} {b : Build} {c : Bool} {f : Unit → M α} {r : α}
    (h : (massert b c >>= f) = .ok r) : (b = .debug → c = true) ∧ f () = .ok r := by
  cases b <;> cases c <;> simp [massert, bind, Except.bind] at h ⊢ <;> exact h

namespace HMap
variable {κ ν : Type} [DecidableEq κ]

theorem lookup_append_single (m : List (κ × ν)) (k : κ) (v : ν) (k' : κ) :
    (m ++ [(k, v)]).lookup k' = (m.lookup k').or (if k' = k then some v else none) := by
  induction m with
  | nil =>
    by_cases h : k' = k
    · subst h; simp [List.lookup]
    · have : (k' == k) = false := by simpa using h
      simp [List.lookup, this, h]
  | cons e m ih =>
    obtain ⟨a, b⟩ := e
    simp only [List.cons_append, List.lookup_cons]
    cases h : k' == a
    · simpa using ih
    · simp

theorem find_insert (m : List (κ × ν)) (k : κ) (v : ν) (k' : κ) :
    find (insert m k v) k' = (find m k').or (if k' = k then some v else none) := by
  unfold find insert
  cases h : m.lookup k with
  | none => exact lookup_append_single m k v k'
  | some w =>
    simp only
    by_cases hk : k' = k
    · subst hk; simp [h]
    · simp [hk]

theorem find_insert_eq_some {m : List (κ × ν)} {k : κ} {v : ν} {k' : κ} {w : ν}
    (h : find (insert m k v) k' = some w) : find m k' = some w ∨ (k' = k ∧ w = v) := by
  rw [find_insert] at h
  cases hm : find m k' with
  | some u => rw [hm] at h; simp at h; exact .inl (by rw [h])
  | none => rw [hm] at h; simp at h; exact .inr ⟨h.1, h.2.symm⟩

end HMap

/-! ### Flag tests -/

theorem has_entry_iff (s : Symbol) : s.has SYMBOL_ENTRY = true ↔ IsEntry s := by
  unfold Symbol.has IsEntry
  rw [bne_iff_ne, ne_eq]
  change ¬ (s.flags &&& SYMBOL_ENTRY = 0#16) ↔ _
  rw [Props.and_eq_zero_iff]
  have hb : ∀ i < 16, SYMBOL_ENTRY.getLsbD i = true ↔ i = 0 := by decide
  constructor
  · intro h
    cases hf : s.flags.getLsbD 0 with
    | true => rfl
    | false => exact (h fun i hi hc => by rw [(hb i hi).mp hc]; exact hf).elim
  · intro h hall
    have := hall 0 (by omega) (by decide)
    rw [h] at this; simp at this

theorem and_single_ne_zero (x : BitVec 8) (k : Nat) (hk : k < 8) (c : BitVec 8)
    (hc : ∀ i < 8, c.getLsbD i = true ↔ i = k) : ((x &&& c) != 0) = true ↔ x.getLsbD k = true := by
  rw [bne_iff_ne, ne_eq]
  constructor
  · intro h
    cases hf : x.getLsbD k with
    | true => rfl
    | false =>
      exfalso; apply h
      apply BitVec.eq_of_getLsbD_eq
      intro i hi
      rw [BitVec.getLsbD_and]
      cases hci : c.getLsbD i with
      | false => simp
      | true => rw [(hc i hi).mp hci, hf]; simp
  · intro h e
    have := congrArg (fun v => v.getLsbD k) e
    simp only [BitVec.getLsbD_and, h, (hc k hk).mpr rfl] at this
    simp at this

theorem branch_iff (x : BitVec 8) : ((x &&& ACCESSFLAG_BRANCH) != 0) = true ↔ x.getLsbD 2 = true :=
  and_single_ne_zero x 2 (by omega) _ (by decide)
theorem local_iff (x : BitVec 8) : ((x &&& ACCESSFLAG_LOCAL) != 0) = true ↔ x.getLsbD 4 = true :=
  and_single_ne_zero x 4 (by omega) _ (by decide)

/-! ### `insert_mapping` -/

section
variable {this other : SymTree}

theorem closest_of_floor {t : SymTree} (ht : Tree.Sorted t) {a : Addr} {s : Symbol} :
    Tree.floor t a = some s ↔ Closest t a s := Tree.floor_eq_some_iff ht

theorem compatible_iff (hthis : Tree.Sorted this) (hother : Tree.Sorted other) (f t : Addr) :
    Compatible this other f t ↔ ∃ x y, Tree.floor this f = some x ∧ Tree.floor other t = some y
      ∧ x.sec.same y.sec = true ∧ (x.type != .unknown && y.type != .unknown && x.type != y.type) = false := by
  have ht : ∀ x y : Symbol, (x.type != .unknown && y.type != .unknown && x.type != y.type) = false
      ↔ TypesCompatible x y := by
    intro x y
    unfold TypesCompatible
    cases x.type <;> cases y.type <;> decide
  constructor
  · rintro ⟨x, y, hx, hy, hs, hc⟩
    exact ⟨x, y, (closest_of_floor hthis).mpr hx, (closest_of_floor hother).mpr hy, (Section.same_iff _ _).mpr hs,
      (ht x y).mpr hc⟩
  · rintro ⟨x, y, hx, hy, hs, hc⟩
    exact ⟨x, y, (closest_of_floor hthis).mp hx, (closest_of_floor hother).mp hy, (Section.same_iff _ _).mp hs,
      (ht x y).mp hc⟩

/-- All cases of `insert_mapping`. -/
theorem insertMapping_cases (hthis : Tree.Sorted this) (hother : Tree.Sorted other) (st : MapState) (f t : Addr) :
    (∃ m, Tree.find st.mapping f = some m ∧ m.2 = t ∧ insertMapping this other st f t = st)
    ∨ (∃ m, Tree.find st.mapping f = some m ∧ m.2 ≠ t
        ∧ insertMapping this other st f t = { st with skip := HSet.add st.skip t })
    ∨ (Tree.find st.mapping f = none ∧ ¬ Compatible this other f t ∧ insertMapping this other st f t = st)
    ∨ (Tree.find st.mapping f = none ∧ Compatible this other f t
        ∧ insertMapping this other st f t = { st with mapping := (Tree.insert st.mapping (f, t)).1 }) := by
  unfold insertMapping
  cases hf : Tree.find st.mapping f with
  | some m =>
    by_cases h : m.2 = t
    · exact .inl ⟨m, rfl, h, by simp [h]⟩
    · exact .inr (.inl ⟨m, rfl, h, by simp [h]⟩)
  | none =>
    refine .inr (.inr ?_)
    by_cases hc : Compatible this other f t
    · refine .inr ⟨rfl, hc, ?_⟩
      obtain ⟨x, y, hx, hy, hs, ht⟩ := (compatible_iff hthis hother f t).mp hc
      simp [hx, hy, hs, ht]
    · refine .inl ⟨rfl, hc, ?_⟩
      rw [compatible_iff hthis hother] at hc
      cases hx : Tree.floor this f with
      | none => rfl
      | some x =>
        cases hy : Tree.floor other t with
        | none => rfl
        | some y =>
          simp only
          split
          · rfl
          · split
            · rfl
            · rename_i h1 h2
              exact (hc ⟨x, y, hx, hy, by simpa using h1, by simpa using h2⟩).elim

end

/-! ### Structure of a run -/

theorem mapGather_ok {b : Build} {h : BitVec 64 → BitVec 32} {this other : SymTree} {names : Bool} {st : MapState}
    (hr : mapGather b h this other names = .ok st) :
    ∃ sc es, other.foldlM (scanOther b) {} = .ok sc ∧ (b = .debug → sc.entries ≤ 1)
      ∧ this.foldlM (matchEntryVars b this other sc) {} = .ok es
      ∧ st = this.foldl (matchLocal this other es.skip_internal_id)
          (this.foldl (matchInternal h this other es.skip_internal_id)
            (this.foldl (matchFull h this other)
              (if names = true then this.foldl (matchName this other (nameIndex other)) es.st else es.st))) := by
  unfold mapGather at hr
  cases hsc : List.foldlM (scanOther b) {} other with
  | error e => rw [hsc] at hr; simp [bind, Except.bind] at hr
  | ok sc =>
    rw [hsc] at hr
    change (massert b _ >>= _) = _ at hr
    obtain ⟨h1, hr⟩ := massert_bind_ok hr
    cases hes : List.foldlM (matchEntryVars b this other sc) {} this with
    | error e => rw [hes] at hr; simp [bind, Except.bind] at hr
    | ok es =>
      rw [hes] at hr
      simp only [bind, Except.bind, pure, Except.pure, Except.ok.injEq] at hr
      exact ⟨sc, es, rfl, fun hb => by simpa using h1 hb, hes, hr.symm⟩

theorem map_ok {b : Build} {h : BitVec 64 → BitVec 32} {this other : SymTree} {names : Bool}
    {m : List (Addr × Addr)} (hr : map b h this other names = .ok m) :
    ∃ st, mapGather b h this other names = .ok st ∧ m = cleanup st := by
  unfold map at hr
  cases hg : mapGather b h this other names with
  | error e => rw [hg] at hr; simp [bind, Except.bind] at hr
  | ok st =>
    rw [hg] at hr
    simp only [bind, Except.bind, pure, Except.pure, Except.ok.injEq] at hr
    exact ⟨st, rfl, hr.symm⟩

/-- What the scan of the other binary finds. -/
structure ScanSpec (seen : List Symbol) (sc : Scan) : Prop where
  entry : ∀ y, sc.other_entry = some y → y ∈ seen ∧ IsEntry y
  count : sc.entries = (seen.filter (fun s => s.has SYMBOL_ENTRY)).length
  entry_some : (∃ y ∈ seen, IsEntry y) → sc.other_entry ≠ none
  var : ∀ k y, HMap.find sc.vars k = some y → y ∈ seen ∧ y.sec.writeable = true ∧ varKey y = k ∧ ¬ IsEntry y
  var_some : ∀ y ∈ seen, y.sec.writeable = true → ¬ IsEntry y → HMap.find sc.vars (varKey y) ≠ none

theorem scan_spec {b : Build} {other : SymTree} {sc : Scan} (h : other.foldlM (scanOther b) {} = .ok sc) :
    ScanSpec other sc := by
  refine foldlM_ind_prefix ScanSpec _ other {} sc h ⟨by simp, by simp, by simp, by simp [HMap.find], by simp⟩ ?_
  intro pre x post s s' _ hf hp
  unfold scanOther at hf
  split at hf
  · rename_i he
    have hcnt : ((pre ++ [x]).filter (fun s => s.has SYMBOL_ENTRY)).length
        = (pre.filter (fun s => s.has SYMBOL_ENTRY)).length + 1 := by simp [List.filter_append, he]
    rw [has_entry_iff] at he
    cases hf
    refine ⟨?_, by rw [hcnt, ← hp.count], by simp, ?_, ?_⟩
    · intro y hy; cases hy; exact ⟨by simp, he⟩
    · intro k y hy; obtain ⟨a, b⟩ := hp.var k y hy; exact ⟨List.mem_append_left _ a, b⟩
    · intro y hy hw hn
      rcases List.mem_append.mp hy with hy | hy
      · exact hp.var_some y hy hw hn
      · simp at hy; subst hy; exact (hn he).elim
  · rename_i he
    have hcnt : ((pre ++ [x]).filter (fun s => s.has SYMBOL_ENTRY)).length
        = (pre.filter (fun s => s.has SYMBOL_ENTRY)).length := by simp [List.filter_append, he]
    rw [has_entry_iff] at he
    split at hf
    · rename_i hw
      obtain ⟨-, hf⟩ := massert_bind_ok hf
      simp only [pure, Except.pure, Except.ok.injEq] at hf
      subst hf
      refine ⟨?_, by rw [hcnt, ← hp.count], ?_, ?_, ?_⟩
      · intro y hy; obtain ⟨a, b⟩ := hp.entry y hy; exact ⟨List.mem_append_left _ a, b⟩
      · rintro ⟨y, hy, hye⟩
        rcases List.mem_append.mp hy with hy | hy
        · exact hp.entry_some ⟨y, hy, hye⟩
        · simp at hy; subst hy; exact (he hye).elim
      · intro k y hy
        rcases HMap.find_insert_eq_some hy with hy | ⟨rfl, rfl⟩
        · obtain ⟨a, b⟩ := hp.var k y hy; exact ⟨List.mem_append_left _ a, b⟩
        · exact ⟨by simp, hw, rfl, he⟩
      · intro y hy hyw hn
        simp only [HMap.find_insert]
        rcases List.mem_append.mp hy with hy | hy
        · have := hp.var_some y hy hyw hn
          cases hc : HMap.find s.vars (varKey y) with
          | none => exact (this hc).elim
          | some w => simp
        · simp at hy; subst hy; simp
    · rename_i hw
      cases hf
      refine ⟨?_, by rw [hcnt, ← hp.count], ?_, ?_, ?_⟩
      · intro y hy; obtain ⟨a, b⟩ := hp.entry y hy; exact ⟨List.mem_append_left _ a, b⟩
      · rintro ⟨y, hy, hye⟩
        rcases List.mem_append.mp hy with hy | hy
        · exact hp.entry_some ⟨y, hy, hye⟩
        · simp at hy; subst hy; exact (he hye).elim
      · intro k y hy; obtain ⟨a, b⟩ := hp.var k y hy; exact ⟨List.mem_append_left _ a, b⟩
      · intro y hy hyw hn
        rcases List.mem_append.mp hy with hy | hy
        · exact hp.var_some y hy hyw hn
        · simp at hy; subst hy; exact (hw hyw).elim

/-- What the name index finds. -/
theorem nameIndex_spec {other : SymTree} :
    (∀ k y, HMap.find (nameIndex other) k = some y → y ∈ other ∧ hasName y = true ∧ y.name = k)
    ∧ (∀ y ∈ other, hasName y = true → HMap.find (nameIndex other) y.name ≠ none) := by
  have gen : ∀ (rest pre : List Symbol) (m : List (Option String × Symbol)), pre ++ rest = other →
      ((∀ k y, HMap.find m k = some y → y ∈ other ∧ hasName y = true ∧ y.name = k)
        ∧ (∀ y ∈ pre, hasName y = true → HMap.find m y.name ≠ none)) →
      ((∀ k y, HMap.find (rest.foldl (fun m sym => if hasName sym then HMap.insert m sym.name sym else m) m) k = some y →
          y ∈ other ∧ hasName y = true ∧ y.name = k)
        ∧ (∀ y ∈ other, hasName y = true →
          HMap.find (rest.foldl (fun m sym => if hasName sym then HMap.insert m sym.name sym else m) m) y.name ≠ none)) := by
    intro rest
    induction rest with
    | nil => intro pre m he h; simp at he; subst he; exact h
    | cons x rest ih =>
      intro pre m he h
      refine ih (pre ++ [x]) _ (by simpa using he) ?_
      by_cases hx : hasName x = true
      · simp only [hx, if_true]
        refine ⟨?_, ?_⟩
        · intro k y hy
          rcases HMap.find_insert_eq_some hy with hy | ⟨rfl, rfl⟩
          · exact h.1 k y hy
          · exact ⟨by rw [← he]; simp, hx, rfl⟩
        · intro y hy hn
          rw [HMap.find_insert]
          rcases List.mem_append.mp hy with hy | hy
          · have := h.2 y hy hn
            cases hc : HMap.find m y.name with
            | none => exact (this hc).elim
            | some w => simp
          · simp at hy; subst hy; simp
      · simp only [hx]
        refine ⟨h.1, ?_⟩
        intro y hy hn
        rcases List.mem_append.mp hy with hy | hy
        · exact h.2 y hy hn
        · simp at hy; subst hy; exact (hx hn).elim
  exact gen other [] [] (by simp) ⟨by simp [HMap.find], by simp⟩

/-- What the first loop over this binary does, for an arbitrary invariant of the mapping. -/
theorem entryVars_spec {b : Build} {this other : SymTree} {sc : Scan} {es : EntryState}
    (h : this.foldlM (matchEntryVars b this other sc) {} = .ok es) (P : MapState → Prop) (h0 : P {})
    (hE : ∀ x ∈ this, ∀ y st, IsEntry x → sc.other_entry = some y → P st → P (insertMapping this other st x.address y.address))
    (hV : ∀ x ∈ this, ∀ y st, x.sec.writeable = true → (IsEntry x → sc.other_entry = none) →
      HMap.find sc.vars (varKey x) = some y →
      x.address % 0x1000 = y.address % 0x1000 → x.size = y.size → P st →
      P (insertMapping this other st x.address y.address)) :
    P es.st ∧ (∀ x ∈ this, ∀ y ∈ this, x ≠ y → x.id.internal = y.id.internal → x.id.internal ∈ es.skip_internal_id)
      ∧ (∀ i ∈ es.skip_internal_id, ∃ x ∈ this, x.id.internal = i) := by
  have key := foldlM_ind_prefix
    (fun pre es => P es.st ∧ (∀ x ∈ pre, x.id.internal ∈ es.internal_id)
      ∧ (∀ x ∈ pre, ∀ y ∈ pre, x ≠ y → x.id.internal = y.id.internal → x.id.internal ∈ es.skip_internal_id)
      ∧ (∀ i ∈ es.skip_internal_id, ∃ x ∈ this, x.id.internal = i)) _ this {} es h ⟨h0, by simp, by simp, by simp⟩ ?_
  · exact ⟨key.1, key.2.2⟩
  · intro pre x post s s' hl hf hp
    have hx : x ∈ this := by rw [hl]; simp
    obtain ⟨hp0, hp1, hp2, hp3⟩ := hp
    -- the id bookkeeping
    let s₁ : EntryState := { s with
      internal_id := (HSet.insert s.internal_id x.id.internal).1
      skip_internal_id := if (HSet.insert s.internal_id x.id.internal).2 = true then s.skip_internal_id
        else HSet.add s.skip_internal_id x.id.internal }
    have b1 : ∀ y ∈ pre ++ [x], y.id.internal ∈ s₁.internal_id := by
      intro y hy
      simp only [s₁, HSet.insert]
      rcases List.mem_append.mp hy with hy | hy
      · split <;> simp [hp1 y hy]
      · simp at hy; subst hy
        split <;> simp_all
    have sub : ∀ i ∈ s.skip_internal_id, i ∈ s₁.skip_internal_id := by
      intro i hi
      simp only [s₁]
      split
      · exact hi
      · unfold HSet.add HSet.insert; split <;> simp [hi]
    have dup : ∀ y ∈ pre, y.id.internal = x.id.internal → x.id.internal ∈ s₁.skip_internal_id := by
      intro y hy e
      have : x.id.internal ∈ s.internal_id := e ▸ hp1 y hy
      simp only [s₁, HSet.insert, this, if_true, Bool.false_eq_true, if_false]
      unfold HSet.add HSet.insert; split <;> simp_all
    have b2 : ∀ y ∈ pre ++ [x], ∀ z ∈ pre ++ [x], y ≠ z → y.id.internal = z.id.internal →
        y.id.internal ∈ s₁.skip_internal_id := by
      intro y hy z hz hne e
      rcases List.mem_append.mp hy with hy' | hy' <;> rcases List.mem_append.mp hz with hz' | hz'
      · exact sub _ (hp2 y hy' z hz' hne e)
      · simp at hz'; rw [e, hz']; exact dup y hy' (hz' ▸ e)
      · simp at hy'; rw [hy']; exact dup z hz' (hy' ▸ e.symm)
      · simp at hy' hz'; exact (hne (hy'.trans hz'.symm)).elim
    have b3 : ∀ i ∈ s₁.skip_internal_id, ∃ x ∈ this, x.id.internal = i := by
      intro i hi
      simp only [s₁] at hi
      split at hi
      · exact hp3 i hi
      · unfold HSet.add HSet.insert at hi
        split at hi
        · exact hp3 i hi
        · simp at hi
          rcases hi with hi | hi
          · exact hp3 i hi
          · exact ⟨x, hx, hi.symm⟩
    have hfin : ∀ st, P st → (P st ∧ (∀ x_1 ∈ pre ++ [x], x_1.id.internal ∈ s₁.internal_id)
        ∧ (∀ y ∈ pre ++ [x], ∀ z ∈ pre ++ [x], y ≠ z → y.id.internal = z.id.internal →
          y.id.internal ∈ s₁.skip_internal_id) ∧ (∀ i ∈ s₁.skip_internal_id, ∃ x ∈ this, x.id.internal = i)) :=
      fun st hst => ⟨hst, b1, b2, b3⟩
    change (match (if x.has SYMBOL_ENTRY then sc.other_entry else none) with
      | some oe => (massert b _ >>= fun _ => pure { s₁ with st := insertMapping this other s₁.st x.address oe.address })
      | none => (if x.sec.writeable then
          match HMap.find sc.vars (varKey x) with
          | some var => if x.address % 0x1000 == var.address % 0x1000 && x.size == var.size then
              pure { s₁ with st := insertMapping this other s₁.st x.address var.address } else pure s₁
          | none => pure s₁
        else pure s₁ : M EntryState)) = .ok s' at hf
    split at hf
    · rename_i oe hoe
      obtain ⟨-, hf⟩ := massert_bind_ok hf
      simp only [pure, Except.pure, Except.ok.injEq] at hf
      subst hf
      split at hoe
      · rename_i he
        exact hfin _ (hE x hx oe _ ((has_entry_iff x).mp he) hoe hp0)
      · simp at hoe
    · rename_i hoe
      have hent : IsEntry x → sc.other_entry = none := by
        intro he
        rw [(has_entry_iff x).mpr he] at hoe
        simpa using hoe
      split at hf
      · rename_i hw
        split at hf
        · rename_i var hvar
          split at hf
          · rename_i hcond
            simp only [pure, Except.pure, Except.ok.injEq] at hf
            subst hf
            simp only [Bool.and_eq_true, beq_iff_eq] at hcond
            exact hfin _ (hV x hx var _ hw hent hvar hcond.1 hcond.2 hp0)
          · simp only [pure, Except.pure, Except.ok.injEq] at hf
            subst hf; exact hfin _ hp0
        · simp only [pure, Except.pure, Except.ok.injEq] at hf
          subst hf; exact hfin _ hp0
      · simp only [pure, Except.pure, Except.ok.injEq] at hf
        subst hf; exact hfin _ hp0

theorem processRelocations_ind {this other : SymTree} (P : MapState → Prop) {x y : Symbol} {st : MapState}
    (h0 : P st) (hs : ∀ p q st, x.rels.length = y.rels.length → (p, q) ∈ x.rels.zip y.rels → relsAgree x y p q = true →
      P st → P (insertMapping this other st p.target q.target)) :
    P (processRelocations this other st x y) := by
  unfold processRelocations
  split
  · rename_i hl
    simp only [Bool.and_eq_true, beq_iff_eq] at hl
    refine foldl_ind P _ _ _ h0 ?_
    rintro st ⟨p, q⟩ hmem hp
    split
    · rename_i ha; exact hs p q st hl.2 hmem ha hp
    · exact hp
  · exact h0

/-- An invariant of the mapping through the whole run. -/
theorem mapGather_ind {b : Build} {h : BitVec 64 → BitVec 32} {this other : SymTree} {names : Bool} {st : MapState}
    (hr : mapGather b h this other names = .ok st) (P : MapState → Prop) (h0 : P {})
    (hE : ∀ sc, ScanSpec other sc → ∀ x ∈ this, ∀ y st, IsEntry x → sc.other_entry = some y → P st →
      P (insertMapping this other st x.address y.address))
    (hV : ∀ sc, ScanSpec other sc → ∀ x ∈ this, ∀ y st, x.sec.writeable = true → (IsEntry x → sc.other_entry = none) →
      HMap.find sc.vars (varKey x) = some y →
      x.address % 0x1000 = y.address % 0x1000 → x.size = y.size → P st →
      P (insertMapping this other st x.address y.address))
    (hN : names = true → ∀ x ∈ this, ∀ y st, hasName x = true → HMap.find (nameIndex other) x.name = some y →
      y.type = x.type → y.bind = x.bind → y.sec.same x.sec = true → Tree.find st.mapping x.address = none → P st →
      P (insertMapping this other st x.address y.address))
    (hF : ∀ x ∈ this, ∀ y st, SymHash.find (extCmp h) (SymHash.ofTree (extCmp h) other) x = some y → P st →
      P (insertMapping this other st x.address y.address))
    (hFR : ∀ x ∈ this, ∀ y p q st, SymHash.find (extCmp h) (SymHash.ofTree (extCmp h) other) x = some y →
      x.rels.length = y.rels.length → (p, q) ∈ x.rels.zip y.rels → relsAgree x y p q = true → P st →
      P (insertMapping this other st p.target q.target))
    (hIR : ∀ x ∈ this, ∀ y p q st, (∀ z ∈ this, z.id.internal = x.id.internal → z = x) →
      SymHash.find (intCmp h) (SymHash.ofTree (intCmp h) other) x = some y →
      x.rels.length = y.rels.length → (p, q) ∈ x.rels.zip y.rels → relsAgree x y p q = true → P st →
      P (insertMapping this other st p.target q.target))
    (hB : ∀ x ∈ this, ∀ m y p v st, (x.address, m) ∈ st.mapping → Tree.find other m = some y → p ∈ x.rels →
      p.instruction_access.getLsbD 2 = true → p.instruction_access.getLsbD 4 = true →
      x.offset_ids.lookup (p.target - x.address) = some v → y.offset_ids.lookup (p.target - x.address) = some v → P st →
      P (insertMapping this other st p.target (y.address + (p.target - x.address))))
    (hmono : ∀ st f t e, e ∈ st.mapping → P st → e ∈ (insertMapping this other st f t).mapping) : P st := by
  obtain ⟨sc, es, hsc, -, hes, rfl⟩ := mapGather_ok hr
  have hspec := scan_spec hsc
  obtain ⟨hP, hdup, -⟩ := entryVars_spec hes P h0 (hE sc hspec) (hV sc hspec)
  have huniq : ∀ x ∈ this, x.id.internal ∉ es.skip_internal_id → ∀ z ∈ this, z.id.internal = x.id.internal → z = x := by
    intro x hx hns z hz e
    by_cases hzx : z = x
    · exact hzx
    · exact (hns (e ▸ hdup z hz x hx hzx e)).elim
  have s1 : P (if names = true then this.foldl (matchName this other (nameIndex other)) es.st else es.st) := by
    split
    · rename_i hn
      refine foldl_ind P _ _ _ hP ?_
      intro st x hx hst
      unfold matchName
      split
      · exact hst
      · rename_i hmap
        split
        · exact hst
        · rename_i hname
          split
          · rename_i o ho
            split
            · rename_i hc
              simp only [Bool.and_eq_true, beq_iff_eq] at hc
              exact hN hn x hx o st (by simpa using hname) ho hc.1.1 hc.1.2 hc.2
                (by simpa using hmap) hst
            · exact hst
          · exact hst
    · exact hP
  have s2 := foldl_ind P (matchFull h this other) this _ s1 (by
    intro st x hx hst
    unfold matchFull
    split
    · rename_i o ho
      exact processRelocations_ind P (hF x hx o st ho hst)
        (fun p q st hl hm ha hst => hFR x hx o p q st ho hl hm ha hst)
    · exact hst)
  have s3 := foldl_ind P (matchInternal h this other es.skip_internal_id) this _ s2 (by
    intro st x hx hst
    unfold matchInternal
    split
    · exact hst
    · rename_i hns
      split
      · rename_i o ho
        exact processRelocations_ind P hst
          (fun p q st hl hm ha hst => hIR x hx o p q st (huniq x hx hns) ho hl hm ha hst)
      · exact hst)
  refine foldl_ind P (matchLocal this other es.skip_internal_id) this _ s3 ?_
  intro st x hx hst
  unfold matchLocal
  split
  · exact hst
  · split
    · exact hst
    · rename_i m hm
      split
      · exact hst
      · rename_i o ho
        obtain ⟨hmem, hkey⟩ := Tree.find_mem hm
        have hmem' : (x.address, m.2) ∈ st.mapping := by
          have : m = (x.address, m.2) := by
            change m.1 = _ at hkey
            rw [← hkey]
          rw [← this]; exact hmem
        have := foldl_ind (fun st => P st ∧ (x.address, m.2) ∈ st.mapping) (matchLocalRel this other x o) x.rels st
          ⟨hst, hmem'⟩ (by
            rintro st p hp ⟨hst, hmem⟩
            unfold matchLocalRel
            split
            · rename_i hacc
              simp only [Bool.and_eq_true] at hacc
              rw [branch_iff, local_iff] at hacc
              simp only
              split
              · rename_i a b ha hb
                split
                · rename_i hab
                  simp only [beq_iff_eq] at hab
                  subst hab
                  exact ⟨hB x hx m.2 o p a st hmem ho hp hacc.1 hacc.2 ha hb hst, hmono _ _ _ _ hmem hst⟩
                · exact ⟨hst, hmem⟩
              · exact ⟨hst, hmem⟩
            · exact ⟨hst, hmem⟩)
        exact this.1

/-! ### The hash function does not matter -/

theorem find_congr {same : Symbol → Symbol → Prop} {c c' : Cmp} (hc : c.Lawful same) (hc' : c'.Lawful same)
    (l : List Symbol) (s : Symbol) : SymHash.find c l s = SymHash.find c' l s := by
  unfold SymHash.find
  congr 1
  funext y
  rw [Bool.eq_iff_iff]
  simp only [Bool.and_eq_true, beq_iff_eq, hc.equal_iff, hc'.equal_iff]
  exact ⟨fun h => ⟨hc'.hash_eq _ _ h.2, h.2⟩, fun h => ⟨hc.hash_eq _ _ h.2, h.2⟩⟩

theorem map_congr (b : Build) (h h' : BitVec 64 → BitVec 32) (this other : SymTree) (names : Bool) :
    map b h this other names = map b h' this other names := by
  have e1 : matchFull h this other = matchFull h' this other := by
    funext st x
    unfold matchFull
    rw [ofTree_congr (extCmp_lawful h) (extCmp_lawful h'), find_congr (extCmp_lawful h) (extCmp_lawful h')]
  have e2 : ∀ l, matchInternal h this other l = matchInternal h' this other l := by
    intro l; funext st x
    unfold matchInternal
    rw [ofTree_congr (intCmp_lawful h) (intCmp_lawful h'), find_congr (intCmp_lawful h) (intCmp_lawful h')]
  unfold map mapGather
  simp only [e1, e2]

theorem mem_cleanup {st : MapState} {e : Addr × Addr} : e ∈ cleanup st ↔ e ∈ st.mapping ∧ e.1 ∉ st.skip := by
  unfold cleanup
  generalize st.mapping = m
  induction st.skip generalizing m with
  | nil => simp
  | cons k l ih =>
    rw [List.foldl_cons, ih, Tree.mem_erase]
    simp only [List.mem_cons, not_or, and_assoc]
    rfl

theorem sorted_cleanup {st : MapState} (h : Tree.Sorted st.mapping) : Tree.Sorted (cleanup st) := by
  unfold cleanup
  exact foldl_ind Tree.Sorted _ _ _ h (fun s x _ hs => Tree.sorted_erase hs x)

end Bean

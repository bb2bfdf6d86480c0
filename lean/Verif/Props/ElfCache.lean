import Verif.Props.ElfVars
/-
C57: cache of the summaries of variables.
-/
namespace Bean.Props
open Bean Bean.Spec

theorem boolText_inj {a b : Bool} (h : boolText a = boolText b) : a = b := by
  revert h
  cases a <;> cases b <;> decide

theorem boolText_comma (b : Bool) : ',' ∉ boolText b := by
  cases b <;> decide

/-- Texts without comma are determined by a text in which they are followed by a comma. -/
theorem split_comma {a b r r' : Str} (ha : ',' ∉ a) (hb : ',' ∉ b) (h : a ++ ',' :: r = b ++ ',' :: r') : a = b ∧ r = r' := by
  induction a generalizing b with
  | nil =>
    cases b with
    | nil => exact ⟨rfl, (List.cons.inj h).2⟩
    | cons y b => exact absurd (by rw [← (List.cons.inj h).1]; exact List.mem_cons_self) hb
  | cons x a ih =>
    cases b with
    | nil => exact absurd (by rw [show x = ',' from (List.cons.inj h).1]; exact List.mem_cons_self) ha
    | cons y b =>
      have e := List.cons.inj h
      obtain ⟨i1, i2⟩ := ih (fun hc => ha (List.mem_cons_of_mem _ hc)) (fun hc => hb (List.mem_cons_of_mem _ hc)) e.2
      exact ⟨by rw [e.1, i1], i2⟩

theorem idText_comma {id : Option Str} (h : ValidId id) : ',' ∉ idText id := by
  cases id with
  | none => decide
  | some s => exact (h s rfl).1

theorem idText_inj {id id' : Option Str} (h : ValidId id) (h' : ValidId id') (e : idText id = idText id') : id = id' := by
  cases id with
  | none =>
    cases id' with
    | none => rfl
    | some s => exact absurd e.symm (h' s rfl).2
  | some s =>
    cases id' with
    | none => exact absurd e (h s rfl).2
    | some s' => exact congrArg some e

/-- C57: the key determines the build identifier and eight of the options. -/
theorem C57_key (id id' : Option Str) (a a' : VarArgs) (h : ValidId id) (h' : ValidId id') :
    cacheKey id a = cacheKey id' a' ↔ id = id' ∧ keyed a = keyed a' := by
  constructor
  · intro e
    unfold cacheKey at e
    simp only [List.append_assoc, List.cons_append] at e
    obtain ⟨e0, e⟩ := split_comma (idText_comma h) (idText_comma h') e
    obtain ⟨e1, e⟩ := split_comma (boolText_comma _) (boolText_comma _) e
    obtain ⟨e2, e⟩ := split_comma (boolText_comma _) (boolText_comma _) e
    obtain ⟨e3, e⟩ := split_comma (boolText_comma _) (boolText_comma _) e
    obtain ⟨e4, e⟩ := split_comma (boolText_comma _) (boolText_comma _) e
    obtain ⟨e5, e⟩ := split_comma (boolText_comma _) (boolText_comma _) e
    obtain ⟨e6, e⟩ := split_comma (boolText_comma _) (boolText_comma _) e
    obtain ⟨e7, e8⟩ := split_comma (boolText_comma _) (boolText_comma _) e
    refine ⟨idText_inj h h' e0, ?_⟩
    unfold keyed
    rw [boolText_inj e1, boolText_inj e2, boolText_inj e3, boolText_inj e4, boolText_inj e5, boolText_inj e6, boolText_inj e7,
      boolText_inj e8]
  · rintro ⟨rfl, e⟩
    unfold keyed at e
    injection e with e1 e
    injection e with e2 e
    injection e with e3 e
    injection e with e4 e
    injection e with e5 e
    injection e with e6 e
    injection e with e7 e
    injection e with e8
    unfold cacheKey
    rw [e1, e2, e3, e4, e5, e6, e7, e8]

/-- Two real identifiers: their keys differ although the texts start alike. -/
example : ValidId (some "1f2e".toList) ∧ ValidId none ∧
    cacheKey (some "1f2e".toList) {} ≠ cacheKey (some "1f2e".toList) { names := true } := by
  refine ⟨?_, ?_, by decide +kernel⟩
  · intro s e
    cases e
    decide
  · intro s e
    cases e

section
variable {ρ : Type}

/-- The key of a request. -/
def reqKey (r : VarRequest ρ) : Option Str := r.buildid.map (fun id => cacheKey id r.args)

/-- Entries of the cache come from the cache at the start or from a request of the past. -/
def FromPast (c0 : VarCache ρ) (past : List (VarRequest ρ)) (c : VarCache ρ) : Prop :=
  ∀ k v, c.lookup k = some v → c0.lookup k = some v ∨ ∃ r ∈ past, reqKey r = some k ∧ r.summary = some v

/-- What an answer may be. -/
def Answered (c0 : VarCache ρ) (past : List (VarRequest ρ)) (r : VarRequest ρ) (a : Option ρ) : Prop :=
  a = fresh r ∨ (∃ k v, reqKey r = some k ∧ a = some v ∧ c0.lookup k = some v) ∨
    ∃ r' ∈ past, ∃ v, reqKey r' = reqKey r ∧ (reqKey r).isSome ∧ r'.summary = some v ∧ a = some v

theorem getData_past {c0 c : VarCache ρ} {past : List (VarRequest ρ)} (hc : FromPast c0 past c) (r : VarRequest ρ) :
    Answered c0 past r (getData c r).1 ∧ FromPast c0 (past ++ [r]) (getData c r).2 := by
  have weak : FromPast c0 (past ++ [r]) c := by
    intro k v h
    rcases hc k v h with h | ⟨r', hr', h⟩
    · exact Or.inl h
    · exact Or.inr ⟨r', List.mem_append_left _ hr', h⟩
  unfold getData
  cases hb : r.buildid with
  | none => exact ⟨Or.inl (by unfold fresh; rw [hb]; rfl), weak⟩
  | some id =>
    have hk : reqKey r = some (cacheKey id r.args) := by unfold reqKey; rw [hb]; rfl
    dsimp only
    cases hl : c.lookup (cacheKey id r.args) with
    | some v =>
      refine ⟨Or.inr ?_, weak⟩
      rcases hc _ _ hl with h | ⟨r', hr', h1, h2⟩
      · exact Or.inl ⟨_, v, hk, rfl, h⟩
      · exact Or.inr ⟨r', hr', v, by rw [h1, hk], by rw [hk]; rfl, h2, rfl⟩
    | none =>
      dsimp only
      cases hs : r.summary with
      | none => exact ⟨Or.inl (by unfold fresh; rw [hb]; exact hs.symm), weak⟩
      | some v =>
        refine ⟨Or.inl (by unfold fresh; rw [hb]; exact hs.symm), ?_⟩
        intro k w h
        dsimp only at h
        rw [List.lookup_cons] at h
        cases hkk : k == cacheKey id r.args with
        | true =>
          rw [hkk] at h
          refine Or.inr ⟨r, by simp, ?_, ?_⟩
          · rw [hk, eq_of_beq hkk]
          · rw [hs]
            exact h
        | false =>
          rw [hkk] at h
          exact weak k w h

theorem getAll_length (c : VarCache ρ) (rs : List (VarRequest ρ)) : (getAll c rs).length = rs.length := by
  induction rs generalizing c with
  | nil => rfl
  | cons r rs ih => rw [getAll, List.length_cons, List.length_cons, ih]

theorem getAll_past {c0 c : VarCache ρ} {past : List (VarRequest ρ)} (hc : FromPast c0 past c) (rs : List (VarRequest ρ)) (i : Nat)
    (r : VarRequest ρ) (hi : rs[i]? = some r) : ∃ a, (getAll c rs)[i]? = some a ∧ Answered c0 (past ++ rs.take i) r a := by
  induction rs generalizing c past i with
  | nil => cases hi
  | cons q rs ih =>
    cases i with
    | zero =>
      cases hi
      exact ⟨_, rfl, by rw [List.take_zero, List.append_nil]; exact (getData_past hc r).1⟩
    | succ i =>
      obtain ⟨a, ha, h⟩ := ih (getData_past hc q).2 i hi
      refine ⟨a, ha, ?_⟩
      rw [List.append_assoc] at h
      exact h

/-- The keys of two requests. -/
theorem reqKey_same {r r' : VarRequest ρ} (hv : ∀ id, r.buildid = some id → ValidId id) (hv' : ∀ id, r'.buildid = some id → ValidId id)
    (h : reqKey r' = reqKey r) (hs : (reqKey r).isSome) : SameKey r' r := by
  unfold reqKey at h hs
  cases hb : r.buildid with
  | none => rw [hb] at hs; cases hs
  | some id =>
    cases hb' : r'.buildid with
    | none => rw [hb, hb'] at h; cases h
    | some id' =>
      rw [hb, hb'] at h
      obtain ⟨e, k⟩ := (C57_key id' id r'.args r.args (hv' _ hb') (hv _ hb)).mp (Option.some.inj h)
      exact ⟨id, by rw [e] at hb'; exact hb', hb, k⟩

/-- C57: an answer is the one that would be computed, an entry of the cache from before the start, or the answer to an earlier
request for a file with the same build identifier (or also without) and the same options. -/
theorem C57_history (c : VarCache ρ) (rs : List (VarRequest ρ)) (hv : ∀ r ∈ rs, ∀ id, r.buildid = some id → ValidId id) (i : Nat)
    (r : VarRequest ρ) (hi : rs[i]? = some r) : ∃ a, (getAll c rs)[i]? = some a ∧ (a = fresh r ∨
      (∃ id, r.buildid = some id ∧ a.isSome ∧ a = c.lookup (cacheKey id r.args)) ∨
      ∃ j r', j < i ∧ rs[j]? = some r' ∧ SameKey r' r ∧ a.isSome ∧ a = fresh r') := by
  have start : FromPast c [] c := fun k v h => Or.inl h
  obtain ⟨a, ha, h⟩ := getAll_past start rs i r hi
  refine ⟨a, ha, ?_⟩
  have hr : r ∈ rs := List.mem_of_getElem? hi
  rcases h with h | ⟨k, v, hk, hav, hl⟩ | ⟨r', hr', v, hk, hs, hsum, hav⟩
  · exact Or.inl h
  · refine Or.inr (Or.inl ?_)
    unfold reqKey at hk
    cases hb : r.buildid with
    | none => rw [hb] at hk; cases hk
    | some id =>
      rw [hb] at hk
      exact ⟨id, rfl, by rw [hav]; rfl, by rw [hav, show cacheKey id r.args = k from Option.some.inj hk, hl]⟩
  · rw [List.nil_append] at hr'
    obtain ⟨j, hj⟩ := List.getElem?_of_mem hr'
    have hj' : j < i := by
      have := (List.getElem?_eq_some_iff.mp hj).1
      rw [List.length_take] at this
      omega
    have hrs : rs[j]? = some r' := by
      rw [List.getElem?_take_of_lt hj'] at hj
      exact hj
    have sk := reqKey_same (hv r hr) (hv r' (List.mem_of_getElem? hrs)) hk hs
    refine Or.inr (Or.inr ⟨j, r', hj', hrs, sk, by rw [hav]; rfl, ?_⟩)
    obtain ⟨id, hb, _⟩ := sk
    unfold fresh
    rw [hb, hav]
    exact hsum.symm

/-- C57, partial: answers are those that would be computed as long as requests with equal build identifiers and equal options have
equal results and the cache is empty at the start. The assumption cannot be dropped (`C57_no_id`, `C57_systypes`, `C57_base`). -/
theorem C57_partial (rs : List (VarRequest ρ)) (hv : ∀ r ∈ rs, ∀ id, r.buildid = some id → ValidId id)
    (same : ∀ r ∈ rs, ∀ r' ∈ rs, SameKey r r' → r.summary = r'.summary) : getAll [] rs = rs.map fresh := by
  refine List.ext_getElem? (fun i => ?_)
  rw [List.getElem?_map]
  cases hi : rs[i]? with
  | none =>
    rw [Option.map_none, List.getElem?_eq_none_iff, getAll_length]
    exact List.getElem?_eq_none_iff.mp hi
  | some r =>
    obtain ⟨a, ha, h⟩ := C57_history [] rs hv i r hi
    rw [ha]
    refine congrArg some ?_
    rcases h with h | ⟨id, _, hs, h⟩ | ⟨j, r', _, hj, sk, _, h⟩
    · exact h
    · rw [h] at hs
      cases hs
    · rw [h]
      obtain ⟨id, h1, h2, _⟩ := id sk
      unfold fresh
      rw [h1, h2]
      exact same r' (List.mem_of_getElem? hj) r (List.mem_of_getElem? hi) sk
end

/-- A request of the examples. -/
def exReq (id : Option String) (args : VarArgs) (result : Option Nat) : VarRequest Nat where
  args := args
  buildid := some (id.map String.toList)
  summary := result

/-- Requests for two files, one of them twice and with another option. -/
example : getAll [] [exReq (some "aa") {} (some 1), exReq (some "bb") {} (some 2), exReq (some "aa") {} (some 1),
    exReq (some "aa") { names := true } (some 3)] = [some 1, some 2, some 1, some 3] := by
  decide +kernel

/-- C57, negation: two files without build identifier get the same answer. -/
theorem C57_no_id : ∃ rs : List (VarRequest Nat), getAll [] rs = [some 1, some 1] ∧ rs.map fresh = [some 1, some 2] ∧
    (∀ r ∈ rs, r.buildid = some none ∧ r.args = {}) := by
  refine ⟨[exReq none {} (some 1), exReq none {} (some 2)], by decide +kernel, rfl, ?_⟩
  intro r hr
  simp only [List.mem_cons, List.not_mem_nil, or_false] at hr
  rcases hr with rfl | rfl <;> exact ⟨rfl, rfl⟩

/-- C57, negation: with a cache of an earlier start without the option for types of system headers the option has no effect. -/
theorem C57_systypes : ∃ (id : Str) (a a' : VarArgs) (c : VarCache Nat), a'.systypes ≠ a.systypes ∧
    c = (getData [] { args := a, buildid := some (some id), summary := some 1 }).2 ∧
    (getData c { args := a', buildid := some (some id), summary := some 2 }).1 = some 1 := by
  exact ⟨"aa".toList, {}, { systypes := true }, _, by decide, rfl, by decide +kernel⟩

/-- C57, negation: the same holds for the directory of the debug symbols. -/
theorem C57_base : ∃ (id : Str) (a a' : VarArgs) (c : VarCache Nat), a'.base ≠ a.base ∧
    c = (getData [] { args := a, buildid := some (some id), summary := some 1 }).2 ∧
    (getData c { args := a', buildid := some (some id), summary := some 2 }).1 = some 1 := by
  exact ⟨"aa".toList, {}, { base := "/dbg".toList }, _, by decide, rfl, by decide +kernel⟩

/-- C57: a request for a build identifier is answered exactly if an earlier request asked for a file with it and the same options
(or if the cache already contained it), and then with the answer of the earliest one that could be computed. -/
theorem C57_by_id {ρ : Type} (c : VarCache ρ) (r : VarRequest ρ) (id : Str) (args : VarArgs) (hv : ValidId (some id))
    (hr : ∀ i, r.buildid = some i → ValidId i) : getById (getData c r).2 args id =
      (getById c args id).or (if r.buildid = some (some id) ∧ keyed r.args = keyed args then r.summary else none) := by
  unfold getById
  unfold getData
  cases hb : r.buildid with
  | none => simp
  | some i =>
    dsimp only
    by_cases hk : cacheKey i r.args = cacheKey (some id) args
    · obtain ⟨e, k⟩ := (C57_key i (some id) r.args args (hr _ hb) hv).mp hk
      rw [if_pos ⟨congrArg some e, k⟩, hk]
      cases hl : c.lookup (cacheKey (some id) args) with
      | some v => rw [Option.some_or]; exact hl
      | none =>
        dsimp only
        cases hs : r.summary with
        | none => exact hl
        | some v => rw [List.lookup_cons, beq_self_eq_true]; rfl
    · have ne : ¬(some i = some (some id) ∧ keyed r.args = keyed args) := by
        rintro ⟨e, k⟩
        exact hk ((C57_key i (some id) r.args args (hr _ hb) hv).mpr ⟨Option.some.inj e, k⟩)
      rw [if_neg ne, Option.or_none]
      cases c.lookup (cacheKey i r.args) with
      | some v => rfl
      | none =>
        dsimp only
        cases r.summary with
        | none => rfl
        | some v =>
          dsimp only
          rw [List.lookup_cons, beq_eq_false_iff_ne.mpr (fun e => hk e.symm)]

example : getById (getData [] (exReq (some "aa") {} (some 1))).2 {} "aa".toList = some 1 ∧
    getById (getData [] (exReq (some "aa") {} (some 1))).2 {} "bb".toList = none := by
  decide +kernel

end Bean.Props

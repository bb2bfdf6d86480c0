import Verif.Lemmas.HashExternal
import Verif.Lemmas.HashBytes
import Verif.Spec.Diff
import Verif.Props.HashData
/-
C40, C41: external identifiers and dependencies.
-/
namespace Bean
open Tree Spec

theorem closest_iff {t : SymTree} (h : Sorted t) (ref : Addr) (y : Symbol) :
    ClosestSym t ref y ↔ floor t ref = some y ∧ TLS.is_tls y.address = TLS.is_tls ref := by
  rw [floor_eq_some_iff h]
  unfold ClosestSym
  constructor
  · rintro ⟨h1, h2, h3, h4⟩
    exact ⟨⟨h1, BitVec.le_def.mpr h2, fun z hz hk => BitVec.le_def.mpr (h3 z hz (BitVec.le_def.mp hk))⟩, h4⟩
  · rintro ⟨⟨h1, h2, h3⟩, h4⟩
    exact ⟨h1, BitVec.le_def.mp h2, fun z hz hk => BitVec.le_def.mp (h3 z hz (BitVec.le_def.mpr hk)), h4⟩

theorem got_dist {ref a : Addr} (h : a ≤ ref) : ref - a < 24 ↔ ref.toNat - a.toNat < 24 := by
  have h1 := BitVec.le_def.mp h
  rw [BitVec.lt_def, BitVec.toNat_sub_of_le h]
  rfl

theorem imported_iff {got ref : Addr} {y : Symbol} (h : Sorted y.rels) (rel : Rel) :
    (if y.address = got then (Tree.find y.rels ref).filter (·.undefined) else none) = some rel ↔
      ImportedBy got y ref rel := by
  unfold ImportedBy
  by_cases hg : y.address = got
  · rw [if_pos hg, Option.filter_eq_some_iff, find_eq_some_iff h]
    constructor
    · rintro ⟨⟨h1, h2⟩, h3⟩; exact ⟨hg, h1, h2, h3⟩
    · rintro ⟨_, h1, h2, h3⟩; exact ⟨⟨h1, h2⟩, h3⟩
  · rw [if_neg hg]
    constructor
    · intro h; cases h
    · rintro ⟨h, _⟩; exact absurd h hg

/-- Each reference leads to something, and that determines the bytes and the extended dependencies. -/
theorem refers_total {t : SymTree} (h : SymsOK t) (env : Env) (got ref : Addr) :
    ∃ x, Refers got t ref x ∧ refBytes env got (floor t ref) ref = referentBytes env x := by
  cases hf : floor t ref with
  | none =>
    refine ⟨.nowhere ref, .nowhere (fun y hy => ?_), rfl⟩
    rw [closest_iff h.sorted, hf] at hy
    cases hy.1
  | some y =>
    by_cases ht : TLS.is_tls y.address = TLS.is_tls ref
    · have hc : ClosestSym t ref y := (closest_iff h.sorted _ _).mpr ⟨hf, ht⟩
      have hle : y.address ≤ ref := floor_le hf
      have hm := floor_mem hf
      unfold refBytes
      simp only
      rw [if_pos ht]
      by_cases h1 : y.address = got ∧ ref - y.address < 24
      · rw [if_pos h1]
        exact ⟨_, .gotEntry y hc h1.1 ((got_dist hle).mp h1.2), rfl⟩
      · rw [if_neg h1]
        cases hi : (if y.address = got then (Tree.find y.rels ref).filter (·.undefined) else none) with
        | some rel =>
          have himp := (imported_iff (h.rels y hm) rel).mp hi
          refine ⟨_, .imported y rel hc ?_ himp, rfl⟩
          rw [← Nat.not_lt]
          exact fun h2 => h1 ⟨himp.1, (got_dist hle).mpr h2⟩
        | none =>
          simp only
          have hng : ¬ GotCase got y ref := by
            rintro (⟨h2, h3⟩ | ⟨rel, h2⟩)
            · exact h1 ⟨h2, (got_dist hle).mpr h3⟩
            · rw [(imported_iff (h.rels y hm) rel).mpr h2] at hi
              cases hi
          by_cases hb : y.bind = .global
          · rw [if_pos hb]
            exact ⟨_, .api y hc hng hb, rfl⟩
          · rw [if_neg hb]
            exact ⟨_, .content y hc hng hb, rfl⟩
    · refine ⟨.nowhere ref, .nowhere (fun z hz => ?_), ?_⟩
      · rw [closest_iff h.sorted, hf] at hz
        cases hz.1
        exact ht hz.2
      · unfold refBytes
        simp only
        rw [if_neg ht]
        rfl

theorem closest_unique {t : SymTree} (h : Sorted t) {ref : Addr} {y z : Symbol} (hy : ClosestSym t ref y)
    (hz : ClosestSym t ref z) : y = z := by
  have h1 := ((closest_iff h _ _).mp hy).1
  rw [((closest_iff h _ _).mp hz).1] at h1
  cases h1
  rfl

/-- A reference leads to exactly one thing. -/
theorem refers_unique {t : SymTree} (h : SymsOK t) {got ref : Addr} {x x' : Referent} (hx : Refers got t ref x)
    (hx' : Refers got t ref x') : x = x' := by
  have himp : ∀ {y : Symbol} {rel rel' : Rel}, y ∈ t → ImportedBy got y ref rel → ImportedBy got y ref rel' →
      rel = rel' := by
    intro y rel rel' hy h1 h2
    have h3 := (imported_iff (h.rels y hy) rel).mpr h1
    rw [(imported_iff (h.rels y hy) rel').mpr h2] at h3
    cases h3
    rfl
  cases hx with
  | gotEntry y hc hg hd =>
    cases hx' with
    | gotEntry z hc' hg' hd' =>
      cases closest_unique h.sorted hc hc'
      rfl
    | imported z rel' hc' hd' hi' =>
      cases closest_unique h.sorted hc hc'
      omega
    | api z hc' hn' hb' =>
      cases closest_unique h.sorted hc hc'
      exact absurd (Or.inl ⟨hg, hd⟩) hn'
    | content z hc' hn' hb' =>
      cases closest_unique h.sorted hc hc'
      exact absurd (Or.inl ⟨hg, hd⟩) hn'
    | nowhere hn' =>
      exact absurd hc (hn' _)
  | imported y rel hc hd hi =>
    cases hx' with
    | gotEntry z hc' hg' hd' =>
      cases closest_unique h.sorted hc hc'
      omega
    | imported z rel' hc' hd' hi' =>
      cases closest_unique h.sorted hc hc'
      rw [himp hc.1 hi hi']
    | api z hc' hn' hb' =>
      cases closest_unique h.sorted hc hc'
      exact absurd (Or.inr ⟨_, hi⟩) hn'
    | content z hc' hn' hb' =>
      cases closest_unique h.sorted hc hc'
      exact absurd (Or.inr ⟨_, hi⟩) hn'
    | nowhere hn' =>
      exact absurd hc (hn' _)
  | api y hc hn hb =>
    cases hx' with
    | gotEntry z hc' hg' hd' =>
      cases closest_unique h.sorted hc hc'
      exact absurd (Or.inl ⟨hg', hd'⟩) hn
    | imported z rel' hc' hd' hi' =>
      cases closest_unique h.sorted hc hc'
      exact absurd (Or.inr ⟨_, hi'⟩) hn
    | api z hc' hn' hb' =>
      cases closest_unique h.sorted hc hc'
      rfl
    | content z hc' hn' hb' =>
      cases closest_unique h.sorted hc hc'
      exact absurd hb hb'
    | nowhere hn' =>
      exact absurd hc (hn' _)
  | content y hc hn hb =>
    cases hx' with
    | gotEntry z hc' hg' hd' =>
      cases closest_unique h.sorted hc hc'
      exact absurd (Or.inl ⟨hg', hd'⟩) hn
    | imported z rel' hc' hd' hi' =>
      cases closest_unique h.sorted hc hc'
      exact absurd (Or.inr ⟨_, hi'⟩) hn
    | api z hc' hn' hb' =>
      cases closest_unique h.sorted hc hc'
      exact absurd hb' hb
    | content z hc' hn' hb' =>
      cases closest_unique h.sorted hc hc'
      rfl
    | nowhere hn' =>
      exact absurd hc (hn' _)
  | nowhere hn =>
    cases hx' with
    | gotEntry z hc' hg' hd' =>
      exact absurd hc' (hn _)
    | imported z rel' hc' hd' hi' =>
      exact absurd hc' (hn _)
    | api z hc' hn' hb' =>
      exact absurd hc' (hn _)
    | content z hc' hn' hb' =>
      exact absurd hc' (hn _)
    | nowhere hn' =>
      rfl

theorem refBytes_of_refers {t : SymTree} (h : SymsOK t) (env : Env) {got ref : Addr} {x : Referent}
    (hx : Refers got t ref x) : refBytes env got (floor t ref) ref = referentBytes env x := by
  obtain ⟨x', h1, h2⟩ := refers_total h env got ref
  rw [refers_unique h hx h1]
  exact h2

/-- The dependencies of a symbol are extended due to references that lead to its contents. -/
theorem refDep_iff {t : SymTree} (h : SymsOK t) (got ref a : Addr) :
    refDep got (floor t ref) ref = some a ↔
      ∃ y, ClosestSym t ref y ∧ ¬ GotCase got y ref ∧ y.bind ≠ .global ∧ y.address = a := by
  cases hf : floor t ref with
  | none =>
    constructor
    · intro e; cases e
    · rintro ⟨y, hy, _⟩
      rw [closest_iff h.sorted, hf] at hy
      cases hy.1
  | some y =>
    have hle : y.address ≤ ref := floor_le hf
    have hm := floor_mem hf
    have hy : ∀ z, ClosestSym t ref z → z = y := by
      intro z hz
      rw [closest_iff h.sorted, hf] at hz
      cases hz.1
      rfl
    unfold refDep
    simp only
    by_cases ht : TLS.is_tls y.address = TLS.is_tls ref
    · have hc : ClosestSym t ref y := (closest_iff h.sorted _ _).mpr ⟨hf, ht⟩
      rw [if_pos ht]
      by_cases h1 : y.address = got ∧ ref - y.address < 24
      · rw [if_pos h1]
        constructor
        · intro e; cases e
        · rintro ⟨z, hz, hn, _⟩
          cases hy z hz
          exact absurd (Or.inl ⟨h1.1, (got_dist hle).mp h1.2⟩) hn
      · rw [if_neg h1]
        cases hi : (if y.address = got then (Tree.find y.rels ref).filter (·.undefined) else none) with
        | some rel =>
          have himp := (imported_iff (h.rels y hm) rel).mp hi
          constructor
          · intro e; cases e
          · rintro ⟨z, hz, hn, _⟩
            cases hy z hz
            exact absurd (Or.inr ⟨_, himp⟩) hn
        | none =>
          simp only
          have hng : ¬ GotCase got y ref := by
            rintro (⟨h2, h3⟩ | ⟨rel, h2⟩)
            · exact h1 ⟨h2, (got_dist hle).mpr h3⟩
            · rw [(imported_iff (h.rels y hm) rel).mpr h2] at hi
              cases hi
          by_cases hb : y.bind = .global
          · rw [if_pos hb]
            constructor
            · intro e; cases e
            · rintro ⟨z, hz, _, hn, _⟩
              cases hy z hz
              exact absurd hb hn
          · rw [if_neg hb]
            constructor
            · intro e
              exact ⟨y, hc, hng, hb, Option.some.inj e⟩
            · rintro ⟨z, hz, _, _, e⟩
              cases hy z hz
              rw [e]
    · rw [if_neg ht]
      constructor
      · intro e; cases e
      · rintro ⟨z, hz, _⟩
        cases hy z hz
        exact absurd ((closest_iff h.sorted _ _).mp hz).2 ht

/-! ### Symbols after the analysis -/

/-- The external identifiers do not affect anything else. -/
structure ExtFacts (env : Env) (st r : AState) : Prop where
  core : r.symbols.map core = st.symbols.map core
  got : r.global_offset_table = st.global_offset_table
  ok : SymsOK r.symbols
  mem : ∀ s, s ∈ r.symbols ↔ ∃ s0 ∈ st.symbols, s = extSym env st.global_offset_table st.symbols st.symbols s0

theorem ext_facts {env : Env} {st r : AState} (hok : SymsOK st.symbols) (h : hashExternal env st = .ok r) :
    ExtFacts env st r := by
  have e := hashExternal_closed hok.sorted h
  have es : r.symbols = st.symbols.map (extSym env st.global_offset_table st.symbols st.symbols) := by rw [e]
  have hmem : ∀ s, s ∈ r.symbols ↔
      ∃ s0 ∈ st.symbols, s = extSym env st.global_offset_table st.symbols st.symbols s0 := by
    intro s
    rw [es, List.mem_map]
    constructor
    · rintro ⟨s0, h1, h2⟩; exact ⟨s0, h1, h2.symm⟩
    · rintro ⟨s0, h1, h2⟩; exact ⟨s0, h1, h2.symm⟩
  refine ⟨?_, by rw [e], ⟨?_, ?_⟩, hmem⟩
  · rw [es, List.map_map]
    rfl
  · rw [es]
    exact sorted_map_key hok.sorted _ (fun _ => rfl)
  · intro s hs
    obtain ⟨s0, h1, rfl⟩ := (hmem s).mp hs
    exact hok.rels s0 h1

theorem extSym_refs {env : Env} {got : Addr} {t : SymTree} {s0 : Symbol} (h : s0 ∈ t) :
    (extSym env got t t s0).refs = allRefs s0 := by
  unfold extSym
  simp only
  rw [if_pos (List.mem_map_of_mem h)]

theorem extSym_external {env : Env} {got : Addr} {t : SymTree} {s0 : Symbol} (h : s0 ∈ t)
    (hne : ¬ (s0.rels = [] ∧ s0.refs = [])) :
    (extSym env got t t s0).id.external = env.xxhash (extInput env got t s0) := by
  unfold extSym
  simp only
  rw [if_pos ⟨List.mem_map_of_mem h, hne⟩]

/-! C40: external identifiers. -/

/-- C40: the external identifier is the hash of the relocations, relative to the symbol, and of what the references
lead to. A symbol without relocations and references has the one it had before (zero). -/
theorem C40_input (env : Env) (st r : AState) (hok : SymsOK st.symbols) (h : hashExternal env st = .ok r) (s : Symbol)
    (hs : s ∈ r.symbols) :
    (¬ (s.rels = [] ∧ s.refs = []) → ∃ bytes,
      ExternalInput env r.global_offset_table r.symbols s bytes ∧ s.id.external = env.xxhash bytes) ∧
    (s.rels = [] ∧ s.refs = [] → ∃ s0 ∈ st.symbols, s0.address = s.address ∧ s.id.external = s0.id.external) := by
  have f := ext_facts hok h
  obtain ⟨s0, h0, rfl⟩ := (f.mem s).mp hs
  rw [extSym_refs h0]
  have hrels : (extSym env st.global_offset_table st.symbols st.symbols s0).rels = s0.rels := rfl
  rw [hrels]
  constructor
  · intro hne
    have hne0 : ¬ (s0.rels = [] ∧ s0.refs = []) := by
      intro he
      exact hne ⟨he.1, allRefs_empty he⟩
    rw [extSym_external h0 hne0]
    refine ⟨_, ?_, rfl⟩
    have key : ∀ l : List Addr, ∃ referents, Zip (Refers r.global_offset_table r.symbols) l referents ∧
        l.flatMap (fun q => refBytes env st.global_offset_table (floor st.symbols q) q) =
          referents.flatMap (referentBytes env) := by
      intro l
      induction l with
      | nil => exact ⟨[], .nil, rfl⟩
      | cons q l ih =>
        obtain ⟨xs, h1, h2⟩ := ih
        obtain ⟨x, h3, h4⟩ := refers_total f.ok env r.global_offset_table q
        refine ⟨x :: xs, .cons h3 h1, ?_⟩
        rw [List.flatMap_cons, List.flatMap_cons, h2, ← h4, f.got, ← refBytes_core, ← floor_core f.core, refBytes_core]
    obtain ⟨xs, h1, h2⟩ := key (allRefs s0)
    refine ⟨xs, ?_, ?_⟩
    · rw [extSym_refs h0]; exact h1
    · unfold extInput
      rw [h2]
      rfl
  · intro he
    have hrefs : s0.refs = [] := by
      have h2 := he.2
      unfold allRefs at h2
      rw [he.1] at h2
      exact h2
    refine ⟨s0, h0, rfl, ?_⟩
    unfold extSym
    simp only
    rw [if_neg (fun hc => hc.2 ⟨he.1, hrefs⟩)]

/-- C40: symbols whose relocations agree relative to their start, and whose references lead to the same, have the same
external identifier, wherever they are. -/
theorem C40_external (env : Env) (st st' r r' : AState) (hok : SymsOK st.symbols) (hok' : SymsOK st'.symbols)
    (h : hashExternal env st = .ok r) (h' : hashExternal env st' = .ok r') (s s' : Symbol) (hs : s ∈ r.symbols)
    (hs' : s' ∈ r'.symbols) (hne : ¬ (s.rels = [] ∧ s.refs = [])) (hrel : Zip (SameRel s s') s.rels s'.rels)
    (href : Zip (fun ref ref' => ∃ x, Refers r.global_offset_table r.symbols ref x ∧
      Refers r'.global_offset_table r'.symbols ref' x) s.refs s'.refs) :
    s.id.external = s'.id.external := by
  have hne' : ¬ (s'.rels = [] ∧ s'.refs = []) := by
    rintro ⟨h1, h2⟩
    rw [h1] at hrel
    rw [h2] at href
    refine hne ⟨?_, ?_⟩
    · generalize s.rels = l at hrel; cases hrel; rfl
    · generalize s.refs = l at href; cases href; rfl
  have f := ext_facts hok h
  have f' := ext_facts hok' h'
  obtain ⟨b, ⟨xs, h1, h2⟩, h3⟩ := (C40_input env st r hok h s hs).1 hne
  obtain ⟨b', ⟨xs', h1', h2'⟩, h3'⟩ := (C40_input env st' r' hok' h' s' hs').1 hne'
  rw [h3, h3', h2, h2']
  congr 2
  · clear h1 h1' h2 h2' hne hne' href
    generalize s.rels = l at hrel
    generalize s'.rels = l' at hrel
    induction hrel with
    | nil => rfl
    | @cons q _ _ _ hq _ ih =>
      rw [List.flatMap_cons, List.flatMap_cons, ih]
      congr 1
      unfold extRelBytes
      rw [hq.offset, hq.type]
      by_cases ht : q.target = 0
      · rw [if_pos ht, if_pos (hq.resolved.mp ht), (hq.unresolved ht).1, (hq.unresolved ht).2]
      · rw [if_neg ht, if_neg (fun hc => ht (hq.resolved.mpr hc))]
  · congr 1
    clear hrel h2 h2' hne hne'
    generalize s.refs = l at href h1
    generalize s'.refs = l' at href h1'
    induction href generalizing xs xs' with
    | nil => cases h1; cases h1'; rfl
    | cons hq _ ih =>
      cases h1 with
      | cons h4 h5 =>
        cases h1' with
        | cons h6 h7 =>
          rw [ih _ _ h5 h7]
          obtain ⟨x, hx, hx'⟩ := hq
          rw [refers_unique f.ok h4 hx, refers_unique f'.ok h6 hx']

/-- A symbol with an unresolved relocation that refers to the second word of a symbol at some distance. -/
def exExtFrom (base distance : Addr) (external : BitVec 64) : Symbol where
  address := base
  size := 8
  refs := [base + distance + 4]
  rels := [{ offset := base + 2, type := 6, name := some "puts", undefined := true }]
  id := { external := external }

/-- A referenced symbol. -/
def exExtTo (a : Addr) (deps : List Addr) : Symbol where
  address := a
  size := 8
  type := .object
  id := { internal := 0x77 }
  deps := deps

/-- A file with two symbols. -/
def exExt (base distance : Addr) : AState where
  symbols := [exExtFrom base distance 0, exExtTo (base + distance) []]

/-- The file `exExt` after the analysis. -/
def exExtHashed (base distance : Addr) : AState where
  symbols := [exExtFrom base distance 0x4db5813b4ca200d2, exExtTo (base + distance) [base]]

set_option maxRecDepth 8000 in
theorem exExt_hash : hashExternal exEnv (exExt 0x1000 0x100) = .ok (exExtHashed 0x1000 0x100) := by
  exact ok_of_decide (by decide +kernel)

set_option maxRecDepth 8000 in
theorem exExt_hash' : hashExternal exEnv (exExt 0x2000 0x300) = .ok (exExtHashed 0x2000 0x300) := by
  exact ok_of_decide (by decide +kernel)

instance (t : List Symbol) (ref : Addr) (y : Symbol) : Decidable (ClosestSym t ref y) := by
  unfold ClosestSym; infer_instance

theorem exExt_refers : Refers 0 (exExtHashed 0x1000 0x100).symbols 0x1104 (.content 0x77 .object 4) ∧
    Refers 0 (exExtHashed 0x2000 0x300).symbols 0x2304 (.content 0x77 .object 4) := by
  refine ⟨.content (exExtTo 0x1100 [0x1000]) (by decide) ?_ (by decide),
    .content (exExtTo 0x2300 [0x2000]) (by decide) ?_ (by decide)⟩
  all_goals
    rintro (⟨h, _⟩ | ⟨_, h, _⟩) <;> exact absurd h (by decide)

example : (exExtFrom 0x1000 0x100 0x4db5813b4ca200d2).id.external =
    (exExtFrom 0x2000 0x300 0x4db5813b4ca200d2).id.external :=
  C40_external exEnv _ _ _ _ (by decide) (by decide) exExt_hash exExt_hash' _ _ List.mem_cons_self
    List.mem_cons_self (by decide) (.cons ⟨by decide, rfl, by decide, by decide⟩ .nil)
    (.cons ⟨_, exExt_refers⟩ .nil)

example : ∃ bytes, ExternalInput exEnv 0 (exExtHashed 0x1000 0x100).symbols
      (exExtFrom 0x1000 0x100 0x4db5813b4ca200d2) bytes ∧ 0x4db5813b4ca200d2 = exEnv.xxhash bytes :=
  (C40_input exEnv _ _ (by decide) exExt_hash (exExtFrom 0x1000 0x100 0x4db5813b4ca200d2) List.mem_cons_self).1
    (by decide)

theorem mem_allRefs {z : Symbol} {t : Addr} :
    t ∈ allRefs z ↔ t ∈ z.refs ∨ ∃ rel ∈ z.rels, rel.target = t ∧ t ≠ 0 := by
  unfold allRefs
  generalize z.refs = refs
  induction z.rels generalizing refs with
  | nil => simp
  | cons x rels ih =>
    rw [List.foldl_cons, ih]
    by_cases hx : x.target = 0
    · rw [if_pos hx]
      refine or_congr Iff.rfl ⟨?_, ?_⟩
      · rintro ⟨q, h1, h2⟩; exact ⟨q, List.mem_cons_of_mem _ h1, h2⟩
      · rintro ⟨q, h1, h2, h3⟩
        rcases List.mem_cons.mp h1 with rfl | h1
        · exact absurd (h2.symm.trans hx) h3
        · exact ⟨q, h1, h2, h3⟩
    · rw [if_neg hx, mem_hset_add]
      constructor
      · rintro ((h | rfl) | ⟨q, h1, h2⟩)
        · exact Or.inl h
        · exact Or.inr ⟨x, List.mem_cons_self, rfl, hx⟩
        · exact Or.inr ⟨q, List.mem_cons_of_mem _ h1, h2⟩
      · rintro (h | ⟨q, h1, h2, h3⟩)
        · exact Or.inl (Or.inl h)
        · rcases List.mem_cons.mp h1 with rfl | h1
          · exact Or.inl (Or.inr h2.symm)
          · exact Or.inr ⟨q, h1, h2, h3⟩

/-- C40: the references of a symbol are those known before and the resolved targets of its relocations; everything
else but dependencies and external identifier remains. -/
theorem C40_references (env : Env) (st r : AState) (hok : SymsOK st.symbols) (h : hashExternal env st = .ok r)
    (s : Symbol) (hs : s ∈ r.symbols) : ∃ s0 ∈ st.symbols,
      s = { s0 with refs := s.refs, deps := s.deps, id := { s0.id with external := s.id.external } } ∧
      ∀ t, t ∈ s.refs ↔ t ∈ s0.refs ∨ ∃ rel ∈ s.rels, rel.target = t ∧ t ≠ 0 := by
  have f := ext_facts hok h
  obtain ⟨s0, h0, rfl⟩ := (f.mem s).mp hs
  refine ⟨s0, h0, rfl, fun t => ?_⟩
  rw [extSym_refs h0]
  exact mem_allRefs

example : ∃ s0 ∈ (exExt 0x1000 0x100).symbols, s0.address = 0x1000 ∧
    ∀ t, t ∈ [0x1104#64] ↔ t ∈ s0.refs ∨ ∃ rel ∈ s0.rels, rel.target = t ∧ t ≠ 0 := by
  obtain ⟨s0, h0, e, h1⟩ := C40_references exEnv _ _ (by decide) exExt_hash
    (exExtFrom 0x1000 0x100 0x4db5813b4ca200d2) List.mem_cons_self
  have e1 := congrArg Symbol.rels e
  rw [e1] at h1
  exact ⟨s0, h0, (congrArg Symbol.address e).symm, h1⟩

theorem extRels_total {b : Build} {a : Addr} {rels : List Rel} (h : ∀ q ∈ rels, TLS.virt_addr a ≤ q.offset)
    (acc : List (BitVec 8) × List Addr) : ∃ r, rels.foldlM (extRelStep b a) acc = .ok r := by
  induction rels generalizing acc with
  | nil => exact ⟨acc, rfl⟩
  | cons x rels ih =>
    rw [List.foldlM_cons]
    have hx : extRelStep b a acc x = .ok (acc.1 ++ extRelBytes a x,
        if x.target = 0 then acc.2 else HSet.add acc.2 x.target) := by
      unfold extRelStep
      have : decide (x.offset ≥ TLS.virt_addr a) = true := decide_eq_true (h x List.mem_cons_self)
      rw [this]
      cases b <;> rfl
    rw [hx]
    exact ih (fun q hq => h q (List.mem_cons_of_mem _ hq)) _

/-- C40: the external identifiers can be calculated for each set of symbols whose relocations are not in front of the
symbols. -/
theorem C40_total (env : Env) (st : AState) (hok : SymsOK st.symbols)
    (hrel : ∀ s ∈ st.symbols, ∀ q ∈ s.rels, TLS.virt_addr s.address ≤ q.offset) :
    ∃ r, hashExternal env st = .ok r := by
  unfold hashExternal
  have key : ∀ (todo done : SymTree), st.symbols = done ++ todo → ∃ t,
      (todo.map (·.address)).foldlM (extStep env st.global_offset_table)
        (st.symbols.map (extSym env st.global_offset_table st.symbols done)) = .ok t := by
    intro todo
    induction todo with
    | nil => intro done _; exact ⟨_, rfl⟩
    | cons x todo ih =>
      intro done e
      have hx : x ∈ st.symbols := by rw [e]; simp
      have hstep : ∃ t, extStep env st.global_offset_table
          (st.symbols.map (extSym env st.global_offset_table st.symbols done)) x.address = .ok t := by
        have hfind : Tree.find (st.symbols.map (extSym env st.global_offset_table st.symbols done)) x.address =
            some (extSym env st.global_offset_table st.symbols done x) := by
          rw [find_map (f := extSym env st.global_offset_table st.symbols done) (fun _ => rfl),
            show Tree.find st.symbols x.address = some x from (find_eq_some_iff hok.sorted).mpr ⟨hx, rfl⟩]
          rfl
        unfold extStep
        rw [hfind]
        simp only
        split
        · exact ⟨_, rfl⟩
        · obtain ⟨a, ha⟩ := extRels_total (b := env.build)
            (a := (extSym env st.global_offset_table st.symbols done x).address)
            (rels := (extSym env st.global_offset_table st.symbols done x).rels) (hrel x hx)
            ([], (extSym env st.global_offset_table st.symbols done x).refs)
          rw [ha]
          exact ⟨_, rfl⟩
      obtain ⟨t, ht⟩ := hstep
      rw [List.map_cons, List.foldlM_cons, ht, extStep_closed hok.sorted e ht]
      exact ih (done ++ [x]) (by rw [e]; simp)
  have h2 : st.symbols.map (extSym env st.global_offset_table st.symbols []) = st.symbols := by
    rw [show (extSym env st.global_offset_table st.symbols []) = id from funext (extSym_nil env _ _), List.map_id]
  obtain ⟨t, ht⟩ := key st.symbols [] rfl
  rw [h2] at ht
  rw [ht]
  exact ⟨_, rfl⟩

example : ∃ r, hashExternal exEnv (exExt 0x1000 0x100) = .ok r :=
  C40_total exEnv _ (by decide) (by decide)

/-! C40: what is told apart. -/

theorem flatMap_fixed {α β γ : Type} {f : α → List γ} {g : β → List γ} {n : Nat} (hn : n ≠ 0) {l : List α}
    {l' : List β} (hf : ∀ x ∈ l, (f x).length = n) (hg : ∀ x ∈ l', (g x).length = n)
    (h : l.flatMap f = l'.flatMap g) : Zip (fun x y => f x = g y) l l' := by
  induction l generalizing l' with
  | nil =>
    cases l' with
    | nil => exact .nil
    | cons y l' =>
      have h1 := congrArg List.length h
      rw [List.flatMap_cons, List.length_append, hg y List.mem_cons_self] at h1
      simp at h1
      omega
  | cons x l ih =>
    cases l' with
    | nil =>
      have h1 := congrArg List.length h
      rw [List.flatMap_cons, List.length_append, hf x List.mem_cons_self] at h1
      simp at h1
      omega
    | cons y l' =>
      rw [List.flatMap_cons, List.flatMap_cons] at h
      obtain ⟨h1, h2⟩ := List.append_inj h (by rw [hf x List.mem_cons_self, hg y List.mem_cons_self])
      exact .cons h1 (ih (fun z hz => hf z (List.mem_cons_of_mem _ hz)) (fun z hz => hg z (List.mem_cons_of_mem _ hz)) h2)

/-- What a reference to the contents of a symbol leads to. -/
def IsContent (x : Referent) : Prop := ∃ id type offset, x = .content id type offset

theorem symType_code_inj {a b : SymType} (h : a.code = b.code) : a = b := by
  revert h
  cases a <;> cases b <;> decide

/-- C40: symbols with the same number of relocations, all resolved, and references to contents of symbols only have the
same input of the hash iff the relocations agree relative to the symbols and the references lead to the same. -/
theorem C40_distinguishes (env : Env) (got got' : Addr) (t t' : List Symbol) (ht : SymsOK t) (ht' : SymsOK t')
    (s s' : Symbol) (hlen : s.rels.length = s'.rels.length) (hres : ∀ q ∈ s.rels, q.target ≠ 0)
    (hres' : ∀ q ∈ s'.rels, q.target ≠ 0) (hcont : ∀ ref ∈ s.refs, ∃ x, Refers got t ref x ∧ IsContent x)
    (hcont' : ∀ ref ∈ s'.refs, ∃ x, Refers got' t' ref x ∧ IsContent x) (bytes bytes' : List (BitVec 8))
    (hb : ExternalInput env got t s bytes) (hb' : ExternalInput env got' t' s' bytes') :
    bytes = bytes' ↔ Zip (SameRel s s') s.rels s'.rels ∧
      Zip (fun ref ref' => ∃ x, Refers got t ref x ∧ Refers got' t' ref' x) s.refs s'.refs := by
  obtain ⟨xs, hz, rfl⟩ := hb
  obtain ⟨xs', hz', rfl⟩ := hb'
  have hrl : ∀ (y : Symbol), (∀ q ∈ y.rels, q.target ≠ 0) → ∀ q ∈ y.rels, (extRelBytes y.address q).length = 16 := by
    intro y hy q hq
    unfold extRelBytes
    rw [if_neg (hy q hq), List.append_nil, List.length_append, le64_length, le64_length]
  have hxl : ∀ (g : Addr) (u : List Symbol) (l : List Addr) (ys : List Referent), SymsOK u →
      (∀ ref ∈ l, ∃ x, Refers g u ref x ∧ IsContent x) → Zip (Refers g u) l ys → ∀ y ∈ ys, IsContent y := by
    intro g u l ys hu h1 h2 y hy
    obtain ⟨ref, h3, h4⟩ := (zip_mem h2).2 y hy
    obtain ⟨x, h5, h6⟩ := h1 ref h3
    rw [refers_unique hu h4 h5]
    exact h6
  have hx := hxl got t s.refs xs ht hcont hz
  have hx' := hxl got' t' s'.refs xs' ht' hcont' hz'
  have hcl : ∀ y : Referent, IsContent y → (referentBytes env y).length = 17 := by
    rintro y ⟨i, ty, o, rfl⟩
    simp only [referentBytes, List.length_append, le64_length, List.length_cons, List.length_nil]
  have hfl : (s.rels.flatMap (extRelBytes s.address)).length = (s'.rels.flatMap (extRelBytes s'.address)).length := by
    have hk : ∀ (f : Rel → List (BitVec 8)) (l : List Rel), (∀ q ∈ l, (f q).length = 16) →
        (l.flatMap f).length = 16 * l.length := by
      intro f l hl
      induction l with
      | nil => rfl
      | cons q l ih =>
        rw [List.flatMap_cons, List.length_append, hl q List.mem_cons_self,
          ih (fun z hz => hl z (List.mem_cons_of_mem _ hz)), List.length_cons]
        omega
    rw [hk _ _ (hrl s hres), hk _ _ (hrl s' hres'), hlen]
  constructor
  · intro e
    obtain ⟨e1, e2⟩ := List.append_inj e hfl
    have z1 := flatMap_fixed (by decide) (hrl s hres) (hrl s' hres') e1
    have z2 := flatMap_fixed (by decide) (fun y hy => hcl y (hx y hy)) (fun y hy => hcl y (hx' y hy)) e2
    constructor
    · clear e e1 e2 hfl hlen hz hz' hcont hcont' hx hx' z2
      have hm := hres
      have hm' := hres'
      revert z1
      generalize s.rels = l at hm
      generalize s'.rels = l' at hm'
      intro z1
      induction z1 with
      | nil => exact .nil
      | @cons q q' _ _ hq _ ih =>
        have k1 := hm q List.mem_cons_self
        have k2 := hm' q' List.mem_cons_self
        refine .cons ?_ (ih (fun z hz => hm z (List.mem_cons_of_mem _ hz)) (fun z hz => hm' z (List.mem_cons_of_mem _ hz)))
        unfold extRelBytes at hq
        rw [if_neg k1, if_neg k2, List.append_nil, List.append_nil] at hq
        obtain ⟨h1, h2⟩ := List.append_inj hq (by rw [le64_length, le64_length])
        exact ⟨le64_inj h1, le64_inj h2, ⟨fun h => absurd h k1, fun h => absurd h k2⟩, fun h => absurd h k1⟩
    · have hxs : xs = xs' := by
        clear hz hz' e e1 e2
        induction z2 with
        | nil => rfl
        | @cons y y' _ _ hy _ ih =>
          rw [ih (fun z hz => hx z (List.mem_cons_of_mem _ hz)) (fun z hz => hx' z (List.mem_cons_of_mem _ hz))]
          obtain ⟨i, ty, o, rfl⟩ := hx y List.mem_cons_self
          obtain ⟨i', ty', o', rfl⟩ := hx' y' List.mem_cons_self
          unfold referentBytes at hy
          obtain ⟨h1, h2⟩ := List.append_inj hy (by simp [le64_length])
          obtain ⟨h3, h4⟩ := List.append_inj h1 (by simp [le64_length])
          rw [le64_inj h2, le64_inj h3, symType_code_inj (List.singleton_inj.mp h4)]
      subst hxs
      clear e e1 e2 z1 z2 hcont hcont' hx hx'
      revert hz hz'
      generalize s.refs = l
      generalize s'.refs = l'
      intro hz hz'
      induction hz generalizing l' with
      | nil => cases hz'; exact .nil
      | cons h1 _ ih =>
        cases hz' with
        | cons h2 h3 => exact .cons ⟨_, h1, h2⟩ (ih _ h3)
  · rintro ⟨z1, z2⟩
    congr 1
    · clear hfl hlen hz hz' hcont hcont' hx hx' z2
      have hm := hres
      have hm' := hres'
      revert z1
      generalize s.rels = l at hm
      generalize s'.rels = l' at hm'
      intro z1
      induction z1 with
      | nil => rfl
      | @cons q q' _ _ hq _ ih =>
        rw [List.flatMap_cons, List.flatMap_cons,
          ih (fun z hz => hm z (List.mem_cons_of_mem _ hz)) (fun z hz => hm' z (List.mem_cons_of_mem _ hz))]
        unfold extRelBytes
        rw [if_neg (hm q List.mem_cons_self), if_neg (hm' q' List.mem_cons_self), hq.offset, hq.type]
    · congr 1
      clear z1 hcont hcont' hx hx'
      revert z2 hz hz'
      generalize s.refs = l
      generalize s'.refs = l'
      intro hz hz' z2
      induction z2 generalizing xs xs' with
      | nil => cases hz; cases hz'; rfl
      | cons hq _ ih =>
        cases hz with
        | cons h1 h2 =>
          cases hz' with
          | cons h3 h4 =>
            obtain ⟨x, hx, hx'⟩ := hq
            rw [ih _ _ h2 h4, refers_unique ht h1 hx, refers_unique ht' h3 hx']

/-- References to different offsets are told apart. -/
example (bytes bytes' : List (BitVec 8))
    (hb : ExternalInput exEnv 0 (exExtHashed 0x1000 0x100).symbols { address := 0x1000, refs := [0x1104] } bytes)
    (hb' : ExternalInput exEnv 0 (exExtHashed 0x1000 0x100).symbols { address := 0x1000, refs := [0x1105] } bytes') :
    bytes ≠ bytes' := by
  have h5 : Refers 0 (exExtHashed 0x1000 0x100).symbols 0x1105 (.content 0x77 .object 5) := by
    refine .content (exExtTo 0x1100 [0x1000]) (by decide) ?_ (by decide)
    rintro (⟨h, _⟩ | ⟨_, h, _⟩) <;> exact absurd h (by decide)
  have h4 := exExt_refers.1
  intro e
  have hz := ((C40_distinguishes exEnv 0 0 (exExtHashed 0x1000 0x100).symbols (exExtHashed 0x1000 0x100).symbols
    (by decide) (by decide) { address := 0x1000, refs := [0x1104] } { address := 0x1000, refs := [0x1105] } rfl
    (by decide) (by decide)
    (by intro ref hr; cases List.mem_singleton.mp hr; exact ⟨_, h4, _, _, _, rfl⟩)
    (by intro ref hr; cases List.mem_singleton.mp hr; exact ⟨_, h5, _, _, _, rfl⟩) _ _ hb hb').mp e).2
  cases hz with
  | cons hx _ =>
    obtain ⟨x, h1, h2⟩ := hx
    have := (refers_unique (by decide) h1 h4).symm.trans (refers_unique (by decide) h2 h5)
    injection this with _ _ this
    revert this
    decide

/-! C41: dependencies. -/

theorem mem_depsAfter {got : Addr} {t0 done : SymTree} {z : Symbol} {d : Addr} :
    d ∈ depsAfter got t0 done z ↔
      d ∈ z.deps ∨ ∃ x ∈ done, x.address = d ∧ z.address ∈ depTargets got t0 (allRefs x) := by
  unfold depsAfter
  generalize z.deps = l
  induction done generalizing l with
  | nil => simp
  | cons x done ih =>
    rw [List.foldl_cons, ih]
    by_cases hc : z.address ∈ depTargets got t0 (allRefs x)
    · rw [if_pos hc, mem_hset_add]
      constructor
      · rintro ((h | rfl) | ⟨y, h1, h2⟩)
        · exact Or.inl h
        · exact Or.inr ⟨x, List.mem_cons_self, rfl, hc⟩
        · exact Or.inr ⟨y, List.mem_cons_of_mem _ h1, h2⟩
      · rintro (h | ⟨y, h1, h2, h3⟩)
        · exact Or.inl (Or.inl h)
        · rcases List.mem_cons.mp h1 with rfl | h1
          · exact Or.inl (Or.inr h2.symm)
          · exact Or.inr ⟨y, h1, h2, h3⟩
    · rw [if_neg hc]
      constructor
      · rintro (h | ⟨y, h1, h2⟩)
        · exact Or.inl h
        · exact Or.inr ⟨y, List.mem_cons_of_mem _ h1, h2⟩
      · rintro (h | ⟨y, h1, h2, h3⟩)
        · exact Or.inl h
        · rcases List.mem_cons.mp h1 with rfl | h1
          · exact absurd h3 hc
          · exact Or.inr ⟨y, h1, h2, h3⟩

/-- C41: the dependencies of a symbol are those it had before and the addresses of the symbols with a reference that
leads to its contents. -/
theorem C41_dependencies (env : Env) (st r : AState) (hok : SymsOK st.symbols) (h : hashExternal env st = .ok r)
    (y : Symbol) (hy : y ∈ r.symbols) :
    ∃ y0 ∈ st.symbols, y0.address = y.address ∧ ∀ d, d ∈ y.deps ↔
      d ∈ y0.deps ∨ ∃ x ∈ r.symbols, x.address = d ∧ DependsOn r.global_offset_table r.symbols x y := by
  have f := ext_facts hok h
  obtain ⟨y0, h0, rfl⟩ := (f.mem y).mp hy
  refine ⟨y0, h0, rfl, fun d => ?_⟩
  show d ∈ depsAfter st.global_offset_table st.symbols st.symbols y0 ↔ _
  rw [mem_depsAfter]
  refine or_congr Iff.rfl ?_
  have key : ∀ x0 ∈ st.symbols, y0.address ∈ depTargets st.global_offset_table st.symbols (allRefs x0) ↔
      DependsOn r.global_offset_table r.symbols (extSym env st.global_offset_table st.symbols st.symbols x0)
        (extSym env st.global_offset_table st.symbols st.symbols y0) := by
    intro x0 hx0
    unfold DependsOn depTargets
    rw [extSym_refs hx0, List.mem_filterMap]
    refine exists_congr (fun ref => and_congr Iff.rfl ?_)
    rw [f.got, ← refDep_core, ← floor_core f.core, refDep_core, refDep_iff f.ok]
    constructor
    · rintro ⟨z, h1, h2, h3, h4⟩
      cases f.ok.sorted.inj h1.1 hy h4
      exact ⟨h1, h2, h3⟩
    · rintro ⟨h1, h2, h3⟩
      exact ⟨_, h1, h2, h3, rfl⟩
  constructor
  · rintro ⟨x0, h1, h2, h3⟩
    exact ⟨_, (f.mem _).mpr ⟨x0, h1, rfl⟩, h2, (key x0 h1).mp h3⟩
  · rintro ⟨x, h1, h2, h3⟩
    obtain ⟨x0, h4, rfl⟩ := (f.mem x).mp h1
    exact ⟨x0, h4, h2, (key x0 h4).mpr h3⟩

/-- C41: if no dependencies are known before, each dependency is the address of a symbol, and a symbol `x` is among the
dependencies of `y` iff it depends on it. -/
theorem C41_inverse (env : Env) (st r : AState) (hok : SymsOK st.symbols) (h : hashExternal env st = .ok r)
    (hnone : ∀ s ∈ st.symbols, s.deps = []) :
    DepsLive r.symbols ∧ ∀ x ∈ r.symbols, ∀ y ∈ r.symbols,
      x.address ∈ y.deps ↔ DependsOn r.global_offset_table r.symbols x y := by
  have f := ext_facts hok h
  constructor
  · intro y hy d hd
    obtain ⟨y0, h0, _, h1⟩ := C41_dependencies env st r hok h y hy
    rcases (h1 d).mp hd with h2 | ⟨x, h2, h3, _⟩
    · rw [hnone y0 h0] at h2
      cases h2
    · exact ⟨x, h2, h3⟩
  · intro x hx y hy
    obtain ⟨y0, h0, _, h1⟩ := C41_dependencies env st r hok h y hy
    rw [h1, hnone y0 h0]
    constructor
    · rintro (h2 | ⟨z, h2, h3, h4⟩)
      · cases h2
      · cases f.ok.sorted.inj h2 hx h3
        exact h4
    · intro h2
      exact Or.inr ⟨x, hx, rfl, h2⟩

example : 0x1000 ∈ (exExtTo 0x1100 [0x1000]).deps ↔
    DependsOn 0 (exExtHashed 0x1000 0x100).symbols (exExtFrom 0x1000 0x100 0x4db5813b4ca200d2)
      (exExtTo 0x1100 [0x1000]) :=
  (C41_inverse exEnv _ _ (by decide) exExt_hash (by decide)).2 (exExtFrom 0x1000 0x100 0x4db5813b4ca200d2) (by decide)
    (exExtTo 0x1100 [0x1000]) (by decide)

example : ∃ y0 ∈ (exExt 0x1000 0x100).symbols, y0.address = 0x1100 ∧ ∀ d, d ∈ [0x1000#64] ↔
    d ∈ y0.deps ∨ ∃ x ∈ (exExtHashed 0x1000 0x100).symbols, x.address = d ∧
      DependsOn 0 (exExtHashed 0x1000 0x100).symbols x (exExtTo 0x1100 [0x1000]) :=
  C41_dependencies exEnv _ _ (by decide) exExt_hash (exExtTo 0x1100 [0x1000]) (by decide)

end Bean

import Verif.Lemmas.OffsetIds
import Verif.Props.Reconstruct
/-
C46, C68: identifiers of positions inside of functions.
-/
namespace Bean
open Tree Spec

theorem interesting_setIds (f : Addr → List (Addr × BitVec 64)) (symbols : SymTree) (t : Addr) :
    Interesting (symbols.map (setIds f)) t ↔ Interesting symbols t := by
  unfold Interesting
  constructor
  · rintro ⟨s, hs, h⟩
    obtain ⟨s0, h0, rfl⟩ := List.mem_map.mp hs
    exact ⟨s0, h0, h⟩
  · rintro ⟨s, hs, h⟩
    exact ⟨setIds f s, List.mem_map_of_mem hs, h⟩

/-- The targets of an iteration that processes the code of `s`. -/
theorem bodyTodo {st : AState} {t : Addr} {rest todo : List Addr} {s : Symbol} (hfl : Tree.floor st.symbols t = some s)
    (hs : Sorted (t :: rest))
    (h : (t = s.address ∧ todo = rest) ∨ (t ≠ s.address ∧ todo = t :: rest)) :
    Sorted todo ∧ (∀ u ∈ todo, u ∈ t :: rest ∧ s.address < u) ∧ (∀ u ∈ t :: rest, s.address < u → u ∈ todo) := by
  have hle : s.address ≤ t := floor_le hfl
  have hr : ∀ u ∈ rest, t < u := fun u hu => (List.pairwise_cons.mp hs).1 u hu
  rcases h with ⟨h1, rfl⟩ | ⟨h1, rfl⟩
  · refine ⟨hs.tail, fun u hu => ⟨List.mem_cons_of_mem _ hu, h1 ▸ hr u hu⟩, fun u hu h2 => ?_⟩
    rcases List.mem_cons.mp hu with rfl | hu
    · rw [h1] at h2; exact absurd h2 (by simp)
    · exact hu
  · refine ⟨hs, fun u hu => ⟨hu, ?_⟩, fun u hu _ => hu⟩
    rcases List.mem_cons.mp hu with rfl | hu
    · bv_omega
    · have := hr u hu
      bv_omega

theorem CodeAt.unique {env : Env} {st : AState} {s : Symbol} {l l' : List Step} (h : CodeAt env st s l)
    (h' : CodeAt env st s l') : l = l' := by
  obtain ⟨sec, bytes, h1, h2, rfl⟩ := h.code
  obtain ⟨sec', bytes', h1', h2', rfl⟩ := h'.code
  rw [h1] at h1'
  cases h1'
  rw [h2] at h2'
  cases h2'
  rfl

theorem CodeAt.codeOf {env : Env} {st : AState} {s : Symbol} {steps : List Step} (h : CodeAt env st s steps)
    (ht : TLS.is_tls s.address = false) : CodeOf env st s steps := by
  unfold CodeOf
  rw [TLS.virt_of_regular ht]
  exact h.code

theorem not_before {env : Env} {st : AState} {s : Symbol} {steps : List Step} (hc : CodeAt env st s steps)
    (hw : s.address.toNat + s.size.toNat < 2 ^ 64) {u : Addr} (hu : s.address.toNat + s.size.toNat ≤ u.toNat) :
    ¬ Before env steps u := by
  rintro ⟨x, hx, _, h⟩
  have := ((hc.ends hw).2 x hx).2
  rw [BitVec.lt_def] at h
  omega

/-! ### C46 -/

/-- What is recorded so far for `s`. -/
structure Sound (env : Env) (st : AState) (s : Symbol) (f : Addr → List (Addr × BitVec 64)) (todo : List Addr) : Prop where
  sorted : Sorted todo
  todo : ∀ u ∈ todo, Interesting st.symbols u
  ids : ∀ o v, HMap.find (f s.address) o = some v → ∃ t, Interesting st.symbols t ∧ s.address < t ∧ o = t - s.address ∧
    s.sec.executable = true ∧ ∃ steps, CodeAt env st s steps ∧ Before env steps t ∧
      v = env.xxhash (codeUpTo env st.symbols s t 0 steps)

theorem sound_step {env : Env} {st : AState} (hok : SymsOK st.symbols) {s : Symbol} (hs : s ∈ st.symbols) (hw : NoWrap s)
    (f : Addr → List (Addr × BitVec 64)) (t : Addr) (rest : List Addr) (f' : Addr → List (Addr × BitVec 64))
    (todo' : List Addr) (h : Sound env st s f (t :: rest)) (hb : BodyAs env st f t rest f' todo') :
    Sound env st s f' todo' := by
  have hsub := (bodyAs_sublist hb).1
  have h1 : Sorted todo' := h.sorted.tail.sublist hsub
  have h2 : ∀ u ∈ todo', Interesting st.symbols u := fun u hu => h.todo u (List.mem_cons_of_mem _ (hsub.subset hu))
  refine ⟨h1, h2, ?_⟩
  cases hb with
  | none => exact h.ids
  | skip => exact h.ids
  | dataStart => exact h.ids
  | data => exact h.ids
  | code p todo l hfl hx ht hne hl _ =>
    intro o v hv
    unfold updIds at hv
    by_cases he : s.address = p.address
    · have hp : p = s := hok.sorted.inj (floor_mem hfl) hs he.symm
      subst hp
      rw [if_pos rfl] at hv
      obtain ⟨b1, b2, _⟩ := bodyTodo hfl h.sorted ht
      obtain ⟨steps, c1, _, c3⟩ := offsetSymbol_ok hw (hok.rels p hs) b1 hl
      have e : o = (o + p.address) - p.address := by bv_omega
      rw [e, c3 (o + p.address)] at hv
      rw [← e] at hv
      cases hold : HMap.find (f p.address) o with
      | some w =>
        rw [hold] at hv
        exact h.ids o v (by rw [hold]; exact hv)
      | none =>
        rw [hold] at hv
        by_cases hcond : o + p.address ∈ todo ∧ Before env steps (o + p.address)
        · rw [if_pos hcond] at hv
          have := b2 _ hcond.1
          exact ⟨o + p.address, h.todo _ this.1, this.2, e, hx, steps, c1, hcond.2, (Option.some.inj hv).symm⟩
        · rw [if_neg hcond] at hv
          cases hv
    · rw [if_neg he] at hv
      exact h.ids o v hv

/-- C46: every recorded identifier belongs to an address inside of a function that relocations make interesting, and it is
determined by the code in front of this address. -/
theorem C46_identifiers (env : Env) (st st' : AState) (hok : SymsOK st.symbols) (hnew : ∀ s ∈ st.symbols, s.offset_ids = [])
    (h : functionOffsets env st = .ok st') (s : Symbol) (hs : s ∈ st'.symbols) (hw : NoWrap s)
    (ht : TLS.is_tls s.address = false) (o : Addr) (v : BitVec 64) (hv : HMap.find s.offset_ids o = some v) :
    ∃ t, Interesting st'.symbols t ∧ s.address < t ∧ o = t - s.address ∧ s.sec.executable = true ∧
      ∃ steps, CodeOf env st' s steps ∧ Before env steps t ∧ v = env.xxhash (codeUpTo env st'.symbols s t 0 steps) := by
  -- the state without identifiers
  obtain ⟨f0, e0, _⟩ := functionOffsets_inv hnew (fun _ _ => True) (fun _ _ _ _ _ _ _ => trivial) trivial h
  rw [e0] at hs
  obtain ⟨s0, hs0, rfl⟩ := List.mem_map.mp hs
  obtain ⟨f, e1, hP⟩ := functionOffsets_inv hnew (Sound env st s0) (sound_step hok hs0 hw)
    ⟨sorted_ofList _, fun u hu => mem_relTargets.mp hu, fun o v hv => by cases hv⟩ h
  have hf : f s0.address = f0 s0.address := by
    have e2 : st.symbols.map (setIds f0) = st.symbols.map (setIds f) := by
      rw [e0] at e1
      exact congrArg AState.symbols e1
    have := List.map_inj_left.mp e2 s0 hs0
    exact (congrArg Symbol.offset_ids this).symm
  obtain ⟨t, h1, h2, h3, h4, steps, h5, h6, h7⟩ := hP.ids o v (by rw [hf]; exact hv)
  refine ⟨t, ?_, h2, h3, h4, steps, ?_, h6, ?_⟩
  · rw [e0]; exact (interesting_setIds _ _ _).mpr h1
  · rw [e0]; exact h5.codeOf ht
  · rw [e0, codeUpTo_setIds]; exact h7

/-- The phases of the targets of `s`: not reached yet, reached without the start, recorded. -/
inductive Phase (env : Env) (st : AState) (s : Symbol) (steps : List Step) (f : Addr → List (Addr × BitVec 64))
    (todo : List Addr) : Prop
  | ahead : (∀ u, Interesting st.symbols u → s.address ≤ u → u ∈ todo) → Phase env st s steps f todo
  | started : (∀ u, Interesting st.symbols u → s.address < u → u ∈ todo) → (∀ u ∈ todo, s.address < u) →
      Phase env st s steps f todo
  | done : (∀ u, Interesting st.symbols u → s.address < u → Before env steps u →
      ∃ v, HMap.find (f s.address) (u - s.address) = some v) → Phase env st s steps f todo

theorem sorted_head_le {t : Addr} {l : List Addr} (h : Sorted (t :: l)) {u : Addr} (hu : u ∈ t :: l) : t ≤ u := by
  rcases List.mem_cons.mp hu with rfl | hu
  · exact BitVec.le_refl _
  · have := (List.pairwise_cons.mp h).1 u hu
    exact BitVec.le_of_lt this

theorem phase_step {env : Env} {st : AState} (hok : SymsOK st.symbols) (hdis : Disjoint st.symbols) {s : Symbol}
    (hs : s ∈ st.symbols) (hw : NoWrap s) (hx : s.sec.executable = true) {steps : List Step} (hc : CodeAt env st s steps)
    (hstart : Interesting st.symbols s.address)
    (f : Addr → List (Addr × BitVec 64)) (t : Addr) (rest : List Addr) (f' : Addr → List (Addr × BitVec 64))
    (todo' : List Addr) (h : Sorted (t :: rest) ∧ Phase env st s steps f (t :: rest))
    (hb : BodyAs env st f t rest f' todo') : Sorted todo' ∧ Phase env st s steps f' todo' := by
  obtain ⟨hsort, hph⟩ := h
  have hsub := (bodyAs_sublist hb).1
  have hsort' : Sorted todo' := hsort.tail.sublist hsub
  have hr : ∀ u ∈ rest, t < u := fun u hu => (List.pairwise_cons.mp hsort).1 u hu
  refine ⟨hsort', ?_⟩
  -- the code of `s` itself
  have hown : ∀ (todo : List Addr) (l : OffLoop), Tree.floor st.symbols t = some s →
      ((t = s.address ∧ todo = rest) ∨ (t ≠ s.address ∧ todo = t :: rest)) →
      offsetSymbol env st (st.symbols.map (setIds f)) (setIds f s) todo = .ok l →
      (∀ u, Interesting st.symbols u → s.address < u → u ∈ t :: rest) →
      Phase env st s steps (updIds f s.address l.ids) l.todo.tail := by
    intro todo l hfl ht hl hall
    obtain ⟨b1, _, b3⟩ := bodyTodo hfl hsort ht
    obtain ⟨steps', c1, _, c3⟩ := offsetSymbol_ok hw (hok.rels s hs) b1 hl
    have := hc.unique c1
    subst this
    refine .done (fun u hu h1 h2 => ?_)
    unfold updIds
    rw [if_pos rfl, c3 u, if_pos ⟨b3 u (hall u hu h1) h1, h2⟩]
    cases HMap.find (f s.address) (u - s.address) with
    | none => exact ⟨_, rfl⟩
    | some w => exact ⟨w, rfl⟩
  -- identifiers stay
  have hkeep : (∀ u, Interesting st.symbols u → s.address < u → Before env steps u →
      ∃ v, HMap.find (f s.address) (u - s.address) = some v) → Phase env st s steps f' todo' := by
    intro hd
    refine .done (fun u hu h1 h2 => ?_)
    obtain ⟨v, hv⟩ := hd u hu h1 h2
    cases hb with
    | none => exact ⟨v, hv⟩
    | skip => exact ⟨v, hv⟩
    | dataStart => exact ⟨v, hv⟩
    | data => exact ⟨v, hv⟩
    | code p todo l hfl _ ht _ hl _ =>
      unfold updIds
      by_cases he : s.address = p.address
      · have hp : p = s := hok.sorted.inj (floor_mem hfl) hs he.symm
        subst hp
        obtain ⟨b1, _, _⟩ := bodyTodo hfl hsort ht
        obtain ⟨steps', _, _, c3⟩ := offsetSymbol_ok hw (hok.rels p hs) b1 hl
        rw [if_pos rfl, c3 u, hv]
        exact ⟨v, rfl⟩
      · rw [if_neg he]
        exact ⟨v, hv⟩
  cases hph with
  | done hd => exact hkeep hd
  | started h1 h2 =>
    have hgt := h2 t List.mem_cons_self
    by_cases hend : t.toNat < s.address.toNat + s.size.toNat
    · have hfl : Tree.floor st.symbols t = some s := by
        refine (floor_eq_some_iff hok.sorted).mpr ⟨hs, BitVec.le_of_lt hgt, fun y hy hle => ?_⟩
        by_cases hlt : s.address.toNat < y.address.toNat
        · have := hdis s hs y hy hlt
          have hle' : y.address.toNat ≤ t.toNat := hle
          omega
        · show y.address ≤ s.address
          rw [BitVec.le_def]; omega
      cases hb with
      | none hn => rw [hfl] at hn; cases hn
      | skip p hp he => rw [hfl] at hp; cases hp; rw [he] at hgt; exact absurd hgt (by simp)
      | dataStart p _ _ hp he => rw [hfl] at hp; cases hp; rw [he] at hgt; exact absurd hgt (by simp)
      | data p hp _ hnx => rw [hfl] at hp; cases hp; rw [hx] at hnx; cases hnx
      | code p todo l hp _ ht _ hl _ =>
        rw [hfl] at hp
        cases hp
        exact hown todo l hfl ht hl h1
    · refine hkeep (fun u hu hlt hbef => ?_)
      have := sorted_head_le hsort (h1 u hu hlt)
      rw [BitVec.le_def] at this
      exact absurd hbef (not_before hc hw (by omega))
  | ahead h1 =>
    have hin := h1 s.address hstart (BitVec.le_refl _)
    have hle := sorted_head_le hsort hin
    by_cases heq : t = s.address
    · have hfl : Tree.floor st.symbols t = some s := by
        refine (floor_eq_some_iff hok.sorted).mpr ⟨hs, ?_, fun y hy hle => ?_⟩
        · rw [heq]; exact BitVec.le_refl _
        · rw [heq] at hle; exact hle
      have hall : ∀ u, Interesting st.symbols u → s.address < u → u ∈ rest := by
        intro u hu hlt
        rcases List.mem_cons.mp (h1 u hu (BitVec.le_of_lt hlt)) with h2 | h2
        · rw [h2, heq] at hlt; exact absurd hlt (by simp)
        · exact h2
      cases hb with
      | none hn => rw [hfl] at hn; cases hn
      | skip p hp he =>
        exact .started hall (fun u hu => by rw [← heq]; exact hr u hu)
      | dataStart p _ _ hp he hnx => rw [hfl] at hp; cases hp; rw [hx] at hnx; cases hnx
      | data p hp _ hnx => rw [hfl] at hp; cases hp; rw [hx] at hnx; cases hnx
      | code p todo l hp _ ht _ hl _ =>
        rw [hfl] at hp
        cases hp
        exact hown todo l hfl ht hl (fun u hu hlt => List.mem_cons_of_mem _ (hall u hu hlt))
    · have hlt : t < s.address := by bv_omega
      have hrest : ∀ u, Interesting st.symbols u → s.address ≤ u → u ∈ rest := by
        intro u hu hle
        rcases List.mem_cons.mp (h1 u hu hle) with h2 | h2
        · rw [h2] at hle; exact absurd hle (bv_not_le.mpr hlt)
        · exact h2
      have hother : ∀ p, Tree.floor st.symbols t = some p →
          p.address ≠ s.address ∧ p ∈ st.symbols ∧ p.address.toNat + p.size.toNat ≤ s.address.toNat := by
        intro p hp
        have h3 : p.address ≤ t := floor_le hp
        have h4 : p.address.toNat < s.address.toNat := by
          rw [BitVec.le_def] at h3; rw [BitVec.lt_def] at hlt; omega
        exact ⟨fun e => by rw [e] at h4; omega, floor_mem hp, hdis p (floor_mem hp) s hs h4⟩
      cases hb with
      | none => exact .ahead hrest
      | skip => exact .ahead hrest
      | data => exact .ahead hrest
      | dataStart p n later hp he hnx hrl hn =>
        refine .ahead (fun u hu hle => ?_)
        have := hrest u hu hle
        rw [hrl] at this
        rcases List.mem_cons.mp this with h2 | h2
        · obtain ⟨_, _, h5⟩ := hother p hp
          have h6 : (p.address + p.size).toNat = p.address.toNat + p.size.toNat := by
            rw [BitVec.toNat_add]; exact Nat.mod_eq_of_lt (by have := s.address.isLt; omega)
          rw [h2, BitVec.le_def] at hle
          rw [BitVec.lt_def, h6] at hn
          omega
        · exact h2
      | code p todo l hp _ ht _ hl hsl =>
        obtain ⟨h3, h4, h5⟩ := hother p hp
        have hwp : NoWrap p := by unfold NoWrap; have := s.address.isLt; omega
        obtain ⟨b1, _, b3⟩ := bodyTodo hp hsort ht
        obtain ⟨steps', c1, c2, _⟩ := offsetSymbol_ok hwp (hok.rels p h4) b1 hl
        have hpl : p.address < s.address := by
          have h6 : p.address ≤ t := floor_le hp
          rw [BitVec.lt_def] at hlt ⊢; rw [BitVec.le_def] at h6; omega
        have hmem : ∀ u, Interesting st.symbols u → s.address ≤ u → u ∈ l.todo := by
          intro u hu hle
          rw [c2]
          refine ⟨b3 u (h1 u hu hle) ?_, not_before c1 hwp ?_⟩
          · rw [BitVec.lt_def] at hpl ⊢; rw [BitVec.le_def] at hle; omega
          · rw [BitVec.le_def] at hle; omega
        have hls : Sorted l.todo := by
          exact b1.sublist hsl
        cases hlt' : l.todo with
        | nil =>
          have := hmem s.address hstart (BitVec.le_refl _)
          rw [hlt'] at this
          cases this
        | cons m ms =>
          rw [hlt'] at hmem hls
          have hm := sorted_head_le hls (hmem s.address hstart (BitVec.le_refl _))
          show Phase env st s steps _ ms
          by_cases hms : m = s.address
          · refine .started (fun u hu hlt => ?_) (fun u hu => ?_)
            · rcases List.mem_cons.mp (hmem u hu (BitVec.le_of_lt hlt)) with h2 | h2
              · rw [h2, hms] at hlt; exact absurd hlt (by simp)
              · exact h2
            · rw [← hms]; exact (List.pairwise_cons.mp hls).1 u hu
          · refine .ahead (fun u hu hle => ?_)
            rcases List.mem_cons.mp (hmem u hu hle) with h2 | h2
            · rw [h2] at hle; bv_omega
            · exact h2

/-- C46, partial: if something refers to the start of a function, then every address inside of it that relocations make
interesting has an identifier (up to the last instruction other than NOP). Missing are functions without reference to their
start, see `C46_counterexample`. -/
theorem C46_recorded_partial (env : Env) (st st' : AState) (hok : SymsOK st.symbols)
    (hnew : ∀ s ∈ st.symbols, s.offset_ids = []) (hdis : Disjoint st.symbols)
    (h : functionOffsets env st = .ok st') (s : Symbol) (hs : s ∈ st'.symbols) (hw : NoWrap s)
    (hx : s.sec.executable = true) (ht : TLS.is_tls s.address = false) (hstart : Interesting st'.symbols s.address)
    (steps : List Step) (hc : CodeOf env st' s steps) (t : Addr) (hi : Interesting st'.symbols t) (hlt : s.address < t)
    (hb : Before env steps t) :
    HMap.find s.offset_ids (t - s.address) = some (env.xxhash (codeUpTo env st'.symbols s t 0 steps)) := by
  obtain ⟨f0, e0, _⟩ := functionOffsets_inv hnew (fun _ _ => True) (fun _ _ _ _ _ _ _ => trivial) trivial h
  have hs' := hs
  rw [e0] at hs
  obtain ⟨s0, hs0, rfl⟩ := List.mem_map.mp hs
  rw [e0] at hstart hi hc
  have hc0 : CodeAt env st s0 steps := codeAt_of hc ht
  have hstart0 := (interesting_setIds _ _ _).mp hstart
  have hi0 := (interesting_setIds _ _ _).mp hi
  obtain ⟨f, e1, _, hP⟩ := functionOffsets_inv hnew (fun f todo => Sorted todo ∧ Phase env st s0 steps f todo)
    (phase_step hok hdis hs0 hw hx hc0 hstart0)
    ⟨sorted_ofList _, .ahead (fun u hu _ => mem_relTargets.mpr hu)⟩ h
  have hf : f s0.address = f0 s0.address := by
    have e2 : st.symbols.map (setIds f0) = st.symbols.map (setIds f) := by
      rw [e0] at e1
      exact congrArg AState.symbols e1
    have := List.map_inj_left.mp e2 s0 hs0
    exact (congrArg Symbol.offset_ids this).symm
  have hex : ∃ v, HMap.find (f s0.address) (t - s0.address) = some v := by
    cases hP with
    | ahead h1 => cases h1 _ hstart0 (BitVec.le_refl _)
    | started h1 _ => cases h1 t hi0 hlt
    | done h1 => exact h1 t hi0 hlt hb
  obtain ⟨v, hv⟩ := hex
  rw [hf] at hv
  obtain ⟨t', _, _, h3, _, steps', h5, _, h7⟩ := C46_identifiers env st st' hok hnew h _ hs' hw ht _ v hv
  have et : t' = t := by
    have h3' : t - s0.address = t' - s0.address := h3
    bv_omega
  subst et
  have hc' : CodeAt env st s0 steps' := by
    rw [e0] at h5
    exact codeAt_of h5 ht
  have := hc0.unique hc'
  subst this
  show HMap.find (f0 s0.address) (t' - s0.address) = _
  rw [hv, h7]

/-! ### C68 -/

theorem sameDist_lt {s u : Symbol} {a b a' b' : Addr} (h : SameDist s u a b) (h' : SameDist s u a' b') :
    a < a' ↔ b < b' := by
  obtain ⟨h1, h2, h3⟩ := h
  obtain ⟨h1', h2', h3'⟩ := h'
  rw [BitVec.lt_def, BitVec.lt_def]
  omega

theorem sameDist_le {s u : Symbol} {a b a' b' : Addr} (h : SameDist s u a b) (h' : SameDist s u a' b') :
    a ≤ a' ↔ b ≤ b' := by
  obtain ⟨h1, h2, h3⟩ := h
  obtain ⟨h1', h2', h3'⟩ := h'
  rw [BitVec.le_def, BitVec.le_def]
  omega

theorem sameDist_sub {s u : Symbol} {a b : Addr} (h : SameDist s u a b) : a - s.address = b - u.address := by
  obtain ⟨h1, h2, h3⟩ := h
  bv_omega

theorem relBytes_same {env : Env} {symbols symbols' : SymTree} {s u : Symbol} {r q : Rel}
    (h : SameRef symbols s symbols' u r q) : relBytes env symbols s r = relBytes env symbols' u q := by
  unfold relBytes
  cases h with
  | «import» h1 h2 h3 h4 => rw [if_pos h1, if_pos h2, h3, h4]
  | own h1 h2 h3 h4 h5 =>
    have c1 : s.address.toNat ≤ r.target.toNat ∧ r.target.toNat < s.address.toNat + s.size.toNat := h3
    have c2 : u.address.toNat ≤ q.target.toNat ∧ q.target.toNat < u.address.toNat + u.size.toNat := h4
    rw [if_neg h1, if_neg h2, if_pos c1, if_pos c2, sameDist_sub h5]
  | other y z h1 h2 h3 h4 h5 h6 h7 h8 =>
    have c1 : ¬ (s.address.toNat ≤ r.target.toNat ∧ r.target.toNat < s.address.toNat + s.size.toNat) := h3
    have c2 : ¬ (u.address.toNat ≤ q.target.toNat ∧ q.target.toNat < u.address.toNat + u.size.toNat) := h4
    rw [if_neg h1, if_neg h2, if_neg c1, if_neg c2, h5, h6]
    simp only [h7, h8]

theorem relsBytes_same {env : Env} {symbols symbols' : SymTree} {s u : Symbol} {l l' : List Rel}
    (h : SameRels symbols s symbols' u l l') {prev prev' : Addr}
    (hp : ∀ a b, SameDist s u a b → (prev ≤ a ↔ prev' ≤ b)) {to to' : Addr} (hto : SameDist s u to to') :
    (l.filter (fun r => decide (prev ≤ r.offset ∧ r.offset < to))).flatMap (relBytes env symbols s) =
      (l'.filter (fun r => decide (prev' ≤ r.offset ∧ r.offset < to'))).flatMap (relBytes env symbols' u) := by
  induction h with
  | nil => rfl
  | @cons r q l l' h1 h2 _ ih =>
    have hiff : (prev ≤ r.offset ∧ r.offset < to) ↔ (prev' ≤ q.offset ∧ q.offset < to') := by
      rw [hp _ _ h1, sameDist_lt h1 hto]
    by_cases hc : prev ≤ r.offset ∧ r.offset < to
    · simp only [List.filter_cons, hc, hiff.mp hc, and_self, decide_true, if_true, List.flatMap_cons, ih, relBytes_same h2]
    · have hc' : ¬ (prev' ≤ q.offset ∧ q.offset < to') := fun x => hc (hiff.mpr x)
      simp only [List.filter_cons, hc, hc', decide_false, Bool.false_eq_true, if_false, ih]

theorem codeUpTo_same {env : Env} {symbols symbols' : SymTree} {s u : Symbol} {l l' : List Step}
    (h : SameSteps env s u l l') (hr : SameRels symbols s symbols' u s.rels u.rels) {t t' : Addr} (ht : SameDist s u t t')
    {prev prev' : Addr} (hp : ∀ a b, SameDist s u a b → (prev ≤ a ↔ prev' ≤ b)) :
    codeUpTo env symbols s t prev l = codeUpTo env symbols' u t' prev' l' := by
  induction h generalizing prev prev' with
  | nil => rfl
  | @cons x y l l' h1 h2 h3 h4 h5 _ ih =>
    unfold codeUpTo
    rw [← h1]
    by_cases hn : env.kind x.insn.id = .nop
    · rw [if_pos hn, if_pos hn]
      exact ih hp
    · rw [if_neg hn, if_neg hn]
      by_cases hlt : t < x.address
      · rw [if_pos hlt, if_pos ((sameDist_lt ht h5).mp hlt)]
      · rw [if_neg hlt, if_neg (fun c => hlt ((sameDist_lt ht h5).mpr c)), ih (fun a b hab => sameDist_le h5 hab)]
        congr 1
        unfold positionBytes
        rw [relsBytes_same hr hp h5, ← h1, h2, h3]
        rw [← h1] at h4
        have : x.insn.ops.flatMap (plainOperand (env.kind x.insn.id)) = y.insn.ops.flatMap (plainOperand (env.kind x.insn.id)) := by
          rw [List.flatMap_def, List.flatMap_def, h4]
        rw [this]

/-- C68: identifiers of positions do not depend on the location of the code: in functions with the same instructions and the
same references, positions with the same distance from the start have the same identifier. -/
theorem C68_position_independent (env : Env) (st1 st1' st2 st2' : AState) (hok1 : SymsOK st1.symbols)
    (hok2 : SymsOK st2.symbols) (hnew1 : ∀ s ∈ st1.symbols, s.offset_ids = []) (hnew2 : ∀ s ∈ st2.symbols, s.offset_ids = [])
    (h1 : functionOffsets env st1 = .ok st1') (h2 : functionOffsets env st2 = .ok st2')
    (s : Symbol) (hs : s ∈ st1'.symbols) (u : Symbol) (hu : u ∈ st2'.symbols) (hws : NoWrap s) (hwu : NoWrap u)
    (hts : TLS.is_tls s.address = false) (htu : TLS.is_tls u.address = false)
    (l l' : List Step) (hl : CodeOf env st1' s l) (hl' : CodeOf env st2' u l') (hsteps : SameSteps env s u l l')
    (hrels : SameRels st1'.symbols s st2'.symbols u s.rels u.rels)
    (o : Addr) (v w : BitVec 64) (hv : HMap.find s.offset_ids o = some v) (hw : HMap.find u.offset_ids o = some w) :
    v = w := by
  obtain ⟨t, _, a2, a3, _, c, a4, _, a5⟩ := C46_identifiers env st1 st1' hok1 hnew1 h1 s hs hws hts o v hv
  obtain ⟨t', _, b2, b3, _, c', b4, _, b5⟩ := C46_identifiers env st2 st2' hok2 hnew2 h2 u hu hwu htu o w hw
  have e := (codeAt_of hl hts).unique (codeAt_of a4 hts)
  have e' := (codeAt_of hl' htu).unique (codeAt_of b4 htu)
  subst e
  subst e'
  rw [a5, b5]
  congr 1
  refine codeUpTo_same hsteps hrels ?_ (fun a b hab => ?_)
  · rw [a3] at b3
    refine ⟨Nat.le_of_lt a2, Nat.le_of_lt b2, ?_⟩
    bv_omega
  · constructor <;> intro _ <;> bv_omega

/-! ### Examples -/

instance (t : List Symbol) : Decidable (Disjoint t) := by unfold Disjoint; infer_instance

/-- The function main with the identifier of its jump. -/
def oexMain : Symbol := { rexMain with offset_ids := [(0xa, 0x07f2ea1270829928)] }

/-- The file of the examples for reconstructed relocations with identifiers of positions. -/
def oexFile' : AState := { rexFile' with symbols := oexMain :: rexFile'.symbols.tail }

theorem oexFile_ok : functionOffsets rexEnv rexFile' = .ok oexFile' := by
  exact ok_of_decide (by decide +kernel)

theorem oexMain_code : CodeOf rexEnv oexFile' oexMain rexSteps :=
  ⟨rexText rexCode, rexCode.take 16, by decide +kernel, by rfl, rfl⟩

theorem oex_interesting : Interesting oexFile'.symbols 0x1000 ∧ Interesting oexFile'.symbols 0x100a :=
  ⟨⟨oexMain, by decide, rexRel 0x100b R_X86_64_PC8 "main" (-1) 0x1000 0x1c, by decide, Or.inl rfl⟩,
   ⟨oexMain, by decide, rexRel 0x100b R_X86_64_PC8 "main" (-1) 0x1000 0x1c, by decide, Or.inr (by decide)⟩⟩

/-- The identifier of the jump in main covers the call and the load in front of it. -/
example : ∃ t, Interesting oexFile'.symbols t ∧ 0x1000 < t ∧ 0xa = t - 0x1000 ∧ oexMain.sec.executable = true ∧
    ∃ steps, CodeOf rexEnv oexFile' oexMain steps ∧ Before rexEnv steps t ∧
      0x07f2ea1270829928 = rexEnv.xxhash (codeUpTo rexEnv oexFile'.symbols oexMain t 0 steps) :=
  C46_identifiers rexEnv rexFile' oexFile' (by decide) (by decide) oexFile_ok oexMain (by decide)
    (Nat.le_of_ble_eq_true rfl) (by decide) 0xa _ rfl

example : HMap.find oexMain.offset_ids (0x100a - 0x1000) =
    some (rexEnv.xxhash (codeUpTo rexEnv oexFile'.symbols oexMain 0x100a 0 rexSteps)) :=
  C46_recorded_partial rexEnv rexFile' oexFile' (by decide) (by decide) (by decide) oexFile_ok oexMain (by decide)
    (Nat.le_of_ble_eq_true rfl) rfl (by decide) oex_interesting.1 rexSteps oexMain_code 0x100a oex_interesting.2 (by decide)
    (by decide +kernel)

/-- The functions f and g consist of two instructions each; main calls the second one of both. -/
def oexSkip : AState where
  sections := [rexText [0xc3, 0xc3, 0xc3, 0xc3, 0xe8, 0xf8, 0xff, 0xff, 0xff, 0xe8, 0xf5, 0xff, 0xff, 0xff, 0xc3]]
  symbols := [rexSym 0x1000 "f", rexSym 0x1002 "g", rexSym 0x1004 "main"]

/-- Symbol of this file after the reconstruction. -/
def oexSkipSym (a : Addr) (name : String) (size : Addr) (rels : List Rel) : Symbol :=
  rexDone (rexSym a name) size (rexText [0xc3, 0xc3, 0xc3, 0xc3, 0xe8, 0xf8, 0xff, 0xff, 0xff, 0xe8, 0xf5, 0xff, 0xff, 0xff, 0xc3]) rels

/-- The relocations of the two calls. -/
def oexSkipRels : List Rel :=
  [rexRel 0x1005 R_X86_64_PC32 "f" (-3) 0x1001 0x04, rexRel 0x100a R_X86_64_PC32 "g" (-3) 0x1003 0x04]

/-- The file after the reconstruction. -/
def oexSkip' : AState := { oexSkip with symbols :=
  [oexSkipSym 0x1000 "f" 2 [], oexSkipSym 0x1002 "g" 2 [], oexSkipSym 0x1004 "main" 11 oexSkipRels] }

theorem oexSkip_recon : reconstruct rexEnv oexSkip = .ok oexSkip' := by
  exact ok_of_decide (by decide +kernel)

/-- The same file with identifiers of positions. -/
def oexSkip'' : AState := { oexSkip with symbols :=
  [{ oexSkipSym 0x1000 "f" 2 [] with offset_ids := [(1, 0x0c1cabdf)] }, oexSkipSym 0x1002 "g" 2 [],
   oexSkipSym 0x1004 "main" 11 oexSkipRels] }

theorem oexSkip_ok : functionOffsets rexEnv oexSkip' = .ok oexSkip'' := by
  exact ok_of_decide (by decide +kernel)

/-- C46 does not hold without a reference to the start of the function: the first target behind a function that has been
processed is skipped (line 1066), and the only target in the second function gets no identifier. -/
theorem C46_counterexample : ∃ (env : Env) (st st1 st' : AState) (s : Symbol) (t : Addr) (steps : List Step),
    reconstruct env st = .ok st1 ∧ functionOffsets env st1 = .ok st' ∧ SymsOK st1.symbols ∧ Disjoint st1.symbols ∧
    s ∈ st'.symbols ∧ s.sec.executable = true ∧ CodeOf env st' s steps ∧
    Interesting st'.symbols t ∧ s.address < t ∧ Before env steps t ∧ HMap.find s.offset_ids (t - s.address) = none := by
  refine ⟨rexEnv, oexSkip, oexSkip', oexSkip'', oexSkipSym 0x1002 "g" 2 [], 0x1003, disasm rexEnv 0x1002 [0xc3, 0xc3],
    oexSkip_recon, oexSkip_ok, by decide, by decide, by decide, rfl, ?_, ?_, by decide, by decide +kernel, rfl⟩
  · exact ⟨_, [0xc3, 0xc3], rfl, by rfl, rfl⟩
  · exact ⟨oexSkipSym 0x1004 "main" 11 oexSkipRels, by decide, rexRel 0x100a R_X86_64_PC32 "g" (-3) 0x1003 0x04, by decide,
      Or.inl rfl⟩

/-- The code of the first file at another address. -/
def oexText : ElfSec := { rexText rexCode with virt_addr := 0x5000 }

/-- The function main at another address. -/
def oexMoved : Symbol := rexDone (rexSym 0x5000 "main") 16 oexText
  [rexRel 0x5001 R_X86_64_PC32 "f" (-4) 0x5010 0x04, rexRel 0x5006 R_X86_64_PC32 "v" (-4) 0x6000 0x01,
   rexRel 0x500b R_X86_64_PC8 "main" (-1) 0x5000 0x1c]

/-- The other symbols. -/
def oexMovedRest : List Symbol :=
  [rexDone (rexSym 0x5010 "f") 1 oexText [], rexDone (rexSym 0x6000 "v") 8 (rexData ".data") []]

/-- The first file at another address. -/
def oexMovedFile : AState where
  sections := [oexText, { rexData ".data" with virt_addr := 0x6000 }]
  symbols := oexMoved :: oexMovedRest

/-- Main at another address with identifiers. -/
def oexMoved' : Symbol := { oexMoved with offset_ids := [(0xa, 0x07f2ea1270829928)] }

theorem oexMoved_ok : functionOffsets rexEnv oexMovedFile =
    .ok { oexMovedFile with symbols := oexMoved' :: oexMovedRest } := by
  exact ok_of_decide (by decide +kernel)

example : (0x07f2ea1270829928 : BitVec 64) = 0x07f2ea1270829928 := by
  refine C68_position_independent rexEnv rexFile' oexFile' oexMovedFile _ (by decide) (by decide) (by decide) (by decide)
    oexFile_ok oexMoved_ok oexMain (by decide) oexMoved' (by decide) (Nat.le_of_ble_eq_true rfl) (Nat.le_of_ble_eq_true rfl)
    (by decide) (by decide) rexSteps (disasm rexEnv 0x5000 (rexCode.take 16)) oexMain_code
    ⟨oexText, rexCode.take 16, by decide +kernel, by rfl, rfl⟩ (by decide +kernel) ?_ 0xa _ _ rfl rfl
  refine .cons (by decide) (.other (rexDone (rexSym 0x1010 "f") 1 (rexText rexCode) [])
      (rexDone (rexSym 0x5010 "f") 1 oexText []) (by decide) (by decide) (by unfold Covers; decide) (by unfold Covers; decide)
      (by decide +kernel) (by decide +kernel) rfl rfl)
    (.cons (by decide) (.other (rexDone (rexSym 0x2000 "v") 8 (rexData ".data") [])
      (rexDone (rexSym 0x6000 "v") 8 (rexData ".data") []) (by decide) (by decide) (by unfold Covers; decide) (by unfold Covers; decide)
      (by decide +kernel) (by decide +kernel) rfl rfl)
    (.cons (by decide) (.own (by decide) (by decide) (by unfold Covers; decide) (by unfold Covers; decide) (by decide)) .nil))

end Bean

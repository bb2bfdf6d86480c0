import Verif.Spec.GraphMarks
import Verif.Props.Targets
import Verif.Props.Graph
/-
Property theorems C104: the marks of the graph for visible symbols and the entry point.
-/
namespace Bean
open Tree Spec Props

/-! ### Binding of symbols in results -/

/-- A symbol is only global if one of the insertions was. -/
theorem Touch.global {b : Build} {A : InsertArgs → Prop} {N : Prop} {Q : Addr → Prop} (hA : ∀ a, A a → a.bind = .global → Q a.address)
    {t t' : SymTree} (h : Touch b A N t t') (hs : Sorted t) (h0 : ∀ s ∈ t, s.bind = .global → Q s.address) :
    ∀ s ∈ t', s.bind = .global → Q s.address := by
  have hbb : ∀ x : ElfSymBind, beanBind x = .global → x = .global := by intro x; cases x <;> decide
  induction h with
  | refl => exact h0
  | @insert t1 t2 a h1 ha hi ih =>
    intro s hsm hb
    obtain ⟨e1, e2, e3⟩ := insertSymbol_spec (h1.sorted hs) hi
    have hfind := (find_eq_some_iff e1).mpr ⟨hsm, rfl⟩
    by_cases hk : s.address = a.address
    · rw [show Keyed.key s = a.address from hk, e2] at hfind
      have e := Option.some.inj hfind
      cases hp : Tree.find t1 a.address with
      | none =>
        rw [hp] at e
        rw [hk]
        refine hA a ha (hbb _ ?_)
        rw [← e] at hb
        exact hb
      | some pos =>
        rw [hp] at e
        obtain ⟨p1, p2⟩ := find_mem hp
        have p2' : pos.address = a.address := p2
        have hpos : pos.bind = .global → Q s.address := fun h => by rw [hk, ← p2']; exact ih pos p1 h
        by_cases hg : pos.bind = .global
        · exact hpos hg
        · rw [← e] at hb
          unfold stepAt at hb
          simp only at hb
          split at hb
          · exact absurd hb hg
          · split at hb
            · have hb' : (if pos.bind.code < (beanBind a.bind).code then beanBind a.bind else pos.bind) = .global := hb
              split at hb'
              · rw [hk]; exact hA a ha (hbb _ hb')
              · exact absurd hb' hg
            · exact absurd hb hg
    · rw [show Keyed.key s = s.address from rfl, e3 _ hk] at hfind
      exact ih s (find_mem hfind).1 hb
  | @rename t1 k n hN h1 ih =>
    intro s hsm hb
    obtain ⟨s0, h0, rfl⟩ := List.mem_map.mp hsm
    split at hb
    · rename_i hc
      rw [if_pos hc]
      exact ih s0 h0 hb
    · rename_i hc
      rw [if_neg hc]
      exact ih s0 h0 hb
  | @emplace t1 a hN hn hb h1 ih =>
    intro s hsm hg
    rcases (mem_insert' (h1.sorted hs)).mp hsm with h2 | ⟨rfl, _⟩
    · exact ih s h2 hg
    · have : beanBind a.bind = .global := hg
      rw [hb] at this
      cases this

/-- Where the insertions with global binding stem from, and the types of all of them. -/
theorem source_bind {elf : Elf} {dbgsym : Option Elf} {a : InsertArgs} (h : Source elf dbgsym (tlsSegment elf) a) :
    (a.bind = .global → GlobalAt elf dbgsym a.address) ∧
    (beanType a.type = .none → ∃ d, Part elf dbgsym d ∧ ∃ e, TableEntry d e ∧ DeclaredAt elf d e a.address ∧ e.type = .notype) := by
  have hnt : ∀ x : ElfSymType, beanType x = .none → x = .notype := by intro x; cases x <;> decide
  have table : ∀ d, Part elf dbgsym d → FromTable d.sections (tlsSegment elf) a → (a.bind = .global → GlobalAt elf dbgsym a.address) ∧
      (beanType a.type = .none → ∃ d, Part elf dbgsym d ∧ ∃ e, TableEntry d e ∧ DeclaredAt elf d e a.address ∧ e.type = .notype) := by
    rintro d hd ⟨tbl, h1, h2, h3, e, h4, h5⟩
    have he : TableEntry d e := ⟨tbl, h1, h2, h3, h4⟩
    obtain ⟨sec, hsec, h6 | h6 | h6⟩ := mem_symOps h5
    · obtain ⟨ht, seg, hseg, rfl⟩ := h6
      have hat : DeclaredAt elf d e (TLS.trans_addr (seg.virt_addr + e.value) true) := Or.inr ⟨ht, ⟨sec, hsec⟩, seg, hseg, rfl⟩
      exact ⟨fun hb => ⟨d, hd, e, he, hb, hat⟩, fun hn => ⟨d, hd, e, he, hat, hnt _ hn⟩⟩
    · obtain ⟨hdef, rfl⟩ := h6
      have hat : DeclaredAt elf d e (TLS.trans_addr e.value sec.tls) := Or.inl ⟨sec, hdef, rfl⟩
      exact ⟨fun hb => ⟨d, hd, e, he, hb, hat⟩, fun hn => ⟨d, hd, e, he, hat, hnt _ hn⟩⟩
    · obtain ⟨_, _, rfl⟩ := h6
      exact ⟨fun hb => (by cases hb), fun hn => (by cases hn)⟩
  rcases h with h | h | ⟨d, hd, h⟩
  · refine ⟨fun hb => ?_, fun hn => absurd hn h.2.1⟩
    rw [h.2.2.2.2] at hb
    cases hb
  · exact table elf (Or.inl rfl) h
  · exact table d (Or.inr hd) h

/-- An entry for an address leads to an insertion there. -/
theorem declared_ops {elf d : Elf} {e : ElfSym} {k : Addr} (h : DeclaredAt elf d e k) :
    ∃ a ∈ symOps d.sections (tlsSegment elf) e, a.address = k ∧ a.type = e.type ∧ a.bind = e.bind := by
  rcases h with ⟨sec, hdef, rfl⟩ | ⟨ht, ⟨sec, n, hx, hn⟩, seg, hseg, rfl⟩
  · rw [symOps_defines hdef]
    exact ⟨_, List.mem_cons_self, rfl, rfl, rfl⟩
  · refine ⟨symbolArgs sec e (TLS.trans_addr (seg.virt_addr + e.value) true), ?_, rfl, rfl, rfl⟩
    unfold symOps
    rw [hx]
    simp only [hn, if_pos ht, hseg]
    exact List.mem_cons_self

/-- Merging keeps global symbols global. -/
theorem merge_global {a : InsertArgs} {s : Symbol} (h : a.bind = .global ∨ s.bind = .global) : (mergeSymbol a s).bind = .global := by
  have e : (mergeSymbol a s).bind = if s.bind.code < (beanBind a.bind).code then beanBind a.bind else s.bind := rfl
  rw [e]
  rcases h with h | h
  · rw [h]
    cases s.bind <;> decide
  · rw [h]
    cases a.bind <;> decide

/-- The binding of a symbol in the result is the one after the search for functions. -/
theorem final_bind {env : Env} {fl : AnalyzeFlags} {elf : Elf} {dbgsym : Option Elf} {st0 st s1 s2 s3 r : AState} {t : SymTree}
    (hg : Gathered env fl elf dbgsym st0 st t) (hi : Identified env fl st s1 s2 s3 r) {s : Symbol} (hs : s ∈ r.symbols) :
    ∃ s0 ∈ t, s0.address = s.address ∧ s0.bind = s.bind := by
  obtain ⟨f, e⟩ := hi.ids
  have es : r.symbols = s3.symbols.map (setIds f) := by rw [e]
  rw [es] at hs
  obtain ⟨y, hy, rfl⟩ := List.mem_map.mp hs
  have e3 := hashExternal_closed hi.ok2.sorted hi.external
  rw [e3] at hy
  obtain ⟨w, hw, rfl⟩ := List.mem_map.mp hy
  obtain ⟨z, hz, gz, _⟩ := (hashInternal_enlarged hi.ok1 hi.internal).2 w hw
  obtain ⟨x, hx, gx, _⟩ := zip_mem_right hi.zip1 hz
  rw [hg.result] at hx
  obtain ⟨u, hu, rfl⟩ := List.mem_map.mp hx
  obtain ⟨v, hv, rfl⟩ := List.mem_map.mp hu
  have gu := flagSymbol_enlarged st0.section_flags
    (if Keyed.key v = elf.entry then { v with flags := v.flags ||| SYMBOL_ENTRY } else v)
  have gv : Enlarged v (if Keyed.key v = elf.entry then { v with flags := v.flags ||| SYMBOL_ENTRY } else v) := by
    split
    · exact ⟨rfl, rfl, rfl, rfl, Nat.le_refl _⟩
    · exact .refl v
  have g := ((gv.trans gu).trans gx).trans gz
  exact ⟨v, hv, g.address.symm, g.bind.symm⟩

/-- The binding of symbols in results: global ones stem from an entry of a symbol table, and such an entry is noticed, unless there is an
entry without type at the same address. -/
theorem result_global {env : Env} {fl : AnalyzeFlags} {elf : Elf} {dbgsym : Option Elf} {r : AState}
    (h : analyze env fl elf dbgsym = .ok r) {s : Symbol} (hs : s ∈ r.symbols) :
    (s.bind = .global → GlobalAt elf dbgsym s.address) ∧
    (GlobalAt elf dbgsym s.address →
      (∀ d, Part elf dbgsym d → ∀ e, TableEntry d e → DeclaredAt elf d e s.address → e.type ≠ .notype) → s.bind = .global) := by
  unfold analyze at h
  cases h1 : gather env fl elf dbgsym with
  | error e => rw [h1] at h; cases h
  | ok st =>
    rw [h1] at h
    obtain ⟨st0, t, hg⟩ := gather_ok h1
    obtain ⟨hs0, hst, hok, hf⟩ := gathered_facts hg
    obtain ⟨s1, s2, s3, hi⟩ := identify_ok hok hf h
    have htls : st.tls_segment = tlsSegment elf := congrArg FilePart.tls (gather_part h1)
    have hread := hg.read
    have hvia := hg.via
    rw [htls] at hread hvia
    obtain ⟨s0, m0, a0, b0⟩ := final_bind hg hi hs
    rw [← a0, ← b0]
    constructor
    · refine hg.touch.global (Q := GlobalAt elf dbgsym) (fun a ha hb => ?_) hs0 ?_ s0 m0
      · rw [ha.2.2.2.2] at hb; cases hb
      · exact hread.global (fun a ha hb => (source_bind ha).1 hb) sorted_nil (fun _ h => by cases h)
    · rintro ⟨d, hd, e, ⟨tbl, g1, g2, g3, g4⟩, hb, hat⟩ htype
      obtain ⟨a, ha, k1, k2, k3⟩ := declared_ops hat
      have hnone : ∀ a, Source elf dbgsym (tlsSegment elf) a → a.address = s0.address → beanType a.type ≠ .none := by
        intro a hA hk hn
        obtain ⟨d, hd, e, he, hat, hx⟩ := (source_bind hA).2 hn
        rw [hk] at hat
        exact htype d hd e he hat hx
      obtain ⟨t1, t2, u1, u2, u3⟩ := hvia d hd tbl g1 g2 g3 e g4 a ha
      have hown : Source elf dbgsym (tlsSegment elf) a := by
        rcases hd with rfl | hd
        · exact Or.inr (Or.inl ⟨tbl, g1, g2, g3, e, g4, ha⟩)
        · exact Or.inr (Or.inr ⟨d, hd, tbl, g1, g2, g3, e, g4, ha⟩)
      have hsort1 : Sorted t1 := u1.sorted sorted_nil
      have hbefore := u1.always (k := s0.address) (P := fun s => s.type ≠ .none) (fun a hA hk => hnone a hA hk)
        (fun a s hA hk _ hP => by rw [stepAt_merge (hnone a hA hk) hP]; exact merge_type (hnone a hA hk) hP)
        sorted_nil (fun _ h => by cases h)
      obtain ⟨e1, e2, e3⟩ := insertSymbol_spec hsort1 u2
      have hafter : ∃ s ∈ t2, s.address = s0.address ∧ (s.bind = .global ∧ s.type ≠ .none) := by
        refine ⟨_, (find_mem e2).1, (find_mem e2).2.trans k1, ?_⟩
        cases hp : Tree.find t1 a.address with
        | none =>
          refine ⟨?_, hnone a hown k1⟩
          show beanBind a.bind = _
          rw [k3, hb]
          rfl
        | some pos =>
          have hpt := hbefore pos (find_mem hp).1 ((find_mem hp).2.trans k1)
          rw [stepAt_merge (hnone a hown k1) hpt]
          exact ⟨merge_global (Or.inl (k3.trans hb)), merge_type (hnone a hown k1) hpt⟩
      have keepIt : ∀ a s, Source elf dbgsym (tlsSegment elf) a → a.address = s0.address → s.address = s0.address →
          (s.bind = .global ∧ s.type ≠ .none) → ((stepAt a (some s)).bind = .global ∧ (stepAt a (some s)).type ≠ .none) := by
        intro a s hA hk _ hP
        rw [stepAt_merge (hnone a hA hk) hP.2]
        exact ⟨merge_global (Or.inr hP.1), merge_type (hnone a hA hk) hP.2⟩
      have hr := u3.at (P := fun s => s.bind = .global ∧ s.type ≠ .none) keepIt (fun hF => hF.elim) e1 hafter
      obtain ⟨y, y1, y2, y3, _⟩ := hg.touch.at (P := fun s => s.bind = .global ∧ s.type ≠ .none)
        (fun a s hA => keepIt a s (Or.inl hA)) (fun _ _ _ hP => hP) hs0 hr
      have e4 := (find_eq_some_iff hst).mpr ⟨m0, (rfl : s0.address = s0.address)⟩
      have e5 := (find_eq_some_iff hst).mpr ⟨y1, y2⟩
      rw [e4] at e5
      rw [Option.some.inj e5]
      exact y3

/-! ### The graph -/

theorem mem_marked {verbose ext ent : Bool} {k0 : Addr} {symbols : SymTree} {l : GraphLine} :
    l ∈ markedGraph verbose ext ent k0 symbols ↔ (∃ d ∈ nodeLines verbose symbols, l = .plain d) ∨ (ext = true ∧ l = .externNode) ∨
      (ent = true ∧ l = .entryNode) ∨ ∃ s ∈ symbols, (ext = true ∧ s.bind = .global ∧ l = .externEdge s.address) ∨
        (ent = true ∧ s.has SYMBOL_ENTRY = true ∧ l = .entryEdge k0) ∨ ∃ d ∈ s.refs.filterMap (refEdge symbols s), l = .plain d := by
  unfold markedGraph symbolLines
  simp only [List.mem_append, List.mem_map, List.mem_flatMap]
  constructor
  · rintro (⟨d, h, rfl⟩ | h | h | ⟨s, hs, h | h | ⟨d, h, rfl⟩⟩)
    · exact Or.inl ⟨d, h, rfl⟩
    · cases ext
      · cases h
      · exact Or.inr (Or.inl ⟨rfl, List.mem_singleton.mp h⟩)
    · cases ent
      · cases h
      · exact Or.inr (Or.inr (Or.inl ⟨rfl, List.mem_singleton.mp h⟩))
    · split at h
      · rename_i hc
        rw [Bool.and_eq_true, decide_eq_true_iff] at hc
        exact Or.inr (Or.inr (Or.inr ⟨s, hs, Or.inl ⟨hc.1, hc.2, List.mem_singleton.mp h⟩⟩))
      · cases h
    · split at h
      · rename_i hc
        rw [Bool.and_eq_true] at hc
        exact Or.inr (Or.inr (Or.inr ⟨s, hs, Or.inr (Or.inl ⟨hc.1, hc.2, List.mem_singleton.mp h⟩)⟩))
      · cases h
    · exact Or.inr (Or.inr (Or.inr ⟨s, hs, Or.inr (Or.inr ⟨d, h, rfl⟩)⟩))
  · rintro (⟨d, h, rfl⟩ | ⟨rfl, rfl⟩ | ⟨rfl, rfl⟩ | ⟨s, hs, ⟨rfl, hb, rfl⟩ | ⟨rfl, hb, rfl⟩ | ⟨d, h, rfl⟩⟩)
    · exact Or.inl ⟨d, h, rfl⟩
    · exact Or.inr (Or.inl (by simp))
    · exact Or.inr (Or.inr (Or.inl (by simp)))
    · exact Or.inr (Or.inr (Or.inr ⟨s, hs, Or.inl (by simp [hb])⟩))
    · exact Or.inr (Or.inr (Or.inr ⟨s, hs, Or.inr (Or.inl (by simp [hb]))⟩))
    · exact Or.inr (Or.inr (Or.inr ⟨s, hs, Or.inr (Or.inr ⟨d, h, rfl⟩)⟩))

theorem graphFile_ok {env : Env} {fl : AnalyzeFlags} {s : Settings} {elf : Elf} {dbgsym : Option Elf} {g : List GraphLine}
    (h : graphFile env fl s elf dbgsym = .ok g) : ∃ r, analyze env fl elf dbgsym = .ok r ∧
      g = markedGraph (decide (s.verbose ≠ 0)) s.extern_ s.entry elf.entry r.symbols := by
  unfold graphFile at h
  cases hr : analyze env fl elf dbgsym with
  | error e => rw [hr] at h; cases h
  | ok r =>
    rw [hr] at h
    exact ⟨r, rfl, (Except.ok.inj h).symm⟩

/-- Nodes are those of the symbols. -/
theorem node_only {verbose : Bool} {l : List Symbol} {k : Addr} (h : DotLine.node k ∈ nodeLines verbose l) : ∃ s ∈ l, s.address = k := by
  have hc : ∀ (sec : Option String) (l : List Symbol), DotLine.node k ∈ clusterLines sec l → ∃ s ∈ l, s.address = k := by
    intro sec l
    induction l generalizing sec with
    | nil => intro h; rw [clusterLines] at h; split at h <;> simp at h
    | cons x l ih =>
      intro h
      rw [clusterLines] at h
      have hx : (k = x.address ∨ ∃ sec', DotLine.node k ∈ clusterLines sec' l) := by
        split at h
        · rcases List.mem_append.mp h with h | h
          · split at h <;> simp at h
          · rcases List.mem_cons.mp h with h | h
            · cases h
            · rcases List.mem_cons.mp h with h | h
              · exact Or.inl (by cases h; rfl)
              · exact Or.inr ⟨_, h⟩
        · rcases List.mem_cons.mp h with h | h
          · exact Or.inl (by cases h; rfl)
          · exact Or.inr ⟨_, h⟩
      rcases hx with rfl | ⟨_, h⟩
      · exact ⟨x, List.mem_cons_self, rfl⟩
      · obtain ⟨s, h1, h2⟩ := ih _ h
        exact ⟨s, List.mem_cons_of_mem _ h1, h2⟩
  unfold nodeLines at h
  split at h
  · exact hc _ _ h
  · obtain ⟨s, h1, h2⟩ := List.mem_map.mp h
    cases h2
    exact ⟨s, h1, rfl⟩

theorem refEdge_edge {symbols : SymTree} {s : Symbol} {ref : Addr} {d : DotLine} (h : refEdge symbols s ref = some d) :
    ∃ a b, d = .edge a b := by
  unfold refEdge at h
  split at h
  · split at h
    · cases h; exact ⟨_, _, rfl⟩
    · cases h
  · cases h

/-- The nodes of the graph of a file are the addresses of the symbols. -/
theorem marked_node {verbose ext ent : Bool} {k0 : Addr} {symbols : SymTree} {k : Addr} :
    GraphLine.plain (.node k) ∈ markedGraph verbose ext ent k0 symbols ↔ ∃ s ∈ symbols, s.address = k := by
  rw [mem_marked]
  constructor
  · rintro (⟨d, h, e⟩ | ⟨_, e⟩ | ⟨_, e⟩ | ⟨s, hs, ⟨_, _, e⟩ | ⟨_, _, e⟩ | ⟨d, h, e⟩⟩)
    · cases e; exact node_only h
    · cases e
    · cases e
    · cases e
    · cases e
    · cases e
      obtain ⟨ref, _, h⟩ := List.mem_filterMap.mp h
      obtain ⟨a, b, e⟩ := refEdge_edge h
      cases e
  · rintro ⟨s, hs, rfl⟩
    exact Or.inl ⟨_, node_mem hs, rfl⟩

/-- The options only add lines: what is drawn for symbols and references stays the same. -/
theorem C104_plain (verbose ext ent : Bool) (k : Addr) (symbols : SymTree) :
    (markedGraph verbose ext ent k symbols).filterMap (fun l => match l with | .plain d => some d | _ => none) = graphLines verbose symbols := by
  unfold markedGraph graphLines edgeLines
  have hp : ∀ ds : List DotLine, (ds.map GraphLine.plain).filterMap (fun l => match l with | .plain d => some d | _ => none) = ds := by
    intro ds
    induction ds with
    | nil => rfl
    | cons d ds ih => simp [ih]
  have hs : ∀ ss : List Symbol, (ss.flatMap (symbolLines ext ent k symbols)).filterMap (fun l => match l with | .plain d => some d | _ => none) =
      ss.flatMap (fun s => s.refs.filterMap (refEdge symbols s)) := by
    intro ss
    induction ss with
    | nil => rfl
    | cons s ss ih =>
      rw [List.flatMap_cons, List.flatMap_cons, List.filterMap_append, ih]
      congr 1
      unfold symbolLines
      rw [List.filterMap_append, List.filterMap_append, hp]
      split <;> split <;> rfl
  rw [List.filterMap_append, List.filterMap_append, List.filterMap_append, hp, hs]
  cases ext <;> cases ent <;> rfl

/-- C104: with the option `-E` the graph of a file has a single edge that leaves the node for the entry point, and it leads to a drawn node,
if there is a symbol at the entry point of the file, and none otherwise. Without this option there is neither the node nor an edge. -/
theorem C104_entry_partial (env : Env) (fl : AnalyzeFlags) (s : Settings) (elf : Elf) (dbgsym : Option Elf) (g : List GraphLine)
    (h : graphFile env fl s elf dbgsym = .ok g) :
    (GraphLine.entryNode ∈ g ↔ s.entry = true) ∧
    (s.entry = true → GraphLine.plain (.node elf.entry) ∈ g → g.filter isEntryEdge = [.entryEdge elf.entry]) ∧
    (s.entry = false ∨ GraphLine.plain (.node elf.entry) ∉ g → g.filter isEntryEdge = []) := by
  obtain ⟨r, hr, rfl⟩ := graphFile_ok h
  obtain ⟨ho, _⟩ := C72_wellformed env fl elf dbgsym r hr
  have hent := C90_entry env fl elf dbgsym r hr
  have hplain : ∀ ds : List DotLine, (ds.map GraphLine.plain).filter isEntryEdge = [] := by
    intro ds
    rw [List.filter_eq_nil_iff]
    intro l hl
    obtain ⟨d, _, rfl⟩ := List.mem_map.mp hl
    exact Bool.false_ne_true
  have hsym : ∀ x, (symbolLines s.extern_ s.entry elf.entry r.symbols x).filter isEntryEdge =
      if s.entry && x.has SYMBOL_ENTRY then [.entryEdge elf.entry] else [] := by
    intro x
    unfold symbolLines
    rw [List.filter_append, List.filter_append, hplain]
    split <;> split <;> rfl
  have hedges : ∀ ss : List Symbol, (ss.flatMap (symbolLines s.extern_ s.entry elf.entry r.symbols)).filter isEntryEdge =
      ss.flatMap (fun x => if s.entry && x.has SYMBOL_ENTRY then [.entryEdge elf.entry] else []) := by
    intro ss
    induction ss with
    | nil => rfl
    | cons x ss ih => rw [List.flatMap_cons, List.flatMap_cons, List.filter_append, ih, hsym]
  have hall : (markedGraph (decide (s.verbose ≠ 0)) s.extern_ s.entry elf.entry r.symbols).filter isEntryEdge =
      r.symbols.flatMap (fun x => if s.entry && x.has SYMBOL_ENTRY then [.entryEdge elf.entry] else []) := by
    unfold markedGraph
    rw [List.filter_append, List.filter_append, List.filter_append, hplain, hedges]
    cases s.extern_ <;> cases s.entry <;> rfl
  have hzero : ∀ ss : List Symbol, (∀ x ∈ ss, (s.entry && x.has SYMBOL_ENTRY) = false) →
      ss.flatMap (fun x => if s.entry && x.has SYMBOL_ENTRY then [GraphLine.entryEdge elf.entry] else []) = [] := by
    intro ss hss
    rw [List.flatMap_eq_nil_iff]
    intro x hx
    simp [hss x hx]
  rw [hall]
  refine ⟨?_, ?_, ?_⟩
  · rw [mem_marked]
    constructor
    · rintro (⟨d, h, e⟩ | ⟨_, e⟩ | ⟨h, _⟩ | ⟨x, hs, ⟨_, _, e⟩ | ⟨_, _, e⟩ | ⟨d, h, e⟩⟩)
      · cases e
      · cases e
      · exact h
      · cases e
      · cases e
      · cases e
    · exact fun h => Or.inr (Or.inr (Or.inl ⟨h, rfl⟩))
  · intro he hn
    obtain ⟨x, hx, hk⟩ := marked_node.mp hn
    obtain ⟨p, q, hpq⟩ := List.append_of_mem hx
    have hx2 := (has_entry_iff x).mpr ((hent x hx).mpr hk)
    unfold Ordered at ho
    rw [hpq] at ho hent ⊢
    rw [List.pairwise_append] at ho
    obtain ⟨_, o2, o3⟩ := ho
    rw [List.pairwise_cons] at o2
    have no : ∀ y, y ∈ p ++ x :: q → y.address ≠ x.address → (s.entry && y.has SYMBOL_ENTRY) = false := by
      intro y hy hne
      rw [he, Bool.true_and]
      cases hb : y.has SYMBOL_ENTRY with
      | false => rfl
      | true => exact absurd (((hent y hy).mp ((has_entry_iff y).mp hb)).trans hk.symm) hne
    rw [List.flatMap_append, List.flatMap_cons, hzero p, hzero q]
    · rw [he, hx2]; rfl
    · intro y hy
      refine no y (by simp [hy]) (fun e => ?_)
      have := o2.1 y hy
      rw [e] at this
      omega
    · intro y hy
      refine no y (by simp [hy]) (fun e => ?_)
      have := o3 y hy x (by simp)
      rw [e] at this
      omega
  · intro hc
    apply hzero
    intro x hx
    rcases hc with hc | hc
    · rw [hc]; rfl
    · cases hb : x.has SYMBOL_ENTRY with
      | false => rw [Bool.and_false]
      | true => exact absurd (marked_node.mpr ⟨x, hx, (hent x hx).mp ((has_entry_iff x).mp hb)⟩) hc

/-- C104: with the option `-e` the edges that leave the node for visible symbols lead to drawn nodes, each one for a global symbol of a
table. Conversely each node at the address of a global symbol gets such an edge, unless there is an entry without type at the same
address. -/
theorem C104_extern_partial (env : Env) (fl : AnalyzeFlags) (s : Settings) (elf : Elf) (dbgsym : Option Elf) (g : List GraphLine)
    (h : graphFile env fl s elf dbgsym = .ok g) (k : Addr) :
    (GraphLine.externNode ∈ g ↔ s.extern_ = true) ∧
    (GraphLine.externEdge k ∈ g → s.extern_ = true ∧ GraphLine.plain (.node k) ∈ g ∧ GlobalAt elf dbgsym k) ∧
    (s.extern_ = true → GraphLine.plain (.node k) ∈ g → GlobalAt elf dbgsym k →
      (∀ d, Part elf dbgsym d → ∀ e, TableEntry d e → DeclaredAt elf d e k → e.type ≠ .notype) → GraphLine.externEdge k ∈ g) := by
  obtain ⟨r, hr, rfl⟩ := graphFile_ok h
  refine ⟨?_, ?_, ?_⟩
  · rw [mem_marked]
    constructor
    · rintro (⟨d, h, e⟩ | ⟨h, _⟩ | ⟨_, e⟩ | ⟨x, hs, ⟨_, _, e⟩ | ⟨_, _, e⟩ | ⟨d, h, e⟩⟩)
      · cases e
      · exact h
      · cases e
      · cases e
      · cases e
      · cases e
    · exact fun h => Or.inr (Or.inl ⟨h, rfl⟩)
  · intro hk
    rw [mem_marked] at hk
    rcases hk with ⟨d, h, e⟩ | ⟨_, e⟩ | ⟨_, e⟩ | ⟨x, hs, ⟨h1, h2, e⟩ | ⟨_, _, e⟩ | ⟨d, h, e⟩⟩
    · cases e
    · cases e
    · cases e
    · cases e
      exact ⟨h1, marked_node.mpr ⟨x, hs, rfl⟩, (result_global hr hs).1 h2⟩
    · cases e
    · cases e
  · intro he hn hgl ht
    obtain ⟨x, hs, rfl⟩ := marked_node.mp hn
    exact mem_marked.mpr (Or.inr (Or.inr (Or.inr ⟨x, hs, Or.inl ⟨he, (result_global hr hs).2 hgl ht, rfl⟩⟩)))

/-! Examples: the file of `run_ok` with both options. -/

/-- Both options. -/
def markBoth : Settings where
  extern_ := true
  entry := true

/-- The lines of the graph of a file. -/
def markLines (syms : List ElfSym) (fl : AnalyzeFlags := {}) : Option (List GraphLine) :=
  (graphFile exEnv fl markBoth (runElf syms) none).toOption

theorem mark_ok : markLines runSyms = some [.plain (.node 0x1000), .plain (.node 0x1003), .externNode, .entryNode, .externEdge 0x1000,
    .entryEdge 0x1000, .plain (.edge 0x1000 0x1003)] := by decide +kernel

theorem toOption_ok {α : Type} {m : M α} {x : α} (h : m.toOption = some x) : m = .ok x := by
  cases m with
  | error e => cases h
  | ok y => cases h; rfl

theorem mark_entry {syms : List ElfSym} {e : ElfSym} (h : e ∈ syms) : TableEntry (runElf syms) e :=
  ⟨runTable syms, by simp [runElf], Or.inl rfl, (by decide : (24 : Addr) ≠ 0), h⟩

example : ∃ g, graphFile exEnv {} markBoth (runElf runSyms) none = .ok g ∧ g.filter isEntryEdge = [.entryEdge 0x1000] :=
  ⟨_, toOption_ok mark_ok, (C104_entry_partial exEnv {} markBoth (runElf runSyms) none _ (toOption_ok mark_ok)).2.1 rfl (by decide)⟩

example : ∃ g, graphFile exEnv {} markBoth (runElf runSyms) none = .ok g ∧ GraphLine.externEdge 0x1000 ∈ g := by
  refine ⟨_, toOption_ok mark_ok, (C104_extern_partial exEnv {} markBoth (runElf runSyms) none _ (toOption_ok mark_ok) 0x1000).2.2 rfl
    (by decide) ⟨_, Or.inl rfl, runFunc 0x1000 3 "main" .global, mark_entry (by decide), rfl, Or.inl (run_defines _ _ _ _ (by decide))⟩ ?_⟩
  intro d hd e he _
  have hm := (run_entry hd he).2
  have : e = runFunc 0x1000 3 "main" .global ∨ e = runFunc 0x1003 2 "f" .local := by simpa [runSyms] using hm
  rcases this with rfl | rfl <;> decide

/-- C104 does not hold for weak symbols: they can be used by other files but get no edge. -/
theorem C104_weak_counterexample : ∃ syms g, graphFile exEnv {} markBoth (runElf syms) none = .ok g ∧
    VisibleAt (runElf syms) none 0x1003 ∧ GraphLine.plain (.node 0x1003) ∈ g ∧ GraphLine.externEdge 0x1003 ∉ g := by
  refine ⟨[runFunc 0x1000 3 "main" .global, runFunc 0x1003 2 "f" .weak], [.plain (.node 0x1000), .plain (.node 0x1003), .externNode,
    .entryNode, .externEdge 0x1000, .entryEdge 0x1000, .plain (.edge 0x1000 0x1003)], toOption_ok (by decide +kernel), ?_, by decide, by decide⟩
  exact ⟨_, Or.inl rfl, runFunc 0x1003 2 "f" .weak, mark_entry (by decide), by decide, Or.inl (run_defines _ _ _ _ (by decide))⟩

/-- A label without type. -/
def runLabel (a : Addr) (name : String) : ElfSym := { runFunc a 0 name .local with type := .notype }

/-- C104 does not hold for a global function behind a local label at the same address: the function gets no edge. -/
theorem C104_label_counterexample : ∃ syms g, graphFile exEnv {} markBoth (runElf syms) none = .ok g ∧
    GlobalAt (runElf syms) none 0x1003 ∧ GraphLine.plain (.node 0x1003) ∈ g ∧ GraphLine.externEdge 0x1003 ∉ g := by
  refine ⟨[runFunc 0x1000 3 "main" .global, runLabel 0x1003 "l", runFunc 0x1003 2 "f" .global], [.plain (.node 0x1000),
    .plain (.node 0x1003), .externNode, .entryNode, .externEdge 0x1000, .entryEdge 0x1000, .plain (.edge 0x1000 0x1003)],
    toOption_ok (by decide +kernel), ?_, by decide, by decide⟩
  exact ⟨_, Or.inl rfl, runFunc 0x1003 2 "f" .global, mark_entry (by decide), by decide, Or.inl (run_defines _ _ _ _ (by decide))⟩

/-- C104 does not hold for entry points without symbol: there is no edge although the node is drawn. -/
theorem C104_entry_counterexample : ∃ g, graphFile cetEnv {} markBoth (tgtElf 0x1004 0xf1) none = .ok g ∧
    SectionOf (tgtElf 0x1004 0xf1) 0x1004 (tgtText 0xf1) ∧ GraphLine.entryNode ∈ g ∧ g.filter isEntryEdge = [] := by
  obtain ⟨r, h, hs, hn⟩ := C90_missing
  have hg : graphFile cetEnv {} markBoth (tgtElf 0x1004 0xf1) none = .ok (markedGraph false true true 0x1004 r.symbols) := by
    unfold graphFile
    rw [h]
    rfl
  have key := C104_entry_partial cetEnv {} markBoth (tgtElf 0x1004 0xf1) none _ hg
  refine ⟨_, hg, hs, key.1.mpr rfl, key.2.2 (Or.inr ?_)⟩
  intro hc
  obtain ⟨x, hx, hk⟩ := marked_node.mp hc
  exact hn ⟨x, hx, (C90_entry _ _ _ _ r h x hx).mpr hk⟩

end Bean

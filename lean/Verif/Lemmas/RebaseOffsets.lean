import Verif.Lemmas.RebaseReconLoop
import Verif.Lemmas.RebaseRun
import Verif.Props.Clear
/-
The analysis of a moved file with reconstruction of relocations (C100).
-/
namespace Bean
open Bean.Spec Bean.Props

variable {m : Rebase} {env env' : Env} {fl : AnalyzeFlags} {elf : Elf} {dbg : Option Elf} {st s1 s2 s3 r : AState}

/-- The code of the remaining symbols has been read. -/
theorem hashed_code (hok : SymsOK st.symbols) (h : hashInternal env fl st = .ok r) {s : Symbol} (hs : s ∈ r.symbols)
    (hx : s.sec.executable = true) :
    ∃ s0 ∈ st.symbols, ∃ sec bytes, s0.address = s.address ∧ Tree.floor st.sections s.address = some sec ∧ IsCode sec s0 ∧
      readBytes sec.data (TLS.virt_addr s.address - sec.virt_addr) s.size = .ok bytes := by
  obtain ⟨i, s0, x, h1, h2, h3, rfl⟩ := ((hashInternal_ok hok h).2.1 s).mp hs
  have hm := List.mem_of_getElem? h1
  obtain ⟨hsame, _, sec, y, k1, k2, k3, _, k4⟩ := hashSymbol_same (hok.rels s0 hm) h2
  have e1 : (finishSymbol env fl x).address = x.sym.address := by rw [finish_used h3]
  have e2 : (finishSymbol env fl x).size = x.sym.size := by rw [finish_used h3]
  have e3 : (finishSymbol env fl x).sec = x.sym.sec := by rw [finish_used h3]
  have had := (adoptSection_same sec s0).1.address
  rw [e3, k3] at hx
  have hya : y.address = s0.address := by rw [k2]; exact had
  have hys : y.size = x.sym.size := by rw [k2]
  have hc : IsCode sec s0 := by
    rw [← adopt_code]
    rw [k2] at hx
    exact hx
  rcases k4 with ⟨_, k4⟩ | ⟨k4, _⟩
  · obtain ⟨z, bytes, j1, j2, _⟩ := hashExec_ok k4
    have hyr : Tree.Sorted y.rels := by
      rw [k2]
      show Tree.Sorted (adoptSection sec s0).rels
      rw [(adoptSection_same sec s0).2.2.2.1]
      exact hok.rels s0 hm
    have hz := (addRelocations_added hyr j1).base.size
    refine ⟨s0, hm, sec, bytes, ?_, ?_, hc, ?_⟩
    · rw [e1]; exact hsame.address.symm
    · rw [e1, hsame.address]; exact k1
    · rw [e1, e2, hsame.address, ← hya, ← hys, ← hz]; exact j2
  · rw [hx] at k4; cases k4

theorem exceptMap_ok {α β : Type} {x : M α} {g : α → β} {b : β} (h : x.map g = .ok b) : ∃ a, x = .ok a ∧ g a = b := by
  cases x with
  | error e => cases h
  | ok a => exact ⟨a, rfl, Except.ok.inj h⟩

/-- The steps of the analysis with other contents of the members that are not set. -/
theorem steps_same (hj : SameButJunk env env') (h1 : reconstruct env st = .ok s1) (h2 : hashInternal env fl s1 = .ok s2)
    (h3 : hashExternal env s2 = .ok s3) :
    reconstruct env' st = .ok s1 ∧ ∃ s2' s3', hashInternal env' fl s1 = .ok s2' ∧ hashExternal env' s2' = .ok s3' ∧
      clearState s2' = clearState s2 ∧ clearState s3' = clearState s3 := by
  have e0 := sameButJunk_env0 hj
  refine ⟨by rw [← reconstruct_env0, ← e0, reconstruct_env0]; exact h1, ?_⟩
  have k2 := hashInternal_clear env' fl s1
  rw [← e0, ← hashInternal_clear env fl s1, h2] at k2
  obtain ⟨s2', j2, c2⟩ := exceptMap_ok k2
  have k3 := hashExternal_clear env' s2'
  rw [← e0, c2, ← hashExternal_clear env s2, h3] at k3
  obtain ⟨s3', j3, c3⟩ := exceptMap_ok k3
  exact ⟨s2', s3', j2, j3, c2, c3⟩

theorem clear_mem {t t' : SymTree} (h : t'.map clearSym = t.map clearSym) {s' : Symbol} (hs : s' ∈ t') :
    ∃ s ∈ t, clearSym s' = clearSym s := by
  have : clearSym s' ∈ t.map clearSym := by rw [← h]; exact List.mem_map_of_mem hs
  obtain ⟨s, h1, h2⟩ := List.mem_map.mp this
  exact ⟨s, h1, h2.symm⟩

theorem setIds_clear (f : Addr → List (Addr × BitVec 64)) (t : SymTree) : (t.map (setIds f)).map clearIds = (t.map clearSym).map clearIds := by
  rw [List.map_map, List.map_map]
  refine List.map_congr_left fun s _ => ?_
  unfold Function.comp clearIds clearSym setIds
  simp only [List.map_map]
  congr 1
  refine List.map_congr_left fun r _ => ?_
  unfold Function.comp clearRel
  split
  · rfl
  · rename_i hr
    simp only [hr]

/-- Targets of relocations lie behind a symbol in the moved file, too. -/
theorem targets_rebase {t : SymTree} (hg : ∀ s ∈ t, GoodOut m.tls m.dist s) (ha : Anchored m t)
    (href : ∀ s ∈ t, ∀ q ∈ s.rels, q.target ≠ 0 → q.target ∈ s.refs) {s : Symbol} (hs : s ∈ t) {q : Rel} (hq : q ∈ s.rels) :
    rebaseTarget m.tls m.dist q.target = 0 ∨ ∃ z ∈ t, z.address + m.dist ≤ rebaseTarget m.tls m.dist q.target := by
  by_cases hz : q.target = 0
  · left; unfold rebaseTarget; rw [if_pos hz]
  · right
    rw [rebaseTarget_ref hz]
    by_cases hf : m.tls = false ∧ TLS.is_tls q.target = true
    · refine ⟨s, hs, ?_⟩
      rw [rebaseRef_fixed hf]
      have hl := (hg s hs).address.lowT
      have hreg : TLS.is_tls s.address = false := by
        cases hc : TLS.is_tls s.address with
        | false => rfl
        | true => have := hl.has_tls hc; rw [hf.1] at this; cases this
      have hlow := hl.low hreg
      have hn : ¬ q.target.toNat < 2 ^ 52 := by
        intro hlt
        have := (TLS.is_tls_eq_false_iff _).mpr (TLS.regular_of_lt hlt)
        rw [hf.2] at this; cases this
      rw [BitVec.le_def, add_toNat hlow.noWrap]
      unfold Low at hlow
      omega
    · have hl : LowT m.tls m.dist q.target := (((hg s hs).rels q hq).target.ref hz).resolve_right hf
      rcases ha s hs q.target (href s hs q hq hz) with h | ⟨y, h1, _⟩
      · exact absurd ⟨h.2, h.1⟩ hf
      · have hy := Tree.floor_mem h1
        refine ⟨y, hy, ?_⟩
        rw [hl.ref]
        exact (add_le_iff (hg y hy).address.lowT.noWrap hl.noWrap).mpr (Tree.floor_le h1)

/-- The analysis of the moved file with reconstruction of relocations. -/
theorem analyze_reconstructed (hj : SameButJunk env env') (hr : Rebasable env fl m elf dbg) (hd : SaneDecoder env) (hrec : fl.reconstruct = true)
    (hy : ∀ st, gather env fl elf dbg = .ok st → Steady env m st) (hc : ∀ st, gather env fl elf dbg = .ok st → CodeAnchored env m st)
    (h : analyze env fl elf dbg = .ok r) (ha : Anchored m r.symbols) :
    ∃ r', analyze env' fl (rebaseElf m elf) (dbg.map (rebaseElf m)) = .ok r' ∧
      r'.symbols.map clearIds = r.symbols.map (fun s => clearIds (rebaseSymbol m.tls m.dist s)) := by
  unfold analyze at h
  cases h1 : gather env fl elf dbg with
  | error e => rw [h1] at h; cases h
  | ok st =>
    rw [h1] at h
    have hready := ready_of hr h1
    obtain ⟨_, _, hg⟩ := gather_ok h1
    obtain ⟨_, _, hok, hf⟩ := gathered_facts hg
    obtain ⟨s1, s2, s3, hi⟩ := identify_ok hok hf h
    have e1 : reconstruct env st = .ok s1 := by
      rcases hi.first with ⟨_, h⟩ | ⟨h, _⟩
      · exact h
      · rw [hrec] at h; cases h
    obtain ⟨k0, hall⟩ := reconstruct_rebase hr hd hready (hy st h1) (hc st h1) s1 e1
    have hready1 := hall.ready hready
    have hsteady1 := hall.steady (hy st h1)
    obtain ⟨k1, k2, k3⟩ := hashInternal_rebase hr hready1 hsteady1 s2 hi.internal
    obtain ⟨f, hids⟩ := hi.ids
    have hanch : Anchored m s3.symbols := by
      rw [hids] at ha
      intro s hs a has
      rcases ha (setIds f s) (List.mem_map_of_mem hs) a has with h | ⟨y, j1, j2⟩
      · exact Or.inl h
      · dsimp only at j1
        rw [floor_map (f := setIds f) (fun _ => rfl)] at j1
        obtain ⟨y0, j3, rfl⟩ := Option.map_eq_some_iff.mp j1
        exact Or.inr ⟨y0, j3, j2⟩
    have k4 := hashExternal_rebase (secs := elf.sections) hi.ok2.sorted (by rw [k3]; exact hready1.table) k2 hi.external hanch
    have hj' : SameButJunk (rebaseEnv m.dist env) env' := hj
    obtain ⟨b1, s2', s3', b2, b3, c2, c3⟩ := steps_same hj' k0 k1 k4
    have hgm : gather env' fl (rebaseElf m elf) (dbg.map (rebaseElf m)) = .ok (rebaseState m elf.sections st) := by
      rw [← gather_same hj']
      exact (gather_rebase hr st h1).1
    obtain ⟨_, _, hgm'⟩ := gather_ok hgm
    obtain ⟨_, _, hokm, _⟩ := gathered_facts hgm'
    have hok1 := reconstruct_symsOK hokm b1
    have hok2 := hashInternal_symsOK hok1 b2
    have hsec2 : s2'.sections = (rebaseState m elf.sections st).sections := by
      rw [(hashInternal_ok hok1 b2).1, hall.same]
      rfl
    have hcl := hashExternal_closed hok2.sorted b3
    have hcl0 := hashExternal_closed hi.ok2.sorted hi.external
    have t2 : s2'.symbols.map clearSym = (s2.symbols.map (rebaseSymbol m.tls m.dist)).map clearSym := congrArg AState.symbols c2
    have t3 : s3'.symbols.map clearSym = (s3.symbols.map (rebaseSymbol m.tls m.dist)).map clearSym := congrArg AState.symbols c3
    have hg3 : ∀ s ∈ s3.symbols, GoodOut m.tls m.dist s := by
      intro s hs
      rw [hcl0] at hs
      obtain ⟨s0, hs0, rfl⟩ := List.mem_map.mp hs
      have g := k2 s0 hs0
      refine ⟨g.address, fun a has => ?_, g.rels⟩
      change a ∈ (if s0.address ∈ s2.symbols.map (·.address) then allRefs s0 else s0.refs) at has
      rw [if_pos (List.mem_map_of_mem hs0)] at has
      rcases mem_targetFold.mp has with h | ⟨q, hq, hz, rfl⟩
      · exact g.refs a h
      · exact (g.rels q hq).target.ref hz
    have href : ∀ s ∈ s3.symbols, ∀ q ∈ s.rels, q.target ≠ 0 → q.target ∈ s.refs := by
      intro s hs q hq hz
      rw [hcl0] at hs
      obtain ⟨s0, hs0, rfl⟩ := List.mem_map.mp hs
      show q.target ∈ (if s0.address ∈ s2.symbols.map (·.address) then allRefs s0 else s0.refs)
      rw [if_pos (List.mem_map_of_mem hs0)]
      exact mem_targetFold.mpr (Or.inr ⟨q, hq, hz, rfl⟩)
    obtain ⟨r', hr'⟩ : ∃ r', functionOffsets env' s3' = .ok r' := by
      refine functionOffsets_safe (fun s hs hx => ?_) (fun s hs q hq => ?_)
      · rw [hcl] at hs
        obtain ⟨s', hs', rfl⟩ := List.mem_map.mp hs
        obtain ⟨s0, hs0, sec, bytes, j1, j2, j3, j4⟩ := hashed_code hok1 b2 hs' hx
        obtain ⟨w, hw, ew⟩ := clear_mem t2 hs'
        obtain ⟨w, hw', rfl⟩ := List.mem_map.mp hw
        have ea : s'.address = w.address + m.dist := by have := congrArg Symbol.address ew; exact this
        have ex : s'.sec.executable = w.sec.executable := by have := congrArg (fun s : Symbol => s.sec.executable) ew; exact this
        have hwx : w.sec.executable = true := by rw [← ex]; exact hx
        obtain ⟨w0, hw0, secw, _, i1, i2, i3, _⟩ := hashed_code hi.ok1 hi.internal hw' hwx
        have hss := hsteady1.symbols w0 hw0 secw (by rw [i1]; exact i2)
        have htls := (hss.code i3).2.1
        have hload := hready1.sections secw (Tree.floor_mem i2)
        have sp := span_of (s := w0) (n := w0.size) (hr.sections secw hload.1 hload.2.1) ((hready1.symbols w0 hw0).1.address)
          (by rw [i1]; exact Tree.floor_le i2) hss.inside
        have hreg : TLS.is_tls w.address = false := by rw [← i1, sp.tls, htls]
        have hreg' : TLS.is_tls s'.address = false := by
          rw [ea, (k2 w hw').address.lowT.is_tls, hreg]
        rw [TLS.virt_of_regular hreg'] at j4
        refine ⟨sec, bytes, ?_, j4⟩
        rw [hcl]
        show Tree.floor s2'.sections s'.address = some sec
        rw [hsec2]
        have : s1.sections = st.sections := by rw [hall.same]
        rw [show (rebaseState m elf.sections s1).sections = s1.sections.map (rebaseSec m elf.sections) from rfl, this] at j2
        exact j2
      · obtain ⟨w, hw, ew⟩ := clear_mem t3 hs
        obtain ⟨w, hw', rfl⟩ := List.mem_map.mp hw
        have hq' : clearRel q ∈ (w.rels.map (rebaseRel m.tls m.dist)).map clearRel := by
          have : s.rels.map clearRel = (w.rels.map (rebaseRel m.tls m.dist)).map clearRel := congrArg Symbol.rels ew
          rw [← this]
          exact List.mem_map_of_mem hq
        obtain ⟨q1, hq1, eq1⟩ := List.mem_map.mp hq'
        obtain ⟨q0, hq0, rfl⟩ := List.mem_map.mp hq1
        have et : q.target = rebaseTarget m.tls m.dist q0.target := by
          have := congrArg Rel.target eq1
          rw [(clearRel_ext _).2.2.2.2.1, (clearRel_ext _).2.2.2.2.1] at this
          exact this.symm
        rw [et]
        rcases targets_rebase hg3 hanch href hw' hq0 with h | ⟨z, hz, hle⟩
        · exact Or.inl h
        · right
          obtain ⟨z', hz', ez⟩ := clear_mem t3.symm (List.mem_map_of_mem (f := rebaseSymbol m.tls m.dist) hz)
          have : z.address + m.dist = z'.address := by have := congrArg Symbol.address ez; exact this
          exact ⟨z', hz', by rw [← this]; exact hle⟩
    have han : analyze env' fl (rebaseElf m elf) (dbg.map (rebaseElf m)) = .ok r' := by
      unfold analyze
      rw [hgm]
      show identify _ _ _ = _
      unfold identify
      rw [hrec]
      show (reconstruct env' (rebaseState m elf.sections st) >>= fun st => hashInternal env' fl st >>= fun st =>
        hashExternal env' st >>= fun st => functionOffsets env' st) = _
      rw [b1, ok_then, b2, ok_then, b3, ok_then, hr']
    refine ⟨r', han, ?_⟩
    obtain ⟨f', hrs, _⟩ := functionOffsets_inv (st := s3') (fun s hs => by
        obtain ⟨w, hw, ew⟩ := clear_mem t3 hs
        obtain ⟨w, hw', rfl⟩ := List.mem_map.mp hw
        have : s.offset_ids = w.offset_ids := by have := congrArg Symbol.offset_ids ew; exact this
        rw [this]
        exact hi.noIds w hw') (fun _ _ => True) (fun _ _ _ _ _ _ _ => trivial) trivial hr'
    rw [hrs, hids]
    show (s3'.symbols.map (setIds f')).map clearIds = (s3.symbols.map (setIds f)).map (fun s => clearIds (rebaseSymbol m.tls m.dist s))
    rw [setIds_clear, t3, List.map_map, List.map_map, List.map_map]
    refine List.map_congr_left fun s _ => ?_
    unfold Function.comp
    unfold clearIds clearSym
    simp only [List.map_map]
    unfold setIds rebaseSymbol
    dsimp only
    congr 1
    rw [List.map_map, List.map_map]
    refine List.map_congr_left fun q _ => ?_
    unfold Function.comp clearRel
    split
    · rfl
    · next hq => simp only [hq]

end Bean

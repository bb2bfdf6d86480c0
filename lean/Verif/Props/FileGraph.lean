import Verif.Props.FileLinks
import Verif.Props.Targets
/-
C41 and C42 for results of the complete analysis: dependencies of symbols, and the symbols left out.
-/
namespace Bean
open Tree Spec Props

/-! ### C41: dependencies -/

/-- C41: in the result of an analysis each dependency is the address of a symbol, and the dependencies of `y` are the
addresses of exactly those symbols with a reference that leads to the contents of `y`. -/
theorem C41_files (env : Env) (fl : AnalyzeFlags) (elf : Elf) (dbgsym : Option Elf) (r : AState)
    (h : analyze env fl elf dbgsym = .ok r) : DepsLive r.symbols ∧ ∀ x ∈ r.symbols, ∀ y ∈ r.symbols,
      x.address ∈ y.deps ↔ DependsOn (gotAddress elf) r.symbols x y := by
  obtain ⟨st, s1, s2, s3, f⟩ := stages h
  obtain ⟨h1, h2⟩ := C41_inverse env s2 s3 f.run.ok2 f.run.external f.run.noDeps
  obtain ⟨fi, e⟩ := f.run.ids
  have es : r.symbols = s3.symbols.map (setIds fi) := by rw [e]
  rw [es]
  constructor
  · intro p hp d hd
    obtain ⟨p', hp', rfl⟩ := List.mem_map.mp hp
    obtain ⟨q, hq, rfl⟩ := h1 p' hp' d hd
    exact ⟨setIds fi q, List.mem_map_of_mem hq, rfl⟩
  · intro x hx y hy
    obtain ⟨x', hx', rfl⟩ := List.mem_map.mp hx
    obtain ⟨y', hy', rfl⟩ := List.mem_map.mp hy
    rw [dependsOn_setIds f.run.ok3.sorted fi hy', ← (got_of f).2.2.1]
    exact h2 x' hx' y' hy'

example : DependsOn (gotAddress (imgElf 0x1000 0)) (imgState 0x1000 0).symbols (imgMain 0x1000) (imgF 0x1000) :=
  ((C41_files exEnv {} _ none _ img_ok).2 (imgMain 0x1000) (by decide) (imgF 0x1000) (by decide)).mp (by decide)

/-! ### C42: symbols left out -/

/-- The code of a symbol in the file has nothing but NOPs. -/
def NothingButNops (env : Env) (s : Symbol) (bytes : List (BitVec 8)) : Prop :=
  ∀ x ∈ disasm env (TLS.virt_addr s.address) bytes, env.kind x.insn.id = .nop

/-- Decision about the use of a symbol. -/
theorem unused_iff {fl : AnalyzeFlags} {x : Hashed} (hk : fl.keep_unused = false) (hd : x.sym.deps = []) :
    unusedSymbol fl x = true ↔ x.content = false ∧ x.sym.name = none ∧ x.sym.refs = [] ∧ x.sym.rels = [] := by
  unfold unusedSymbol
  rw [hk, hd]
  simp only [Bool.and_eq_true, Bool.not_eq_true', Option.isNone_iff_eq_none, List.isEmpty_iff]
  constructor
  · rintro ⟨⟨⟨⟨⟨h1, _⟩, h2⟩, _⟩, h3⟩, h4⟩
    exact ⟨h1, h2, h3, h4⟩
  · rintro ⟨h1, h2, h3, h4⟩
    exact ⟨⟨⟨⟨⟨h1, trivial⟩, h2⟩, trivial⟩, h3⟩, h4⟩

theorem stages_of_gather {env : Env} {fl : AnalyzeFlags} {elf : Elf} {dbgsym : Option Elf} {b : Bool}
    {st st' s1 s2 s3 r s1' s2' s3' r' : AState} (f : Stages env { fl with keep_unused := true } elf dbgsym st s1 s2 s3 r)
    (f' : Stages env { fl with keep_unused := b } elf dbgsym st' s1' s2' s3' r') : st = st' ∧ s1 = s1' := by
  have e : st = st' := Except.ok.inj (f.file.symm.trans f'.file)
  subst e
  refine ⟨rfl, ?_⟩
  rcases f.run.first with ⟨h1, h2⟩ | ⟨h1, h2⟩ <;> rcases f'.run.first with ⟨h1', h2'⟩ | ⟨h1', h2'⟩
  · exact Except.ok.inj (h2.symm.trans h2')
  · exact absurd (h1.symm.trans h1') (by decide)
  · exact absurd (h1.symm.trans h1') (by decide)
  · rw [h2, h2']

/-- C42: the option to keep unused symbols changes nothing about the other symbols, and a symbol is only left out without
it if it has neither a name nor relocations nor references, and is code with nothing but NOPs. All such symbols are left
out. -/
theorem C42_files (env : Env) (fl : AnalyzeFlags) (elf : Elf) (dbgsym : Option Elf) (rk r : AState)
    (hk : analyze env { fl with keep_unused := true } elf dbgsym = .ok rk)
    (h : analyze env { fl with keep_unused := false } elf dbgsym = .ok r) :
    (∀ s ∈ r.symbols, ∃ s' ∈ rk.symbols, Kept s' s ∧ ∀ t, t ∈ s'.refs ↔ t ∈ s.refs) ∧
    (∀ s' ∈ rk.symbols, s'.sec.executable = false → ∃ s ∈ r.symbols, s.address = s'.address) ∧
    (∀ s' ∈ rk.symbols, s'.sec.executable = true → ∀ bytes, ContentOf elf s' bytes →
      ((∃ s ∈ r.symbols, s.address = s'.address) ↔
        ¬ (s'.name = none ∧ s'.rels = [] ∧ s'.refs = [] ∧ NothingButNops env s' bytes))) := by
  obtain ⟨st, s1, s2k, s3k, fk⟩ := stages hk
  obtain ⟨st', s1', s2, s3, f⟩ := stages h
  obtain ⟨rfl, rfl⟩ := stages_of_gather fk f
  obtain ⟨_, mk, _⟩ := hashInternal_ok fk.run.ok1 fk.run.internal
  obtain ⟨_, mn, _⟩ := hashInternal_ok f.run.ok1 f.run.internal
  have final : ∀ x ∈ s2.symbols, ∃ s ∈ r.symbols, s.address = x.address := by
    intro x hx
    obtain ⟨fi, e⟩ := f.run.ids
    have fe := ext_facts f.run.ok2 f.run.external
    refine ⟨setIds fi (extSym env s2.global_offset_table s2.symbols s2.symbols x), ?_, rfl⟩
    rw [e]
    exact List.mem_map_of_mem ((fe.mem _).mpr ⟨x, hx, rfl⟩)
  have usedK : ∀ x, unusedSymbol { fl with keep_unused := true } x = false := by
    intro x
    unfold unusedSymbol
    simp
  -- a symbol of the run that keeps all
  have decision : ∀ s' ∈ rk.symbols, ∃ x' ∈ s2k.symbols, Kept x' s' ∧ (∀ t, t ∈ s'.refs ↔ t ∈ x'.refs ∨ ∃ rel ∈ s'.rels, rel.target = t ∧ t ≠ 0) ∧
      ∃ (i : Nat) (s0 : Symbol) (x : Hashed), s1.symbols[i]? = some s0 ∧
        hashSymbol env { fl with keep_unused := true } s1 (lastAddr (s1.symbols.drop (i + 1))) s0 = .ok x ∧
        x' = { x.sym with id := x'.id } ∧
        ((∃ s ∈ r.symbols, s.address = s'.address) ↔ unusedSymbol { fl with keep_unused := false } x = false) := by
    intro s' hs'
    obtain ⟨x', hx', k, hrefs⟩ := refs_of fk hs'
    obtain ⟨i, s0, x, h1, h2, h3, h4⟩ := (mk x').mp hx'
    refine ⟨x', hx', k, hrefs, i, s0, x, h1, h2, ?_, ?_⟩
    · rw [h4, finish_used h3]
    · have hadr : x.sym.address = s'.address := by
        rw [← k.address, h4, finish_used h3]
      constructor
      · rintro ⟨s, hs, e⟩
        obtain ⟨z, hz, kz, _⟩ := f.kept s hs
        obtain ⟨j, z0, w, g1, g2, g3, g4⟩ := (mn z).mp hz
        have hz0 : z.address = z0.address := by
          rw [g4, finishSymbol_address]
          exact (hashSymbol_same (f.run.ok1.rels z0 (List.mem_of_getElem? g1)) g2).1.address
        have hs0 : x.sym.address = s0.address :=
          (hashSymbol_same (f.run.ok1.rels s0 (List.mem_of_getElem? h1)) h2).1.address
        have : i = j := sorted_index f.run.ok1.sorted h1 g1 (by rw [← hs0, hadr, ← e, ← kz.address, hz0])
        subst this
        rw [h1] at g1
        cases g1
        have : x = w := Except.ok.inj (h2.symm.trans g2)
        rw [this]
        exact g3
      · intro hu
        obtain ⟨s, hs, e⟩ := final _ ((mn _).mpr ⟨i, s0, x, h1, h2, hu, rfl⟩)
        refine ⟨s, hs, e.trans ?_⟩
        rw [finishSymbol_address, hadr]
  have depsK : ∀ (i : Nat) (s0 : Symbol) (x : Hashed), s1.symbols[i]? = some s0 →
      hashSymbol env { fl with keep_unused := true } s1 (lastAddr (s1.symbols.drop (i + 1))) s0 = .ok x → x.sym.deps = [] := by
    intro i s0 x h1 h2
    have hm := List.mem_of_getElem? h1
    rw [(hashSymbol_same (f.run.ok1.rels s0 hm) h2).1.deps]
    exact (f.first s0 hm).2.1
  refine ⟨?_, ?_, ?_⟩
  · intro s hs
    obtain ⟨x', hx', k, hrefs⟩ := refs_of f hs
    obtain ⟨i, s0, x, h1, h2, h3, h4⟩ := (mn x').mp hx'
    have hin : x' ∈ s2k.symbols := by
      refine (mk x').mpr ⟨i, s0, x, h1, h2, usedK x, ?_⟩
      rw [h4, finish_used h3, finish_used (usedK x)]
      rfl
    obtain ⟨fi, e⟩ := fk.run.ids
    have fe := ext_facts fk.run.ok2 fk.run.external
    refine ⟨setIds fi (extSym env s2k.global_offset_table s2k.symbols s2k.symbols x'), ?_, ?_, ?_⟩
    · rw [e]
      exact List.mem_map_of_mem ((fe.mem _).mpr ⟨x', hin, rfl⟩)
    · exact ⟨k.address, k.size, k.name, k.type, k.bind, k.sec, k.flags, k.rels, k.internal⟩
    · intro t
      have hm : setIds fi (extSym env s2k.global_offset_table s2k.symbols s2k.symbols x') ∈ rk.symbols := by
        rw [e]
        exact List.mem_map_of_mem ((fe.mem _).mpr ⟨x', hin, rfl⟩)
      obtain ⟨z, hz, kz, hr⟩ := refs_of fk hm
      have : z = x' := fk.run.ok2.sorted.inj hz hin kz.address
      subst this
      rw [hr, hrefs, ← kz.rels, k.rels]
  · intro s' hs' hx
    obtain ⟨x', hx', k, hrefs, i, s0, x, h1, h2, h3, h4⟩ := decision s' hs'
    rw [h4]
    obtain ⟨_, _, sec, s1', _, _, h7, _, h9⟩ := hashSymbol_same (f.run.ok1.rels s0 (List.mem_of_getElem? h1)) h2
    have hsec : x.sym.sec = s'.sec := by rw [← k.sec, h3]
    rcases h9 with ⟨he, _⟩ | ⟨_, h9⟩
    · rw [← h7, hsec, hx] at he; cases he
    · have hc := (hashData_ok h9).choose_spec.2.1
      unfold unusedSymbol
      rw [hc]
      rfl
  · intro s' hs' hx bytes hb
    obtain ⟨x', hx', k, hrefs, i, s0, x, h1, h2, h3, h4⟩ := decision s' hs'
    rw [h4]
    have hu := unused_iff (fl := { fl with keep_unused := false }) (x := x) rfl (depsK i s0 x h1 h2)
    obtain ⟨hsame, _, sec, z, h5, h6, h7, _, h9⟩ := hashSymbol_same (f.run.ok1.rels s0 (List.mem_of_getElem? h1)) h2
    have hsec : x.sym.sec = s'.sec := by rw [← k.sec, h3]
    have hname : x.sym.name = s'.name := by rw [← k.name, h3]
    have hrels : x.sym.rels = s'.rels := by rw [← k.rels, h3]
    have hadr : x.sym.address = s'.address := by rw [← k.address, h3]
    have hcont : x.content = false ↔ NothingButNops env s' bytes := by
      rcases h9 with ⟨_, h9⟩ | ⟨he, _⟩
      · obtain ⟨s2', bytes', e1, e2, e3, e4, e5⟩ := hashExec_ok h9
        have hz : z.address = s0.address := by rw [h6]; exact (adoptSection_same sec s0).1.address
        have hadd := addRelocations_added (by rw [h6]; show Sorted (adoptSection sec s0).rels; rw [(adoptSection_same sec s0).2.2.2.1]; exact f.run.ok1.rels s0 (List.mem_of_getElem? h1)) e1
        obtain ⟨sec', b1, b2⟩ := content_of fk k hb
        have hx's : x'.size = x.sym.size := by rw [h3]
        have hx'a : x'.address = s0.address := by rw [h3]; exact hsame.address
        rw [hx'a, h5] at b1
        cases b1
        have hzs : s2'.size = x'.size := by rw [hadd.base.size, hx's, h6]
        rw [hz, hzs] at e2
        rw [hx'a, e2] at b2
        cases b2
        rw [e5, hz, ← hx'a, k.address]
        unfold NothingButNops
        have := execLoop_content (env := env) (cx := symCtx env s1 s2') (disasm env (TLS.virt_addr s'.address) bytes) (execStart s2')
        rw [← Bool.not_eq_true, this]
        constructor
        · intro hn y hy
          exact Classical.byContradiction (fun hy' => hn (Or.inr ⟨y, hy, hy'⟩))
        · rintro hn (hc | ⟨y, hy, hy'⟩)
          · cases hc
          · exact hy' (hn y hy)
      · rw [← h7, hsec, hx] at he; cases he
    rw [← Bool.not_eq_true, hu, hname, hrels, hcont]
    refine not_congr ?_
    have href : s'.rels = [] → (x.sym.refs = [] ↔ s'.refs = []) := by
      intro hr
      have hx'r : x'.refs = x.sym.refs := by rw [h3]
      rw [List.eq_nil_iff_forall_not_mem, List.eq_nil_iff_forall_not_mem]
      refine forall_congr' (fun t => not_congr ?_)
      rw [hrefs, hx'r, hr]
      simp
    constructor
    · rintro ⟨a, b, c, d⟩
      exact ⟨b, d, (href d).mp c, a⟩
    · rintro ⟨b, d, c, a⟩
      exact ⟨a, b, (href d).mpr c, d⟩

/-- Both cases occur: the symbol of `main` stays, the one for the padding behind it (target of a relocation) does not. -/
example : ∃ rk r, analyze cetEnv { keep_unused := true } (tgtElf 0x1000 0xf1) none = .ok rk ∧
    analyze cetEnv { keep_unused := false } (tgtElf 0x1000 0xf1) none = .ok r ∧
    (∃ s ∈ r.symbols, s.address = 0x1000) ∧
    ∃ s' ∈ rk.symbols, s'.address = 0x1005 ∧ s'.size = 1 ∧ ¬ ∃ s ∈ r.symbols, s.address = s'.address := by
  obtain ⟨rk, hk, h1⟩ := ok_such (m := analyze cetEnv { keep_unused := true } (tgtElf 0x1000 0xf1) none)
    (P := fun r => r.symbols.any (fun s => decide (s.address = 0x1005 ∧ s.size = 1 ∧ s.sec.executable = true ∧
      s.name = none ∧ s.rels = [] ∧ s.refs = []))) (by decide +kernel)
  obtain ⟨r, h, h2⟩ := ok_such (m := analyze cetEnv { keep_unused := false } (tgtElf 0x1000 0xf1) none)
    (P := fun r => hasSym r 0x1000 5 true 5) (by decide +kernel)
  obtain ⟨s, hs, e, _⟩ := hasSym_iff h2
  obtain ⟨s', hs', h1⟩ := List.any_eq_true.mp h1
  obtain ⟨e1, e2, e3, e4, e5, e6⟩ := of_decide_eq_true h1
  refine ⟨rk, r, hk, h, ⟨s, hs, e⟩, s', hs', e1, e2, ?_⟩
  have hb : ContentOf (tgtElf 0x1000 0xf1) s' [0x90] :=
    tgt_content e1 e2 (by decide) (by decide) (by decide)
  have := (C42_files cetEnv {} _ none rk r hk h).2.2 s' hs' e3 _ hb
  refine fun hp => this.mp hp ⟨e4, e5, e6, ?_⟩
  unfold NothingButNops
  rw [e1]
  decide

end Bean

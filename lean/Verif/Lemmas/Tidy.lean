import Verif.Lemmas.Boundary
import Verif.Lemmas.TotalRun
import Verif.Lemmas.RebaseGather
import Verif.Lemmas.FindKeeps
import Verif.Props.Boundary
import Verif.Spec.Tidy
/-
Where the executable symbols and the sizes of symbols come from.
-/
namespace Bean
open Tree Spec Props

/-! ### Insertions -/

/-- Arguments that are executable only at addresses in `Q`, and have a size only as described by `R`. -/
def ArgsFit (Q : Addr → Prop) (R : Addr → Addr → Prop) (a : InsertArgs) : Prop :=
  (a.executable = true → Q a.address) ∧ (a.size = 0 ∨ R a.address a.size)

theorem plain_fit {Q : Addr → Prop} {R : Addr → Addr → Prop} {sec : ElfSec} {k : Addr} {ty : ElfSymType}
    (h : sec.executable = true → Q k) : ArgsFit Q R (plainArgs sec k ty) := ⟨h, Or.inl rfl⟩

theorem readSegment_fit {b : Build} {Q : Addr → Prop} {R : Addr → Addr → Prop} {seg : ElfSeg}
    (hq : seg.type = .load → seg.size < seg.virt_size → seg.executable = true → Q (seg.virt_addr + seg.size))
    {st st' : AState} (h : readSegment b st seg = .ok st') : Touch b (ArgsFit Q R) False st.symbols st'.symbols := by
  unfold readSegment at h
  split at h
  · replace h := (massert_bind_ok h).2
    cases h
    exact .refl
  · rename_i ht
    simp only at h
    split at h
    · rename_i hc
      cases h1 : AState.insertSymbol b { st with segments := (Tree.insert st.segments seg).1 }
        { address := seg.virt_addr + seg.size, section_address := seg.virt_addr, writeable := seg.writeable,
          executable := seg.executable } with
      | error e => rw [h1] at h; cases h
      | ok st1 =>
        rw [h1] at h
        obtain ⟨t, e1, e2⟩ := stInsert_ok h1
        cases h
        subst e2
        exact .one ⟨hq ht hc, Or.inl rfl⟩ e1
    · cases h; exact .refl
  · cases h
    obtain ⟨f, g, e⟩ := readDynamic_eq st seg
    rw [e]
    exact .refl
  · cases h; exact .refl
  · obtain ⟨t, e1, e2⟩ := stInsert_ok h
    subst e2
    exact .one ⟨fun hx => (by cases hx), Or.inl rfl⟩ e1
  · cases h; exact .refl
  · cases h; exact .refl

theorem readSegments_fit {b : Build} {Q : Addr → Prop} {R : Addr → Addr → Prop} {segs : List ElfSeg}
    (hq : ∀ seg ∈ segs, seg.type = .load → seg.size < seg.virt_size → seg.executable = true → Q (seg.virt_addr + seg.size))
    {st st' : AState} (h : readSegments b st segs = .ok st') : Touch b (ArgsFit Q R) False st.symbols st'.symbols :=
  foldlM_rel (fun x y : AState => Touch b (ArgsFit Q R) False x.symbols y.symbols) (fun _ => .refl) (fun _ _ _ h1 h2 => h1.trans h2)
    (fun seg hs _ _ h => readSegment_fit (hq seg hs) h) h

theorem readTargets_fit {b : Build} {Q : Addr → Prop} {R : Addr → Addr → Prop} {st st' : AState}
    (hq : ∀ k sec, Tree.floor st.sections k = some sec → sec.executable = true → Q k) (h : readTargets b st = .ok st') :
    Touch b (ArgsFit Q R) False st.symbols st'.symbols := by
  have rel : ∀ x y : AState, x.sections = st.sections → ∀ r, readRelocation b x r = .ok y →
      Touch b (ArgsFit Q R) False x.symbols y.symbols := by
    intro x y hx r h
    unfold readRelocation at h
    split at h
    · cases hm : mderef b (Tree.floor x.sections r.addend) with
      | error e => rw [hm] at h; cases h
      | ok sec =>
        rw [hm] at h
        obtain ⟨t, e1, e2⟩ := stInsert_ok (massert_bind_ok (massert_bind_ok h).2).2
        subst e2
        have hf := mderef_ok hm
        rw [hx] at hf
        exact .one (plain_fit (hq _ sec hf)) e1
    · cases h; exact .refl
  have packed : ∀ x y : AState, x.sections = st.sections → ∀ off, readRelative b x off = .ok y →
      Touch b (ArgsFit Q R) False x.symbols y.symbols := by
    intro x y hx off h
    unfold readRelative at h
    cases hm : mderef b (Tree.floor x.sections off) with
    | error e => rw [hm] at h; cases h
    | ok sec =>
      simp only [bind, Except.bind, hm] at h
      cases hb : readBytes sec.data (off - sec.virt_addr) 8 with
      | error e => rw [hb] at h; cases h
      | ok bytes =>
        simp only [hb] at h
        split at h
        · rename_i sec' hf
          obtain ⟨t, e1, e2⟩ := stInsert_ok h
          subst e2
          rw [hx] at hf
          exact .one (plain_fit (hq _ sec' hf)) e1
        · cases h; exact .refl
  have hR : ∀ x y z : AState, (x.sections = st.sections → y.sections = st.sections ∧ Touch b (ArgsFit Q R) False x.symbols y.symbols) →
      (y.sections = st.sections → z.sections = st.sections ∧ Touch b (ArgsFit Q R) False y.symbols z.symbols) →
      (x.sections = st.sections → z.sections = st.sections ∧ Touch b (ArgsFit Q R) False x.symbols z.symbols) := by
    intro x y z h1 h2 hx
    obtain ⟨a1, a2⟩ := h1 hx
    obtain ⟨b1, b2⟩ := h2 a1
    exact ⟨b1, a2.trans b2⟩
  unfold readTargets at h
  cases h1 : st.relocations.foldlM (readRelocation b) st with
  | error e => rw [h1] at h; cases h
  | ok w =>
    rw [h1] at h
    replace h : w.relative_relocations.foldlM (readRelative b) w = .ok st' := h
    have g1 := foldlM_rel (fun x y : AState => x.sections = st.sections → y.sections = st.sections ∧
      Touch b (ArgsFit Q R) False x.symbols y.symbols) (fun _ hx => ⟨hx, .refl⟩) hR
      (fun r _ x y h hx => ⟨by rw [(readRelocation_grown h).1.1]; exact hx, rel x y hx r h⟩) h1
    have g2 := foldlM_rel (fun x y : AState => x.sections = st.sections → y.sections = st.sections ∧
      Touch b (ArgsFit Q R) False x.symbols y.symbols) (fun _ hx => ⟨hx, .refl⟩) hR
      (fun r _ x y h hx => ⟨by rw [(readRelative_grown h).1.1]; exact hx, packed x y hx r h⟩) h
    exact (hR _ _ _ g1 g2 rfl).2

/-! ### The invariant of symbols -/

theorem Touch.fit {b : Build} {Q : Addr → Prop} {R : Addr → Addr → Prop} {t t' : SymTree} (h : Touch b (ArgsFit Q R) False t t')
    (hs : Sorted t) (h0 : ∀ s ∈ t, (s.sec.executable = true → Q s.address) ∧ (s.size = 0 ∨ R s.address s.size)) :
    ∀ s ∈ t', (s.sec.executable = true → Q s.address) ∧ (s.size = 0 ∨ R s.address s.size) := by
  intro s hsm
  refine h.always (P := fun s => (s.sec.executable = true → Q s.address) ∧ (s.size = 0 ∨ R s.address s.size)) (k := s.address)
    (fun a ha _ => ha) ?_ hs (fun s hs _ => h0 s hs) s hsm rfl
  intro a x ha hak hxk hx
  unfold stepAt
  simp only
  split
  · exact hx
  · split
    · constructor
      · intro he
        show Q x.address
        replace he : (if x.size = 0 then a.executable else x.sec.executable) = true := he
        split at he
        · rw [hxk, ← hak]; exact ha.1 he
        · exact hx.1 he
      · show (if x.address + x.size ≥ a.address + a.size then x.address + x.size else a.address + a.size) - x.address = 0 ∨
          R x.address ((if x.address + x.size ≥ a.address + a.size then x.address + x.size else a.address + a.size) - x.address)
        have e : a.address = x.address := hak.trans hxk.symm
        split
        · rw [show x.address + x.size - x.address = x.size by bv_omega]
          exact hx.2
        · rw [e, show x.address + a.size - x.address = a.size by bv_omega, ← e]
          exact ha.2
    · exact hx

/-- The search for functions keeps it. -/
theorem findFunctions_fit {env : Env} {fl : AnalyzeFlags} {Q : Addr → Prop} {R : Addr → Addr → Prop} {st st' : AState}
    (hstart : ∀ sec ∈ st.sections, sec.executable = true → Q (TLS.trans_addr sec.virt_addr sec.tls))
    (hinsn : ∀ sec steps, SectionCode env st sec steps → ∀ x ∈ steps, Q (TLS.trans_addr x.insn.address sec.tls))
    (hcall : ∀ k sec, Tree.floor st.sections k = some sec → sec.executable = true → Q (TLS.trans_addr k sec.tls))
    (hslot : ∀ sec pre x post start sec', SlotAt env fl st sec pre x post start → Tree.floor st.sections start = some sec' →
      (sec'.executable = true → Q start) ∧ R start (TLS.trans_addr (x.address - start) sec'.tls))
    (h : findFunctions env fl st = .ok st') (hs : Sorted st.symbols)
    (h0 : ∀ s ∈ st.symbols, (s.sec.executable = true → Q s.address) ∧ (s.size = 0 ∨ R s.address s.size)) :
    ∀ s ∈ st'.symbols, (s.sec.executable = true → Q s.address) ∧ (s.size = 0 ∨ R s.address s.size) := by
  refine (findFunctions_keeps (A := ArgsFit Q R) (I := fun t => Sorted t ∧ ∀ s ∈ t, (s.sec.executable = true → Q s.address) ∧
    (s.size = 0 ∨ R s.address s.size)) ⟨fun sec hm _ => plain_fit (hstart sec hm), fun sec steps _ hc x hx => plain_fit (fun _ => hinsn sec steps hc x hx),
      fun k sec hf hx => plain_fit (fun _ => hcall k sec hf hx), ?_, ?_, ?_⟩ h ⟨hs, h0⟩).2
  · intro t t' a ha hi ⟨h1, h2⟩
    have := Touch.one (N := False) ha hi
    exact ⟨this.sorted h1, this.fit h1 h2⟩
  · intro t _ _ _ _ k n _ _ _ ⟨h1, h2⟩
    refine ⟨sorted_modify h1 k _ (fun _ => rfl), fun s hsm => ?_⟩
    obtain ⟨s0, h3, rfl⟩ := List.mem_map.mp hsm
    split <;> exact h2 s0 h3
  · intro t sec pre x post start sec' n _ hsl hf _ ⟨h1, h2⟩
    refine ⟨sorted_insert h1 _, fun s hsm => ?_⟩
    rcases (mem_insert' h1).mp hsm with h3 | ⟨rfl, _⟩
    · exact h2 s h3
    · have := hslot sec pre x post start sec' hsl hf
      exact ⟨this.1, Or.inr this.2⟩

/-- Flags leave addresses, sizes and rights alone. -/
theorem addFlags_origin {entry : Addr} {fs : List SectionFlag} {t : SymTree} {s : Symbol} (h : s ∈ addFlags entry fs t) :
    ∃ s0 ∈ t, s.address = s0.address ∧ s.size = s0.size ∧ s.sec.executable = s0.sec.executable := by
  obtain ⟨s0, h0, rfl⟩ := addFlags_mem.mp h
  refine ⟨s0, h0, ?_⟩
  generalize hs1 : (if s0.address = entry then { s0 with flags := s0.flags ||| SYMBOL_ENTRY } else s0) = s1
  have e : s1.address = s0.address ∧ s1.size = s0.size ∧ s1.sec = s0.sec := by
    rw [← hs1]; split <;> exact ⟨rfl, rfl, rfl⟩
  obtain ⟨x, q1, q2, q3, q4⟩ := flagSymbol_base fs s1
  obtain ⟨⟨fl', q5⟩, _⟩ := regionFlags_spec fs 0 x
  rw [q1, q5]
  have e2 : x.sec.executable = s0.sec.executable := congrArg Section.executable (q2.trans e.2.2)
  exact ⟨q3.trans e.1, q4.trans e.2.1, e2⟩

theorem located_of_ops {elf d : Elf} {sym : ElfSym} {a : InsertArgs} (h : a ∈ symOps d.sections (tlsSegment elf) sym) :
    (∃ sec, LocatedAt elf d sym sec a.address ∧ a = symbolArgs sec sym a.address) ∨ a = { address := a.address } := by
  obtain ⟨sec, hin, ⟨h1, seg, h2, e⟩ | ⟨hd, e⟩ | ⟨hd, hz, e⟩⟩ := mem_symOps h
  · exact Or.inl ⟨sec, ⟨hin, Or.inl ⟨h1, seg, h2, by rw [e]; rfl⟩⟩, by rw [e]; rfl⟩
  · exact Or.inl ⟨sec, ⟨hin, Or.inr ⟨hd.not_tls, hd.value, hd.allocated, by rw [e]; rfl⟩⟩, by rw [e]; rfl⟩
  · exact Or.inr (by rw [e])

theorem fromTable_fit {elf d : Elf} {Q : Addr → Prop} {R : Addr → Addr → Prop} {a : InsertArgs}
    (hq : ∀ sym, TableEntry d sym → ∀ sec k, LocatedAt elf d sym sec k → (sec.executable = true → Q k) ∧ (sym.size = 0 ∨ R k sym.size))
    (h : FromTable d.sections (tlsSegment elf) a) : ArgsFit Q R a := by
  obtain ⟨tbl, h1, h2, h3, sym, h4, h5⟩ := h
  rcases located_of_ops h5 with ⟨sec, h6, e⟩ | e
  · have := hq sym ⟨tbl, h1, h2, h3, h4⟩ sec _ h6
    rw [e]
    exact this
  · rw [e]
    exact ⟨fun h => (by cases h), Or.inl rfl⟩

theorem gather_fit {env : Env} {fl : AnalyzeFlags} {elf : Elf} {dbgsym : Option Elf} {st : AState} {Q : Addr → Prop}
    {R : Addr → Addr → Prop} (h : gather env fl elf dbgsym = .ok st)
    (hsegs : ∀ seg ∈ elf.segments, seg.type = .load → seg.size < seg.virt_size → seg.executable = true → Q (seg.virt_addr + seg.size))
    (hent : ∀ d, Part elf dbgsym d → ∀ sym, TableEntry d sym → ∀ sec k, LocatedAt elf d sym sec k →
      (sec.executable = true → Q k) ∧ (sym.size = 0 ∨ R k sym.size))
    (hto : ∀ k sec, Tree.floor (imageOf elf).sections k = some sec → sec.executable = true → Q k)
    (hstart : ∀ sec ∈ (imageOf elf).sections, sec.executable = true → Q (TLS.trans_addr sec.virt_addr sec.tls))
    (hinsn : ∀ sec steps, SectionCode env (imageOf elf) sec steps → ∀ x ∈ steps, Q (TLS.trans_addr x.insn.address sec.tls))
    (hcall : ∀ k sec, Tree.floor (imageOf elf).sections k = some sec → sec.executable = true → Q (TLS.trans_addr k sec.tls))
    (hslot : ∀ sec pre x post start sec', SlotAt env fl (imageOf elf) sec pre x post start →
      Tree.floor (imageOf elf).sections start = some sec' →
      (sec'.executable = true → Q start) ∧ R start (TLS.trans_addr (x.address - start) sec'.tls)) :
    ∀ s ∈ st.symbols, (s.sec.executable = true → Q s.address) ∧ (s.size = 0 ∨ R s.address s.size) := by
  have part := gather_part h
  obtain ⟨st0, _, hg⟩ := gather_ok h
  have esec : st.sections = (imageOf elf).sections := hg.sections
  clear hg
  unfold gather at h
  cases h1 : readSegments env.build {} elf.segments with
  | error e => rw [h1] at h; cases h
  | ok s1 =>
    simp only [bind, Except.bind, h1] at h
    cases h2 : readSections env.build true s1 elf.sections with
    | error e => rw [h2] at h; cases h
    | ok s2 =>
      simp only [h2] at h
      cases h3 : readDebug env.build s2 dbgsym with
      | error e => rw [h3] at h; cases h
      | ok s3 =>
        simp only [h3] at h
        cases h4 : readTargets env.build s3 with
        | error e => rw [h4] at h; cases h
        | ok s4 =>
          simp only [h4] at h
          cases h5 : findFunctions env fl s4 with
          | error e => rw [h5] at h; cases h
          | ok s5 =>
            simp only [h5] at h
            cases h
            have e5 := (findFunctions_touch h5).1
            have e4 := (readTargets_touch h4).1
            have e3 : s3.tls_segment = s2.tls_segment := by
              cases dbgsym with
              | none => cases h3; rfl
              | some d => exact (readSections_read h3).tls
            have etls : s1.tls_segment = tlsSegment elf := by
              rw [← show _ = tlsSegment elf from congrArg FilePart.tls part]
              show s1.tls_segment = s5.tls_segment
              rw [e5]
              show s1.tls_segment = s4.tls_segment
              rw [e4]
              show s1.tls_segment = s3.tls_segment
              rw [e3, (readSections_read h2).tls]
            have esec4 : s4.sections = (imageOf elf).sections := by
              rw [← esec]
              show s4.sections = s5.sections
              rw [e5]
            have esec3 : s3.sections = (imageOf elf).sections := by rw [← esec4, e4]
            have u1 : Touch env.build (ArgsFit Q R) False [] s1.symbols := readSegments_fit hsegs h1
            have r2 := readSections_read h2
            have u2 : Touch env.build (ArgsFit Q R) False s1.symbols s2.symbols := by
              have := r2.touch
              rw [etls] at this
              exact this.mono (fun a ha => fromTable_fit (hent elf (Or.inl rfl)) ha)
            have u3 : Touch env.build (ArgsFit Q R) False s2.symbols s3.symbols := by
              cases dbgsym with
              | none => cases h3; exact .refl
              | some d =>
                have := (readSections_read h3).touch
                rw [r2.tls, etls] at this
                exact this.mono (fun a ha => fromTable_fit (hent d (Or.inr rfl)) ha)
            have u4 : Touch env.build (ArgsFit Q R) False s3.symbols s4.symbols :=
              readTargets_fit (by rw [esec3]; exact hto) h4
            have all := (u1.trans u2).trans (u3.trans u4)
            have code : ∀ sec steps, SectionCode env s4 sec steps → SectionCode env (imageOf elf) sec steps := by
              intro sec steps hc
              unfold SectionCode at hc ⊢
              rw [← esec4]
              exact hc
            have fin := findFunctions_fit (Q := Q) (R := R) (by rw [esec4]; exact hstart)
              (fun sec steps hc => hinsn sec steps (code sec steps hc)) (by rw [esec4]; exact hcall)
              (fun sec pre x post start sec' hsl hf => hslot sec pre x post start sec' ⟨code _ _ hsl.code, hsl.named, hsl.jump, hsl.start⟩
                (by rw [← esec4]; exact hf)) h5 (all.sorted sorted_nil) (all.fit sorted_nil (fun _ h => by cases h))
            intro s hs
            replace hs : s ∈ addFlags elf.entry s5.section_flags s5.symbols := hs
            obtain ⟨s0, h0, q1, q2, q3⟩ := addFlags_origin hs
            rw [q1, q2, q3]
            exact fin s0 h0

/-- A named entry at an address without untyped entries gives its symbol a name. -/
theorem gather_named {env : Env} {fl : AnalyzeFlags} {elf : Elf} {dbgsym : Option Elf} {st : AState}
    (h : gather env fl elf dbgsym = .ok st)
    (hn : ∀ plt, Loaded elf plt → namesPlt fl plt = true → ∀ e ∈ allRelocations elf dbgsym, ∀ y, e.symbol = some y → y.name ≠ none) {d : Elf}
    (hd : Part elf dbgsym d) {sym : ElfSym} (hsym : TableEntry d sym) {from_ : ElfSec} {low : Addr}
    (hl : LocatedAt elf d sym from_ low) (hname : sym.name ≠ none)
    (htype : ∀ d', Part elf dbgsym d' → ∀ sym', TableEntry d' sym' → ∀ sec, LocatedAt elf d' sym' sec low → sym'.type ≠ .notype) :
    ∃ s ∈ st.symbols, s.address = low ∧ s.name ≠ none := by
  obtain ⟨st1, t, hg⟩ := gather_ok h
  have htls : st.tls_segment = tlsSegment elf := congrArg FilePart.tls (gather_part h)
  obtain ⟨hs0, hst, _, _⟩ := gathered_facts hg
  have typed : ∀ ty : ElfSymType, ty ≠ .notype → beanType ty ≠ .none := by intro ty; cases ty <;> decide
  have hsrc : ∀ a, Source elf dbgsym st.tls_segment a → a.address = low → beanType a.type ≠ .none := by
    have tab : ∀ d', Part elf dbgsym d' → ∀ a, FromTable d'.sections st.tls_segment a → a.address = low → beanType a.type ≠ .none := by
      rintro d' hd' a ⟨tbl, h1, h2, h3, sym', h4, h5⟩ hk
      rw [htls] at h5
      rcases located_of_ops h5 with ⟨sec, h6, e⟩ | e
      · rw [hk] at h6
        rw [e]
        exact typed _ (htype d' hd' sym' ⟨tbl, h1, h2, h3, h4⟩ sec h6)
      · rw [e]
        exact (by decide : beanType .hiproc ≠ .none)
    intro a ha hk
    rcases ha with ha | ha | ⟨d', hd', ha⟩
    · exact ha.2.1
    · exact tab elf (Or.inl rfl) a ha hk
    · exact tab d' (Or.inr hd') a ha hk
  obtain ⟨tbl, g1, g2, g3, g4⟩ := hsym
  have hin : symbolArgs from_ sym low ∈ symOps d.sections st.tls_segment sym := by
    rw [htls]
    rcases hl with ⟨hin, ⟨h1, seg, h2, rfl⟩ | ⟨h1, h2, h3, rfl⟩⟩
    · obtain ⟨n, hn, hs⟩ := hin
      unfold symOps
      rw [hn]
      simp only
      rw [hs]
      simp only
      rw [if_pos h1, h2]
      exact List.mem_singleton.mpr rfl
    · rw [symOps_defines (⟨hin, h1, h2, h3⟩ : Defines d.sections sym from_)]
      exact List.mem_cons_self
  obtain ⟨t1, t2, u1, u2, u3⟩ := hg.via d hd tbl g1 g2 g3 sym g4 _ hin
  have hown : Source elf dbgsym st.tls_segment (symbolArgs from_ sym low) := by
    rcases hd with rfl | hd
    · exact Or.inr (Or.inl ⟨tbl, g1, g2, g3, sym, g4, hin⟩)
    · exact Or.inr (Or.inr ⟨d, hd, tbl, g1, g2, g3, sym, g4, hin⟩)
  have hself := hsrc _ hown rfl
  have hsort1 : Sorted t1 := u1.sorted sorted_nil
  have hbefore := u1.always (k := low) (P := fun s => s.type ≠ .none) (fun a hA ha => hsrc a hA ha)
    (fun a s hA ha hs hP => by rw [stepAt_merge (hsrc a hA ha) hP]; exact merge_type (hsrc a hA ha) hP)
    sorted_nil (fun _ h => by cases h)
  obtain ⟨e1, e2, e3⟩ := insertSymbol_spec hsort1 u2
  have hafter : ∃ s ∈ t2, s.address = low ∧ (s.type ≠ .none ∧ s.name ≠ none) := by
    refine ⟨_, (find_mem e2).1, (find_mem e2).2, ?_⟩
    cases hp : Tree.find t1 (symbolArgs from_ sym low).address with
    | none => exact ⟨hself, hname⟩
    | some pos =>
      have hpos := hbefore pos (find_mem hp).1 (find_mem hp).2
      rw [stepAt_merge hself hpos]
      exact ⟨merge_type hself hpos, (merge_name _ pos).2.2.1 hname⟩
  have keepIt : ∀ a s, Source elf dbgsym st.tls_segment a → a.address = low → s.address = low →
      (s.type ≠ .none ∧ s.name ≠ none) → ((stepAt a (some s)).type ≠ .none ∧ (stepAt a (some s)).name ≠ none) := by
    intro a s hA ha _ hP
    rw [stepAt_merge (hsrc a hA ha) hP.1]
    exact ⟨merge_type (hsrc a hA ha) hP.1, (merge_name a s).1 hP.2⟩
  have hread := u3.at (P := fun s => s.type ≠ .none ∧ s.name ≠ none) keepIt (fun hF => hF.elim) e1 hafter
  have keepAll : ∀ t1 t2 a, Sizeless a → insertSymbol env.build t1 a = .ok t2 →
      (Sorted t1 ∧ ∃ s ∈ t1, s.address = low ∧ (s.type ≠ .none ∧ s.name ≠ none)) →
      (Sorted t2 ∧ ∃ s ∈ t2, s.address = low ∧ (s.type ≠ .none ∧ s.name ≠ none)) := by
    intro t1 t2 a ha hi ⟨g1, g2⟩
    have := Touch.one (N := False) ha hi
    exact ⟨this.sorted g1, this.at (P := fun s => s.type ≠ .none ∧ s.name ≠ none)
      (fun a s hA ha hs hP => keepIt a s (Or.inl hA) ha hs hP) (fun hF => hF.elim) g1 g2⟩
  have hrels : st1.relocations = Tree.ofList (allRelocations elf dbgsym) := by
    have : st.relocations = _ := congrArg FilePart.relocations (gather_part h)
    rw [hg.result] at this
    exact this
  obtain ⟨_, s, x1, x2, x3⟩ := findFunctions_keeps (A := Sizeless)
    (I := fun t => Sorted t ∧ ∃ s ∈ t, s.address = low ∧ (s.type ≠ .none ∧ s.name ≠ none))
    ⟨fun _ _ _ => plain_sizeless _ _, fun _ _ _ _ _ _ => plain_func _ _, fun _ _ _ _ => plain_func _ _, keepAll,
      fun t plt pre x post k n _ hN ⟨rel, hr1, y, hr2, hr3⟩ ⟨g1, s, g2, g3, g4⟩ => by
        have hp1 := hN.code.1
        have hp2 := hN.named
        have hpl : Loaded elf plt := by
          have : plt ∈ st.sections := by rw [hg.result]; exact hp1
          rw [hg.sections] at this
          exact mem_loadedSections.mp (mem_ofList this)
        rw [hrels] at hr1
        have hnn := hn plt hpl hp2 rel (mem_ofList hr1) y hr2
        refine ⟨sorted_modify g1 k _ (fun _ => rfl), _, List.mem_map_of_mem g2, ?_, ?_⟩
        · split <;> exact g3
        · split
          · exact ⟨g4.1, by rw [hr3]; exact hnn⟩
          · exact g4,
      fun t sec pre x post start sec' n _ _ _ _ ⟨g1, s, g2, g3, g4⟩ =>
        ⟨sorted_insert g1 _, s, (mem_insert' g1).mpr (Or.inl g2), g3, g4⟩⟩ hg.found ⟨hs0, hread⟩
  obtain ⟨y, y1, y2⟩ := addFlags_enlarged (entry := elf.entry) (fs := st1.section_flags) x1
  refine ⟨y, by rw [hg.result]; exact y1, y2.address.trans x2, ?_⟩
  rw [y2.name]
  exact x3.2

/-! ### Addresses of sections -/

theorem flag_nat : TLS.ADDRESS_FLAG.toNat = 15 * 2 ^ 52 := by decide

theorem small_and {a : Addr} (h : a.toNat < 2 ^ 52) : a &&& TLS.ADDRESS_FLAG = 0#64 := by
  have hf : ∀ i : Fin 64, i.val < 52 → TLS.ADDRESS_FLAG.getLsbD i.val = false := by decide
  apply BitVec.eq_of_getLsbD_eq
  intro i hi
  rw [BitVec.getLsbD_and, BitVec.getLsbD_zero]
  by_cases hc : i < 52
  · rw [hf ⟨i, hi⟩ hc, Bool.and_false]
  · have : a.getLsbD i = false := by
      rw [BitVec.getLsbD]
      exact Nat.testBit_lt_two_pow (Nat.lt_of_lt_of_le h (Nat.pow_le_pow_right (by decide) (by omega)))
    rw [this, Bool.false_and]

theorem small_regular {a : Addr} (h : a.toNat < 2 ^ 52) : TLS.is_tls a = false := (TLS.is_tls_eq_false_iff a).mpr (small_and h)

/-- The flag is added to addresses of thread-local data. -/
theorem trans_nat {a : Addr} (h : a.toNat < 2 ^ 52) (t : Bool) :
    (TLS.trans_addr a t).toNat = a.toNat + if t then 15 * 2 ^ 52 else 0 := by
  cases t with
  | false => rw [TLS.trans_false]; simp
  | true =>
    unfold TLS.trans_addr
    rw [if_pos rfl, ← BitVec.add_eq_or_of_and_eq_zero _ _ (small_and h), BitVec.toNat_add, flag_nat]
    simp only [if_true]
    omega

/-- The flag is removed from addresses between the bounds of a section. -/
theorem virt_between {lo hi : Addr} {t : Bool} {k : Addr} (hhi : hi.toNat < 2 ^ 52) (hlo : lo.toNat ≤ hi.toNat)
    (h1 : (TLS.trans_addr lo t).toNat ≤ k.toNat) (h2 : k.toNat ≤ (TLS.trans_addr hi t).toNat) :
    k.toNat = (TLS.virt_addr k).toNat + (if t then 15 * 2 ^ 52 else 0) ∧ lo.toNat ≤ (TLS.virt_addr k).toNat ∧
      (TLS.virt_addr k).toNat ≤ hi.toNat := by
  rw [trans_nat (Nat.lt_of_le_of_lt hlo hhi)] at h1
  rw [trans_nat hhi] at h2
  cases t with
  | false =>
    simp only [Bool.false_eq_true, if_false, Nat.add_zero] at h1 h2 ⊢
    rw [TLS.virt_of_regular (small_regular (by omega))]
    exact ⟨rfl, h1, h2⟩
  | true =>
    simp only [if_true] at h1 h2 ⊢
    have hk : k = TLS.trans_addr (BitVec.ofNat 64 (k.toNat - 15 * 2 ^ 52)) true := by
      apply BitVec.eq_of_toNat_eq
      have hs : (BitVec.ofNat 64 (k.toNat - 15 * 2 ^ 52)).toNat = k.toNat - 15 * 2 ^ 52 := by
        rw [BitVec.toNat_ofNat]; omega
      rw [trans_nat (by rw [hs]; omega), hs]
      simp only [if_true]
      omega
    have hs : (BitVec.ofNat 64 (k.toNat - 15 * 2 ^ 52)).toNat = k.toNat - 15 * 2 ^ 52 := by
      rw [BitVec.toNat_ofNat]; omega
    have hv : TLS.virt_addr k = BitVec.ofNat 64 (k.toNat - 15 * 2 ^ 52) := by
      conv => lhs; rw [hk]
      exact TLS.virt_trans _ true (small_regular (by rw [hs]; omega))
    rw [hv, hs]
    omega

theorem sectionOf_unique {elf : Elf} {a : Addr} {sec sec' : ElfSec} (h : SectionOf elf a sec) (h' : SectionOf elf a sec') : sec = sec' := by
  rcases h.closest sec' h'.loaded h'.start with e | e
  · exact e.symm
  · rcases h'.closest sec h.loaded h.start with e' | e'
    · exact e'
    · omega

/-! ### Tidy files -/

theorem image_loaded {elf : Elf} {sec : ElfSec} (h : sec ∈ (imageOf elf).sections) : Loaded elf sec :=
  mem_loadedSections.mp (mem_ofList h)

theorem start_section {elf : Elf} (hd : DistinctSections elf) {sec : ElfSec} (h : Loaded elf sec) : SectionOf elf (secStart sec) sec := by
  refine ⟨h, Nat.le_refl _, fun sec' h' hle => ?_⟩
  rcases Nat.lt_or_eq_of_le hle with hlt | he
  · exact Or.inr hlt
  · exact Or.inl (hd sec' sec h' h he)

/-- Addresses in a section that is apart from the others. -/
theorem inside_section {env : Env} {elf : Elf} {dbgsym : Option Elf} (ht : Tidy env elf dbgsym) (hd : DistinctSections elf)
    {sec : ElfSec} (h : Loaded elf sec) {k : Addr} (h1 : (secStart sec).toNat ≤ k.toNat)
    (h2 : k.toNat < (secStart sec).toNat + sec.size.toNat) : SectionOf elf k sec := by
  refine ⟨h, h1, fun sec' h' hle => ?_⟩
  rcases Nat.lt_trichotomy (secStart sec').toNat (secStart sec).toNat with hlt | he | hgt
  · exact Or.inr hlt
  · exact Or.inl (hd sec' sec h' h he)
  · have := ht.disjoint sec sec' h h' hgt
    omega

theorem insn_section {env : Env} {elf : Elf} {dbgsym : Option Elf} (ht : Tidy env elf dbgsym) (hd : DistinctSections elf)
    (hi : ∀ a bytes i, env.decode a bytes = some i → i.address = a) {sec : ElfSec} {steps : List Step}
    (hc : SectionCode env (imageOf elf) sec steps) {x : Step} (hx : x ∈ steps) :
    SectionOf elf (TLS.trans_addr x.insn.address sec.tls) sec ∧ TLS.trans_addr x.insn.address sec.tls ≤ secEnd env sec := by
  obtain ⟨h1, h2, bytes, h3, rfl⟩ := hc
  have hl := image_loaded h1
  obtain ⟨e1, e2⟩ := readBytes_slice h3
  obtain ⟨b1, b2⟩ := ht.bounds sec hl
  have hlen : bytes.length = sec.size.toNat := by
    rw [e2]
    have h0 : (0 : Addr).toNat = 0 := rfl
    rw [h0] at e1 ⊢
    rw [List.drop_zero, List.length_take]
    omega
  obtain ⟨p1, p2, p3, p4⟩ := disasmN_place hi bytes.length sec.virt_addr bytes (by omega) x hx
  have s1 := trans_nat (a := x.insn.address) (by omega) sec.tls
  have s2 : (secStart sec).toNat = _ := trans_nat (a := sec.virt_addr) (by omega) sec.tls
  have s3 : (secEnd env sec).toNat = _ := trans_nat (a := secTop env sec) b2 sec.tls
  refine ⟨inside_section ht hd hl (by omega) (by omega), BitVec.le_def.mpr (by omega)⟩

theorem place_section {env : Env} {elf : Elf} {dbgsym : Option Elf} (ht : Tidy env elf dbgsym) (hd : DistinctSections elf)
    (hi : ∀ a bytes i, env.decode a bytes = some i → i.address = a) {k : Addr} (h : Place env elf dbgsym k) :
    ∃ sec, SectionOf elf k sec ∧ k ≤ secEnd env sec := by
  cases h with
  | mark _ h => exact ht.marks k h
  | sec sec h =>
    refine ⟨sec, start_section hd h, BitVec.le_def.mpr ?_⟩
    obtain ⟨b1, b2⟩ := ht.bounds sec h
    rw [show (secStart sec).toNat = _ from trans_nat (a := sec.virt_addr) (by omega) sec.tls,
      show (secEnd env sec).toNat = _ from trans_nat (a := secTop env sec) b2 sec.tls]
    omega
  | insn sec steps x h1 h2 => exact ⟨sec, insn_section ht hd hi h1 h2⟩

theorem boundary_place {env : Env} {fl : AnalyzeFlags} {elf : Elf} {dbgsym : Option Elf} {t : SymTree} {k : Addr}
    (ht : Tidy env elf dbgsym) (h : Boundary env fl elf dbgsym t k) : Place env elf dbgsym k := by
  cases h with
  | segment seg h1 h2 => exact .mark _ (.segment seg k h1 h2)
  | entry d sym h1 h2 h3 => exact .mark _ (.entry d sym k h1 h2 h3)
  | pointer h => exact .mark _ (.pointer k h)
  | code h =>
    cases h with
    | sec sec h => exact .sec sec (image_loaded h)
    | called sec steps x _ h1 h2 h3 h4 => exact .mark _ (.called sec steps x k h1 h2 h3 h4)
    | mark sec pre x post h1 => exact .insn sec _ x h1 (List.mem_append_right _ List.mem_cons_self)
    | next sec pre1 pre2 x post h1 => exact .insn sec _ x h1 (List.mem_append_right _ List.mem_cons_self)
    | plt sec steps _ h1 _ h2 =>
      have htls := (ht.code sec (image_loaded h1.1) h1.2.1).1
      rcases h2 with rfl | ⟨x, hx, rfl⟩
      · have := Place.sec (env := env) (dbgsym := dbgsym) sec (image_loaded h1.1)
        unfold secStart at this
        rw [htls, TLS.trans_false] at this
        exact this
      · have := Place.insn (env := env) (dbgsym := dbgsym) sec steps x h1 hx
        rw [htls, TLS.trans_false] at this
        exact this

/-- What is known about the jumps of a named PLT section. -/
theorem slot_section {env : Env} {fl : AnalyzeFlags} {elf : Elf} {dbgsym : Option Elf} (ht : Tidy env elf dbgsym)
    (hd : DistinctSections elf) (hi : ∀ a bytes i, env.decode a bytes = some i → i.address = a) {sec : ElfSec} {pre : List Step}
    {x : Step} {post : List Step} {start : Addr} (h : SlotAt env fl (imageOf elf) sec pre x post start) :
    SectionOf elf start sec ∧ start ≤ x.address ∧ x.address ≤ secTop env sec := by
  have hl := image_loaded h.code.1
  have htls := (ht.code sec hl h.code.2.1).1
  have hx : x ∈ pre ++ x :: post := by simp
  obtain ⟨_, _, bytes, h3, h4⟩ := h.code
  obtain ⟨e1, e2⟩ := readBytes_slice h3
  obtain ⟨b1, b2⟩ := ht.bounds sec hl
  have hlen : bytes.length = sec.size.toNat := by
    rw [e2]
    have h0 : (0 : Addr).toNat = 0 := rfl
    rw [h0] at e1 ⊢
    rw [List.drop_zero, List.length_take]
    omega
  have place := disasmN_place hi bytes.length sec.virt_addr bytes (by omega)
  have order := disasmN_order hi bytes.length sec.virt_addr bytes (by omega) pre x post h4.symm
  have hxp := place x (by rw [show disasmN env bytes.length sec.virt_addr bytes = _ from h4.symm]; exact hx)
  refine ⟨?_, ?_, BitVec.le_def.mpr (by omega)⟩
  · rcases h.start with e | ⟨y, hy, e⟩
    · have := start_section hd hl
      unfold secStart at this
      rw [htls, TLS.trans_false] at this
      rw [e]
      exact this
    · have hy' : y ∈ pre ++ x :: post := by
        rcases List.mem_append.mp hy with hy | hy
        · exact List.mem_append_left _ hy
        · rw [List.mem_singleton.mp hy]; exact hx
      have := (insn_section ht hd hi h.code hy').1
      rw [htls, TLS.trans_false] at this
      rw [e]
      exact this
  · rcases h.start with e | ⟨y, hy, e⟩
    · rw [e]; exact BitVec.le_def.mpr (by omega)
    · rw [e]
      have := order y hy
      exact BitVec.le_def.mpr (by omega)

/-- An entry of a symbol table with this address and size. -/
def EntrySize (elf : Elf) (dbgsym : Option Elf) (k n : Addr) : Prop :=
  ∃ d sym sec, Part elf dbgsym d ∧ TableEntry d sym ∧ LocatedAt elf d sym sec k ∧ sym.size = n

/-- The code of a PLT section from this address on up to the end of a jump has this size. -/
def SlotSize (env : Env) (elf : Elf) (k n : Addr) : Prop :=
  ∃ sec steps x, SectionCode env (imageOf elf) sec steps ∧ hasPrefix ".plt." (some sec.name) = true ∧ x ∈ steps ∧
    .jump ∈ x.insn.groups ∧ SectionOf elf k sec ∧ k ≤ x.address ∧ x.address ≤ secTop env sec ∧ n = x.address - k

/-- What is known about the symbols that are gathered from a tidy file. -/
theorem tidy_symbols {env : Env} {fl : AnalyzeFlags} {elf : Elf} {dbgsym : Option Elf} {st : AState} (ht : Tidy env elf dbgsym)
    (hd : DistinctSections elf) (hi : ∀ a bytes i, env.decode a bytes = some i → i.address = a) (h : gather env fl elf dbgsym = .ok st) :
    ∀ s ∈ st.symbols, Place env elf dbgsym s.address ∧
      (s.sec.executable = true → ∀ sec, SectionOf elf s.address sec → sec.executable = true) ∧
      (s.size = 0 ∨ EntrySize elf dbgsym s.address s.size ∨ SlotSize env elf s.address s.size) := by
  have hto : ∀ k sec, Tree.floor (imageOf elf).sections k = some sec → sec.executable = true →
      ∀ sec', SectionOf elf k sec' → sec'.executable = true := by
    intro k sec hf hx sec' hs
    rw [sectionOf_unique hs (floor_section hd hf)]
    exact hx
  have fit := gather_fit (Q := fun k => ∀ sec, SectionOf elf k sec → sec.executable = true) (R := fun k n => EntrySize elf dbgsym k n ∨ SlotSize env elf k n) h
    ht.segments
    (fun d hd sym hsym sec k hl => ⟨fun hx sec' hs => (ht.entries d hd sym hsym sec k hl sec' hs).1 hx,
      Or.inr (Or.inl ⟨d, sym, sec, hd, hsym, hl, rfl⟩)⟩)
    hto
    (fun sec hs hx sec' hs' => by
      have : SectionOf elf (secStart sec) sec' := hs'
      rw [sectionOf_unique this (start_section hd (image_loaded hs))]
      exact hx)
    (fun sec steps hc x hx sec' hs' => by
      rw [sectionOf_unique hs' (insn_section ht hd hi hc hx).1]
      exact hc.2.1)
    (fun k sec hf hx => by
      have hs := floor_section hd hf
      rw [(ht.code sec hs.loaded hx).1, TLS.trans_false]
      exact hto k sec hf hx)
    (fun sec pre x post start sec' hsl hf => by
      obtain ⟨g1, g2, g3⟩ := slot_section ht hd hi hsl
      have hs := sectionOf_unique (floor_section hd hf) g1
      subst hs
      refine ⟨fun hx => hto start _ hf hx, Or.inr ⟨_, _, x, hsl.code, (Bool.and_eq_true_iff.mp hsl.named).2, by simp, hsl.jump, g1, g2, g3, ?_⟩⟩
      rw [(ht.code _ g1.loaded hsl.code.2.1).1, TLS.trans_false])
  intro s hs
  exact ⟨boundary_place ht (gathered_boundary h hd st.symbols (fun _ h => h) s.address ⟨s, hs, rfl⟩), fit s hs⟩

/-- Whatever size a symbol gets, it ends within its section and cuts the file at a possible place. -/
theorem tidy_size {env : Env} {elf : Elf} {dbgsym : Option Elf} {t : SymTree} (ht : Tidy env elf dbgsym)
    (hp : ∀ s ∈ t, Place env elf dbgsym s.address) {s : Symbol} (hs : s ∈ t)
    (hz : s.size = 0 ∨ EntrySize elf dbgsym s.address s.size ∨ SlotSize env elf s.address s.size) {sec : ElfSec} (hsec : SectionOf elf s.address sec)
    (hend : s.address ≤ secEnd env sec) {n : Addr} (hn : SizeFor env t sec s n) :
    s.address.toNat + n.toNat ≤ (secEnd env sec).toNat ∧
      ∃ p, Cut env elf dbgsym sec p ∧ p.toNat = (TLS.virt_addr s.address).toNat + n.toNat := by
  obtain ⟨b1, b2⟩ := ht.bounds sec hsec.loaded
  have hend' := BitVec.le_def.mp hend
  have hstart := hsec.start
  have hv := virt_between (t := sec.tls) (k := s.address) b2 (by omega) hstart hend'
  have s2 : (secStart sec).toNat = _ := trans_nat (a := sec.virt_addr) (by omega) sec.tls
  have s3 : (secEnd env sec).toNat = _ := trans_nat (a := secTop env sec) b2 sec.tls
  have own : s.address.toNat + (0 : Addr).toNat ≤ (secEnd env sec).toNat ∧
      ∃ p, Cut env elf dbgsym sec p ∧ p.toNat = (TLS.virt_addr s.address).toNat + (0 : Addr).toNat :=
    ⟨hend', _, .place s.address (hp s hs) (BitVec.le_def.mpr hstart) hend, rfl⟩
  rcases hn with rfl | rfl | ⟨z, hz, h1, h2, rfl⟩
  · rcases hz with hz | ⟨d, sym, from_, hd, hsym, hl, he⟩ | ⟨sec', steps, x, g1, g2, g3, g4, g5, g6, g7, g8⟩
    · rw [hz]; exact own
    · have h1 := (ht.entries d hd sym hsym from_ s.address hl sec hsec).2
      rw [he] at h1
      refine ⟨h1, _, .entry d sym from_ s.address hd hsym hl hsec, ?_⟩
      rw [he, BitVec.toNat_add]
      omega
    · have e := sectionOf_unique g5 hsec
      subst e
      have htls := (ht.code sec' hsec.loaded g1.2.1).1
      have e : s.size.toNat = x.address.toNat - s.address.toNat := by rw [g8]; exact BitVec.toNat_sub_of_le g6
      have g6' := BitVec.le_def.mp g6
      have g7' := BitVec.le_def.mp g7
      rw [htls] at hv s3
      simp only [Bool.false_eq_true, if_false, Nat.add_zero] at hv s3
      exact ⟨by omega, _, .slot steps x g1 g2 g3 g4, by omega⟩
  · have e : (secEnd env sec - s.address).toNat = (secEnd env sec).toNat - s.address.toNat := BitVec.toNat_sub_of_le hend
    rw [e]
    exact ⟨by omega, _, .top, by omega⟩
  · have h1' := BitVec.lt_def.mp h1
    have h2' := BitVec.lt_def.mp h2
    have e : (z.address - s.address).toNat = z.address.toNat - s.address.toNat :=
      BitVec.toNat_sub_of_le (BitVec.le_of_lt h1)
    have hvz := virt_between (t := sec.tls) (k := z.address) b2 (by omega)
      (Nat.le_trans hstart (Nat.le_of_lt h1')) (Nat.le_of_lt h2')
    rw [e]
    refine ⟨by omega, _, .place z.address (hp z hz) (BitVec.le_def.mpr (by omega)) (BitVec.le_def.mpr (Nat.le_of_lt h2')), by omega⟩

theorem tidy_contained {env : Env} {fl : AnalyzeFlags} {elf : Elf} {dbgsym : Option Elf} {st : AState} (ht : Tidy env elf dbgsym)
    (hd : DistinctSections elf) (hi : ∀ a bytes i, env.decode a bytes = some i → i.address = a)
    (hf : fl.reconstruct = true → Fronted env fl elf dbgsym)
    (h : gather env fl elf dbgsym = .ok st) : Contained env fl elf dbgsym st.symbols := by
  have hsyms := tidy_symbols ht hd hi h
  refine ⟨fun s hs => ?_, fun hr => ?_⟩
  · obtain ⟨hp, hx, hz⟩ := hsyms s hs
    obtain ⟨sec, hsec, hend⟩ := place_section ht hd hi hp
    have hl := hsec.loaded
    obtain ⟨b1, b2⟩ := ht.bounds sec hl
    have hv := virt_between (t := sec.tls) (k := s.address) b2 (by omega) hsec.start (BitVec.le_def.mp hend)
    have s3 : (secEnd env sec).toNat = _ := trans_nat (a := secTop env sec) b2 sec.tls
    have size : ∀ n, SizeFor env st.symbols sec s n → _ := fun n hn =>
      tidy_size ht (fun s hs => (hsyms s hs).1) hs hz hsec hend hn
    have esub : (TLS.virt_addr s.address - sec.virt_addr).toNat = (TLS.virt_addr s.address).toNat - sec.virt_addr.toNat :=
      BitVec.toNat_sub_of_le (BitVec.le_def.mpr hv.2.1)
    -- packed relocations in front of the end of the section
    have lower : ∀ o : Addr, s.address ≤ o → ∀ n : Addr, SizeFor env st.symbols sec s n →
        o.toNat < (TLS.virt_addr s.address).toNat + n.toNat → sec.virt_addr ≤ o ∧ o < secTop env sec := by
      intro o h1 n hn h2
      have h1' := BitVec.le_def.mp h1
      have := (size n hn).1
      exact ⟨BitVec.le_def.mpr (by omega), BitVec.lt_def.mpr (by omega)⟩
    have stored : sec.type ≠ .nobits → ∀ n, SizeFor env st.symbols sec s n → Stored elf dbgsym sec s n := by
      intro hb n hn
      have h1 := (size n hn).1
      have h2 := ht.stored sec hl hb
      refine ⟨by omega, fun o ho h3 h4 => ?_⟩
      obtain ⟨l1, l2⟩ := lower o h3 n hn h4
      exact ht.pointers sec hl hb o ho l1 l2
    refine ⟨sec, hsec, hend, fun hc => ?_, fun _ => ?_⟩
    · have hexec : sec.executable = true := by
        unfold IsCode at hc
        split at hc
        · exact hc
        · exact hx hc sec hsec
      obtain ⟨c1, c2, k, c3, c4⟩ := ht.code sec hl hexec
      obtain ⟨z, hz1, hz2⟩ := expected_has h c3
      rw [c1] at hv s3
      simp only [Bool.false_eq_true, if_false, Nat.add_zero] at hv s3
      refine ⟨c1, small_regular (by omega), fun n hn => ⟨stored c2 n hn, ?_, z, hz1, ?_⟩⟩
      · have := (size n hn).1; omega
      · have h1 := (size n hn).1
        have h2 := BitVec.le_def.mp c4
        rw [hz2]
        refine BitVec.le_def.mpr ?_
        rw [BitVec.toNat_add]
        omega
    · obtain ⟨seg, g1, g2⟩ := ht.memory sec hl (TLS.virt_addr s.address) (BitVec.le_def.mpr hv.2.1) (BitVec.le_def.mpr hv.2.2)
      have g2' := BitVec.le_def.mp g2
      refine ⟨seg, g1, fun n hn => ?_⟩
      obtain ⟨h1, p, hp1, hp2⟩ := size n hn
      refine ⟨by omega, fun hc => stored (fun hb => hc (Or.inl hb)) n hn, fun hc e he h2 h3 => ?_, fun hc o ho h2 h3 => ?_⟩
      · have := ht.whole sec hl (fun hb => hc (Or.inl hb)) p hp1 e he (BitVec.le_def.mpr (by omega)) (BitVec.lt_def.mpr (by omega))
        omega
      · have := ht.wholePacked sec hl (fun hb => hc (Or.inl hb)) p hp1 o ho (lower o h2 n hn h3).1 (BitVec.lt_def.mpr (by omega))
        omega
  · obtain ⟨d, sym, from_, low, f1, f2, f3, f4, f5, fn, f6, f7, f8⟩ := hf hr
    obtain ⟨z, z1, z2, z3⟩ := gather_named h fn f1 f2 f3 f4 f5
    refine ⟨z, z1, z3, fun a ha => ?_⟩
    rw [z2]
    cases ha with
    | relocation e a he => exact f6 e he a
    | packed o sec ho hsec => exact f7 o ho sec hsec
    | code s sec n x op offset size target hs hsec hsize hx hop href =>
      obtain ⟨hp, _, hz⟩ := hsyms s hs
      obtain ⟨sec', hsec', hend⟩ := place_section ht hd hi hp
      rw [sectionOf_unique hsec' hsec] at hend
      have h1 := (tidy_size ht (fun s hs => (hsyms s hs).1) hs hz hsec hend hsize).1
      exact f8 s.address sec n.toNat hp hsec h1 x hx op hop offset size _ href

end Bean

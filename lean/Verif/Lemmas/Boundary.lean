import Verif.Lemmas.Targets
import Verif.Spec.Boundary
import Verif.Props.Insert
/-
Addresses of the symbols that are gathered from a file.
-/
namespace Bean
open Tree Spec Props

theorem has_iff_find {t : SymTree} (hs : Sorted t) {k : Addr} : Has t k ↔ Tree.find t k ≠ none := by
  constructor
  · rintro ⟨s, hm, rfl⟩ h
    exact find_eq_none_iff.mp h s hm rfl
  · intro h
    cases hf : Tree.find t k with
    | none => exact absurd hf h
    | some s => exact ⟨s, (find_mem hf).1, (find_mem hf).2⟩

theorem insert_has_iff {b : Build} {t t' : SymTree} {a : InsertArgs} (hs : Sorted t) (h : insertSymbol b t a = .ok t') (k : Addr) :
    Has t' k ↔ Has t k ∨ k = a.address := by
  obtain ⟨e1, e2, e3⟩ := insertSymbol_spec hs h
  by_cases hk : k = a.address
  · constructor
    · exact fun _ => Or.inr hk
    · intro _
      rw [has_iff_find e1, hk, e2]
      exact fun h => by cases h
  · rw [has_iff_find e1, has_iff_find hs, e3 k hk]
    exact ⟨Or.inl, fun h => h.resolve_right hk⟩

theorem Touch.only {b : Build} {A : InsertArgs → Prop} {t t' : SymTree} (h : Touch b A False t t') (hs : Sorted t) {k : Addr}
    (hk : Has t' k) : Has t k ∨ ∃ a, A a ∧ a.address = k := by
  induction h with
  | refl => exact Or.inl hk
  | @insert t1 t2 a h1 ha hi ih =>
    rcases (insert_has_iff (h1.sorted hs) hi k).mp hk with h | h
    · exact ih h
    · exact Or.inr ⟨a, ha, h.symm⟩
  | rename _ _ hN => exact hN.elim
  | emplace _ hN => exact hN.elim

/-- Folds over steps that add symbols at addresses described by `R`. -/
theorem foldlM_marks {α : Type} {f : AState → α → M AState} (R : α → Addr → Prop) (I : AState → Prop) {l : List α}
    (hstep : ∀ x ∈ l, ∀ st st', I st → f st x = .ok st' → I st' ∧ ∀ k, Has st'.symbols k ↔ Has st.symbols k ∨ R x k) :
    ∀ {st st' : AState}, I st → l.foldlM f st = .ok st' → I st' ∧ ∀ k, Has st'.symbols k ↔ Has st.symbols k ∨ ∃ x ∈ l, R x k := by
  induction l with
  | nil =>
    intro st st' hi h
    cases h
    exact ⟨hi, fun k => by simp⟩
  | cons a l ih =>
    intro st st' hi h
    rw [List.foldlM_cons] at h
    cases h1 : f st a with
    | error e => rw [h1] at h; cases h
    | ok x =>
      rw [h1] at h
      obtain ⟨i1, k1⟩ := hstep a List.mem_cons_self st x hi h1
      obtain ⟨i2, k2⟩ := ih (fun y hy => hstep y (List.mem_cons_of_mem _ hy)) i1 h
      refine ⟨i2, fun k => ?_⟩
      rw [k2, k1, or_assoc]
      simp only [List.mem_cons, exists_eq_or_imp]

theorem readSegment_marks {b : Build} {seg : ElfSeg} {st st' : AState} (hs : Sorted st.symbols)
    (h : readSegment b st seg = .ok st') : Sorted st'.symbols ∧ ∀ k, Has st'.symbols k ↔ Has st.symbols k ∨ SegmentMark seg k := by
  refine ⟨(readSegment_read (segs := [seg]) (List.mem_singleton.mpr rfl) h).touch.sorted hs, fun k => ?_⟩
  have none' : ¬ ((seg.type = .load ∧ seg.size < seg.virt_size) ∨ seg.type = .gnuRelro) → st'.symbols = st.symbols →
      (Has st'.symbols k ↔ Has st.symbols k ∨ SegmentMark seg k) := by
    intro hn he
    rw [he]
    exact ⟨Or.inl, fun h => h.resolve_right (fun h => hn h.1)⟩
  have some' : ((seg.type = .load ∧ seg.size < seg.virt_size) ∨ seg.type = .gnuRelro) →
      (Has st'.symbols k ↔ Has st.symbols k ∨ k = seg.virt_addr + seg.size) →
      (Has st'.symbols k ↔ Has st.symbols k ∨ SegmentMark seg k) := by
    intro hn he
    rw [he]
    exact ⟨fun h => h.imp id (fun h => ⟨hn, h⟩), fun h => h.imp id (fun h => h.2)⟩
  unfold readSegment at h
  split at h
  · rename_i ht
    cases (massert_bind_ok h).2
    exact none' (by rw [ht]; rintro (⟨h, _⟩ | h) <;> cases h) rfl
  · rename_i ht
    simp only at h
    by_cases hc : seg.size < seg.virt_size
    · rw [if_pos hc] at h
      cases h1 : AState.insertSymbol b { st with segments := (Tree.insert st.segments seg).1 }
          { address := seg.virt_addr + seg.size, section_address := seg.virt_addr, writeable := seg.writeable,
            executable := seg.executable } with
      | error e => rw [h1] at h; cases h
      | ok st1 =>
        rw [h1] at h
        obtain ⟨t, e1, e2⟩ := stInsert_ok h1
        cases h
        subst e2
        exact some' (Or.inl ⟨ht, hc⟩) (insert_has_iff hs e1 k)
    · rw [if_neg hc] at h
      cases h
      exact none' (by rw [ht]; rintro (⟨_, h⟩ | h); exact hc h; cases h) rfl
  · rename_i ht
    cases h
    obtain ⟨f, g, e⟩ := readDynamic_eq st seg
    exact none' (by rw [ht]; rintro (⟨h, _⟩ | h) <;> cases h) (by rw [e])
  · rename_i ht
    cases h
    exact none' (by rw [ht]; rintro (⟨h, _⟩ | h) <;> cases h) rfl
  · rename_i ht
    obtain ⟨t, e1, e2⟩ := stInsert_ok h
    subst e2
    exact some' (Or.inr ht) (insert_has_iff hs e1 k)
  · rename_i ht
    cases h
    exact none' (by rw [ht]; rintro (⟨h, _⟩ | h) <;> cases h) rfl
  · rename_i ht
    cases h
    exact none' (by rw [ht]; rintro (⟨h, _⟩ | h) <;> cases h) rfl

theorem readSegments_marks {b : Build} {segs : List ElfSeg} {st st' : AState} (hs : Sorted st.symbols)
    (h : readSegments b st segs = .ok st') :
    Sorted st'.symbols ∧ ∀ k, Has st'.symbols k ↔ Has st.symbols k ∨ ∃ seg ∈ segs, SegmentMark seg k :=
  foldlM_marks SegmentMark (fun st => Sorted st.symbols) (fun _ _ _ _ hs h => readSegment_marks hs h) hs h

/-! ### Symbol tables -/

theorem symOps_marks {elf d : Elf} {sym : ElfSym} {k : Addr} :
    (∃ a ∈ symOps d.sections (tlsSegment elf) sym, a.address = k) ↔ EntryMark elf d sym k := by
  constructor
  · rintro ⟨a, ha, rfl⟩
    obtain ⟨sec, hin, ⟨h1, seg, h2, rfl⟩ | ⟨h, rfl⟩ | ⟨h, hz, rfl⟩⟩ := mem_symOps ha
    · exact ⟨sec, Or.inl ⟨hin, Or.inl ⟨h1, seg, h2, rfl⟩⟩⟩
    · exact ⟨sec, Or.inl ⟨hin, Or.inr ⟨h.not_tls, h.value, h.allocated, rfl⟩⟩⟩
    · exact ⟨sec, Or.inr ⟨hin, h.not_tls, h.value, h.allocated, hz, rfl⟩⟩
  · rintro ⟨sec, ⟨hin, ⟨h1, seg, h2, rfl⟩ | ⟨h1, h2, h3, rfl⟩⟩ | ⟨hin, h1, h2, h3, h4, rfl⟩⟩
    · obtain ⟨n, hn, hs⟩ := hin
      refine ⟨symbolArgs sec sym (TLS.trans_addr (seg.virt_addr + sym.value) true), ?_, rfl⟩
      unfold symOps
      rw [hn]
      simp only
      rw [hs]
      simp only
      rw [if_pos h1, h2]
      exact List.mem_singleton.mpr rfl
    · have hd : Defines d.sections sym sec := ⟨hin, h1, h2, h3⟩
      rw [symOps_defines hd]
      exact ⟨_, List.mem_cons_self, rfl⟩
    · have hd : Defines d.sections sym sec := ⟨hin, h1, h2, h3⟩
      rw [symOps_defines hd]
      refine ⟨{ address := TLS.trans_addr (sym.value + sym.size) sec.tls }, List.mem_cons_of_mem _ ?_, rfl⟩
      rw [if_pos (by bv_omega)]
      exact List.mem_singleton.mpr rfl

theorem readSections_marks {b : Build} {add : Bool} {elf d : Elf} {st st' : AState} (hs : Sorted st.symbols)
    (ht : st.tls_segment = tlsSegment elf) (h : readSections b add st d.sections = .ok st') :
    Sorted st'.symbols ∧ st'.tls_segment = tlsSegment elf ∧
      ∀ k, Has st'.symbols k ↔ Has st.symbols k ∨ ∃ sym, TableEntry d sym ∧ EntryMark elf d sym k := by
  have r := readSections_read h
  refine ⟨r.touch.sorted hs, r.tls.trans ht, fun k => ⟨fun hk => ?_, ?_⟩⟩
  · rcases r.touch.only hs hk with h | ⟨a, ⟨tbl, h1, h2, h3, sym, h4, h5⟩, e⟩
    · exact Or.inl h
    · rw [ht] at h5
      exact Or.inr ⟨sym, ⟨tbl, h1, h2, h3, h4⟩, symOps_marks.mp ⟨a, h5, e⟩⟩
  · rintro (h | ⟨sym, ⟨tbl, h1, h2, h3, h4⟩, hm⟩)
    · exact r.touch.has hs h
    · obtain ⟨a, ha, rfl⟩ := symOps_marks.mpr hm
      obtain ⟨t1, t2, g1, g2, g3⟩ := r.via tbl h1 h2 h3 sym h4 a (by rw [ht]; exact ha)
      have hs1 := g1.sorted hs
      exact g3.has (insertSymbol_spec hs1 g2).1 (insert_has hs1 g2)

/-! ### Targets of relocations -/

theorem readRelocation_marks {b : Build} {x y : AState} {rel : ElfRel} (hs : Sorted x.symbols) (h : readRelocation b x rel = .ok y) :
    ∀ k, Has y.symbols k ↔ Has x.symbols k ∨ (RelativeType rel.type ∧ k = rel.addend) := by
  intro k
  unfold readRelocation at h
  split at h
  · rename_i hr
    cases hm : mderef b (Tree.floor x.sections rel.addend) with
    | error e => rw [hm] at h; cases h
    | ok sec =>
      rw [hm] at h
      obtain ⟨t, e1, e2⟩ := stInsert_ok (massert_bind_ok (massert_bind_ok h).2).2
      subst e2
      rw [show Has t k ↔ _ from insert_has_iff hs e1 k]
      exact ⟨fun h => h.imp id (fun h => ⟨hr, h⟩), fun h => h.imp id (fun h => h.2)⟩
  · rename_i hn
    cases h
    exact ⟨Or.inl, fun h => h.resolve_right (fun h => hn h.1)⟩

/-- The address stored at the location of a packed relocation. -/
def StoredAt (secs : List ElfSec) (off k : Addr) : Prop :=
  ∃ sec bytes sec', Tree.floor secs off = some sec ∧ readBytes sec.data (off - sec.virt_addr) 8 = .ok bytes ∧
    Tree.floor secs k = some sec' ∧ k = leValue bytes

theorem readRelative_marks {b : Build} {x y : AState} {off : Addr} (hs : Sorted x.symbols) (h : readRelative b x off = .ok y) :
    ∀ k, Has y.symbols k ↔ Has x.symbols k ∨ StoredAt x.sections off k := by
  intro k
  unfold readRelative at h
  cases hm : mderef b (Tree.floor x.sections off) with
  | error e => rw [hm] at h; cases h
  | ok sec =>
    simp only [bind, Except.bind, hm] at h
    have hf0 := mderef_ok hm
    cases hb : readBytes sec.data (off - sec.virt_addr) 8 with
    | error e => rw [hb] at h; cases h
    | ok bytes =>
      simp only [hb] at h
      have same : ∀ sec2 bytes2, Tree.floor x.sections off = some sec2 → readBytes sec2.data (off - sec2.virt_addr) 8 = .ok bytes2 →
          bytes2 = bytes := by
        intro sec2 bytes2 g1 g2
        rw [hf0] at g1
        cases g1
        rw [hb] at g2
        cases g2
        rfl
      split at h
      · rename_i sec' hf
        obtain ⟨t, e1, e2⟩ := stInsert_ok h
        subst e2
        rw [show Has t k ↔ _ from insert_has_iff hs e1 k]
        constructor
        · rintro (h | h)
          · exact Or.inl h
          · replace h : k = leValue bytes := h
            exact Or.inr ⟨sec, bytes, sec', hf0, hb, h ▸ hf, h⟩
        · rintro (h | ⟨s2, b2, s3, g1, g2, _, g4⟩)
          · exact Or.inl h
          · rw [same s2 b2 g1 g2] at g4
            exact Or.inr g4
      · rename_i hf
        cases h
        constructor
        · exact Or.inl
        · rintro (h | ⟨s2, b2, s3, g1, g2, g3, g4⟩)
          · exact h
          · rw [same s2 b2 g1 g2] at g4
            rw [g4, hf] at g3
            cases g3

theorem readTargets_marks {b : Build} {x y : AState} (hs : Sorted x.symbols) (h : readTargets b x = .ok y) :
    ∀ k, Has y.symbols k ↔ Has x.symbols k ∨ (∃ rel ∈ x.relocations, RelativeType rel.type ∧ k = rel.addend) ∨
      ∃ off ∈ x.relative_relocations, StoredAt x.sections off k := by
  unfold readTargets at h
  cases h1 : x.relocations.foldlM (readRelocation b) x with
  | error e => rw [h1] at h; cases h
  | ok w =>
    rw [h1] at h
    replace h : w.relative_relocations.foldlM (readRelative b) w = .ok y := h
    obtain ⟨⟨i1, i2, i3⟩, k1⟩ := foldlM_marks (fun rel k => RelativeType rel.type ∧ k = rel.addend)
      (fun st => Sorted st.symbols ∧ st.sections = x.sections ∧ st.relative_relocations = x.relative_relocations)
      (fun rel _ a a' hi h => by
        have g := (readRelocation_grown h).1
        exact ⟨⟨g.2.sorted hi.1, by rw [g.1]; exact hi.2.1, by rw [g.1]; exact hi.2.2⟩, readRelocation_marks hi.1 h⟩)
      ⟨hs, rfl, rfl⟩ h1
    obtain ⟨_, k2⟩ := foldlM_marks (fun off k => StoredAt x.sections off k)
      (fun st => Sorted st.symbols ∧ st.sections = x.sections)
      (fun off _ a a' hi h => by
        have g := (readRelative_grown h).1
        refine ⟨⟨g.2.sorted hi.1, by rw [g.1]; exact hi.2⟩, ?_⟩
        rw [← hi.2]
        exact readRelative_marks hi.1 h)
      ⟨i1, i2⟩ h
    intro k
    rw [k2, k1, i3, or_assoc]

/-! ### All together -/

theorem start_congr {env : Env} {fl : AnalyzeFlags} {st st' : AState} {t : SymTree} {k : Addr} (he : st.sections = st'.sections)
    (h : Start env fl st t k) : Start env fl st' t k := by
  have code : ∀ {sec steps}, SectionCode env st sec steps → SectionCode env st' sec steps := by
    intro sec steps h
    unfold SectionCode at h ⊢
    rw [← he]
    exact h
  cases h with
  | sec sec h1 => exact .sec sec (he ▸ h1)
  | called sec steps x _ h1 h2 h3 h4 =>
    refine .called sec steps x _ (code h1) h2 h3 ?_
    unfold CallsTo at h4 ⊢
    rw [← he]
    exact h4
  | mark sec pre x post h1 h2 h3 => exact .mark sec pre x post (code h1) h2 h3
  | next sec pre1 pre2 x post h1 h2 h3 h4 h5 => exact .next sec pre1 pre2 x post (code h1) h2 h3 h4 h5
  | plt sec steps _ h1 h2 h3 => exact .plt sec steps _ (code h1) h2 h3

/-- Addresses of symbols before the search for functions. -/
def KnownMark (elf : Elf) (dbgsym : Option Elf) (k : Addr) : Prop :=
  (∃ seg ∈ elf.segments, SegmentMark seg k) ∨ (∃ d sym, Part elf dbgsym d ∧ TableEntry d sym ∧ EntryMark elf d sym k) ∨
  (∃ rel ∈ Tree.ofList (allRelocations elf dbgsym), RelativeType rel.type ∧ k = rel.addend) ∨
  ∃ off ∈ Tree.ofList (allRelative elf dbgsym), StoredAt (Tree.ofList (loadedSections elf.sections)) off k

theorem addFlags_has {entry : Addr} {fs : List SectionFlag} {t : SymTree} {k : Addr} : Has (addFlags entry fs t) k ↔ Has t k := by
  constructor
  · rintro ⟨s, hs, rfl⟩
    obtain ⟨s0, h0, rfl⟩ := addFlags_mem.mp hs
    refine ⟨s0, h0, ?_⟩
    generalize hs1 : (if s0.address = entry then { s0 with flags := s0.flags ||| SYMBOL_ENTRY } else s0) = s1
    have e : s1.address = s0.address := by rw [← hs1]; split <;> rfl
    obtain ⟨x, q1, _, q3, _⟩ := flagSymbol_base fs s1
    obtain ⟨⟨fl', q5⟩, _⟩ := regionFlags_spec fs 0 x
    rw [q1, q5, ← e, ← q3]
  · rintro ⟨s, hs, rfl⟩
    obtain ⟨s', hs', g⟩ := addFlags_enlarged (entry := entry) (fs := fs) hs
    exact ⟨s', hs', g.address⟩

theorem gather_marks {env : Env} {fl : AnalyzeFlags} {elf : Elf} {dbgsym : Option Elf} {st : AState}
    (h : gather env fl elf dbgsym = .ok st) : ∃ x t, Sorted x.symbols ∧
      x.sections = Tree.ofList (loadedSections elf.sections) ∧ (∀ k, Has x.symbols k ↔ KnownMark elf dbgsym k) ∧
      SearchDone env fl x x.sections t ∧ ∀ k, Has st.symbols k ↔ Has t k := by
  have part := gather_part h
  obtain ⟨st0, _, hg⟩ := gather_ok h
  have esec := hg.sections
  clear hg
  unfold gather at h
  cases h1 : readSegments env.build {} elf.segments with
  | error e => rw [h1] at h; cases h
  | ok s1 =>
    simp only [bind, Except.bind, h1] at h
    cases h2 : readSections env.build true s1 elf.sections with
    | error e => rw [h2] at h; cases h
    | ok s2 =>
      simp only [h2] at h
      cases h3 : readDebug env.build s2 dbgsym with
      | error e => rw [h3] at h; cases h
      | ok s3 =>
        simp only [h3] at h
        cases h4 : readTargets env.build s3 with
        | error e => rw [h4] at h; cases h
        | ok s4 =>
          simp only [h4] at h
          cases h5 : findFunctions env fl s4 with
          | error e => rw [h5] at h; cases h
          | ok s5 =>
            simp only [h5] at h
            cases h
            have e5 := (findFunctions_touch h5).1
            have e4 := (readTargets_touch h4).1
            have e3 : s3.tls_segment = s2.tls_segment := by
              cases dbgsym with
              | none => cases h3; rfl
              | some d => exact (readSections_read h3).tls
            have etls : s1.tls_segment = tlsSegment elf := by
              rw [← show _ = tlsSegment elf from congrArg FilePart.tls part]
              show s1.tls_segment = s5.tls_segment
              rw [e5]
              show s1.tls_segment = s4.tls_segment
              rw [e4]
              show s1.tls_segment = s3.tls_segment
              rw [e3, (readSections_read h2).tls]
            obtain ⟨g1, k1⟩ := readSegments_marks sorted_nil h1
            obtain ⟨g2, t2, k2⟩ := readSections_marks g1 etls h2
            have k3 : Sorted s3.symbols ∧ ∀ k, Has s3.symbols k ↔ Has s2.symbols k ∨
                ∃ d sym, dbgsym = some d ∧ TableEntry d sym ∧ EntryMark elf d sym k := by
              cases dbgsym with
              | none =>
                cases h3
                exact ⟨g2, fun k => ⟨Or.inl, fun h => h.resolve_right (fun ⟨_, _, h, _⟩ => by cases h)⟩⟩
              | some d =>
                obtain ⟨g3, _, k3⟩ := readSections_marks g2 t2 h3
                refine ⟨g3, fun k => (k3 k).trans ⟨?_, ?_⟩⟩
                · exact fun h => h.imp id (fun ⟨sym, h⟩ => ⟨d, sym, rfl, h⟩)
                · exact fun h => h.imp id (fun ⟨d', sym, hd, h⟩ => by cases hd; exact ⟨sym, h⟩)
            obtain ⟨g3, k3⟩ := k3
            have k4 := readTargets_marks g3 h4
            have g4 := (readTargets_touch h4).2.sorted g3
            obtain ⟨t, et, hD⟩ := findFunctions_done g4 h5
            have esec4 : s4.sections = Tree.ofList (loadedSections elf.sections) := by
              rw [← esec]
              show s4.sections = s5.sections
              rw [e5]
            refine ⟨s4, t, g4, esec4, fun k => ?_, hD, fun k => ?_⟩
            · have r1 : s3.relocations = Tree.ofList (allRelocations elf dbgsym) := by
                rw [← show _ = Tree.ofList (allRelocations elf dbgsym) from congrArg FilePart.relocations part]
                show s3.relocations = s5.relocations
                rw [e5]
                show s3.relocations = s4.relocations
                rw [e4]
              have r2 : s3.relative_relocations = Tree.ofList (allRelative elf dbgsym) := by
                rw [← show _ = Tree.ofList (allRelative elf dbgsym) from congrArg FilePart.relative part]
                show s3.relative_relocations = s5.relative_relocations
                rw [e5]
                show s3.relative_relocations = s4.relative_relocations
                rw [e4]
              have r3 : s3.sections = Tree.ofList (loadedSections elf.sections) := by
                rw [← esec4, e4]
              rw [k4, k3, k2, k1, r1, r2, r3]
              unfold KnownMark Part
              constructor
              · rintro ((((h | h) | h) | h) | h)
                · obtain ⟨_, h, _⟩ := h; cases h
                · exact Or.inl h
                · obtain ⟨sym, h⟩ := h
                  exact Or.inr (Or.inl ⟨elf, sym, Or.inl rfl, h⟩)
                · obtain ⟨d, sym, hd, h⟩ := h
                  exact Or.inr (Or.inl ⟨d, sym, Or.inr hd, h⟩)
                · exact Or.inr (Or.inr h)
              · rintro (h | ⟨d, sym, rfl | hd, h⟩ | h)
                · exact Or.inl (Or.inl (Or.inl (Or.inr h)))
                · exact Or.inl (Or.inl (Or.inr ⟨sym, h⟩))
                · exact Or.inl (Or.inr ⟨d, sym, hd, h⟩)
                · exact Or.inr h
            · subst et
              exact addFlags_has

end Bean

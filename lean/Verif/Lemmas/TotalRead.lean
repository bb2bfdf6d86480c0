import Verif.Spec.Total
import Verif.Lemmas.Targets
import Verif.Props.FindFunctions
import Verif.Props.FileRecon
/-
Reading a file succeeds if its tables are well-formed.
-/
namespace Bean
open Tree Spec

/-- An invariant of a loop that makes all of its steps succeed. -/
theorem foldlM_safe {α σ : Type} {f : σ → α → M σ} (I : σ → Prop) (l : List α) (s : σ) (h0 : I s)
    (h : ∀ x ∈ l, ∀ a, I a → ∃ a', f a x = .ok a' ∧ I a') : ∃ s', l.foldlM f s = .ok s' ∧ I s' := by
  induction l generalizing s with
  | nil => exact ⟨s, rfl, h0⟩
  | cons x l ih =>
    obtain ⟨a', ha, hi⟩ := h x (by simp) s h0
    rw [List.foldlM_cons, ha]
    exact ih a' hi (fun y hy => h y (List.mem_cons_of_mem _ hy))

/-- The access rights of symbols with a size are among the given ones. -/
def Rights (S : Addr → Bool → Bool → Prop) (t : SymTree) : Prop :=
  ∀ s ∈ t, s.size ≠ 0 → S s.address s.sec.writeable s.sec.executable

/-- Arguments that do not violate an assertion. -/
structure SafeArgs (S : Addr → Bool → Bool → Prop) (a : InsertArgs) : Prop where
  plain : a.executable = true → a.writeable = false ∧ TLS.is_tls a.address = false
  rights : a.size ≠ 0 → S a.address a.writeable a.executable

theorem insertSymbol_safe {b : Build} {S : Addr → Bool → Bool → Prop}
    (hS : ∀ k w x w' x', S k w x → S k w' x' → w = w' ∧ x = x') {t : SymTree} (ht : Rights S t) {a : InsertArgs}
    (ha : SafeArgs S a) : ∃ t', insertSymbol b t a = .ok t' ∧ Rights S t' := by
  have h1 : massert b (!(a.executable && a.writeable)) = .ok () := by
    apply massert_ok
    cases hx : a.executable with
    | false => rfl
    | true => rw [(ha.plain hx).1]; rfl
  have h2 : massert b (!(a.executable && TLS.is_tls a.address)) = .ok () := by
    apply massert_ok
    cases hx : a.executable with
    | false => rfl
    | true => rw [(ha.plain hx).2]; rfl
  have hnew : ∀ t', t' = (Tree.insert t (newSymbol a)).1 → Rights S t' := by
    rintro t' rfl s hs hz
    rcases mem_insert.mp hs with h | ⟨h, _⟩
    · exact ht s h hz
    · subst h; exact ha.rights hz
  unfold insertSymbol
  rw [h1]
  simp only [bind, Except.bind, h2]
  cases hf : Tree.find t a.address with
  | none => exact ⟨_, rfl, hnew _ rfl⟩
  | some pos =>
    simp only
    obtain ⟨hm, hk⟩ := find_mem hf
    split
    · exact ⟨_, rfl, hnew _ rfl⟩
    · split
      · have h3 : mergeCheck b a pos = .ok () := by
          unfold mergeCheck
          split
          · rfl
          · rename_i hz
            split
            · rename_i hz'
              have := hS _ _ _ _ _ (ht pos hm hz) ((show pos.address = a.address from hk) ▸ ha.rights hz')
              rw [massert_ok (by rw [this.1]; exact beq_self_eq_true _)]
              simp only [bind, Except.bind]
              exact massert_ok (by rw [this.2]; exact beq_self_eq_true _)
            · rfl
        rw [h3]
        refine ⟨_, rfl, ?_⟩
        intro s hs hz
        obtain ⟨s0, h0, rfl⟩ := List.mem_map.mp hs
        by_cases hk' : Keyed.key s0 = a.address
        · rw [if_pos hk'] at hz ⊢
          have hk'' : s0.address = a.address := hk'
          show S s0.address (if s0.size = 0 then a.writeable else s0.sec.writeable)
            (if s0.size = 0 then a.executable else s0.sec.executable)
          by_cases hz0 : s0.size = 0
          · rw [if_pos hz0, if_pos hz0, hk'']
            refine ha.rights (fun hza => hz ?_)
            show (if s0.address + s0.size ≥ a.address + a.size then s0.address + s0.size else a.address + a.size) - s0.address = 0
            rw [hz0, hza, hk'']
            split <;> grind
          · rw [if_neg hz0, if_neg hz0]
            exact ht s0 h0 hz0
        · rw [if_neg hk'] at hz ⊢
          exact ht s0 h0 hz
      · exact ⟨_, rfl, ht⟩

theorem stInsert_safe {b : Build} {S : Addr → Bool → Bool → Prop}
    (hS : ∀ k w x w' x', S k w x → S k w' x' → w = w' ∧ x = x') {st : AState} (ht : Rights S st.symbols) {a : InsertArgs}
    (ha : SafeArgs S a) : ∃ t, st.insertSymbol b a = .ok { st with symbols := t } ∧ Rights S t := by
  obtain ⟨t, h1, h2⟩ := insertSymbol_safe (b := b) hS ht ha
  refine ⟨t, ?_, h2⟩
  unfold AState.insertSymbol
  rw [h1]
  rfl

/-! ### Segments -/

theorem readSegment_safe {b : Build} {S : Addr → Bool → Bool → Prop}
    (hS : ∀ k w x w' x', S k w x → S k w' x' → w = w' ∧ x = x') {seg : ElfSeg} {st : AState} (ht : Rights S st.symbols)
    (h1 : seg.type = .tls → st.tls_segment = none)
    (h2 : seg.type = .load → seg.size < seg.virt_size → seg.executable = true →
      seg.writeable = false ∧ TLS.is_tls (seg.virt_addr + seg.size) = false) :
    ∃ st', readSegment b st seg = .ok st' ∧ Rights S st'.symbols ∧ (seg.type ≠ .tls → st'.tls_segment = st.tls_segment) := by
  unfold readSegment
  split
  · rename_i ht'
    rw [massert_ok (by rw [h1 ht']; rfl)]
    exact ⟨_, rfl, ht, fun h => absurd ht' h⟩
  · rename_i ht'
    simp only
    split
    · rename_i hlt
      obtain ⟨t, e1, e2⟩ := stInsert_safe (b := b) hS (st := { st with segments := (Tree.insert st.segments seg).1 }) ht
        (a := { address := seg.virt_addr + seg.size, section_address := seg.virt_addr, writeable := seg.writeable,
                executable := seg.executable })
        ⟨h2 ht' hlt, fun h => absurd rfl h⟩
      rw [e1]
      exact ⟨_, rfl, e2, fun _ => rfl⟩
    · exact ⟨_, rfl, ht, fun _ => rfl⟩
  · obtain ⟨f, g, e⟩ := readDynamic_eq st seg
    rw [e]
    exact ⟨_, rfl, ht, fun _ => rfl⟩
  · exact ⟨_, rfl, ht, fun _ => rfl⟩
  · obtain ⟨t, e1, e2⟩ := stInsert_safe (b := b) hS (st := st.addFlag SECTION_RELRO seg.virt_addr seg.virt_size) ht
      (a := { address := seg.virt_addr + seg.size, writeable := true }) ⟨fun h => (by cases h), fun h => absurd rfl h⟩
    rw [e1]
    exact ⟨_, rfl, e2, fun _ => rfl⟩
  · exact ⟨_, rfl, ht, fun _ => rfl⟩
  · exact ⟨_, rfl, ht, fun _ => rfl⟩

theorem readSegments_safe {b : Build} {S : Addr → Bool → Bool → Prop}
    (hS : ∀ k w x w' x', S k w x → S k w' x' → w = w' ∧ x = x') (segs : List ElfSeg) : ∀ (st : AState), Rights S st.symbols →
    (st.tls_segment = none ∧ (segs.filter (fun seg => decide (seg.type = .tls))).length ≤ 1 ∨
      (segs.filter (fun seg => decide (seg.type = .tls))) = []) →
    (∀ seg ∈ segs, seg.type = .load → seg.size < seg.virt_size → seg.executable = true →
      seg.writeable = false ∧ TLS.is_tls (seg.virt_addr + seg.size) = false) →
    ∃ st', readSegments b st segs = .ok st' ∧ Rights S st'.symbols := by
  unfold readSegments
  induction segs with
  | nil => intro st h _ _; exact ⟨st, rfl, h⟩
  | cons seg segs ih =>
    intro st ht htls hl
    obtain ⟨st1, e1, r1, k1⟩ := readSegment_safe (b := b) hS (seg := seg) ht
      (by
        intro hty
        rcases htls with h | h
        · exact h.1
        · rw [List.filter_cons, if_pos (by simpa using hty)] at h; cases h)
      (hl seg List.mem_cons_self)
    rw [List.foldlM_cons, e1]
    refine ih st1 r1 ?_ (fun s hs => hl s (List.mem_cons_of_mem _ hs))
    by_cases hty : seg.type = .tls
    · right
      rcases htls with h | h
      · have := h.2
        rw [List.filter_cons, if_pos (by simpa using hty), List.length_cons] at this
        exact List.eq_nil_of_length_eq_zero (by omega)
      · rw [List.filter_cons, if_pos (by simpa using hty)] at h; cases h
    · rw [List.filter_cons, if_neg (by simpa using hty)] at htls
      rw [k1 hty]
      exact htls

/-! ### Symbol tables -/

/-- Access rights of the symbols of the tables. -/
def tableRights (elf : Elf) (dbgsym : Option Elf) (k : Addr) (w x : Bool) : Prop :=
  ∃ d, Part elf dbgsym d ∧ ∃ sym sec, TableEntry d sym ∧ sym.size ≠ 0 ∧ LocatedAt elf d sym sec k ∧ w = sec.writeable ∧
    x = sec.executable

theorem tableRights_unique {elf : Elf} {dbgsym : Option Elf} (hl : Legible elf dbgsym) :
    ∀ k w x w' x', tableRights elf dbgsym k w x → tableRights elf dbgsym k w' x' → w = w' ∧ x = x' := by
  rintro k w x w' x' ⟨d, hd, sym, sec, h1, h2, h3, rfl, rfl⟩ ⟨d', hd', sym', sec', h1', h2', h3', rfl, rfl⟩
  exact hl.agree d hd sym h1 d' hd' sym' h1' h2 h2' sec sec' k h3 h3'

theorem readSymbol_safe {b : Build} {elf : Elf} {dbgsym : Option Elf} (hl : Legible elf dbgsym) {d : Elf}
    (hd : Part elf dbgsym d) {sym : ElfSym} (hs : TableEntry d sym) {st : AState}
    (ht : Rights (tableRights elf dbgsym) st.symbols) (htls : st.tls_segment = tlsSegment elf) :
    ∃ t, readSymbol b d.sections st sym = .ok { st with symbols := t } ∧ Rights (tableRights elf dbgsym) t := by
  have hS := tableRights_unique hl
  have same : ({ st with symbols := st.symbols } : AState) = st := rfl
  unfold readSymbol
  cases hx : sym.shndx with
  | undef => exact ⟨_, rfl, ht⟩
  | abs => exact ⟨_, rfl, ht⟩
  | common => exact ⟨_, rfl, ht⟩
  | xindex => exact ⟨_, rfl, ht⟩
  | index n =>
    simp only
    have hn := hl.index d hd sym hs n hx
    rw [List.getElem?_eq_getElem hn]
    simp only
    have hin : InSection d.sections sym d.sections[n] := ⟨n, hx, List.getElem?_eq_getElem hn⟩
    generalize d.sections[n] = sec at hin
    by_cases hty : sym.type = .tls
    · rw [if_pos hty]
      obtain ⟨k1, k2, k3⟩ := hl.thread d hd sym hs sec hin hty
      obtain ⟨seg, hseg⟩ := Option.ne_none_iff_exists'.mp k3
      rw [massert_ok k1, show mderef b st.tls_segment = .ok seg by rw [htls, hseg]; rfl]
      have ha : SafeArgs (tableRights elf dbgsym) (symbolArgs sec sym (TLS.trans_addr (seg.virt_addr + sym.value) true)) :=
        ⟨fun h => absurd (show sec.executable = true from h) (by rw [k2]; decide), fun hz =>
          ⟨d, hd, sym, sec, hs, hz, ⟨hin, Or.inl ⟨hty, seg, hseg, rfl⟩⟩, rfl, rfl⟩⟩
      obtain ⟨t, e1, e2⟩ := stInsert_safe (b := b) hS ht ha
      exact ⟨t, e1, e2⟩
    · rw [if_neg hty]
      obtain ⟨k1, k2, k3⟩ := hl.other d hd sym hs sec hin hty
      have g1 : (if sym.type ≠ .notype then massert b (decide (sym.value ≥ sec.virt_addr)) else .ok ()) = .ok () := by
        split
        · rename_i hne
          exact massert_ok (decide_eq_true (k2 hne))
        · rfl
      rw [massert_ok (by rw [k1]; rfl)]
      have g2 : ∃ t, (if sym.value ≠ 0 ∧ sec.allocate = true then do
            let st ← st.insertSymbol b (symbolArgs sec sym (TLS.trans_addr sym.value sec.tls))
            if sym.size > 0 then
              st.insertSymbol b { address := TLS.trans_addr (sym.value + sym.size) sec.tls }
            else return st
          else return st) = Except.ok { st with symbols := t } ∧ Rights (tableRights elf dbgsym) t := by
        by_cases hv : sym.value ≠ 0 ∧ sec.allocate = true
        · rw [if_pos hv]
          have ha : SafeArgs (tableRights elf dbgsym) (symbolArgs sec sym (TLS.trans_addr sym.value sec.tls)) :=
            ⟨k3, fun hz => ⟨d, hd, sym, sec, hs, hz, ⟨hin, Or.inr ⟨hty, hv.1, hv.2, rfl⟩⟩, rfl, rfl⟩⟩
          obtain ⟨t, e1, e2⟩ := stInsert_safe (b := b) hS ht ha
          rw [e1]
          change ∃ t, (if sym.size > 0 then _ else _) = _ ∧ _
          by_cases hz : sym.size > 0
          · rw [if_pos hz]
            obtain ⟨t', e3, e4⟩ := stInsert_safe (b := b) hS (st := { st with symbols := t }) e2
              (a := { address := TLS.trans_addr (sym.value + sym.size) sec.tls }) ⟨fun h => (by cases h), fun h => absurd rfl h⟩
            exact ⟨t', e3, e4⟩
          · rw [if_neg hz]
            exact ⟨t, rfl, e2⟩
        · rw [if_neg hv]
          exact ⟨_, rfl, ht⟩
      obtain ⟨t, e1, e2⟩ := g2
      refine ⟨t, ?_, e2⟩
      by_cases hne : sym.type ≠ .notype
      · rw [if_pos hne] at g1
        simp only [if_pos hne, bind, Except.bind]
        rw [g1]
        exact e1
      · simp only [if_neg hne, bind, Except.bind]
        exact e1

theorem readSymbols_safe {b : Build} {elf : Elf} {dbgsym : Option Elf} (hl : Legible elf dbgsym) {d : Elf}
    (hd : Part elf dbgsym d) {tbl : ElfSec} (hm : tbl ∈ d.sections) (hty : tbl.type = .symtab ∨ tbl.type = .dynsym)
    (hz : tbl.size ≠ 0) {st : AState}
    (ht : Rights (tableRights elf dbgsym) st.symbols) (htls : st.tls_segment = tlsSegment elf) :
    ∃ st', tbl.symbols.foldlM (readSymbol b d.sections) st = .ok st' ∧ Rights (tableRights elf dbgsym) st'.symbols := by
  obtain ⟨st', h1, h2, _⟩ := foldlM_safe (f := readSymbol b d.sections)
    (fun st => Rights (tableRights elf dbgsym) st.symbols ∧ st.tls_segment = tlsSegment elf) tbl.symbols st ⟨ht, htls⟩
    (fun sym hs a ⟨i1, i2⟩ => by
      obtain ⟨t, e1, e2⟩ := readSymbol_safe (b := b) hl hd ⟨tbl, hm, hty, hz, hs⟩ i1 i2
      exact ⟨_, e1, e2, i2⟩)
  exact ⟨st', h1, h2⟩

theorem readSection_safe {b : Build} {elf : Elf} {dbgsym : Option Elf} (hl : Legible elf dbgsym) {d : Elf}
    (hd : Part elf dbgsym d) {add : Bool} {sec : ElfSec} (hm : sec ∈ d.sections) {st : AState}
    (ht : Rights (tableRights elf dbgsym) st.symbols) (htls : st.tls_segment = tlsSegment elf) :
    ∃ st', readSection b d.sections add st sec = .ok st' ∧ Rights (tableRights elf dbgsym) st'.symbols := by
  have hreg : (registered add st sec).symbols = st.symbols ∧ (registered add st sec).tls_segment = st.tls_segment := by
    refine ⟨?_, congrArg FilePart.tls (registered_part add st sec)⟩
    have hadd : (addSection st sec).symbols = st.symbols := by
      unfold addSection
      simp only
      split
      · rfl
      · split <;> rfl
    unfold registered
    cases sec.allocate && add with
    | false => rfl
    | true =>
      simp only [if_true]
      cases secFlag sec.type with
      | none => exact hadd
      | some f => exact hadd
  unfold readSection
  by_cases hz : sec.size = 0
  · rw [if_pos hz]
    exact ⟨st, rfl, ht⟩
  · rw [if_neg hz]
    change ∃ st', (match sec.type with
      | .rel => Except.ok { registered add st sec with relocations := sec.relocations.foldl (fun t r => (Tree.insert t r).1) (registered add st sec).relocations }
      | .rela => .ok { registered add st sec with relocations := sec.relocations.foldl (fun t r => (Tree.insert t r).1) (registered add st sec).relocations }
      | .relr => .ok { registered add st sec with
          relative_relocations := sec.relative.foldl (fun t r => (Tree.insert t r).1) (registered add st sec).relative_relocations }
      | .symtab => sec.symbols.foldlM (readSymbol b d.sections) (registered add st sec)
      | .dynsym => sec.symbols.foldlM (readSymbol b d.sections) (registered add st sec)
      | _ => .ok (registered add st sec) : M AState) = .ok st' ∧ _
    generalize registered add st sec = x at hreg
    rw [← hreg.1] at ht
    rw [← hreg.2] at htls
    cases hty : sec.type with
    | symtab => exact readSymbols_safe hl hd hm (Or.inl hty) hz ht htls
    | dynsym => exact readSymbols_safe hl hd hm (Or.inr hty) hz ht htls
    | _ => exact ⟨_, rfl, ht⟩

theorem readSections_safe {b : Build} {elf : Elf} {dbgsym : Option Elf} (hl : Legible elf dbgsym) {d : Elf}
    (hd : Part elf dbgsym d) {add : Bool} {st : AState}
    (ht : Rights (tableRights elf dbgsym) st.symbols) (htls : st.tls_segment = tlsSegment elf) :
    ∃ st', readSections b add st d.sections = .ok st' ∧ Rights (tableRights elf dbgsym) st'.symbols := by
  obtain ⟨st', h1, h2, _⟩ := foldlM_safe (f := readSection b d.sections add)
    (fun st => Rights (tableRights elf dbgsym) st.symbols ∧ st.tls_segment = tlsSegment elf) d.sections st ⟨ht, htls⟩
    (fun sec hs a ⟨i1, i2⟩ => by
      obtain ⟨st', e1, e2⟩ := readSection_safe (b := b) (add := add) hl hd hs i1 i2
      refine ⟨_, e1, e2, ?_⟩
      have hp := readSection_part e1
      have : (filePart st').tls = (filePart a).tls := by
        rw [hp]
        unfold secPart
        split
        · rfl
        · split <;> rfl
      exact this.trans i2)
  exact ⟨st', h1, h2⟩

/-! ### Targets of relocations -/

theorem readRelocation_safe {b : Build} {elf : Elf} {dbgsym : Option Elf} (hl : Legible elf dbgsym) {rel : ElfRel}
    (hr : rel ∈ allRelocations elf dbgsym) {st : AState} (ht : Rights (tableRights elf dbgsym) st.symbols)
    (hsec : st.sections = Tree.ofList (loadedSections elf.sections)) :
    ∃ t, readRelocation b st rel = .ok { st with symbols := t } ∧ Rights (tableRights elf dbgsym) t := by
  unfold readRelocation
  split
  · rename_i hty
    obtain ⟨sec, h1, h2, h3, h4⟩ := hl.relative rel hr hty
    rw [show Tree.floor st.sections rel.addend = some sec by rw [hsec]; exact section_floor h1]
    have hx : massert b (rel.type != R_X86_64_IRELATIVE || sec.executable) = .ok () := by
      apply massert_ok
      by_cases hi : rel.type = R_X86_64_IRELATIVE
      · rw [h3 hi, Bool.or_true]
      · rw [bne_iff_ne.mpr hi, Bool.true_or]
    have hy : massert b (!sec.tls) = .ok () := massert_ok (by rw [h2]; rfl)
    obtain ⟨t, e1, e2⟩ := stInsert_safe (b := b) (tableRights_unique hl) ht (a := plainArgs sec rel.addend)
      ⟨h4, fun h => absurd rfl h⟩
    refine ⟨t, ?_, e2⟩
    show (massert b _ >>= fun _ => massert b _ >>= fun _ => _) = _
    rw [hx]
    show (massert b _ >>= fun _ => _) = _
    rw [hy]
    exact e1
  · exact ⟨_, rfl, ht⟩

theorem readRelative_safe {b : Build} {elf : Elf} {dbgsym : Option Elf} (hl : Legible elf dbgsym) {o : Addr}
    (hr : o ∈ allRelative elf dbgsym) {st : AState} (ht : Rights (tableRights elf dbgsym) st.symbols)
    (hsec : st.sections = Tree.ofList (loadedSections elf.sections)) :
    ∃ t, readRelative b st o = .ok { st with symbols := t } ∧ Rights (tableRights elf dbgsym) t := by
  obtain ⟨sec, h1, h2, h3⟩ := hl.packed o hr
  have hb : readBytes sec.data (o - sec.virt_addr) 8 = .ok ((sec.data.drop (o - sec.virt_addr).toNat).take 8) := by
    unfold readBytes
    rw [if_pos (by exact h2)]
    rfl
  unfold readRelative
  rw [show Tree.floor st.sections o = some sec by rw [hsec]; exact section_floor h1]
  show ∃ t, (readBytes sec.data (o - sec.virt_addr) 8 >>= fun bytes => _) = _ ∧ _
  rw [hb]
  generalize (sec.data.drop (o - sec.virt_addr).toNat).take 8 = bytes at h3
  show ∃ t, (match Tree.floor st.sections (leValue bytes) with
    | some sec => st.insertSymbol b (plainArgs sec (leValue bytes))
    | none => return st) = _ ∧ _
  cases hf : Tree.floor st.sections (leValue bytes) with
  | none => exact ⟨_, rfl, ht⟩
  | some sec' =>
    obtain ⟨t, e1, e2⟩ := stInsert_safe (b := b) (tableRights_unique hl) ht (a := plainArgs sec' (leValue bytes))
      ⟨h3 sec' (floor_section hl.distinct (hsec ▸ hf)), fun h => absurd rfl h⟩
    exact ⟨t, e1, e2⟩

theorem readTargets_safe {b : Build} {elf : Elf} {dbgsym : Option Elf} (hl : Legible elf dbgsym) {st : AState}
    (ht : Rights (tableRights elf dbgsym) st.symbols) (hsec : st.sections = Tree.ofList (loadedSections elf.sections))
    (h1 : ∀ rel ∈ st.relocations, rel ∈ allRelocations elf dbgsym)
    (h2 : ∀ o ∈ st.relative_relocations, o ∈ allRelative elf dbgsym) :
    ∃ t, readTargets b st = .ok { st with symbols := t } := by
  obtain ⟨st1, e1, i1, t1, rfl⟩ := foldlM_safe (f := readRelocation b)
    (fun x : AState => Rights (tableRights elf dbgsym) x.symbols ∧ ∃ t, x = { st with symbols := t })
    st.relocations st ⟨ht, st.symbols, rfl⟩
    (fun rel hr a ⟨i1, t, i2⟩ => by
      obtain ⟨t', e1, e2⟩ := readRelocation_safe (b := b) hl (h1 rel hr) i1 (by rw [i2]; exact hsec)
      exact ⟨_, e1, e2, t', by rw [i2]⟩)
  obtain ⟨st2, e2, i2, t2, rfl⟩ := foldlM_safe (f := readRelative b)
    (fun x : AState => Rights (tableRights elf dbgsym) x.symbols ∧ ∃ t, x = { st with symbols := t })
    st.relative_relocations { st with symbols := t1 } ⟨i1, t1, rfl⟩
    (fun o hr a ⟨i1, t, i2⟩ => by
      obtain ⟨t', e1, e2⟩ := readRelative_safe (b := b) hl (h2 o hr) i1 (by rw [i2]; exact hsec)
      exact ⟨_, e1, e2, t', by rw [i2]⟩)
  refine ⟨t2, ?_⟩
  unfold readTargets
  rw [e1]
  exact e2

/-! ### All of it -/

theorem last_some (l : List ElfSeg) : l.foldl (fun _ s => some s) none = l.getLast? := by
  have e : ∀ (l : List ElfSeg) (o : Option ElfSeg), l.foldl (fun _ s => some s) o = (l.getLast?).or o := by
    intro l
    induction l with
    | nil => intro o; rfl
    | cons x l ih =>
      intro o
      rw [List.foldl_cons, ih]
      cases l with
      | nil => rfl
      | cons y l =>
        rw [List.getLast?_cons_cons]
        cases hn : (y :: l).getLast? with
        | none => exact absurd (List.getLast?_eq_none_iff.mp hn) (by simp)
        | some z => rfl
  rw [e, Option.or_none]

/-- What the search for functions needs, for the sections of the file. -/
theorem plainCode_sections {env : Env} {fl : AnalyzeFlags} {st st' : AState} (h : st.sections = st'.sections)
    (hr : st.relocations = st'.relocations) (hp : Spec.PlainCode env fl st) : Spec.PlainCode env fl st' := by
  have hc : ∀ sec steps, SectionCode env st' sec steps → SectionCode env st sec steps := by
    rintro sec steps ⟨h1, h2, h3⟩
    exact ⟨h ▸ h1, h2, h3⟩
  refine ⟨fun sec steps h1 h2 x hx hk hj => ?_, h ▸ hp.plain, fun sec steps h1 => hp.steps sec steps (hc sec steps h1),
    fun sec steps h1 => hp.operands sec steps (hc sec steps h1),
    fun sec steps h1 => h ▸ hp.targets sec steps (hc sec steps h1)⟩
  unfold Spec.SlotJump
  rw [← hr]
  exact hp.names sec steps (hc sec steps h1) h2 x hx hk hj

theorem gather_safe {env : Env} {fl : AnalyzeFlags} {elf : Elf} {dbgsym : Option Elf} (hl : Legible elf dbgsym)
    (hp : Spec.PlainCode env fl { sections := Tree.ofList (loadedSections elf.sections), relocations := Tree.ofList (allRelocations elf dbgsym) }) :
    ∃ st, gather env fl elf dbgsym = .ok st := by
  obtain ⟨s1, h1, i1⟩ := readSegments_safe (b := env.build) (tableRights_unique hl) elf.segments {}
    (fun s hs => by cases hs) (Or.inl ⟨rfl, hl.tls⟩) hl.segments
  have p1 := readSegments_part h1
  have htls : s1.tls_segment = tlsSegment elf := by
    have : (filePart s1).tls = _ := congrArg FilePart.tls (p1.trans (segParts_closed _ _))
    exact this.trans (last_some _)
  obtain ⟨s2, h2, i2⟩ := readSections_safe (b := env.build) (add := true) hl (Or.inl rfl) i1 htls
  have r2 := readSections_read h2
  obtain ⟨s3, h3, i3⟩ : ∃ s3, readDebug env.build s2 dbgsym = .ok s3 ∧ Rights (tableRights elf dbgsym) s3.symbols := by
    cases dbgsym with
    | none => exact ⟨s2, rfl, i2⟩
    | some d => exact readSections_safe (add := false) hl (Or.inr rfl) i2 (r2.tls.trans htls)
  have hs3 : s3.sections = Tree.ofList (loadedSections elf.sections) := by
    have e1 : s2.sections = Tree.ofList (loadedSections elf.sections) := by
      have := r2.sections
      rw [if_pos rfl] at this
      rw [this, (readSegments_read h1).sections]
      rfl
    cases dbgsym with
    | none => cases h3; exact e1
    | some d =>
      have := (readSections_read h3).sections
      rw [if_neg (by decide)] at this
      rw [this, e1]
  have p3 : (filePart s3).relocations = Tree.ofList (allRelocations elf dbgsym) ∧
      (filePart s3).relative = Tree.ofList (allRelative elf dbgsym) := by
    rw [readDebug_part h3, readSections_part h2, p1, segParts_closed, ← List.foldl_append, secParts_closed]
    unfold allRelocations allRelative partsOf Tree.ofList
    simp only [List.flatMap_append, List.flatMap_cons, List.flatMap_assoc]
    exact ⟨rfl, rfl⟩
  obtain ⟨t4, h4⟩ := readTargets_safe (b := env.build) hl i3 hs3
    (fun rel hr => by
      have : rel ∈ (filePart s3).relocations := hr
      rw [p3.1] at this
      exact mem_ofList this)
    (fun o hr => by
      have : o ∈ (filePart s3).relative := hr
      rw [p3.2] at this
      exact mem_ofList this)
  obtain ⟨s5, h5⟩ := C71_no_abort env fl { s3 with symbols := t4 } (plainCode_sections (by exact hs3.symm) (by exact p3.1.symm) hp)
  unfold gather
  rw [h1]
  simp only [bind, Except.bind, h2, h3, h4, h5]
  exact ⟨_, rfl⟩

end Bean

import Verif.Lemmas.Insert
/-
Lemmas about reading the symbol tables: an entry stands for at most two insertions.
-/
namespace Bean
open Tree Spec

/-- The insertions caused by one entry of a symbol table. -/
def symOps (elf_sections : List ElfSec) (tls : Option ElfSeg) (sym : ElfSym) : List InsertArgs :=
  match sym.shndx with
  | .index n =>
    match elf_sections[n]? with
    | none => []
    | some sec =>
      if sym.type = .tls then
        match tls with
        | some seg => [symbolArgs sec sym (TLS.trans_addr (seg.virt_addr + sym.value) true)]
        | none => []
      else if sym.value ≠ 0 ∧ sec.allocate = true then
        symbolArgs sec sym (TLS.trans_addr sym.value sec.tls) ::
          (if sym.size > 0 then [{ address := TLS.trans_addr (sym.value + sym.size) sec.tls }] else [])
      else []
  | _ => []

theorem mderef_ok {α : Type} {b : Build} {o : Option α} {x : α} (h : mderef b o = .ok x) : o = some x := by
  unfold mderef at h
  cases o with
  | none => cases b <;> cases h
  | some y => cases h; rfl

theorem insertAll_nil (b : Build) (t : SymTree) : insertAll b t [] = .ok t := rfl

theorem insertAll_cons (b : Build) (t : SymTree) (a : InsertArgs) (as : List InsertArgs) :
    insertAll b t (a :: as) = (insertSymbol b t a).bind (fun t => insertAll b t as) := rfl

theorem insertAll_append {b : Build} {as bs : List InsertArgs} {t t1 : SymTree} (h : insertAll b t as = .ok t1) :
    insertAll b t (as ++ bs) = insertAll b t1 bs := by
  unfold insertAll at *
  rw [List.foldlM_append, h]
  rfl

theorem stInsert_ok {b : Build} {st st' : AState} {a : InsertArgs} (h : st.insertSymbol b a = .ok st') :
    ∃ t, insertSymbol b st.symbols a = .ok t ∧ st' = { st with symbols := t } := by
  unfold AState.insertSymbol at h
  cases h1 : insertSymbol b st.symbols a with
  | error e => rw [h1] at h; cases h
  | ok t => rw [h1] at h; cases h; exact ⟨t, rfl, rfl⟩

theorem readSymbol_ops {b : Build} {secs : List ElfSec} {st st' : AState} {sym : ElfSym}
    (h : readSymbol b secs st sym = .ok st') :
    ∃ t, insertAll b st.symbols (symOps secs st.tls_segment sym) = .ok t ∧ st' = { st with symbols := t } := by
  unfold readSymbol at h
  unfold symOps
  cases hx : sym.shndx with
  | undef => rw [hx] at h; cases h; exact ⟨_, rfl, rfl⟩
  | abs => rw [hx] at h; cases h; exact ⟨_, rfl, rfl⟩
  | common => rw [hx] at h; cases h; exact ⟨_, rfl, rfl⟩
  | xindex => rw [hx] at h; cases h; exact ⟨_, rfl, rfl⟩
  | index n =>
    rw [hx] at h
    simp only at h ⊢
    cases hn : secs[n]? with
    | none => rw [hn] at h; cases h
    | some sec =>
      rw [hn] at h
      simp only at h ⊢
      by_cases ht : sym.type = .tls
      · rw [if_pos ht] at h ⊢
        replace h := (massert_bind_ok h).2
        cases hm : mderef b st.tls_segment with
        | error e => rw [hm] at h; cases h
        | ok seg =>
          rw [hm] at h
          obtain ⟨t, h1, h2⟩ := stInsert_ok h
          refine ⟨t, ?_, h2⟩
          rw [mderef_ok hm]
          simp only
          rw [insertAll_cons, h1]
          rfl
      · rw [if_neg ht] at h ⊢
        replace h := (massert_bind_ok h).2
        have h' : (if sym.value ≠ 0 ∧ sec.allocate = true then do
            let st ← st.insertSymbol b (symbolArgs sec sym (TLS.trans_addr sym.value sec.tls))
            if sym.size > 0 then
              st.insertSymbol b { address := TLS.trans_addr (sym.value + sym.size) sec.tls }
            else return st
          else return st) = Except.ok st' := by
          split at h
          · exact (massert_bind_ok h).2
          · exact h
        clear h
        by_cases hv : sym.value ≠ 0 ∧ sec.allocate = true
        · rw [if_pos hv] at h' ⊢
          cases h1 : st.insertSymbol b (symbolArgs sec sym (TLS.trans_addr sym.value sec.tls)) with
          | error e => rw [h1] at h'; cases h'
          | ok st1 =>
            rw [h1] at h'
            obtain ⟨t1, e1, e2⟩ := stInsert_ok h1
            rw [insertAll_cons, e1]
            by_cases hz : sym.size > 0
            · rw [if_pos hz]
              replace h' : st1.insertSymbol b { address := TLS.trans_addr (sym.value + sym.size) sec.tls } = .ok st' := by
                have := h'
                change (if sym.size > 0 then _ else _) = _ at this
                rw [if_pos hz] at this
                exact this
              obtain ⟨t2, e3, e4⟩ := stInsert_ok h'
              subst e2
              refine ⟨t2, ?_, e4⟩
              change (insertSymbol b t1 _).bind _ = _
              rw [e3]
              rfl
            · rw [if_neg hz]
              replace h' : (Except.ok st1 : M AState) = .ok st' := by
                have := h'
                change (if sym.size > 0 then _ else _) = _ at this
                rw [if_neg hz] at this
                exact this
              cases h'
              exact ⟨t1, rfl, e2⟩
        · rw [if_neg hv] at h' ⊢
          cases h'
          exact ⟨_, rfl, rfl⟩

/-- Reading a symbol table is a sequence of insertions. -/
theorem readSymbols_ops {b : Build} {secs : List ElfSec} {syms : List ElfSym} : ∀ {st st' : AState},
    readSymbols b secs st syms = .ok st' →
    ∃ t, insertAll b st.symbols (syms.flatMap (symOps secs st.tls_segment)) = .ok t ∧
      st' = { st with symbols := t } := by
  induction syms with
  | nil => intro st st' h; cases h; exact ⟨_, rfl, rfl⟩
  | cons sym syms ih =>
    intro st st' h
    unfold readSymbols at h
    rw [List.foldlM_cons] at h
    cases h1 : readSymbol b secs st sym with
    | error e => rw [h1] at h; cases h
    | ok st1 =>
      rw [h1] at h
      obtain ⟨t1, e1, e2⟩ := readSymbol_ops h1
      obtain ⟨t2, e3, e4⟩ := ih (st := st1) h
      rw [e2] at e3 e4
      refine ⟨t2, ?_, e4⟩
      rw [List.flatMap_cons, insertAll_append e1]
      exact e3

/-- The insertions of an entry that defines a symbol. -/
theorem symOps_defines {secs : List ElfSec} {tls : Option ElfSeg} {sym : ElfSym} {sec : ElfSec}
    (h : Defines secs sym sec) :
    symOps secs tls sym = symbolArgs sec sym (TLS.trans_addr sym.value sec.tls) ::
          (if sym.size > 0 then [{ address := TLS.trans_addr (sym.value + sym.size) sec.tls }] else []) := by
  obtain ⟨n, h1, h2⟩ := h.index
  unfold symOps
  rw [h1]
  simp only
  rw [h2]
  simp only
  rw [if_neg h.not_tls, if_pos ⟨h.value, h.allocated⟩]

/-- Where an insertion comes from. -/
theorem mem_symOps {secs : List ElfSec} {tls : Option ElfSeg} {sym : ElfSym} {a : InsertArgs}
    (h : a ∈ symOps secs tls sym) :
    ∃ sec, InSection secs sym sec ∧
      ((sym.type = .tls ∧ ∃ seg, tls = some seg ∧
          a = symbolArgs sec sym (TLS.trans_addr (seg.virt_addr + sym.value) true)) ∨
       (Defines secs sym sec ∧ a = symbolArgs sec sym (TLS.trans_addr sym.value sec.tls)) ∨
       (Defines secs sym sec ∧ sym.size ≠ 0 ∧ a = { address := TLS.trans_addr (sym.value + sym.size) sec.tls })) := by
  unfold symOps at h
  cases hx : sym.shndx with
  | undef => rw [hx] at h; cases h
  | abs => rw [hx] at h; cases h
  | common => rw [hx] at h; cases h
  | xindex => rw [hx] at h; cases h
  | index n =>
    rw [hx] at h
    simp only at h
    cases hn : secs[n]? with
    | none => rw [hn] at h; cases h
    | some sec =>
      rw [hn] at h
      simp only at h
      have hin : InSection secs sym sec := ⟨n, hx, hn⟩
      refine ⟨sec, hin, ?_⟩
      by_cases ht : sym.type = .tls
      · rw [if_pos ht] at h
        cases tls with
        | none => cases h
        | some seg =>
          rcases List.mem_singleton.mp h with rfl
          exact Or.inl ⟨ht, seg, rfl, rfl⟩
      · rw [if_neg ht] at h
        by_cases hv : sym.value ≠ 0 ∧ sec.allocate = true
        · have hd : Defines secs sym sec := ⟨hin, ht, hv.1, hv.2⟩
          rw [if_pos hv] at h
          rcases List.mem_cons.mp h with h | h
          · exact Or.inr (Or.inl ⟨hd, h⟩)
          · by_cases hz : sym.size > 0
            · rw [if_pos hz] at h
              exact Or.inr (Or.inr ⟨hd, bv_pos_iff.mp hz, List.mem_singleton.mp h⟩)
            · rw [if_neg hz] at h; cases h
        · rw [if_neg hv] at h; cases h

/-- Attributes of a symbol that gets a size. -/
theorem runAt_attr {w x : Bool} {k : Addr} {as : List InsertArgs} {o : Option Symbol}
    (has : ∀ a ∈ as, a.address = k →
      beanType a.type ≠ .none ∧ Fits a ∧ (a.size ≠ 0 → a.writeable = w ∧ a.executable = x))
    (ho : ∀ s, o = some s → s.address = k ∧ s.type ≠ .none ∧ NoWrap s ∧
      (s.size ≠ 0 → s.sec.writeable = w ∧ s.sec.executable = x))
    (hex : ∃ a ∈ as, a.address = k ∧ a.size ≠ 0) :
    ∃ s, runAt k as o = some s ∧ s.address = k ∧ s.size ≠ 0 ∧ s.sec.writeable = w ∧ s.sec.executable = x := by
  -- one step keeps the invariant
  have step : ∀ a ∈ as, a.address = k → ∀ o : Option Symbol, (∀ s, o = some s → s.address = k ∧ s.type ≠ .none ∧
      NoWrap s ∧ (s.size ≠ 0 → s.sec.writeable = w ∧ s.sec.executable = x)) →
      ((stepAt a o).address = k ∧ (stepAt a o).type ≠ .none ∧ NoWrap (stepAt a o) ∧
        ((stepAt a o).size ≠ 0 → (stepAt a o).sec.writeable = w ∧ (stepAt a o).sec.executable = x)) ∧
      (a.size ≠ 0 → (stepAt a o).size ≠ 0) ∧ (∀ s, o = some s → s.size ≠ 0 → (stepAt a o).size ≠ 0) := by
    intro a ha hak o ho
    obtain ⟨ht, hf, hattr⟩ := has a ha hak
    cases o with
    | none =>
      unfold stepAt newSymbol
      refine ⟨⟨hak, ht, hf, hattr⟩, fun h => h, fun s hs => by cases hs⟩
    | some pos =>
      obtain ⟨hp1, hp2, hp3, hp4⟩ := ho pos rfl
      have hstep : stepAt a (some pos) = mergeSymbol a pos := by
        unfold stepAt
        simp only
        rw [if_neg (fun h => hp2 h.1), if_pos (Or.inl ht)]
      rw [hstep]
      obtain ⟨m1, m2, m3⟩ := merge_size (hp1.trans hak.symm) hf hp3
      refine ⟨⟨hp1, ?_, m3, ?_⟩, ?_, ?_⟩
      · unfold mergeSymbol
        simp only
        split
        · exact ht
        · exact hp2
      · intro hz
        by_cases hz0 : pos.size = 0
        · have ha0 : a.size ≠ 0 := by
            intro e
            apply hz
            unfold mergeSymbol
            simp only
            rw [hz0, e, hp1, hak]
            split <;> bv_omega
          unfold mergeSymbol
          simp only
          rw [if_pos hz0, if_pos hz0]
          exact hattr ha0
        · unfold mergeSymbol
          simp only
          rw [if_neg hz0, if_neg hz0]
          exact hp4 hz0
      · intro h; bv_omega
      · intro s hs h; cases hs; bv_omega
  obtain ⟨a, ha, hak, haz⟩ := hex
  unfold runAt
  clear has
  induction as generalizing o with
  | nil => cases ha
  | cons y as ih =>
    rw [List.foldl_cons]
    rcases List.mem_cons.mp ha with e | ha'
    · subst e
      rw [if_pos hak]
      obtain ⟨i1, i2, _⟩ := step a (List.mem_cons_self ..) hak o ho
      have i2 := i2 haz
      -- from here on the size stays non-zero
      clear ih ho
      revert i1 i2
      generalize stepAt a o = s0
      have hsub : ∀ a' ∈ as, a' ∈ a :: as := fun a' h => List.mem_cons_of_mem _ h
      revert hsub
      generalize hA : (a :: as) = all at step
      clear hA ha
      induction as generalizing s0 with
      | nil => intro _ i1 i2; exact ⟨s0, rfl, i1.1, i2, i1.2.2.2 i2⟩
      | cons z as ih =>
        intro hsub i1 i2
        rw [List.foldl_cons]
        by_cases hz : z.address = k
        · rw [if_pos hz]
          obtain ⟨j1, _, j3⟩ := step z (hsub z (List.mem_cons_self ..)) hz (some s0)
            (fun s hs => by cases hs; exact i1)
          exact ih _ (fun a' h => hsub a' (List.mem_cons_of_mem _ h)) j1 (j3 s0 rfl i2)
        · rw [if_neg hz]
          exact ih _ (fun a' h => hsub a' (List.mem_cons_of_mem _ h)) i1 i2
    · refine ih (o := if y.address = k then some (stepAt y o) else o) ?_ (fun a' h => step a' (List.mem_cons_of_mem _ h)) ha'
      intro s hs
      by_cases hy : y.address = k
      · rw [if_pos hy] at hs
        cases hs
        exact (step y (List.mem_cons_self ..) hy o ho).1
      · rw [if_neg hy] at hs
        exact ho s hs

theorem or_and_ne_zero (a c m : BitVec 16) : ((a ||| c) &&& m ≠ 0#16) ↔ (a &&& m ≠ 0#16 ∨ c &&& m ≠ 0#16) := by
  have hd : (a ||| c) &&& m = (a &&& m) ||| (c &&& m) := by
    ext i; simp only [BitVec.getElem_and, BitVec.getElem_or]; cases a[i] <;> cases c[i] <;> simp
  rw [hd, ne_eq, BitVec.or_eq_zero_iff]
  constructor
  · intro h
    by_cases h1 : a &&& m = 0#16
    · right; intro h2; exact h ⟨h1, h2⟩
    · left; exact h1
  · rintro (h | h) ⟨h1, h2⟩
    · exact h h1
    · exact h h2

/-- Flags are collected from all matching regions, nothing else is changed. -/
theorem regionFlags_spec (fs : List SectionFlag) (m : BitVec 16) : ∀ (s : Symbol),
    (∃ fl, fs.foldl regionFlag s = { s with sec := { s.sec with flags := fl } }) ∧
    ((fs.foldl regionFlag s).sec.flags &&& m ≠ 0#16 ↔ s.sec.flags &&& m ≠ 0#16 ∨
      ∃ f ∈ fs, f.flag &&& m ≠ 0#16 ∧ s.address ≥ f.start ∧ s.address + s.size < f.start + f.size) := by
  induction fs with
  | nil => intro s; exact ⟨⟨s.sec.flags, rfl⟩, by simp⟩
  | cons f fs ih =>
    intro s
    rw [List.foldl_cons]
    by_cases hc : s.address ≥ f.start ∧ s.address + s.size < f.start + f.size
    · have hr : regionFlag s f = { s with sec := { s.sec with flags := s.sec.flags ||| f.flag } } := by
        unfold regionFlag; rw [if_pos hc]
      obtain ⟨⟨fl, e⟩, i⟩ := ih (regionFlag s f)
      refine ⟨⟨fl, by rw [e, hr]⟩, ?_⟩
      rw [i, hr]
      simp only [or_and_ne_zero, List.mem_cons]
      constructor
      · rintro ((h | h) | ⟨g, hg, h⟩)
        · exact Or.inl h
        · exact Or.inr ⟨f, Or.inl rfl, h, hc⟩
        · exact Or.inr ⟨g, Or.inr hg, h⟩
      · rintro (h | ⟨g, rfl | hg, h⟩)
        · exact Or.inl (Or.inl h)
        · exact Or.inl (Or.inr h.1)
        · exact Or.inr ⟨g, hg, h⟩
    · have hr : regionFlag s f = s := by unfold regionFlag; rw [if_neg hc]
      rw [hr]
      obtain ⟨e, i⟩ := ih s
      refine ⟨e, ?_⟩
      rw [i]
      simp only [List.mem_cons]
      constructor
      · rintro (h | ⟨g, hg, h⟩)
        · exact Or.inl h
        · exact Or.inr ⟨g, Or.inr hg, h⟩
      · rintro (h | ⟨g, rfl | hg, h⟩)
        · exact Or.inl h
        · exact absurd h.2 hc
        · exact Or.inr ⟨g, hg, h⟩

end Bean

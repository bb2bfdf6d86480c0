import Verif.Props.FileData
import Verif.Props.Reconstruct
/-
Sizes of functions after the reconstruction are the final ones.
-/
namespace Bean
open Tree Spec Props

/-- As `ReconAs`, with a lower bound for the end of the range available for the symbol. -/
inductive ReconAt (env : Env) (st : AState) (lower : Addr) (s0 s' : Symbol) : Prop
  | plt (sec : ElfSec) : Tree.floor st.sections s0.address = some sec →
      hasPrefix ".plt" (adoptSection sec s0).sec.name = true → s' = adoptSection sec s0 → ReconAt env st lower s0 s'
  | code (sec : ElfSec) (last : Addr) (s1 : Symbol) : Tree.floor st.sections s0.address = some sec →
      hasPrefix ".plt" (adoptSection sec s0).sec.name = false → lower.toNat ≤ last.toNat →
      sizeSymbol env sec last (adoptSection sec s0) = .ok s1 →
      reconstructCode env st sec s1 = .ok s' → ReconAt env st lower s0 s'

theorem reconStep_last {env : Env} {st : AState} {l l' : ReconLoop} {s : Symbol} {lower : Addr}
    (hl : lower.toNat ≤ l.last_addr.toNat)
    (h : reconstructStep env st l s = .ok l') : ∃ s', l'.done = s' :: l.done ∧ ReconAt env st lower s s' ∧
      s'.address = s.address ∧ (l'.last_addr = l.last_addr ∨ l'.last_addr = s.address) := by
  unfold reconstructStep at h
  cases hm : mderef env.build (Tree.floor st.sections s.address) with
  | error e => rw [hm] at h; cases h
  | ok sec =>
    rw [hm] at h
    have hf := mderef_ok hm
    change (if hasPrefix ".plt" (adoptSection sec s).sec.name = true then _ else _) = _ at h
    by_cases hc : hasPrefix ".plt" (adoptSection sec s).sec.name = true
    · rw [if_pos hc] at h
      cases h
      exact ⟨_, rfl, .plt sec hf hc rfl, (adoptSection_same sec s).1.address, Or.inl rfl⟩
    · rw [if_neg hc] at h
      cases h1 : sizeSymbol env sec l.last_addr (adoptSection sec s) with
      | error e => rw [h1] at h; cases h
      | ok s1 =>
        rw [h1] at h
        cases h2 : reconstructCode env st sec s1 with
        | error e =>
          change (reconstructCode env st sec s1 >>= _) = _ at h
          rw [h2] at h; cases h
        | ok s2 =>
          change (reconstructCode env st sec s1 >>= _) = _ at h
          rw [h2] at h
          cases h
          have ha : s2.address = s.address := by
            rw [reconstructCode_form h2, sizeSymbol_form h1]
            exact (adoptSection_same sec s).1.address
          exact ⟨s2, rfl, .code sec _ s1 hf (by simpa using hc) hl h1 h2, ha, Or.inr ha⟩

theorem lastAddr_congr : ∀ {l l' : List Symbol}, l.map (·.address) = l'.map (·.address) → lastAddr l = lastAddr l'
  | [], [], _ => rfl
  | [], _ :: _, h => by cases h
  | _ :: _, [], h => by cases h
  | _ :: _, _ :: _, h => (List.cons.inj h).1

theorem reconLoop_last {env : Env} {st : AState} (l : List Symbol) {L : ReconLoop} (hs : Sorted l)
    (h : l.reverse.foldlM (reconstructStep env st) {} = .ok L) :
    L.done.map (·.address) = l.map (·.address) ∧
    (∀ x : Addr, (∀ y ∈ l, x.toNat ≤ y.address.toNat) → x.toNat ≤ L.last_addr.toNat) ∧
    ∀ (i : Nat) s', L.done[i]? = some s' → ∃ s0, l[i]? = some s0 ∧ ReconAt env st (lastAddr (L.done.drop (i + 1))) s0 s' := by
  induction l generalizing L with
  | nil =>
    cases h
    refine ⟨rfl, fun x _ => ?_, fun i s' h => by simp at h⟩
    show x.toNat ≤ (BitVec.allOnes 64).toNat
    rw [BitVec.toNat_allOnes]
    have := x.isLt
    omega
  | cons s l ih =>
    rw [List.reverse_cons, List.foldlM_append] at h
    cases h1 : l.reverse.foldlM (reconstructStep env st) {} with
    | error e => rw [h1] at h; cases h
    | ok L1 =>
      rw [h1] at h
      simp only [List.foldlM_cons, List.foldlM_nil] at h
      change (reconstructStep env st L1 s >>= fun y => pure y) = Except.ok L at h
      cases h2 : reconstructStep env st L1 s with
      | error e => rw [h2] at h; cases h
      | ok L2 =>
        rw [h2] at h
        cases h
        have hs1 := List.pairwise_cons.mp hs
        obtain ⟨i1, i2, i3⟩ := ih hs1.2 h1
        have hlow : (lastAddr L1.done).toNat ≤ L1.last_addr.toNat := by
          rw [lastAddr_congr i1]
          refine i2 _ (fun y hy => ?_)
          cases l with
          | nil => cases hy
          | cons z l =>
            show z.address.toNat ≤ _
            rcases List.mem_cons.mp hy with rfl | hy
            · exact Nat.le_refl _
            · exact Nat.le_of_lt (BitVec.lt_def.mp ((List.pairwise_cons.mp hs1.2).1 y hy))
        obtain ⟨s', hd, hr, ha, hla⟩ := reconStep_last hlow h2
        refine ⟨by rw [hd, List.map_cons, List.map_cons, i1, ha], ?_, ?_⟩
        · intro x hx
          rcases hla with e | e
          · rw [e]; exact i2 x (fun y hy => hx y (List.mem_cons_of_mem _ hy))
          · rw [e]; exact hx s List.mem_cons_self
        · intro i q hq
          rw [hd] at hq ⊢
          cases i with
          | zero =>
            cases hq
            exact ⟨s, rfl, hr⟩
          | succ i => exact i3 i q hq

theorem reconstruct_last {env : Env} {st st' : AState} (hs : Sorted st.symbols) (h : reconstruct env st = .ok st') :
    ∀ (i : Nat) s', st'.symbols[i]? = some s' → ∃ s0, st.symbols[i]? = some s0 ∧
      ReconAt env st (lastAddr (st'.symbols.drop (i + 1))) s0 s' := by
  unfold reconstruct at h
  cases h1 : st.symbols.reverse.foldlM (reconstructStep env st) {} with
  | error e => rw [h1] at h; cases h
  | ok L =>
    rw [h1] at h
    cases h
    exact (reconLoop_last _ hs h1).2.2

/-- Setting the size again, with a bound that is not higher, does not change it. -/
theorem sizeSymbol_again {env : Env} {sec : ElfSec} {last last' : Addr} {s s1 s2 s3 : Symbol}
    (h : sizeSymbol env sec last s = .ok s1) (ha : s2.address = s.address) (hz : s2.size = s1.size)
    (h' : sizeSymbol env sec last' s2 = .ok s3) (h1 : s.address.toNat ≤ last'.toNat) (h2 : last'.toNat ≤ last.toNat) :
    s3.size = s1.size := by
  unfold sizeSymbol at h h'
  replace h := (massert_bind_ok h).2
  replace h' := (massert_bind_ok h').2
  generalize TLS.trans_addr (env.align_up (sec.virt_addr + sec.size) sec.alignment) sec.tls = E at h h'
  have e1 : s1.size ≥ (if last < E then last else E) - s.address := by
    cases h
    generalize (if last < E then last else E) - s.address = m
    by_cases hc : m > s.size
    · rw [if_pos hc]
      exact BitVec.le_refl _
    · rw [if_neg hc]
      exact BitVec.not_lt.mp hc
  have e2 : (if last' < E then last' else E) - s.address ≤ (if last < E then last else E) - s.address := by
    by_cases c : last' < E
    · rw [if_pos c]
      have : (if last < E then last else E).toNat ≥ last'.toNat := by
        rw [BitVec.lt_def] at c
        split
        · exact h2
        · omega
      generalize (if last < E then last else E) = m at this
      rw [BitVec.le_def, BitVec.toNat_sub_of_le (by rw [BitVec.le_def]; omega), BitVec.toNat_sub_of_le (by rw [BitVec.le_def]; omega)]
      omega
    · rw [if_neg c, if_neg (by rw [BitVec.lt_def] at c ⊢; omega)]
      exact BitVec.le_refl _
  cases h'
  rw [ha, if_neg]
  · exact hz
  · rw [hz]
    exact BitVec.not_lt.mpr (BitVec.le_trans e2 e1)

/-- A function of the result and its state after the reconstruction: final address, size, section, name; its relocations are
the reconstructed ones of the result. -/
theorem recon_final {env : Env} {fl : AnalyzeFlags} {elf : Elf} {dbgsym : Option Elf} {st s1 s2 s3 r : AState}
    (f : Stages env fl elf dbgsym st s1 s2 s3 r) (hrec : reconstruct env st = .ok s1) {s : Symbol} (hs : s ∈ r.symbols)
    (hp : ¬ PltSym s) (hx : s.sec.executable = true) :
    ∃ s' ∈ s1.symbols, s'.address = s.address ∧ s'.size = s.size ∧ s'.sec = s.sec ∧ s'.name = s.name ∧
      ∀ q, q ∈ s'.rels ↔ q ∈ s.rels ∧ q.reconstructed = true := by
  obtain ⟨x, hx2, k, _⟩ := f.kept s hs
  obtain ⟨_, hmem, _⟩ := hashInternal_ok f.run.ok1 f.run.internal
  obtain ⟨i, x1, y, a1, a2, a3, a4⟩ := (hmem x).mp hx2
  have hx1 := List.mem_of_getElem? a1
  obtain ⟨hsame, _, sec, w, b1, b2, b3, b4, _⟩ := hashSymbol_same (f.run.ok1.rels x1 hx1) a2
  rw [finish_used a3] at a4
  have exs : x.sec = y.sym.sec := by rw [a4]
  have exa : x.address = y.sym.address := by rw [a4]
  have exz : x.size = y.sym.size := by rw [a4]
  have exn : x.name = y.sym.name := by rw [a4]
  have hadr : x1.address = s.address := by rw [← k.address, exa, hsame.address]
  obtain ⟨s0, c1, hr⟩ := reconstruct_last f.okFirst.sorted hrec i x1 a1
  have c0 := List.mem_of_getElem? c1
  have hsecs : s1.sections = st.sections := by rw [(reconstruct_ok hrec).1]
  have hao := fun sec => adoptSection_same sec s0
  -- the section is known after the reconstruction
  have hknown : ∀ sec', (adoptSection sec' s0).sec.name ≠ none := by
    intro sec'
    unfold adoptSection
    cases e : s0.sec.name with
    | none => simp
    | some v => simp [e]
  have hsecx : x1.sec = s.sec ∧ x1.size = s.size := by
    cases hr with
    | plt sec' hf hpl he =>
      have : x1.sec = s.sec := by
        rw [← k.sec, exs, b3, b2]
        show x1.sec = (adoptSection sec x1).sec
        unfold adoptSection
        have : x1.sec.name ≠ none := by rw [he]; exact hknown sec'
        cases e : x1.sec.name with
        | none => exact absurd e this
        | some v => simp
      refine absurd ?_ hp
      rw [he] at this
      unfold PltSym
      rw [← this]
      exact (hasPrefix_iff _ _).mp hpl
    | code sec' last u hf hpl hlow h1 h2 =>
      have e6 := reconstructCode_form h2
      have e7 := sizeSymbol_form h1
      have x1sec : x1.sec = (adoptSection sec' s0).sec := by rw [e6, e7]
      have x1a : x1.address = (adoptSection sec' s0).address := by rw [e6, e7]
      have x1z : x1.size = u.size := by rw [e6]
      have hadopt : adoptSection sec x1 = x1 := by
        unfold adoptSection
        have : x1.sec.name ≠ none := by rw [x1sec]; exact hknown sec'
        cases e : x1.sec.name with
        | none => exact absurd e this
        | some v => simp
      have hsec' : sec' = sec := by
        have : s0.address = x1.address := by rw [x1a, (hao sec').1.address]
        rw [hsecs, ← this, hf] at b1
        exact Option.some.inj b1
      subst hsec'
      rw [hadopt] at b4 b2
      refine ⟨by rw [← k.sec, exs, b3, b2], ?_⟩
      rw [← k.size, exz, x1z]
      have hlt : (adoptSection sec' s0).address.toNat ≤ (lastAddr (s1.symbols.drop (i + 1))).toNat := by
        cases e : s1.symbols.drop (i + 1) with
        | nil =>
          show _ ≤ (BitVec.allOnes 64).toNat
          rw [BitVec.toNat_allOnes]
          have := (adoptSection sec' s0).address.isLt
          omega
        | cons z l =>
          rw [← x1a]
          have hz : s1.symbols[i + 1]? = some z := by
            have := congrArg List.head? e
            rw [List.head?_drop] at this
            exact this
          exact Nat.le_of_lt (BitVec.lt_def.mp (sorted_getElem_lt f.run.ok1.sorted a1 hz (Nat.lt_succ_self i)))
      have : w.size = y.sym.size := by rw [b2]
      rw [← this]
      exact (sizeSymbol_again h1 x1a x1z b4 hlt hlow).symm
  refine ⟨x1, hx1, hadr, hsecx.2, hsecx.1, by rw [← k.name, exn, hsame.name], fun q => ?_⟩
  have hsr : Sorted s1.relocations := by rw [f.same1]; show Sorted r.relocations; rw [show r.relocations = Tree.ofList (allRelocations elf dbgsym) from congrArg FilePart.relocations f.part]; exact sorted_ofList _
  have hsrr : Sorted s1.relative_relocations := by rw [f.same1]; show Sorted r.relative_relocations; rw [show r.relative_relocations = Tree.ofList (allRelative elf dbgsym) from congrArg FilePart.relative f.part]; exact sorted_ofList _
  obtain ⟨z, h0, sec', d1, _, d3⟩ := rels_exact f.run.ok1 hsr hsrr f.run.internal hx2 (Or.inl (by rw [k.sec]; exact hx))
  have : z = x1 := f.run.ok1.sorted.inj h0 hx1 (by show z.address = x1.address; rw [d1, exa, hsame.address])
  subst this
  rw [← k.rels]
  constructor
  · intro hq
    exact ⟨(d3 q).mpr (Or.inl hq), reconstruct_reconstructed f.okFirst (fun s hs => (f.fresh s hs).rels) hrec hx1 hq⟩
  · rintro ⟨hq, hqr⟩
    rcases (d3 q).mp hq with h | ⟨e, _, _, _, rfl, _⟩ | ⟨o, _, _, _, h6, _⟩
    · exact h
    · rw [(relOfElf_spec _ _ _ _ _).original] at hqr; cases hqr
    · obtain ⟨b, _, eb⟩ := h6
      rw [eb] at hqr
      cases hqr

end Bean

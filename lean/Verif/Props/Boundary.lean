import Verif.Lemmas.Boundary
import Verif.Props.Total
/-
Property theorems C94: symbols start where the file gives a reason for it.
-/
namespace Bean
open Tree Spec Props

theorem has_of_kept {env : Env} {fl : AnalyzeFlags} {elf : Elf} {dbgsym : Option Elf} {st s1 s2 s3 r : AState}
    (f : Stages env fl elf dbgsym st s1 s2 s3 r) :
    (∀ k, Has r.symbols k → Has st.symbols k) ∧ (fl.keep_unused = true → ∀ k, Has st.symbols k → Has r.symbols k) := by
  constructor
  · rintro k ⟨s, hs, rfl⟩
    obtain ⟨z, hz, e⟩ := (addresses_of f).1 s hs
    obtain ⟨y, hy, g, _⟩ := zip_mem_right f.run.zip1 hz
    exact ⟨y, hy, g.address.symm.trans e⟩
  · rintro hk k ⟨s, hs, rfl⟩
    obtain ⟨x, hx, g, _⟩ := zip_mem_left f.run.zip1 hs
    obtain ⟨z, hz, e⟩ := (addresses_of f).2 hk x hx
    exact ⟨z, hz, e.trans g.address⟩

theorem readBytes_slice {data : List (BitVec 8)} {off n : Addr} {bytes : List (BitVec 8)} (h : readBytes data off n = .ok bytes) :
    off.toNat + n.toNat ≤ data.length ∧ bytes = (data.drop off.toNat).take n.toNat := by
  unfold readBytes at h
  split at h
  · next hc => cases h; exact ⟨hc, rfl⟩
  · cases h

theorem knownMark_boundary {env : Env} {fl : AnalyzeFlags} {elf : Elf} {dbgsym : Option Elf} {t : SymTree} {k : Addr}
    (hd : DistinctSections elf) (h : KnownMark elf dbgsym k) : Boundary env fl elf dbgsym t k := by
  rcases h with ⟨seg, h1, h2⟩ | ⟨d, sym, h1, h2, h3⟩ | ⟨rel, h1, h2, rfl⟩ | ⟨off, h1, sec, bytes, sec', h2, h3, h4, h5⟩
  · exact .segment seg h1 h2
  · exact .entry d sym h1 h2 h3
  · exact .pointer (.named rel (mem_ofList h1) h2)
  · obtain ⟨e1, e2⟩ := readBytes_slice h3
    rw [e2] at h5
    subst h5
    exact .pointer (.stored off sec sec' (mem_ofList h1) (floor_section hd h2) e1 (floor_section hd h4))

theorem gathered_boundary {env : Env} {fl : AnalyzeFlags} {elf : Elf} {dbgsym : Option Elf} {st : AState}
    (h : gather env fl elf dbgsym = .ok st) (hd : DistinctSections elf) (t' : SymTree)
    (ht : ∀ k, Has st.symbols k → Has t' k) (k : Addr) (hk : Has st.symbols k) : Boundary env fl elf dbgsym t' k := by
  obtain ⟨x, t, hs, es, hx, hD, ht2⟩ := gather_marks h
  rcases hD.only t' (fun k hk => ht k ((ht2 k).mpr hk)) k ((ht2 k).mp hk) with h | h
  · exact knownMark_boundary hd ((hx k).mp h)
  · exact .code (start_congr es h)

/-- C94: the symbols of the result are among a set of symbols, each of which starts at an address with a reason: the end of a
segment, an entry of a symbol table or its end, a relocated pointer, or code that looks like the start of a function. -/
theorem C94_only (env : Env) (fl : AnalyzeFlags) (elf : Elf) (dbgsym : Option Elf) (r : AState)
    (h : analyze env fl elf dbgsym = .ok r) (hd : DistinctSections elf) :
    ∃ t : SymTree, (∀ s ∈ r.symbols, ∃ s' ∈ t, s'.address = s.address) ∧
      ∀ s ∈ t, Boundary env fl elf dbgsym t s.address := by
  obtain ⟨st, s1, s2, s3, f⟩ := stages h
  exact ⟨st.symbols, fun s hs => (has_of_kept f).1 s.address ⟨s, hs, rfl⟩,
    fun s hs => gathered_boundary f.file hd _ (fun _ h => h) s.address ⟨s, hs, rfl⟩⟩

/-- C94: if unused symbols are kept, each symbol of the result has a reason. -/
theorem C94_only_kept (env : Env) (fl : AnalyzeFlags) (elf : Elf) (dbgsym : Option Elf) (r : AState)
    (h : analyze env fl elf dbgsym = .ok r) (hd : DistinctSections elf) (hk : fl.keep_unused = true) :
    ∀ s ∈ r.symbols, Boundary env fl elf dbgsym r.symbols s.address := by
  obtain ⟨st, s1, s2, s3, f⟩ := stages h
  intro s hs
  exact gathered_boundary f.file hd _ ((has_of_kept f).2 hk) s.address ((has_of_kept f).1 s.address ⟨s, hs, rfl⟩)

theorem expected_has {env : Env} {fl : AnalyzeFlags} {elf : Elf} {dbgsym : Option Elf} {st : AState}
    (h : gather env fl elf dbgsym = .ok st) {k : Addr} (he : Expected env elf dbgsym k) : Has st.symbols k := by
  obtain ⟨x, t, hs, es, hx, hD, ht2⟩ := gather_marks h
  rw [ht2]
  have code : ∀ {sec steps}, SectionCode env (imageOf elf) sec steps → SectionCode env x sec steps := by
    intro sec steps h
    unfold SectionCode at h ⊢
    rw [es]
    exact h
  cases he with
  | segment seg _ h1 h2 => exact hD.keep _ ((hx _).mpr (Or.inl ⟨seg, h1, h2⟩))
  | entry d sym _ h1 h2 h3 => exact hD.keep _ ((hx _).mpr (Or.inr (Or.inl ⟨d, sym, h1, h2, h3⟩)))
  | sec sec h1 =>
    obtain ⟨y, hy, hyk⟩ := ofList_key (mem_loadedSections.mpr h1)
    have := hD.start y (es ▸ hy)
    rw [show TLS.trans_addr y.virt_addr y.tls = secStart sec from hyk] at this
    exact this
  | called sec steps i _ h1 h2 h3 h4 =>
    refine hD.calls sec (code h1).1 steps (code h1) i h2 h3 _ ?_
    unfold CallsTo at h4 ⊢
    rw [es]
    exact h4
  | mark sec pre i post h1 h2 h3 => exact hD.marks sec (code h1).1 pre i post (code h1) h2 h3
  | next sec pre i post h1 h2 h3 h4 h5 h6 => exact hD.nexts sec (code h1).1 pre i post (code h1) h2 h3 h4 h5 h6

/-- C94: if unused symbols are kept, there are symbols at all expected places. -/
theorem C94_found (env : Env) (fl : AnalyzeFlags) (elf : Elf) (dbgsym : Option Elf) (r : AState)
    (h : analyze env fl elf dbgsym = .ok r) (hk : fl.keep_unused = true) (k : Addr) (he : Expected env elf dbgsym k) :
    ∃ s ∈ r.symbols, s.address = k := by
  obtain ⟨st, s1, s2, s3, f⟩ := stages h
  exact (has_of_kept f).2 hk k (expected_has f.file he)

/-- C94: without the flag, there is a symbol at each expected place unless there are only NOPs from there on up to the next
symbol (hence at least at the place itself, if it is in front of the end of its section). -/
theorem C94_found_default (env : Env) (fl : AnalyzeFlags) (elf : Elf) (dbgsym : Option Elf) (r : AState)
    (h : analyze env fl elf dbgsym = .ok r) (k : Addr) (he : Expected env elf dbgsym k) (sec : ElfSec)
    (hsec : SectionOf elf k sec) :
    (∃ s ∈ r.symbols, s.address = k) ∨
    (fl.keep_unused = false ∧ ∃ n, OnlyNops env sec k n ∧ (k.toNat < (sectionEnd env sec).toNat → n ≠ 0)) := by
  obtain ⟨st, s1, s2, s3, f⟩ := stages h
  obtain ⟨s0, h0, rfl⟩ := expected_has f.file he
  rcases kept_or_nops f h0 hsec with ⟨s, hs, e, _⟩ | ⟨hk, _, n, ho, hc⟩
  · exact Or.inl ⟨s, hs, e⟩
  · refine Or.inr ⟨hk, n, ho, fun hlt hz => ?_⟩
    have := hc s0.address hlt (fun _ _ h => h)
    rw [hz] at this
    exact absurd this (by simp)

/-! ### A file with functions that are not in its symbol table -/

def bndElf : Elf := rexElf fexCode (rexData ".data") [] [imgFunc 0x1000 5 "main" .global, imgVar 0x2000 8 "v" 2]

/-- Steps in front of and behind the function at 0x1006. -/
theorem bnd_steps : disasm fexEnv 0x1000 fexCode = (disasm fexEnv 0x1000 fexCode).take 5 ++
    { insn := { address := 0x1006, size := 1, id := 7, opcode := [0x40] }, address := 0x1007, rest := fexCode.drop 7 } ::
      (disasm fexEnv 0x1000 fexCode).drop 6 := by decide +kernel

theorem bnd_section : SectionCode fexEnv (imageOf bndElf) (rexText fexCode) (disasm fexEnv 0x1000 fexCode) := by
  refine ⟨?_, rfl, fexCode, by rfl, rfl⟩
  have : (imageOf bndElf).sections = [rexText fexCode, rexData ".data"] := by decide +kernel
  rw [this]
  exact List.mem_cons_self

/-- The function behind the return at 0x1004. -/
theorem bnd_next : Expected fexEnv bndElf none 0x1006 := by
  have h := Expected.next (env := fexEnv) (elf := bndElf) (dbgsym := none) (rexText fexCode) _ _ _ (bnd_steps ▸ bnd_section)
    (by exact trivial) ⟨fexRet, by decide +kernel, Or.inr (Or.inr (Or.inl (by decide)))⟩ (by decide) (by decide +kernel)
    (fun y hy t ht => of_decide_eq_true (allTargets_of (p := fun _ t => decide (t < 0x1006))
      (steps := (disasm fexEnv 0x1000 fexCode).take 5) (by decide +kernel) y hy t ht.2.2))
  exact h

/-- The end of the function in the symbol table. -/
theorem bnd_end : Expected fexEnv bndElf none 0x1005 :=
  .entry bndElf (imgFunc 0x1000 5 "main" .global) _ (Or.inl rfl)
    ⟨runTable [imgFunc 0x1000 5 "main" .global, imgVar 0x2000 8 "v" 2], by simp [bndElf, rexElf], Or.inl rfl, by decide, by simp [runTable]⟩
    ⟨rexText fexCode, Or.inr ⟨⟨1, rfl, rfl⟩, by decide, by decide, rfl, by decide, by decide⟩⟩

/-- Both places have a symbol, and each of the symbols has a reason. -/
example : ∃ r, analyze fexEnv { keep_unused := true } bndElf none = .ok r ∧ r.symbols.length = 7 ∧
    (∃ s ∈ r.symbols, s.address = 0x1006) ∧ (∃ s ∈ r.symbols, s.address = 0x1005) ∧
    ∀ s ∈ r.symbols, Boundary fexEnv { keep_unused := true } bndElf none r.symbols s.address := by
  obtain ⟨r, h, hp⟩ := ok_such (m := analyze fexEnv { keep_unused := true } bndElf none)
    (P := fun r => decide (r.symbols.length = 7)) (by decide +kernel)
  exact ⟨r, h, of_decide_eq_true hp, C94_found _ _ _ _ r h rfl _ bnd_next, C94_found _ _ _ _ r h rfl _ bnd_end,
    C94_only_kept _ _ _ _ r h (rexElf_distinct _ _ _ _) rfl⟩

/-- By default, the padding behind the function is no symbol. -/
example : ∃ r, analyze fexEnv {} bndElf none = .ok r ∧ r.symbols.length = 6 ∧
    (∃ t : SymTree, (∀ s ∈ r.symbols, ∃ s' ∈ t, s'.address = s.address) ∧ ∀ s ∈ t, Boundary fexEnv {} bndElf none t s.address) ∧
    ((∃ s ∈ r.symbols, s.address = 0x1005) ∨ ∃ n, OnlyNops fexEnv (rexText fexCode) 0x1005 n ∧ n ≠ 0) := by
  obtain ⟨r, h, hp⟩ := ok_such (m := analyze fexEnv {} bndElf none) (P := fun r => decide (r.symbols.length = 6)) (by decide +kernel)
  have hsec : SectionOf bndElf 0x1005 (rexText fexCode) :=
    floor_section (rexElf_distinct _ _ _ _) (show Tree.floor (imageOf bndElf).sections 0x1005 = some (rexText fexCode) by decide +kernel)
  refine ⟨r, h, of_decide_eq_true hp, C94_only _ _ _ _ r h (rexElf_distinct _ _ _ _), ?_⟩
  rcases C94_found_default _ _ _ _ r h _ bnd_end _ hsec with h | ⟨_, n, h1, h2⟩
  · exact Or.inl h
  · exact Or.inr ⟨n, h1, h2 (by decide +kernel)⟩

end Bean

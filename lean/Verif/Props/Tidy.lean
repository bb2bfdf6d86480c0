import Verif.Lemmas.Tidy
import Verif.Props.Total
/-
Property theorem C93 in terms of the file: the analysis of well-formed files completes.
-/
namespace Bean
open Tree Spec Props

/-- C93: a file whose tables can be read, whose code can be decoded, whose sections lie in its segments and whose symbols, pointers and
calls lie in its sections is analysed completely. All conditions are on the file, none on the symbols made by the analysis. -/
theorem C93_file_partial (env : Env) (fl : AnalyzeFlags) (elf : Elf) (dbgsym : Option Elf) (hl : Legible elf dbgsym)
    (hp : Spec.PlainCode env fl { imageOf elf with relocations := Tree.ofList (allRelocations elf dbgsym) }) (hd : SaneDecoder env) (ht : Tidy env elf dbgsym)
    (hf : fl.reconstruct = true → Fronted env fl elf dbgsym) : ∃ r, analyze env fl elf dbgsym = .ok r :=
  analyze_safe hl hp (fun _ => hd)
    (fun _ h => tidy_contained ht hl.distinct (fun _ _ _ h => hd.address h) hf h)

/-! ### Example -/

attribute [-instance] BitVec.instDecidableForallBitVec BitVec.instDecidableForallBitVecSucc BitVec.instDecidableExistsBitVec
  BitVec.instDecidableExistsBitVecSucc

/-- The variable `v` of the example is a pointer to the function `f`. -/
def tidRel : ElfRel where
  offset := 0x2000
  type := R_X86_64_RELATIVE
  symbol := none
  addend := 0x1010

def tidElf : Elf := rexElf rexCode (rexData ".data") [tidRel] rexSyms

theorem tid_rels : allRelocations tidElf none = [tidRel] := by decide +kernel

theorem tid_packed : allRelative tidElf none = [] := by decide +kernel

theorem tid_legible : Legible tidElf none where
  distinct := rexElf_distinct _ _ _ _
  tls := tot_legible.tls
  segments := tot_legible.segments
  index := by
    intro d hd sym hs n hn
    rw [part_none hd] at hs ⊢
    have : (tableEntries tidElf).all (fun sym => match sym.shndx with
      | .index n => decide (n < tidElf.sections.length)
      | _ => true) = true := by decide
    have := List.all_eq_true.mp this sym (tableEntries_mem hs)
    rw [hn] at this
    exact of_decide_eq_true this
  thread := by
    intro d hd sym hs sec hsec ht
    rw [part_none hd] at hs hsec
    exact absurd ht (of_decide_eq_true
      (entries_all (fun sym _ => decide (sym.type ≠ .tls)) (by decide) sym hs sec hsec))
  other := by
    intro d hd sym hs sec hsec _
    rw [part_none hd] at hs hsec
    exact of_decide_eq_true (entries_all (fun sym sec => decide (TLS.is_tls sym.value = false ∧
      (sym.type ≠ .notype → sec.virt_addr ≤ sym.value) ∧ PlainAt sec (TLS.trans_addr sym.value sec.tls))) (by decide +kernel)
      sym hs sec hsec)
  agree := by
    intro d hd sym hs d' hd' sym' hs' _ _ sec sec' k h1 h2
    rw [part_none hd] at hs h1
    rw [part_none hd'] at hs' h2
    have key : ∀ sym, TableEntry tidElf sym → ∀ sec, InSection tidElf.sections sym sec →
        (sec.writeable = decide (0x2000#64 ≤ TLS.trans_addr sym.value sec.tls) ∧
         sec.executable = !decide (0x2000#64 ≤ TLS.trans_addr sym.value sec.tls)) ∧ sym.type ≠ .tls := fun sym hs sec hsec =>
      of_decide_eq_true (entries_all (fun sym sec => decide ((sec.writeable = decide (0x2000#64 ≤ TLS.trans_addr sym.value sec.tls) ∧
         sec.executable = !decide (0x2000#64 ≤ TLS.trans_addr sym.value sec.tls)) ∧ sym.type ≠ .tls)) (by decide +kernel) sym hs sec hsec)
    obtain ⟨⟨e1, e2⟩, e3⟩ := key sym hs sec h1.1
    obtain ⟨⟨e1', e2'⟩, e3'⟩ := key sym' hs' sec' h2.1
    rcases h1.2 with ⟨h, _⟩ | ⟨_, _, _, hk⟩
    · exact absurd h e3
    · rcases h2.2 with ⟨h, _⟩ | ⟨_, _, _, hk'⟩
      · exact absurd h e3'
      · rw [e1, e1', e2, e2', ← hk, ← hk']
        exact ⟨rfl, rfl⟩
  relative := by
    intro rel hrel _
    rw [tid_rels] at hrel
    rw [List.mem_singleton.mp hrel]
    exact ⟨rexText rexCode, by decide +kernel⟩
  packed := by
    intro o ho
    rw [tid_packed] at ho
    cases ho

theorem tid_steps {sec : ElfSec} {steps : List Step} (h : SectionCode rexEnv (imageOf tidElf) sec steps) :
    sec = rexText rexCode ∧ steps = disasm rexEnv 0x1000 rexCode := by
  obtain ⟨h1, h2, bytes, h3, h4⟩ := h
  have h5 : sec = rexText rexCode := by
    rcases rexElf_loaded (mem_loadedSections.mp (mem_ofList h1)) with h | h
    · exact h
    · rw [h] at h2; cases h2
  subst h5
  have : readBytes (rexText rexCode).data 0 (rexText rexCode).size = .ok rexCode := by rfl
  rw [this] at h3
  cases h3
  exact ⟨rfl, h4⟩

theorem tid_plain : Spec.PlainCode rexEnv { reconstruct := true }
    { imageOf tidElf with relocations := Tree.ofList (allRelocations tidElf none) } where
  names := by
    intro sec steps hc hn
    exact absurd hn (by simp [namesPlt])
  plain := by decide +kernel
  steps := by
    intro sec steps hc
    obtain ⟨rfl, rfl⟩ := tid_steps hc
    decide +kernel
  operands := by
    intro sec steps hc
    obtain ⟨rfl, rfl⟩ := tid_steps hc
    decide +kernel
  targets := by
    intro sec steps hc x hx _ t ht target _ _
    rw [(tid_steps hc).2] at hx
    exact of_decide_eq_true (allTargets_of (p := fun _ t => decide (TLS.is_tls t = false)) (by decide +kernel) x hx t ht)

/-- The marks of the file: starts and ends of the entries. -/
def tidMarks : List Addr := [0x1000, 0x1010, 0x1011, 0x2000, 0x2008]

theorem tid_located {d : Elf} (hd : Part tidElf none d) {sym : ElfSym} (hs : TableEntry d sym) {sec : ElfSec} {k : Addr}
    (h : LocatedAt tidElf d sym sec k) : k = TLS.trans_addr sym.value sec.tls ∧ InSection tidElf.sections sym sec ∧
      TableEntry tidElf sym := by
  rw [part_none hd] at hs h
  refine ⟨?_, h.1, hs⟩
  rcases h.2 with ⟨ht, _⟩ | ⟨_, _, _, hk⟩
  · exact absurd ht (of_decide_eq_true
      (entries_all (fun sym _ => decide (sym.type ≠ .tls)) (by decide) sym hs sec h.1))
  · exact hk

theorem tid_mark {k : Addr} (h : FileMark rexEnv tidElf none k) : k ∈ tidMarks := by
  cases h with
  | segment seg k hs hm =>
    have : ∀ seg ∈ tidElf.segments, ¬ ((seg.type = .load ∧ seg.size < seg.virt_size) ∨ seg.type = .gnuRelro) := by decide +kernel
    exact absurd hm.1 (this seg hs)
  | entry d sym k hd hs hm =>
    obtain ⟨sec, hm⟩ := hm
    rcases hm with hm | ⟨h1, _, _, _, _, hk⟩
    · obtain ⟨rfl, h1, h2⟩ := tid_located hd hs hm
      exact of_decide_eq_true (entries_all (fun sym sec => decide (TLS.trans_addr sym.value sec.tls ∈ tidMarks))
        (by decide +kernel) sym h2 sec h1)
    · rw [part_none hd] at hs h1
      rw [hk]
      exact of_decide_eq_true (entries_all (fun sym sec => decide (TLS.trans_addr (sym.value + sym.size) sec.tls ∈ tidMarks))
        (by decide +kernel) sym hs sec h1)
  | pointer k hp =>
    cases hp with
    | named rel h1 _ =>
      rw [tid_rels] at h1
      rw [List.mem_singleton.mp h1]
      decide
    | stored loc sec to h1 _ _ _ => rw [tid_packed] at h1; cases h1
  | called sec steps x k hc hx _ hk =>
    rw [(tid_steps hc).2] at hx
    obtain ⟨hcall, t, sec', ht, hsec, _, rfl⟩ := hk
    have := allTargets_of (p := fun x t => decide (.call ∈ x.insn.groups → t = 0x1010)) (by decide +kernel) x hx t ht
    have ht' : t = 0x1010 := of_decide_eq_true this hcall
    subst ht'
    rcases rexElf_loaded (mem_loadedSections.mp (mem_ofList (Tree.floor_mem hsec))) with rfl | rfl <;> decide +kernel

/-- The places of the file: its marks and instructions. -/
def tidPlaces : List Addr := tidMarks ++ (disasm rexEnv 0x1000 rexCode).map (fun x => TLS.trans_addr x.insn.address false)

theorem tid_place {k : Addr} (h : Place rexEnv tidElf none k) : k ∈ tidPlaces := by
  cases h with
  | mark k h => exact List.mem_append_left _ (tid_mark h)
  | sec sec h => rcases rexElf_loaded h with rfl | rfl <;> decide +kernel
  | insn sec steps x hc hx =>
    obtain ⟨rfl, rfl⟩ := tid_steps hc
    exact List.mem_append_right _ (List.mem_map.mpr ⟨x, hx, rfl⟩)

theorem tid_tidy : Tidy rexEnv tidElf none where
  bounds := by
    intro sec h
    rcases rexElf_loaded h with rfl | rfl <;> decide +kernel
  disjoint := by
    intro sec sec' h h' hlt
    rcases rexElf_loaded h with rfl | rfl <;> rcases rexElf_loaded h' with rfl | rfl <;> revert hlt <;> decide +kernel
  marks := by
    intro k h
    have : ∀ k ∈ tidMarks, ∃ sec ∈ tidElf.sections, SectionOf tidElf k sec ∧ k ≤ secEnd rexEnv sec := by decide +kernel
    obtain ⟨sec, _, h⟩ := this k (tid_mark h)
    exact ⟨sec, h⟩
  entries := by
    intro d hd sym hs from_ k hk sec hsec
    obtain ⟨rfl, h1, h2⟩ := tid_located hd hs hk
    have := entries_all (d := tidElf) (fun sym from_ => decide (∀ sec ∈ tidElf.sections,
      SectionOf tidElf (TLS.trans_addr sym.value from_.tls) sec → (from_.executable = true → sec.executable = true) ∧
        (TLS.trans_addr sym.value from_.tls).toNat + sym.size.toNat ≤ (secEnd rexEnv sec).toNat)) (by decide +kernel) sym h2 from_ h1
    exact of_decide_eq_true this sec hsec.loaded.1 hsec
  segments := by
    intro seg hs h1 h2
    have : ∀ seg ∈ tidElf.segments, ¬ (seg.type = .load ∧ seg.size < seg.virt_size) := by decide +kernel
    exact absurd ⟨h1, h2⟩ (this seg hs)
  code := by
    intro sec h hx
    rcases rexElf_loaded h with rfl | rfl
    · refine ⟨by decide +kernel, by decide +kernel, 0x2000, ?_, by decide +kernel⟩
      have h : Loaded tidElf (rexData ".data") := by decide +kernel
      have e : secStart (rexData ".data") = 0x2000 := by decide +kernel
      rw [← e]
      exact .sec _ h
    · exact absurd hx (by decide +kernel)
  memory := by
    intro sec h a h1 h2
    have h100 : 0x1000 ≤ a.toNat := by
      rcases rexElf_loaded h with rfl | rfl
      · exact BitVec.le_def.mp h1
      · exact Nat.le_trans (by decide) (BitVec.le_def.mp h1)
    refine ⟨rexLoadData, Or.inr ⟨?_, by decide +kernel, ?_, ?_⟩, ?_⟩
    · rcases rexElf_loaded h with rfl | rfl <;> decide +kernel
    · exact Nat.le_trans (by decide) h100
    · intro seg' hs _
      have : ∀ seg' ∈ loadSegments tidElf, seg' = rexLoadData ∨ seg'.offset.toNat < rexLoadData.offset.toNat := by decide +kernel
      exact this seg' hs
    · rcases rexElf_loaded h with rfl | rfl <;> decide +kernel
  stored := by
    intro sec h _
    rcases rexElf_loaded h with rfl | rfl <;> decide +kernel
  pointers := by
    intro sec _ _ o ho
    rw [tid_packed] at ho
    cases ho
  whole := by
    intro sec h _ p hp e he h1 h2
    rw [tid_rels] at he
    rw [List.mem_singleton.mp he] at h1 h2 ⊢
    have hs : sec.virt_addr ≤ 0x2000 := h1
    have key : 0x2008 ≤ p.toNat := by
      cases hp with
      | top =>
        revert h2
        rcases rexElf_loaded h with rfl | rfl <;> decide +kernel
      | place k hk _ _ =>
        have : ∀ k ∈ tidPlaces, tidRel.offset < TLS.virt_addr k → 0x2008 ≤ (TLS.virt_addr k).toNat := by decide +kernel
        exact this k (tid_place hk) h2
      | entry d sym from_ k hd hs hk _ =>
        obtain ⟨rfl, h3, h4⟩ := tid_located hd hs hk
        have := entries_all (d := tidElf) (fun sym from_ => decide (
          tidRel.offset < TLS.virt_addr (TLS.trans_addr sym.value from_.tls) + sym.size →
            0x2008 ≤ (TLS.virt_addr (TLS.trans_addr sym.value from_.tls) + sym.size).toNat)) (by decide +kernel) sym h4 from_ h3
        exact of_decide_eq_true this h2
      | slot steps x hc hn _ _ =>
        rw [(tid_steps hc).1] at hn
        exact absurd hn (by decide)
    have : tidRel.offset.toNat + (rexEnv.reloc_size tidRel.type).toNat = 0x2008 := by decide +kernel
    rw [this]
    exact key
  wholePacked := by
    intro sec _ _ p _ o ho
    rw [tid_packed] at ho
    cases ho

theorem tid_refers : ∀ k ∈ tidPlaces, ∀ sec ∈ tidElf.sections, SectionOf tidElf k sec → ∀ n ∈ List.range 18,
    ∀ a ∈ codeRels rexEnv (tlsEnd rexEnv (tlsSegment tidElf))
      (disasm rexEnv k ((sec.data.drop (k - sec.virt_addr).toNat).take n)), a.target = 0 ∨ 0x1000#64 ≤ a.target := by decide +kernel

theorem tid_fronted : Fronted rexEnv { reconstruct := true } tidElf none := by
  refine ⟨tidElf, imgFunc 0x1000 16 "main" .global, rexText rexCode, 0x1000, Or.inl rfl, ?_, ?_, ?_, ?_, ?_, ?_, ?_, ?_⟩
  · exact ⟨runTable rexSyms, by decide +kernel, by decide +kernel, by decide +kernel, by decide +kernel⟩
  · refine ⟨⟨1, rfl, rfl⟩, Or.inr ?_⟩
    decide +kernel
  · exact fun e => (by cases e)
  · intro d hd sym hs sec hsec
    obtain ⟨_, h1, h2⟩ := tid_located hd hs hsec
    exact of_decide_eq_true (entries_all (fun sym _ => decide (sym.type ≠ .notype)) (by decide) sym h2 sec h1)
  · intro plt _ hn
    exact absurd hn (by simp [namesPlt])
  · intro e he a
    rw [tid_rels] at he
    rw [List.mem_singleton.mp he]
    right
    show 0x1000#64 ≤ 0x1010#64
    decide
  · intro o ho
    rw [tid_packed] at ho
    cases ho
  · intro k sec n hk hsec hn x hx op hop offset size target href
    have hn' : n < 18 := by
      have h1 := hsec.start
      have : ∀ sec ∈ tidElf.sections, Loaded tidElf sec → (secEnd rexEnv sec).toNat < (secStart sec).toNat + 18 := by decide +kernel
      have h2 := this sec hsec.loaded.1 hsec.loaded
      omega
    have main : ∃ b ∈ operandRels (tlsEnd rexEnv (tlsSegment tidElf)) (rexEnv.kind x.insn.id) x.insn op, b.target = target := by
      rcases href with href | href
      · obtain ⟨b, hb, hpc⟩ := operandRels_pc href
        exact ⟨b, hb, hpc.target⟩
      · cases href with
        | fs => exact ⟨_, List.mem_append_left _ (by rw [if_pos rfl]; exact List.mem_singleton.mpr rfl), rfl⟩
    obtain ⟨b, hb, rfl⟩ := main
    exact tid_refers k (tid_place hk) sec hsec.loaded.1 hsec n (List.mem_range.mpr hn') b (mem_codeRels.mpr ⟨x, hx, op, hop, hb⟩)

example : ∃ r, analyze rexEnv { reconstruct := true } tidElf none = .ok r :=
  C93_file_partial rexEnv { reconstruct := true } tidElf none tid_legible tid_plain rexEnv_sane tid_tidy (fun _ => tid_fronted)

end Bean

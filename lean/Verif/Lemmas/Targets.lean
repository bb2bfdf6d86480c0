import Verif.Lemmas.Image
import Verif.Spec.Targets
/-
Symbols at the targets of relocations, and the flags of symbols.
-/
namespace Bean
open Tree Spec

/-! ### Symbols at the targets of relocations -/

/-- There is a symbol at the address. -/
def Has (t : SymTree) (k : Addr) : Prop := ∃ s ∈ t, s.address = k

theorem Touch.has {b : Build} {A : InsertArgs → Prop} {N : Prop} {t t' : SymTree} {k : Addr} (h : Touch b A N t t')
    (hs : Sorted t) (h0 : Has t k) : Has t' k := by
  obtain ⟨s, hm, hk⟩ := h0
  obtain ⟨s', hm', hk', _⟩ := h.at (P := fun _ => True) (k := k) (fun _ _ _ _ _ _ => trivial) (fun _ _ _ _ => trivial) hs
    ⟨s, hm, hk, trivial⟩
  exact ⟨s', hm', hk'⟩

theorem insert_has {b : Build} {t t' : SymTree} {a : InsertArgs} (hs : Sorted t) (h : insertSymbol b t a = .ok t') :
    Has t' a.address := by
  obtain ⟨_, e2, _⟩ := insertSymbol_spec hs h
  exact ⟨_, (find_mem e2).1, (find_mem e2).2⟩

/-- Only the symbols change, by insertions without size. -/
def Widened (b : Build) (x y : AState) : Prop := y = { x with symbols := y.symbols } ∧ Touch b Sizeless False x.symbols y.symbols

theorem Widened.refl (b : Build) (x : AState) : Widened b x x := ⟨rfl, .refl⟩

theorem Widened.trans {b : Build} (x y z : AState) (h1 : Widened b x y) (h2 : Widened b y z) : Widened b x z := by
  obtain ⟨e1, t1⟩ := h1
  obtain ⟨e2, t2⟩ := h2
  refine ⟨?_, t1.trans t2⟩
  rw [e2, e1]

theorem readRelocation_grown {b : Build} {x y : AState} {rel : ElfRel} (h : readRelocation b x rel = .ok y) :
    Widened b x y ∧ (Sorted x.symbols → RelativeType rel.type → Has y.symbols rel.addend) := by
  unfold readRelocation at h
  split at h
  · cases hm : mderef b (Tree.floor x.sections rel.addend) with
    | error e => rw [hm] at h; cases h
    | ok sec =>
      rw [hm] at h
      obtain ⟨t, e1, e2⟩ := stInsert_ok (massert_bind_ok (massert_bind_ok h).2).2
      subst e2
      exact ⟨⟨rfl, .one (plain_sizeless _ _) e1⟩, fun hs _ => insert_has hs e1⟩
  · rename_i hn
    cases h
    exact ⟨.refl b x, fun _ hr => absurd hr hn⟩

theorem readRelative_grown {b : Build} {x y : AState} {off : Addr} (h : readRelative b x off = .ok y) :
    Widened b x y ∧ ∀ sec bytes, Sorted x.symbols → Tree.floor x.sections off = some sec →
      readBytes sec.data (off - sec.virt_addr) 8 = .ok bytes → (∃ sec', Tree.floor x.sections (leValue bytes) = some sec') →
      Has y.symbols (leValue bytes) := by
  unfold readRelative at h
  cases hm : mderef b (Tree.floor x.sections off) with
  | error e => rw [hm] at h; cases h
  | ok sec =>
    simp only [bind, Except.bind, hm] at h
    cases hb : readBytes sec.data (off - sec.virt_addr) 8 with
    | error e => rw [hb] at h; cases h
    | ok bytes =>
      simp only [hb] at h
      split at h
      · rename_i sec' hf
        obtain ⟨t, e1, e2⟩ := stInsert_ok h
        subst e2
        refine ⟨⟨rfl, .one (plain_sizeless _ _) e1⟩, fun s2 b2 hs h1 h2 _ => ?_⟩
        rw [mderef_ok hm] at h1
        cases h1
        rw [hb] at h2
        cases h2
        exact insert_has hs e1
      · rename_i hf
        cases h
        refine ⟨.refl b x, fun s2 b2 hs h1 h2 h3 => ?_⟩
        rw [mderef_ok hm] at h1
        cases h1
        rw [hb] at h2
        cases h2
        obtain ⟨s3, h3⟩ := h3
        rw [hf] at h3
        cases h3

/-- Each element of the list takes its effect, which then stays. -/
theorem foldlM_has {b : Build} {α : Type} {f : AState → α → M AState} {l : List α} {x y : AState}
    (hstep : ∀ z a a', f a z = .ok a' → Widened b a a') (Q : α → Addr → Prop)
    (hQ : ∀ z a a' k, f a z = .ok a' → a.sections = x.sections → Sorted a.symbols → Q z k → Has a'.symbols k)
    (hs : Sorted x.symbols) (h : l.foldlM f x = .ok y) : Widened b x y ∧ ∀ z ∈ l, ∀ k, Q z k → Has y.symbols k := by
  suffices key : ∀ (l : List α) (w : AState), w.sections = x.sections → Sorted w.symbols → l.foldlM f w = .ok y →
      Widened b w y ∧ ∀ z ∈ l, ∀ k, Q z k → Has y.symbols k from key l x rfl hs h
  clear h l hs
  intro l
  induction l with
  | nil => intro w _ _ h; cases h; exact ⟨.refl b _, fun z hz => by cases hz⟩
  | cons z l ih =>
    intro w hw hs h
    rw [List.foldlM_cons] at h
    cases h1 : f w z with
    | error e => rw [h1] at h; cases h
    | ok a =>
      rw [h1] at h
      have g := hstep z w a h1
      have hsa : Sorted a.symbols := g.2.sorted hs
      have hseca : a.sections = x.sections := by rw [g.1]; exact hw
      obtain ⟨g2, k2⟩ := ih a hseca hsa h
      refine ⟨g.trans _ _ _ g2, fun z' hz' k hq => ?_⟩
      rcases List.mem_cons.mp hz' with rfl | hz'
      · exact g2.2.has hsa (hQ _ _ _ k h1 hw hs hq)
      · exact k2 z' hz' k hq

theorem readTargets_has {b : Build} {x y : AState} (hs : Sorted x.symbols) (h : readTargets b x = .ok y) :
    (∀ rel ∈ x.relocations, RelativeType rel.type → Has y.symbols rel.addend) ∧
    (∀ off ∈ x.relative_relocations, ∀ sec bytes, Tree.floor x.sections off = some sec →
      readBytes sec.data (off - sec.virt_addr) 8 = .ok bytes → (∃ sec', Tree.floor x.sections (leValue bytes) = some sec') →
      Has y.symbols (leValue bytes)) := by
  unfold readTargets at h
  cases h1 : x.relocations.foldlM (readRelocation b) x with
  | error e => rw [h1] at h; cases h
  | ok w =>
    rw [h1] at h
    replace h : w.relative_relocations.foldlM (readRelative b) w = .ok y := h
    obtain ⟨g1, k1⟩ := foldlM_has (fun _ _ _ h => (readRelocation_grown h).1)
      (fun rel k => RelativeType rel.type ∧ k = rel.addend)
      (fun z a a' k h _ hsa hq => by rw [hq.2]; exact (readRelocation_grown h).2 hsa hq.1) hs h1
    have hsw : Sorted w.symbols := g1.2.sorted hs
    obtain ⟨g2, k2⟩ := foldlM_has (fun _ _ _ h => (readRelative_grown h).1)
      (fun off k => ∃ sec bytes, Tree.floor w.sections off = some sec ∧
        readBytes sec.data (off - sec.virt_addr) 8 = .ok bytes ∧ (∃ sec', Tree.floor w.sections (leValue bytes) = some sec') ∧
        k = leValue bytes)
      (fun z a a' k h hsec hsa hq => by
        obtain ⟨sec, bytes, q1, q2, q3, rfl⟩ := hq
        exact (readRelative_grown h).2 sec bytes hsa (hsec ▸ q1) q2 (hsec ▸ q3)) hsw h
    have hsec : w.sections = x.sections := by rw [g1.1]
    have hrel : w.relative_relocations = x.relative_relocations := by rw [g1.1]
    refine ⟨fun rel hr ht => g2.2.has hsw (k1 rel hr _ ⟨ht, rfl⟩), fun off ho sec bytes q1 q2 q3 => ?_⟩
    exact k2 off (hrel ▸ ho) _ ⟨sec, bytes, hsec ▸ q1, q2, hsec ▸ q3, rfl⟩

/-- The state in front of and behind the insertion of the targets of relocations. -/
theorem gather_targets {env : Env} {fl : AnalyzeFlags} {elf : Elf} {dbgsym : Option Elf} {st : AState}
    (h : gather env fl elf dbgsym = .ok st) :
    ∃ x y t, Sorted x.symbols ∧ readTargets env.build x = .ok y ∧ filePart x = filePart st ∧ x.sections = st.sections ∧
      Sorted y.symbols ∧ Touch env.build Sizeless (Naming fl y.sections) y.symbols t ∧
      st.symbols = addFlags elf.entry y.section_flags t := by
  unfold gather at h
  cases h1 : readSegments env.build {} elf.segments with
  | error e => rw [h1] at h; cases h
  | ok s1 =>
    simp only [bind, Except.bind, h1] at h
    cases h2 : readSections env.build true s1 elf.sections with
    | error e => rw [h2] at h; cases h
    | ok s2 =>
      simp only [h2] at h
      cases h3 : readDebug env.build s2 dbgsym with
      | error e => rw [h3] at h; cases h
      | ok s3 =>
        simp only [h3] at h
        cases h4 : readTargets env.build s3 with
        | error e => rw [h4] at h; cases h
        | ok s4 =>
          simp only [h4] at h
          cases h5 : findFunctions env fl s4 with
          | error e => rw [h5] at h; cases h
          | ok s5 =>
            simp only [h5] at h
            cases h
            have hs2 : Sorted s2.symbols :=
              (readSections_read h2).touch.sorted ((readSegments_read h1).touch.sorted sorted_nil)
            have hs3 : Sorted s3.symbols := by
              cases dbgsym with
              | none => cases h3; exact hs2
              | some d => exact (readSections_read h3).touch.sorted hs2
            obtain ⟨e4, t4⟩ := readTargets_touch h4
            obtain ⟨e5, t5⟩ := findFunctions_touch h5
            refine ⟨s3, s4, s5.symbols, hs3, h4, ?_, ?_, t4.sorted hs3, t5, ?_⟩
            · show filePart s3 = filePart s5
              rw [e5, e4]; rfl
            · show s3.sections = s5.sections
              rw [e5, e4]
            · show addFlags elf.entry s5.section_flags s5.symbols = _
              rw [show s5.section_flags = s4.section_flags from by rw [e5]]

/-! ### Flags -/

/-- A property of symbols that holds for new ones and is kept by merging and renaming. -/
theorem Touch.keeps {b : Build} {A : InsertArgs → Prop} {N : Prop} {P : Symbol → Prop}
    (hnew : ∀ a, A a ∨ a.section_name.isSome = true → P (newSymbol a))
    (hmerge : ∀ a s, A a → P s → P (mergeSymbol a s)) (hname : ∀ n s, P s → P { s with name := n })
    {t t' : SymTree} (h : Touch b A N t t') (hs : Sorted t) (h0 : ∀ s ∈ t, P s) : ∀ s ∈ t', P s := by
  induction h with
  | refl => exact h0
  | @insert t1 t2 a h1 hA hi ih =>
    intro s hsm
    obtain ⟨e1, e2, e3⟩ := insertSymbol_spec (h1.sorted hs) hi
    have hfind := (find_eq_some_iff e1).mpr ⟨hsm, rfl⟩
    by_cases hk : s.address = a.address
    · rw [show Keyed.key s = a.address from hk, e2] at hfind
      rw [← Option.some.inj hfind]
      unfold stepAt
      split
      · exact hnew a (Or.inl hA)
      · rename_i pos hp
        have hpos := ih pos (find_mem hp).1
        split
        · exact hpos
        · split
          · exact hmerge a pos hA hpos
          · exact hpos
    · rw [show Keyed.key s = s.address from rfl, e3 _ hk] at hfind
      exact ih s (find_mem hfind).1
  | @rename t1 k n hN h1 ih =>
    intro s hsm
    obtain ⟨s0, h0, rfl⟩ := List.mem_map.mp hsm
    split
    · exact hname n s0 (ih s0 h0)
    · exact ih s0 h0
  | @emplace t1 a hN hn hb h1 ih =>
    intro s hsm
    rcases (mem_insert' (h1.sorted hs)).mp hsm with h2 | ⟨rfl, _⟩
    · exact ih s h2
    · exact hnew a (Or.inr hn)

/-- No flags; the section of a function is known. -/
structure Unflagged (s : Symbol) : Prop where
  flags : s.flags = 0
  func : s.type = .func → s.sec.name.isSome = true

/-- A section is given for functions. -/
def FuncNamed (a : InsertArgs) : Prop := beanType a.type = .func → a.section_name.isSome = true

theorem source_funcNamed {elf : Elf} {dbgsym : Option Elf} {tls : Option ElfSeg} {a : InsertArgs}
    (h : Source elf dbgsym tls a) : FuncNamed a := by
  have table : ∀ secs, FromTable secs tls a → FuncNamed a := by
    rintro secs ⟨tbl, _, _, _, sym, _, h5⟩
    obtain ⟨sec, _, h6 | h6 | h6⟩ := mem_symOps h5
    · obtain ⟨_, seg, _, rfl⟩ := h6
      exact fun _ => rfl
    · obtain ⟨_, rfl⟩ := h6
      exact fun _ => rfl
    · obtain ⟨_, _, rfl⟩ := h6
      exact fun h => by cases h
  rcases h with h | h | ⟨d, _, h⟩
  · exact h.2.2.2.1
  · exact table _ h
  · exact table _ h

theorem Touch.unflagged {b : Build} {A : InsertArgs → Prop} {N : Prop} (hA : ∀ a, A a → FuncNamed a) {t t' : SymTree}
    (h : Touch b A N t t') (hs : Sorted t) (h0 : ∀ s ∈ t, Unflagged s) : ∀ s ∈ t', Unflagged s := by
  refine h.keeps (P := Unflagged) ?_ ?_ (fun n s hp => ⟨hp.flags, hp.func⟩) hs h0
  · intro a ha
    refine ⟨rfl, fun ht => ?_⟩
    rcases ha with ha | ha
    · exact hA a ha ht
    · exact ha
  · intro a s ha hp
    refine ⟨hp.flags, fun ht => ?_⟩
    show (if (s.sec.name.isNone && a.section_name.isSome) = true then a.section_name else s.sec.name).isSome = true
    by_cases hn : a.section_name.isSome = true
    · split
      · exact hn
      · rename_i hc
        rw [hn, Bool.and_true] at hc
        cases hsn : s.sec.name with
        | none => rw [hsn] at hc; exact absurd rfl hc
        | some x => rfl
    · have hnf : s.type = .func := by
        replace ht : (if beanType a.type ≠ .unknown ∧ (s.type = .unknown ∨ s.type = .section ∨ s.type = .file ∨ s.type = .common)
          then beanType a.type else s.type) = .func := ht
        split at ht
        · exact absurd (hA a ha ht) hn
        · exact ht
      rw [if_neg (by simp [hn])]
      exact hp.func hnf

theorem regionFlags_same (fs : List SectionFlag) (s : Symbol) :
    (fs.foldl regionFlag s).flags = s.flags ∧ (fs.foldl regionFlag s).sec.name = s.sec.name ∧
    (fs.foldl regionFlag s).sec.executable = s.sec.executable ∧ (fs.foldl regionFlag s).address = s.address ∧
    (fs.foldl regionFlag s).type = s.type := by
  induction fs generalizing s with
  | nil => exact ⟨rfl, rfl, rfl, rfl, rfl⟩
  | cons f fs ih =>
    rw [List.foldl_cons]
    obtain ⟨h1, h2, h3, h4, h5⟩ := ih (regionFlag s f)
    rw [h1, h2, h3, h4, h5]
    unfold regionFlag
    split
    · exact ⟨rfl, rfl, rfl, rfl, rfl⟩
    · exact ⟨rfl, rfl, rfl, rfl, rfl⟩

theorem flagSymbol_same (fs : List SectionFlag) (s : Symbol) :
    (flagSymbol fs s).flags = (if LinkSection s.sec then s.flags ||| SYMBOL_TRAMPOLINE else s.flags) ∧
    (flagSymbol fs s).sec.name = s.sec.name ∧ (flagSymbol fs s).sec.executable = s.sec.executable ∧
    (flagSymbol fs s).address = s.address ∧ (flagSymbol fs s).type = s.type := by
  unfold flagSymbol
  simp only
  by_cases h1 : s.sec.name = some ".got"
  · rw [if_pos h1, if_pos (show LinkSection s.sec from Or.inl h1)]
    exact regionFlags_same fs _
  · rw [if_neg h1]
    by_cases h2 : (s.sec.executable && hasPrefix ".plt" s.sec.name) = true
    · rw [if_pos h2, if_pos (show LinkSection s.sec from Or.inr (by rw [Bool.and_eq_true] at h2; exact h2))]
      exact regionFlags_same fs _
    · rw [if_neg h2, if_neg (show ¬ LinkSection s.sec by
        rintro (h | ⟨h, h'⟩)
        · exact h1 h
        · exact h2 (by rw [h, h']; rfl))]
      exact regionFlags_same fs _

/-- Flags of a symbol before its code is considered. -/
def firstFlags (entry : Addr) (s : Symbol) : BitVec 16 :=
  (if s.address = entry then SYMBOL_ENTRY else 0#16) ||| (if LinkSection s.sec then SYMBOL_TRAMPOLINE else 0#16)

/-- The flags of the symbols before their code is considered. -/
theorem gathered_flags {env : Env} {fl : AnalyzeFlags} {elf : Elf} {dbgsym : Option Elf} {st1 st : AState} {t : SymTree}
    (h : Gathered env fl elf dbgsym st1 st t) : ∀ s ∈ st.symbols, s.flags = firstFlags elf.entry s ∧
      (s.type = .func → s.sec.name.isSome = true) := by
  obtain ⟨h1, _, _, _⟩ := gathered_facts h
  have u1 : ∀ s ∈ st1.symbols, Unflagged s :=
    h.read.unflagged (fun a ha => source_funcNamed ha) sorted_nil (fun _ h => by cases h)
  have u2 : ∀ s ∈ t, Unflagged s := h.touch.unflagged (fun a ha => ha.2.2.2.1) h1 u1
  intro s hs
  rw [h.result] at hs
  replace hs : s ∈ addFlags elf.entry st1.section_flags t := hs
  unfold addFlags at hs
  obtain ⟨x, hx, rfl⟩ := List.mem_map.mp hs
  obtain ⟨y, hy, rfl⟩ := List.mem_map.mp hx
  have u := u2 y hy
  have hf : ∀ z : Symbol, z.address = y.address → z.sec = y.sec → z.type = y.type →
      z.flags = (if y.address = elf.entry then SYMBOL_ENTRY else 0#16) →
      (flagSymbol st1.section_flags z).flags = firstFlags elf.entry (flagSymbol st1.section_flags z) ∧
        ((flagSymbol st1.section_flags z).type = .func → (flagSymbol st1.section_flags z).sec.name.isSome = true) := by
    intro z z1 z2 z3 z4
    obtain ⟨f1, f2, f3, f4, f5⟩ := flagSymbol_same st1.section_flags z
    have hl : LinkSection (flagSymbol st1.section_flags z).sec ↔ LinkSection z.sec := by
      unfold LinkSection
      rw [f2, f3]
    refine ⟨?_, fun ht => ?_⟩
    · rw [f1]
      unfold firstFlags
      rw [f4, z1, z4]
      by_cases hc : LinkSection z.sec
      · rw [if_pos hc, if_pos (hl.mpr hc)]
      · rw [if_neg hc, if_neg (fun h => hc (hl.mp h)), BitVec.or_zero]
    · rw [f2, z2]
      exact u.func (by rw [← z3, ← f5]; exact ht)
  by_cases hk : Keyed.key y = elf.entry
  · rw [if_pos hk]
    refine hf _ rfl rfl rfl ?_
    rw [if_pos (show y.address = elf.entry from hk)]
    show y.flags ||| SYMBOL_ENTRY = _
    rw [u.flags]
    decide
  · rw [if_neg hk]
    refine hf _ rfl rfl rfl ?_
    rw [if_neg (show ¬ y.address = elf.entry from hk)]
    exact u.flags

/-! The flags from the code. -/

theorem execLoop_flags {env : Env} {cx : SymCtx} (l : List Step) (e : ExecState) :
    (execLoop env cx l e).flags =
      if ∃ x ∈ relevant env l, env.kind x.insn.id = .endbr then e.flags ||| SYMBOL_USING_CET else e.flags := by
  induction l generalizing e with
  | nil => rw [if_neg (by rintro ⟨x, h, _⟩; cases h)]; rfl
  | cons x l ih =>
    have hx : ∀ (st : ExecState) (a : Addr), (execInsn env cx st x.insn a).flags =
        if env.kind x.insn.id = .endbr then st.flags ||| SYMBOL_USING_CET else st.flags := fun _ _ => rfl
    by_cases hn : env.kind x.insn.id = .nop
    · rw [execLoop_nop hn, ih, relevant, if_pos hn]
    · rw [relevant, if_neg hn]
      by_cases hf : FinalStep env x
      · rw [execLoop_final hf, hx, if_pos hf]
        simp only [List.mem_singleton, exists_eq_left]
      · rw [execLoop_next hn hf, ih, hx, if_neg hf]
        simp only [List.mem_cons, exists_eq_or_imp]
        by_cases h1 : env.kind x.insn.id = .endbr
        · simp only [h1, if_true, true_or]
          split
          · rw [BitVec.or_assoc, BitVec.or_self]
          · rfl
        · simp only [h1, if_false, false_or]

theorem hashOperand_jumps {cx : SymCtx} (hf : SymFits cx) (k : InsKind) (next : Addr) (o : OpState) (op : Operand) :
    (PlainOperand cx k op → (hashOperand cx (isBranch k) next o op).jumps = o.jumps) ∧
    (¬ PlainOperand cx k op → (hashOperand cx (isBranch k) next o op).jumps = TRAMPOLINE_INVALID) := by
  cases op with
  | reg r => exact ⟨fun _ => rfl, fun h => absurd trivial h⟩
  | other => exact ⟨fun _ => rfl, fun h => absurd trivial h⟩
  | imm v a =>
    simp only [hashOperand, hashImm]
    by_cases hb : isBranch k = true
    · rw [if_pos hb]
      have hb' := (isBranch_iff k).mp hb
      by_cases hi : cx.inside v = true
      · rw [if_pos hi]
        exact ⟨fun h => absurd ((inside_iff hf v).mp hi) h.2, fun _ => rfl⟩
      · rw [if_neg hi]
        exact ⟨fun _ => rfl, fun h => absurd ⟨hb', fun hc => hi ((inside_iff hf v).mpr hc)⟩ h⟩
    · rw [if_neg hb]
      exact ⟨fun h => absurd ((isBranch_iff k).mpr h.1) hb, fun _ => rfl⟩
  | mem segment base index scale disp a =>
    simp only [hashOperand]
    by_cases hb : base = X86_REG_RIP
    · rw [if_pos hb]
      have hr : ∀ o : OpState, (hashRip cx o (next + disp)).jumps = o.jumps := by
        intro o; unfold hashRip; split <;> rfl
      rw [hr]
      unfold hashFs
      by_cases hs : segment = X86_REG_FS
      · rw [if_pos hs]
        exact ⟨fun h => absurd hs h.1, fun _ => rfl⟩
      · rw [if_neg hs]
        exact ⟨fun _ => rfl, fun h => absurd ⟨hs, hb⟩ h⟩
    · rw [if_neg hb]
      exact ⟨fun h => absurd h.2 hb, fun _ => rfl⟩

theorem foldOperands_jumps {cx : SymCtx} (hf : SymFits cx) (k : InsKind) (next : Addr) (ops : List Operand) (o : OpState) :
    ((∀ op ∈ ops, PlainOperand cx k op) → (ops.foldl (hashOperand cx (isBranch k) next) o).jumps = o.jumps) ∧
    (¬ (∀ op ∈ ops, PlainOperand cx k op) → (ops.foldl (hashOperand cx (isBranch k) next) o).jumps = TRAMPOLINE_INVALID) := by
  induction ops generalizing o with
  | nil => exact ⟨fun _ => rfl, fun h => absurd (fun _ h => by cases h) h⟩
  | cons op ops ih =>
    rw [List.foldl_cons]
    obtain ⟨i1, i2⟩ := ih (hashOperand cx (isBranch k) next o op)
    obtain ⟨j1, j2⟩ := hashOperand_jumps hf k next o op
    rw [List.forall_mem_cons]
    by_cases h2 : ∀ op ∈ ops, PlainOperand cx k op
    · rw [i1 h2]
      exact ⟨fun h => j1 h.1, fun h => j2 (fun hc => h ⟨hc, h2⟩)⟩
    · exact ⟨fun h => absurd h.2 h2, fun _ => i2 h2⟩

theorem execInsn_jumps {env : Env} {cx : SymCtx} (hf : SymFits cx) (e : ExecState) (x : Step) (a : Addr) :
    (PlainStep env cx x → JumpKind (env.kind x.insn.id) → (execInsn env cx e x.insn a).jumps = e.jumps + 1) ∧
    (PlainStep env cx x → ¬ JumpKind (env.kind x.insn.id) → (execInsn env cx e x.insn a).jumps = e.jumps) ∧
    (¬ PlainStep env cx x → (execInsn env cx e x.insn a).jumps = TRAMPOLINE_INVALID) := by
  have h := foldOperands_jumps hf (env.kind x.insn.id) (x.insn.address + BitVec.ofNat 64 x.insn.size) x.insn.ops
    { buf := insnHead x.insn, refs := e.refs, jumps := nextJumps (env.kind x.insn.id) e.jumps, max_branch := e.max_branch }
  refine ⟨fun hp hj => ?_, fun hp hj => ?_, fun hp => ?_⟩
  · refine (h.1 hp.2).trans ?_
    rcases hj with hj | hj <;> rw [hj] <;> rfl
  · refine (h.1 hp.2).trans ?_
    rcases hp.1 with hk | hk
    · exact absurd hk hj
    · rw [hk]; rfl
  · by_cases ho : ∀ op ∈ x.insn.ops, PlainOperand cx (env.kind x.insn.id) op
    · refine (h.1 ho).trans ?_
      have hk : ¬ (JumpKind (env.kind x.insn.id) ∨ env.kind x.insn.id = .endbr) := fun hc => hp ⟨hc, ho⟩
      revert hk
      generalize env.kind x.insn.id = k
      cases k <;> simp [nextJumps, JumpKind]
    · exact h.2 ho

theorem execLoop_many {env : Env} {cx : SymCtx} (hf : SymFits cx) (l : List Step) (e : ExecState) (h : 2 ≤ e.jumps) :
    2 ≤ (execLoop env cx l e).jumps := by
  induction l generalizing e with
  | nil => exact h
  | cons x l ih =>
    have hx : 2 ≤ (execInsn env cx e x.insn x.address).jumps := by
      obtain ⟨j1, j2, j3⟩ := execInsn_jumps (env := env) hf e x x.address
      by_cases hp : PlainStep env cx x
      · by_cases hj : JumpKind (env.kind x.insn.id)
        · rw [j1 hp hj]; omega
        · rw [j2 hp hj]; exact h
      · rw [j3 hp]; decide
    by_cases hn : env.kind x.insn.id = .nop
    · rw [execLoop_nop hn]; exact ih e h
    · by_cases hfin : FinalStep env x
      · rw [execLoop_final hfin]; exact hx
      · rw [execLoop_next hn hfin]; exact ih _ hx

/-- The number of plain jumps. -/
def jumpCount (env : Env) (l : List Step) : Nat := (l.filter (fun s => decide (JumpKind (env.kind s.insn.id)))).length

theorem jumpCount_cons (env : Env) (x : Step) (l : List Step) :
    (JumpKind (env.kind x.insn.id) → jumpCount env (x :: l) = jumpCount env l + 1) ∧
    (¬ JumpKind (env.kind x.insn.id) → jumpCount env (x :: l) = jumpCount env l) := by
  unfold jumpCount
  rw [List.filter_cons]
  constructor
  · intro h; rw [if_pos (by simp [h])]; rfl
  · intro h; rw [if_neg (by simp [h])]

theorem execLoop_jumps {env : Env} {cx : SymCtx} (hf : SymFits cx) (l : List Step) (e : ExecState) :
    (execLoop env cx l e).jumps = 1 ↔
      (∀ s ∈ relevant env l, PlainStep env cx s) ∧ e.jumps + jumpCount env (relevant env l) = 1 := by
  induction l generalizing e with
  | nil => exact ⟨fun h => ⟨fun _ h => (by cases h), h⟩, fun h => h.2⟩
  | cons x l ih =>
    obtain ⟨j1, j2, j3⟩ := execInsn_jumps (env := env) hf e x x.address
    by_cases hn : env.kind x.insn.id = .nop
    · rw [execLoop_nop hn, relevant, if_pos hn]
      exact ih e
    · rw [relevant, if_neg hn]
      by_cases hfin : FinalStep env x
      · rw [execLoop_final hfin, if_pos hfin, List.forall_mem_singleton]
        obtain ⟨c1, c2⟩ := jumpCount_cons env x []
        have c0 : jumpCount env [] = 0 := rfl
        by_cases hp : PlainStep env cx x
        · by_cases hj : JumpKind (env.kind x.insn.id)
          · rw [j1 hp hj, c1 hj, c0]
            exact ⟨fun h => ⟨hp, h⟩, fun h => h.2⟩
          · rw [j2 hp hj, c2 hj, c0]
            exact ⟨fun h => ⟨hp, h⟩, fun h => h.2⟩
        · rw [j3 hp]
          exact ⟨fun h => absurd h (by decide), fun h => absurd h.1 hp⟩
      · rw [execLoop_next hn hfin, if_neg hfin, List.forall_mem_cons]
        obtain ⟨c1, c2⟩ := jumpCount_cons env x (relevant env l)
        by_cases hp : PlainStep env cx x
        · have := ih (execInsn env cx e x.insn x.address)
          by_cases hj : JumpKind (env.kind x.insn.id)
          · rw [j1 hp hj] at this
            rw [c1 hj]
            refine this.trans ⟨fun h => ⟨⟨hp, h.1⟩, by omega⟩, fun h => ⟨h.1.2, by omega⟩⟩
          · rw [j2 hp hj] at this
            rw [c2 hj]
            exact this.trans ⟨fun h => ⟨⟨hp, h.1⟩, h.2⟩, fun h => ⟨h.1.2, h.2⟩⟩
        · have h2 := execLoop_many hf l (execInsn env cx e x.insn x.address) (env := env) (by rw [j3 hp]; decide)
          exact ⟨fun h => by omega, fun h => absurd h.1.1 hp⟩

/-- Flags with those from the code: `n` is the number of jumps. -/
noncomputable def codeFlags (env : Env) (n : Nat) (steps : List Step) (flags : BitVec 16) : BitVec 16 :=
  (if ∃ x ∈ relevant env steps, env.kind x.insn.id = .endbr then flags ||| SYMBOL_USING_CET else flags) |||
    (if n = 1 then SYMBOL_TRAMPOLINE else 0#16)

/-- The flags of a symbol after its code has been considered. -/
theorem hashSymbol_flags {env : Env} {fl : AnalyzeFlags} {st : AState} {last : Addr} {s : Symbol} {h : Hashed}
    (hs : Sorted s.rels) (e : hashSymbol env fl st last s = .ok h) :
    ∃ sec, Tree.floor st.sections s.address = some sec ∧ h.sym.sec = (adoptSection sec s).sec ∧
      ((h.sym.sec.executable = false ∧ h.sym.flags = s.flags) ∨
       (h.sym.sec.executable = true ∧ ∃ bytes n,
          readBytes sec.data (TLS.virt_addr s.address - sec.virt_addr) h.sym.size = .ok bytes ∧
          h.sym.flags = codeFlags env n (disasm env (TLS.virt_addr s.address) bytes) s.flags ∧
          (SymFits (symCtx env st h.sym) →
            (n = 1 ↔ OnlyJumps env (symCtx env st h.sym) (disasm env (TLS.virt_addr s.address) bytes))))) := by
  obtain ⟨_, _, sec, s1, h1, h2, h3, _, h4⟩ := hashSymbol_same hs e
  have had := adoptSection_same sec s
  have ha1 : s1.address = s.address := by rw [h2]; exact had.1.address
  have hr1 : Sorted s1.rels := by
    rw [h2]
    show Sorted (adoptSection sec s).rels
    rw [had.2.2.2.1]; exact hs
  have hf1 : s1.flags = s.flags := by rw [h2]; exact had.2.2.1
  refine ⟨sec, h1, h3.trans (by rw [h2]), ?_⟩
  rcases h4 with ⟨hx, h4⟩ | ⟨hx, h4⟩
  · right
    refine ⟨by rw [h3]; exact hx, ?_⟩
    obtain ⟨s2, bytes, b1, b2, b3, _, _⟩ := hashExec_ok h4
    have hsame := hashExec_same hr1 h4
    have ha := addRelocations_added hr1 b1
    have hsz : s2.size = h.sym.size := ha.base.size.trans hsame.2.1.symm
    have haddr : s2.address = h.sym.address := ha.base.address.trans hsame.1.address.symm
    rw [ha1] at b2 b3
    rw [hsz] at b2
    obtain ⟨_, _, f2, _⟩ := fallThrough_same b3
    have hcx : symCtx env st s2 = symCtx env st h.sym := by unfold symCtx; rw [haddr, hsz]
    rw [hcx] at f2
    refine ⟨bytes, (execLoop env (symCtx env st h.sym) (disasm env (TLS.virt_addr s.address) bytes) (execStart s2)).jumps, b2,
      ?_, fun hfit => ?_⟩
    · rw [f2]
      have hfs : (execStart s2).flags = s.flags := ha.base.flags.trans hf1
      have hl := execLoop_flags (env := env) (cx := symCtx env st h.sym) (disasm env (TLS.virt_addr s.address) bytes) (execStart s2)
      rw [hfs] at hl
      unfold codeFlags
      rw [← hl]
      show (if (execLoop env (symCtx env st h.sym) (disasm env (TLS.virt_addr s.address) bytes) (execStart s2)).jumps = 1 then _
        else _) = _
      split
      · rfl
      · rw [BitVec.or_zero]
    · refine (execLoop_jumps hfit _ _).trans ?_
      have h0 : (execStart s2).jumps = 0 := rfl
      rw [h0, Nat.zero_add]
      exact Iff.rfl
  · left
    exact ⟨by rw [h3]; exact hx, (hashData_same hr1 h4).2.2.2.1.trans hf1⟩

end Bean

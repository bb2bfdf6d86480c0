import Verif.Spec.Image
import Verif.Lemmas.Run
/-
What the analysis takes from the file: segments, sections, relocations and the global offset table.
-/
namespace Bean
open Tree Spec

/-- What is known about the file besides symbols, sections and flags. -/
structure FilePart where
  segments : List ElfSeg := []
  tls : Option ElfSeg := none
  got : Addr := 0
  relocations : List ElfRel := []
  relative : List Addr := []

/-- This part of the state. -/
def filePart (st : AState) : FilePart :=
  ⟨st.segments, st.tls_segment, st.global_offset_table, st.relocations, st.relative_relocations⟩

/-- What an entry of the dynamic table does to the address of the global offset table. -/
def gotStep (a : Addr) (e : DynTag × Addr) : Addr := if e.1 = .pltgot then e.2 else a

/-- What a segment does. -/
def segPart (p : FilePart) (seg : ElfSeg) : FilePart :=
  match seg.type with
  | .tls => { p with tls := some seg }
  | .load => { p with segments := (Tree.insert p.segments seg).1 }
  | .dynamic => { p with got := seg.dynamic.foldl gotStep p.got }
  | _ => p

/-- What a section does. -/
def secPart (p : FilePart) (sec : ElfSec) : FilePart :=
  if sec.size = 0 then p
  else match sec.type with
  | .rel => { p with relocations := sec.relocations.foldl (fun t r => (Tree.insert t r).1) p.relocations }
  | .rela => { p with relocations := sec.relocations.foldl (fun t r => (Tree.insert t r).1) p.relocations }
  | .relr => { p with relative := sec.relative.foldl (fun t r => (Tree.insert t r).1) p.relative }
  | _ => p

theorem filePart_insert {b : Build} {st st' : AState} {a : InsertArgs} (h : st.insertSymbol b a = .ok st') :
    filePart st' = filePart st := by
  obtain ⟨t, _, rfl⟩ := stInsert_ok h
  rfl

theorem filePart_flag (st : AState) (f : BitVec 16) (a n : Addr) : filePart (st.addFlag f a n) = filePart st := rfl

theorem filePart_sized (st : AState) (f : BitVec 16) (a n : Addr) : filePart (st.addFlagSized f a n) = filePart st := by
  unfold AState.addFlagSized
  split
  · rfl
  · rfl

theorem filePart_got (l : List (DynTag × Addr)) (st : AState) :
    filePart (l.foldl (fun st e => if e.1 = .pltgot then { st with global_offset_table := e.2 } else st) st) =
      { filePart st with got := l.foldl gotStep (filePart st).got } := by
  induction l generalizing st with
  | nil => rfl
  | cons e l ih =>
    rw [List.foldl_cons, List.foldl_cons, ih]
    unfold gotStep
    split
    · rfl
    · rfl

theorem filePart_dynamic (st : AState) (seg : ElfSeg) :
    filePart (readDynamic st seg) = { filePart st with got := seg.dynamic.foldl gotStep (filePart st).got } := by
  unfold readDynamic
  simp only [filePart_sized]
  rw [filePart_got, filePart_flag]

theorem readSegment_part {b : Build} {st st' : AState} {seg : ElfSeg} (h : readSegment b st seg = .ok st') :
    filePart st' = segPart (filePart st) seg := by
  unfold readSegment at h
  unfold segPart
  cases ht : seg.type with
  | tls =>
    rw [ht] at h
    have := (massert_bind_ok h).2
    cases this
    rfl
  | load =>
    rw [ht] at h
    simp only at h ⊢
    split at h
    · cases h1 : AState.insertSymbol b { st with segments := (Tree.insert st.segments seg).1 }
        { address := seg.virt_addr + seg.size, section_address := seg.virt_addr, writeable := seg.writeable,
          executable := seg.executable } with
      | error e => rw [h1] at h; cases h
      | ok st1 =>
        rw [h1] at h
        cases h
        rw [filePart_flag, filePart_insert h1]
        rfl
    · cases h; rfl
  | dynamic => rw [ht] at h; cases h; exact filePart_dynamic ..
  | note => rw [ht] at h; cases h; rfl
  | gnuRelro =>
    rw [ht] at h
    rw [filePart_insert h, filePart_flag]
  | gnuEhFrame => rw [ht] at h; cases h; rfl
  | other => rw [ht] at h; cases h; rfl

theorem foldlM_part {α σ : Type} {f : AState → α → M AState} {g : σ → α → σ} {part : AState → σ} {l : List α} {st st' : AState}
    (hstep : ∀ x ∈ l, ∀ a a', f a x = .ok a' → part a' = g (part a) x) (h : l.foldlM f st = .ok st') :
    part st' = l.foldl g (part st) := by
  induction l generalizing st with
  | nil => cases h; rfl
  | cons x l ih =>
    rw [List.foldlM_cons] at h
    cases h1 : f st x with
    | error e => rw [h1] at h; cases h
    | ok a =>
      rw [h1] at h
      rw [ih (fun y hy => hstep y (List.mem_cons_of_mem _ hy)) h, hstep x List.mem_cons_self _ _ h1]
      rfl

theorem readSegments_part {b : Build} {st st' : AState} {segs : List ElfSeg} (h : readSegments b st segs = .ok st') :
    filePart st' = segs.foldl segPart (filePart st) :=
  foldlM_part (fun _ _ _ _ h => readSegment_part h) h

theorem foldl_const {α σ : Type} (l : List α) (p : σ) : l.foldl (fun p _ => p) p = p := by
  induction l with
  | nil => rfl
  | cons x l ih => exact ih

theorem readSymbol_part {b : Build} {secs : List ElfSec} {st st' : AState} {sym : ElfSym}
    (h : readSymbol b secs st sym = .ok st') : filePart st' = filePart st := by
  obtain ⟨t, _, rfl⟩ := readSymbol_ops h
  rfl

theorem addSection_part (st : AState) (sec : ElfSec) : filePart (addSection st sec) = filePart st := by
  unfold addSection
  simp only
  split
  · rfl
  · split
    · rfl
    · rfl

/-- The state after the registration of a section. -/
def registered (add : Bool) (st : AState) (sec : ElfSec) : AState :=
  let st := if sec.allocate && add then addSection st sec else st
  if sec.allocate && add then
    match secFlag sec.type with
    | some flag => st.addFlag flag sec.virt_addr sec.size
    | none => st
  else st

theorem registered_part (add : Bool) (st : AState) (sec : ElfSec) : filePart (registered add st sec) = filePart st := by
  unfold registered
  cases sec.allocate && add with
  | false => rfl
  | true =>
    simp only [if_true]
    cases secFlag sec.type with
    | none => exact addSection_part ..
    | some f => exact addSection_part ..

theorem readSection_part {b : Build} {secs : List ElfSec} {add : Bool} {st st' : AState} {sec : ElfSec}
    (h : readSection b secs add st sec = .ok st') : filePart st' = secPart (filePart st) sec := by
  unfold readSection at h
  unfold secPart
  by_cases hz : sec.size = 0
  · rw [if_pos hz] at h ⊢
    cases h; rfl
  · rw [if_neg hz] at h ⊢
    have e := registered_part add st sec
    have hsyms : ∀ {s s' : AState}, sec.symbols.foldlM (readSymbol b secs) s = .ok s' → filePart s' = filePart s := by
      intro s s' hf
      rw [foldlM_part (g := fun p _ => p) (part := filePart) (fun _ _ _ _ h => readSymbol_part h) hf, foldl_const]
    replace h : (match sec.type with
      | .rel => Except.ok { registered add st sec with relocations := sec.relocations.foldl (fun t r => (Tree.insert t r).1) (registered add st sec).relocations }
      | .rela => .ok { registered add st sec with relocations := sec.relocations.foldl (fun t r => (Tree.insert t r).1) (registered add st sec).relocations }
      | .relr => .ok { registered add st sec with
          relative_relocations := sec.relative.foldl (fun t r => (Tree.insert t r).1) (registered add st sec).relative_relocations }
      | .symtab => sec.symbols.foldlM (readSymbol b secs) (registered add st sec)
      | .dynsym => sec.symbols.foldlM (readSymbol b secs) (registered add st sec)
      | _ => .ok (registered add st sec) : M AState) = .ok st' := h
    generalize registered add st sec = x at h e
    rw [← e]
    cases ht : sec.type <;> simp only [ht] at h ⊢ <;> first | exact hsyms h | (cases h; rfl)

theorem readSections_part {b : Build} {add : Bool} {secs : List ElfSec} {st st' : AState}
    (h : readSections b add st secs = .ok st') : filePart st' = secs.foldl secPart (filePart st) :=
  foldlM_part (fun _ _ _ _ h => readSection_part h) h

/-! Closed forms. -/

theorem foldl_last {α β : Type} (p : α → Bool) (f : α → β) (l : List α) (b : β) :
    l.foldl (fun b x => if p x then f x else b) b = (((l.filter p).getLast?).map f).getD b := by
  induction l generalizing b with
  | nil => rfl
  | cons x l ih =>
    rw [List.foldl_cons, ih, List.filter_cons]
    cases hp : p x with
    | false => rfl
    | true =>
      simp only [if_true]
      cases hl : l.filter p with
      | nil => rfl
      | cons y l' =>
        rw [List.getLast?_cons_cons]
        cases hn : (y :: l').getLast? with
        | none => exact absurd (List.getLast?_eq_none_iff.mp hn) (by simp)
        | some z => rfl

theorem segParts_closed (segs : List ElfSeg) (p : FilePart) :
    segs.foldl segPart p = { p with
      segments := (segs.filter (fun s => decide (s.type = .load))).foldl (fun t x => (Tree.insert t x).1) p.segments,
      tls := (segs.filter (fun s => decide (s.type = .tls))).foldl (fun _ s => some s) p.tls,
      got := ((segs.filter (fun s => decide (s.type = .dynamic))).flatMap (·.dynamic)).foldl gotStep p.got } := by
  induction segs generalizing p with
  | nil => rfl
  | cons s segs ih =>
    rw [List.foldl_cons, ih]
    unfold segPart
    cases ht : s.type <;> simp [ht, List.foldl_append]

theorem secParts_closed (secs : List ElfSec) (p : FilePart) :
    secs.foldl secPart p = { p with
      relocations := (secs.flatMap (fun sec => if sec.size ≠ 0 ∧ (sec.type = .rel ∨ sec.type = .rela) then sec.relocations else [])).foldl
        (fun t x => (Tree.insert t x).1) p.relocations,
      relative := (secs.flatMap (fun sec => if sec.size ≠ 0 ∧ sec.type = .relr then sec.relative else [])).foldl
        (fun t x => (Tree.insert t x).1) p.relative } := by
  induction secs generalizing p with
  | nil => rfl
  | cons s secs ih =>
    rw [List.foldl_cons, ih]
    unfold secPart
    by_cases hz : s.size = 0
    · simp [hz]
    · rw [if_neg hz]
      have hz' : ¬ s.size = 0#64 := hz
      cases ht : s.type <;> simp [ht, hz', List.foldl_append]

theorem readDebug_part {b : Build} {st st' : AState} {dbgsym : Option Elf} (h : readDebug b st dbgsym = .ok st') :
    filePart st' = (dbgsym.toList.flatMap (·.sections)).foldl secPart (filePart st) := by
  cases dbgsym with
  | none => cases h; rfl
  | some d =>
    rw [readSections_part h]
    simp

/-- The part of the file the analysis knows. -/
theorem gather_part {env : Env} {fl : AnalyzeFlags} {elf : Elf} {dbgsym : Option Elf} {st : AState}
    (h : gather env fl elf dbgsym = .ok st) :
    filePart st = ⟨Tree.ofList (loadSegments elf), tlsSegment elf, gotAddress elf, Tree.ofList (allRelocations elf dbgsym),
      Tree.ofList (allRelative elf dbgsym)⟩ := by
  unfold gather at h
  cases h1 : readSegments env.build {} elf.segments with
  | error e => rw [h1] at h; cases h
  | ok s1 =>
    simp only [bind, Except.bind, h1] at h
    cases h2 : readSections env.build true s1 elf.sections with
    | error e => rw [h2] at h; cases h
    | ok s2 =>
      simp only [h2] at h
      cases h3 : readDebug env.build s2 dbgsym with
      | error e => rw [h3] at h; cases h
      | ok s3 =>
        simp only [h3] at h
        cases h4 : readTargets env.build s3 with
        | error e => rw [h4] at h; cases h
        | ok s4 =>
          simp only [h4] at h
          cases h5 : findFunctions env fl s4 with
          | error e => rw [h5] at h; cases h
          | ok s5 =>
            simp only [h5] at h
            cases h
            have e5 : filePart s5 = filePart s4 := by rw [(findFunctions_touch h5).1]; rfl
            have e4 : filePart s4 = filePart s3 := by rw [(readTargets_touch h4).1]; rfl
            show filePart s5 = _
            rw [e5, e4, readDebug_part h3, readSections_part h2, readSegments_part h1, segParts_closed, ← List.foldl_append,
              secParts_closed]
            unfold allRelocations allRelative partsOf gotAddress tlsSegment loadSegments Tree.ofList
            simp only [List.flatMap_append, List.flatMap_cons, List.flatMap_assoc]
            congr 1
            · show ((elf.segments.filter (fun s => decide (s.type = .tls))).foldl (fun _ s => some s) none) = _
              have e : ∀ (l : List ElfSeg) (o : Option ElfSeg), l.foldl (fun _ s => some s) o = (l.getLast?).or o := by
                intro l
                induction l with
                | nil => intro o; rfl
                | cons x l ih =>
                  intro o
                  rw [List.foldl_cons, ih]
                  cases l with
                  | nil => rfl
                  | cons y l =>
                    rw [List.getLast?_cons_cons]
                    cases hn : (y :: l).getLast? with
                    | none => exact absurd (List.getLast?_eq_none_iff.mp hn) (by simp)
                    | some z => rfl
              rw [e, Option.or_none]
            · have := foldl_last (fun e : DynTag × Addr => decide (e.1 = .pltgot)) (fun e => e.2)
                ((elf.segments.filter (fun s => decide (s.type = .dynamic))).flatMap (·.dynamic)) (0 : Addr)
              have hg : (fun (b : Addr) (x : DynTag × Addr) => if decide (x.1 = .pltgot) = true then x.2 else b) = gotStep := by
                funext b x
                simp [gotStep]
              rw [hg] at this
              refine this.trans ?_
              cases (((elf.segments.filter (fun seg => decide (seg.type = .dynamic))).flatMap (·.dynamic)).filter
                (fun e => decide (e.1 = .pltgot))).getLast? with
              | none => rfl
              | some x => rfl

/-- Inserting one after the other keeps the first with each key. -/
theorem mem_foldl_first {α : Type} [Keyed α] {l t : List α} (ht : Sorted t) {y : α} :
    y ∈ l.foldl (fun acc x => (Tree.insert acc x).1) t ↔
      y ∈ t ∨ ((∀ z ∈ t, key z ≠ key y) ∧ l.find? (fun z => key z == key y) = some y) := by
  induction l generalizing t with
  | nil => simp
  | cons x l ih =>
    rw [List.foldl_cons, ih (sorted_insert ht x), List.find?_cons]
    have hm : ∀ z, z ∈ (Tree.insert t x).1 ↔ z ∈ t ∨ (z = x ∧ ∀ w ∈ t, key w ≠ key x) := fun z => mem_insert' ht
    by_cases hk : key x = key y
    · simp only [hk, beq_self_eq_true]
      constructor
      · rintro (h | ⟨h, _⟩)
        · rcases (hm y).mp h with h | ⟨rfl, h⟩
          · exact Or.inl h
          · exact Or.inr ⟨h, rfl⟩
        · by_cases he : ∃ w ∈ t, key w = key x
          · obtain ⟨w, hw, e⟩ := he
            exact absurd (e.trans hk) (h w ((hm w).mpr (Or.inl hw)))
          · exact absurd hk (h x ((hm x).mpr (Or.inr ⟨rfl, fun w hw e => he ⟨w, hw, e⟩⟩)))
      · rintro (h | ⟨h, e⟩)
        · exact Or.inl ((hm y).mpr (Or.inl h))
        · cases e
          exact Or.inl ((hm _).mpr (Or.inr ⟨rfl, h⟩))
    · have hb : (key x == key y) = false := beq_false_of_ne hk
      simp only [hb]
      constructor
      · rintro (h | ⟨h, e⟩)
        · rcases (hm y).mp h with h | ⟨rfl, _⟩
          · exact Or.inl h
          · exact absurd rfl hk
        · exact Or.inr ⟨fun z hz => h z ((hm z).mpr (Or.inl hz)), e⟩
      · rintro (h | ⟨h, e⟩)
        · exact Or.inl ((hm y).mpr (Or.inl h))
        · refine Or.inr ⟨fun z hz => ?_, e⟩
          rcases (hm z).mp hz with hz | ⟨rfl, _⟩
          · exact h z hz
          · exact hk

theorem mem_ofList_first {α : Type} [Keyed α] {l : List α} {y : α} :
    y ∈ Tree.ofList l ↔ l.find? (fun z => key z == key y) = some y := by
  unfold Tree.ofList
  rw [mem_foldl_first sorted_nil]
  simp

end Bean

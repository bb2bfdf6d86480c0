import Verif.Spec.ElfTables
import Verif.Props.ElfMerge
/-
Positions of variables in a file (C97).
-/
namespace Bean.Props
open Bean Bean.Spec

/-! ### Another base address -/

def moveSeg (k : Int) (s : SegData) : SegData := { s with value := s.value + k }

theorem segData_move (k : Int) (p : VarHeader) : segData (moveHeader k p) = moveSeg k (segData p) := rfl

/-- The same file at another base address. -/
structure MovedTo (k : Int) (l l' : Loaded) : Prop where
  segments : l'.segments = l.segments.map (moveSeg k)
  categories : l'.categories = l.categories
  sec2seg : ∀ s, l'.sec2seg s = (l.sec2seg s).map (moveSeg k)
  relro : l'.relro = l.relro.map (moveSeg k)

theorem loadHeader_move {k : Int} {l l' : Loaded} (h : MovedTo k l l') (p : VarHeader) :
    MovedTo k (loadHeader l p) (loadHeader l' (moveHeader k p)) := by
  have hk : (moveHeader k p).kind = p.kind := rfl
  have hc : headerCategory (moveHeader k p) = headerCategory p := rfl
  have hs : (moveHeader k p).sections = p.sections := rfl
  unfold loadHeader
  rw [hk, hc, hs]
  by_cases h1 : p.kind = .other
  · rw [if_pos h1, if_pos h1]; exact h
  · rw [if_neg h1, if_neg h1]
    by_cases h2 : p.kind = .relro
    · rw [if_pos h2, if_pos h2]
      exact ⟨h.segments, congrArg (fun c => setAdd c _) h.categories, h.sec2seg, rfl⟩
    · rw [if_neg h2, if_neg h2]
      refine ⟨?_, congrArg (fun c => setAdd c _) h.categories, fun s => ?_, h.relro⟩
      · dsimp only
        rw [h.segments, List.map_append]
        rfl
      · dsimp only
        by_cases h3 : s ∈ p.sections
        · rw [if_pos h3, if_pos h3]; rfl
        · rw [if_neg h3, if_neg h3]; exact h.sec2seg s

theorem loadHeaders_move (k : Int) (ps : List VarHeader) : MovedTo k (loadHeaders ps) (loadHeaders (ps.map (moveHeader k))) := by
  unfold loadHeaders
  have h0 : MovedTo k {} {} := ⟨rfl, rfl, fun _ => rfl, rfl⟩
  generalize ({} : Loaded) = l at h0 ⊢
  have : ∀ l' : Loaded, MovedTo k l l' → MovedTo k (ps.foldl loadHeader l) ((ps.map (moveHeader k)).foldl loadHeader l') := by
    clear h0
    induction ps generalizing l with
    | nil => exact fun _ h => h
    | cons p ps ih => exact fun l' h => ih _ _ (loadHeader_move h p)
  exact this l h0

theorem chosen_move {k : Int} {l l' : Loaded} (h : MovedTo k l l') (seg : SegData) (a n : Int) :
    chosen l' (moveSeg k seg) (a + k) n = moveSeg k (chosen l seg a n) := by
  unfold chosen inRelro
  rw [h.relro]
  cases l.relro with
  | none => rfl
  | some r =>
    dsimp only [Option.map_some]
    have e : ('W' ∈ (moveSeg k seg).category ∧ a + k ≥ (moveSeg k r).value ∧ a + k + n < (moveSeg k r).value + (moveSeg k r).size) ↔
        ('W' ∈ seg.category ∧ a ≥ r.value ∧ a + n < r.value + r.size) := by
      unfold moveSeg
      dsimp only
      refine and_congr Iff.rfl (and_congr ?_ ?_) <;> omega
    by_cases hc : 'W' ∈ seg.category ∧ a ≥ r.value ∧ a + n < r.value + r.size
    · rw [if_pos hc, if_pos (e.mpr hc)]
    · rw [if_neg hc, if_neg (fun h => hc (e.mp h))]

theorem pageStart_move (m v : Int) : pageStart (v + 4096 * m) = pageStart v + 4096 * m := by
  unfold pageStart
  omega

theorem moveSeg_category (k : Int) (s : SegData) : (moveSeg k s).category = s.category := rfl
theorem moveSeg_value (k : Int) (s : SegData) : (moveSeg k s).value = s.value + k := rfl

theorem isVariable_move (k : Int) (s : TableSym) : isVariable (moveSym k s) ↔ isVariable s := by
  unfold isVariable moveSym
  split <;> exact Iff.rfl

theorem symbolSegment_move {k : Int} {l l' : Loaded} (h : MovedTo k l l') (s : SymSection) :
    symbolSegment l' s = (symbolSegment l s).map (moveSeg k) := by
  cases s with
  | undef => rfl
  | special => rfl
  | index i =>
    unfold symbolSegment
    dsimp only
    rw [h.sec2seg]
    cases l.sec2seg i <;> rfl

theorem symbolVar_move {m : Int} {l l' : Loaded} (h : MovedTo (4096 * m) l l') (s : TableSym) :
    symbolVar l' (moveSym (4096 * m) s) = symbolVar l s := by
  unfold symbolVar
  have hs : (moveSym (4096 * m) s).shndx = s.shndx := by unfold moveSym; split <;> rfl
  have ht : (moveSym (4096 * m) s).type = s.type := by unfold moveSym; split <;> rfl
  rw [hs, ht, symbolSegment_move h]
  cases symbolSegment l s.shndx with
  | error e => rfl
  | ok seg =>
    dsimp only [Except.map]
    by_cases hc : s.type = .tls
    · rw [if_pos hc, if_pos hc]
      have : moveSym (4096 * m) s = s := if_pos hc
      rw [this]
    · rw [if_neg hc, if_neg hc]
      have : moveSym (4096 * m) s = { s with value := s.value + 4096 * m } := if_neg hc
      rw [this]
      dsimp only
      rw [chosen_move h, moveSeg_category, moveSeg_value, pageStart_move,
        show s.value + 4096 * m - (pageStart (chosen l seg s.value s.size).value + 4096 * m) =
          s.value - pageStart (chosen l seg s.value s.size).value by omega,
        show (s.value + 4096 * m) % 4096 = s.value % 4096 by omega]

theorem symbolVars_move {m : Int} {l l' : Loaded} (h : MovedTo (4096 * m) l l') (ss : List TableSym) :
    symbolVars l' (ss.map (moveSym (4096 * m))) = symbolVars l ss := by
  induction ss with
  | nil => rfl
  | cons s ss ih =>
    rw [List.map_cons, symbolVars, symbolVars]
    by_cases hc : isVariable s
    · rw [if_pos hc, if_pos ((isVariable_move _ s).mpr hc), symbolVar_move h, ih]
    · rw [if_neg hc, if_neg (fun h => hc ((isVariable_move _ s).mp h)), ih]

theorem find_move (k : Int) (l : List SegData) (d : DwVar) :
    (l.map (moveSeg k)).find? (fun seg => decide ((moveVar k d).value ≥ seg.value ∧ (moveVar k d).value + (moveVar k d).size ≤ seg.value + seg.size)) =
      (l.find? (fun seg => decide (d.value ≥ seg.value ∧ d.value + d.size ≤ seg.value + seg.size))).map (moveSeg k) := by
  rw [List.find?_map]
  congr 2
  funext seg
  unfold moveVar moveSeg
  dsimp only [Function.comp_apply]
  refine decide_eq_decide.mpr (and_congr ?_ ?_) <;> omega

theorem debugVar_move {m : Int} {l l' : Loaded} (h : MovedTo (4096 * m) l l') (d : DwVar) :
    (debugVar l' (moveVar (4096 * m) d)).toOption = (debugVar l d).toOption := by
  unfold debugVar
  rw [h.segments, find_move]
  cases l.segments.find? (fun seg => decide (d.value ≥ seg.value ∧ d.value + d.size ≤ seg.value + seg.size)) with
  | none => rfl
  | some seg =>
    dsimp only [Option.map_some]
    have : (moveVar (4096 * m) d).value = d.value + 4096 * m := rfl
    have hz : (moveVar (4096 * m) d).size = d.size := rfl
    rw [this, hz, chosen_move h, moveSeg_category, moveSeg_value, pageStart_move,
      show d.value + 4096 * m - (pageStart (chosen l seg d.value d.size).value + 4096 * m) =
        d.value - pageStart (chosen l seg d.value d.size).value by omega,
      show (d.value + 4096 * m) % 4096 = d.value % 4096 by omega]
    rfl

theorem toOption_map {ε α β : Type} (f : α → β) (x : Except ε α) : (x.map f).toOption = x.toOption.map f := by
  cases x <;> rfl

theorem fixedVars_move {m : Int} {l l' : Loaded} (h : MovedTo (4096 * m) l l') (ds : List DwVar) :
    (fixedVars l' (ds.map (moveVar (4096 * m)))).toOption = (fixedVars l ds).toOption := by
  induction ds with
  | nil => rfl
  | cons d ds ih =>
    rw [List.map_cons, fixedVars, fixedVars]
    have hd := debugVar_move h d
    cases h1 : debugVar l d with
    | error e =>
      rw [h1] at hd
      cases h2 : debugVar l' (moveVar (4096 * m) d) with
      | error e' => rfl
      | ok v => rw [h2] at hd; cases hd
    | ok v =>
      rw [h1] at hd
      cases h2 : debugVar l' (moveVar (4096 * m) d) with
      | error e' => rw [h2] at hd; cases hd
      | ok v' =>
        rw [h2] at hd
        cases hd
        dsimp only
        rw [toOption_map, toOption_map, ih]

theorem fileVars_move (m : Int) (ps : List VarHeader) (ss : List TableSym) (debug : Option DebugLists) :
    (fileVars (ps.map (moveHeader (4096 * m))) (ss.map (moveSym (4096 * m))) (moveDebug (4096 * m) debug)).toOption =
      (fileVars ps ss debug).toOption := by
  have h := loadHeaders_move (4096 * m) ps
  cases debug with
  | none =>
    unfold moveDebug fileVars
    dsimp only [Option.map_none]
    rw [symbolVars_move h]
  | some x =>
    obtain ⟨fixed, tl⟩ := x
    unfold moveDebug fileVars
    dsimp only [Option.map_some]
    rw [symbolVars_move h]
    cases symbolVars (loadHeaders ps) ss with
    | error e => rfl
    | ok s =>
      dsimp only
      have hf := fixedVars_move h fixed
      unfold debugVars
      cases h1 : fixedVars (loadHeaders ps) fixed with
      | error e =>
        rw [h1] at hf
        cases h2 : fixedVars (loadHeaders (ps.map (moveHeader (4096 * m)))) (fixed.map (moveVar (4096 * m))) with
        | error e' => rfl
        | ok v => rw [h2] at hf; cases hf
      | ok v =>
        rw [h1] at hf
        cases h2 : fixedVars (loadHeaders (ps.map (moveHeader (4096 * m)))) (fixed.map (moveVar (4096 * m))) with
        | error e' => rw [h2] at hf; cases hf
        | ok v' => rw [h2] at hf; cases hf; rfl

/-- C97: the base address of a file makes no difference for the hashed texts, neither for the use of names and debug information nor with the
restriction to writable memory. A summary fails for both or for none. -/
theorem C97_base (m : Int) (names writableOnly : Bool) (ps : List VarHeader) (ss : List TableSym) (debug : Option DebugLists) :
    (fileTexts names writableOnly (ps.map (moveHeader (4096 * m))) (ss.map (moveSym (4096 * m))) (moveDebug (4096 * m) debug)).toOption =
      (fileTexts names writableOnly ps ss debug).toOption := by
  unfold fileTexts
  rw [toOption_map, toOption_map, fileVars_move, (loadHeaders_move (4096 * m) ps).categories]

/-! ### Position in the file -/

theorem foldl_segments (ps : List VarHeader) (l : Loaded) :
    (ps.foldl loadHeader l).segments = l.segments ++ (ps.filter (fun p => decide (p.kind = .load ∨ p.kind = .tls))).map segData := by
  induction ps generalizing l with
  | nil => exact (List.append_nil _).symm
  | cons p ps ih =>
    rw [List.foldl_cons, ih, List.filter_cons]
    unfold loadHeader
    cases hk : p.kind <;> simp

theorem loaded_segments (ps : List VarHeader) :
    (loadHeaders ps).segments = (ps.filter (fun p => decide (p.kind = .load ∨ p.kind = .tls))).map segData := by
  unfold loadHeaders
  rw [foldl_segments]
  rfl

theorem foldl_relro (ps : List VarHeader) (l : Loaded) (x : SegData) (h : (ps.foldl loadHeader l).relro = some x) :
    l.relro = some x ∨ ∃ r ∈ ps, r.kind = .relro ∧ x = segData r := by
  induction ps generalizing l with
  | nil => exact Or.inl h
  | cons p ps ih =>
    rcases ih _ h with h1 | ⟨r, h1, h2⟩
    · unfold loadHeader at h1
      cases hk : p.kind with
      | other => rw [hk, if_pos rfl] at h1; exact Or.inl h1
      | relro =>
        rw [hk, if_neg (by decide), if_pos rfl] at h1
        exact Or.inr ⟨p, List.mem_cons_self, hk, (Option.some.inj h1).symm⟩
      | load => rw [hk, if_neg (by decide), if_neg (by decide)] at h1; exact Or.inl h1
      | tls => rw [hk, if_neg (by decide), if_neg (by decide)] at h1; exact Or.inl h1
    · exact Or.inr ⟨r, List.mem_cons_of_mem _ h1, h2⟩

theorem foldl_relro_some (ps : List VarHeader) (l : Loaded) (h : l.relro ≠ none ∨ ∃ r ∈ ps, r.kind = .relro) :
    (ps.foldl loadHeader l).relro ≠ none := by
  induction ps generalizing l with
  | nil =>
    rcases h with h | ⟨_, h, _⟩
    · exact h
    · cases h
  | cons p ps ih =>
    rw [List.foldl_cons]
    apply ih
    by_cases hk : p.kind = .relro
    · left
      unfold loadHeader
      rw [hk, if_neg (by decide), if_pos rfl]
      exact fun e => by cases e
    · rcases h with h | ⟨r, h1, h2⟩
      · left
        unfold loadHeader
        rw [if_neg hk]
        split <;> exact h
      · cases h1 with
        | head => exact absurd h2 hk
        | tail _ h1 => exact Or.inr ⟨r, h1, h2⟩

/-- Headers of protected memory: one at most. -/
theorem relro_unique {ps : List VarHeader} (h : ps.Pairwise (fun p q => p.kind = .relro → q.kind ≠ .relro)) {r r' : VarHeader} (h1 : r ∈ ps)
    (h2 : r' ∈ ps) (k1 : r.kind = .relro) (k2 : r'.kind = .relro) : r = r' := by
  induction h with
  | nil => cases h1
  | cons hp _ ih =>
    cases h1 with
    | head =>
      cases h2 with
      | head => rfl
      | tail _ h2 => exact absurd k2 (hp _ h2 k1)
    | tail _ h1 =>
      cases h2 with
      | head => exact absurd k1 (hp _ h1 k2)
      | tail _ h2 => exact ih h1 h2

theorem loaded_relro {ps : List VarHeader} (h : ps.Pairwise (fun p q => p.kind = .relro → q.kind ≠ .relro)) {r : VarHeader} (h1 : r ∈ ps)
    (k1 : r.kind = .relro) : (loadHeaders ps).relro = some (segData r) := by
  cases hr : (loadHeaders ps).relro with
  | none => exact absurd hr (foldl_relro_some ps {} (Or.inr ⟨r, h1, k1⟩))
  | some x =>
    rcases foldl_relro ps {} x hr with h2 | ⟨r', h2, h3, h4⟩
    · cases h2
    · rw [h4, relro_unique h h1 h2 k1 h3]

theorem foldl_sec2seg (ps : List VarHeader) (l : Loaded) (i : Nat) :
    ((ps.foldl loadHeader l).sec2seg i = l.sec2seg i ∧ ∀ p ∈ ps, (p.kind = .load ∨ p.kind = .tls) → i ∉ p.sections) ∨
      ∃ p ∈ ps, (p.kind = .load ∨ p.kind = .tls) ∧ i ∈ p.sections ∧ (ps.foldl loadHeader l).sec2seg i = some (segData p) := by
  induction ps generalizing l with
  | nil => exact Or.inl ⟨rfl, fun p h => by cases h⟩
  | cons p ps ih =>
    rw [List.foldl_cons]
    rcases ih (loadHeader l p) with ⟨h1, h2⟩ | ⟨q, h1, h2, h3, h4⟩
    · rw [h1]
      by_cases hm : (p.kind = .load ∨ p.kind = .tls) ∧ i ∈ p.sections
      · refine Or.inr ⟨p, List.mem_cons_self, hm.1, hm.2, ?_⟩
        unfold loadHeader
        rw [if_neg (by rcases hm.1 with h | h <;> rw [h] <;> decide), if_neg (by rcases hm.1 with h | h <;> rw [h] <;> decide)]
        exact if_pos hm.2
      · refine Or.inl ⟨?_, fun q hq => ?_⟩
        · unfold loadHeader
          by_cases k1 : p.kind = .other
          · rw [if_pos k1]
          · rw [if_neg k1]
            by_cases k2 : p.kind = .relro
            · rw [if_pos k2]
            · rw [if_neg k2]
              refine if_neg (fun hi => hm ⟨?_, hi⟩)
              cases hk : p.kind with
              | load => exact Or.inl rfl
              | tls => exact Or.inr rfl
              | relro => exact absurd hk k2
              | other => exact absurd hk k1
        · cases hq with
          | head => exact fun hk hi => hm ⟨hk, hi⟩
          | tail _ hq => exact h2 q hq
    · exact Or.inr ⟨q, List.mem_cons_of_mem _ h1, h2, h3, h4⟩

/-- Among arranged headers a variable lies in one loaded segment only. -/
theorem within_unique {ps : List VarHeader} (h : Arranged ps) {p q : VarHeader} {a n : Int} (hn : n > 0) (hp : p ∈ ps) (hq : q ∈ ps)
    (k1 : p.kind = .load) (k2 : q.kind = .load) (w1 : InMemory p a n) (w2 : InMemory q a n) : p = q := by
  replace h := h.1
  unfold InMemory at w1 w2
  induction h with
  | nil => cases hp
  | cons hx _ ih =>
    cases hp with
    | head =>
      cases hq with
      | head => rfl
      | tail _ hq => have := (hx _ hq).1 k1 k2; omega
    | tail _ hp =>
      cases hq with
      | head => have := (hx _ hp).1 k2 k1; omega
      | tail _ hq => exact ih hp hq

theorem mem_category (p : VarHeader) (h : p.kind = .load) : 'W' ∈ (segData p).category ↔ p.w = true := by
  show 'W' ∈ headerCategory p ↔ _
  unfold headerCategory
  rw [h, if_neg (by decide)]
  cases p.r <;> cases p.w <;> cases p.x <;> decide

/-- The choice of the memory for a variable in a loaded segment. -/
theorem chosen_part {ps : List VarHeader} (h : Arranged ps) {p : VarHeader} (hp : p ∈ ps) (hk : p.kind = .load) {a n : Int}
    (hw : InMemory p a n) (he : NotAtEnd ps a n) :
    ∃ m, PartOf ps a n m ∧ chosen (loadHeaders ps) (segData p) a n = segData m := by
  unfold chosen inRelro
  by_cases hr : p.w = true ∧ ∃ r ∈ ps, r.kind = .relro ∧ InMemory r a n
  · obtain ⟨h1, r, h2, h3, h4⟩ := hr
    rw [loaded_relro h.2 h2 h3]
    dsimp only
    rw [if_pos]
    · exact ⟨r, ⟨p, hp, hk, hw, Or.inl ⟨h1, h2, h3, h4⟩⟩, rfl⟩
    · have := he r h2 h3
      unfold InMemory at h4
      refine ⟨(mem_category p hk).mpr h1, h4.1, ?_⟩
      show a + n < r.vaddr + r.memsz
      omega
  · refine ⟨p, ⟨p, hp, hk, hw, Or.inr ⟨rfl, hr⟩⟩, ?_⟩
    cases hx : (loadHeaders ps).relro with
    | none => rfl
    | some x =>
      dsimp only
      rcases foldl_relro ps {} x hx with h2 | ⟨r, h2, h3, h4⟩
      · cases h2
      · rw [if_neg]
        rintro ⟨h5, h6, h7⟩
        rw [h4] at h6 h7
        have h6 : a ≥ r.vaddr := h6
        have h7 : a + n < r.vaddr + r.memsz := h7
        refine hr ⟨(mem_category p hk).mp h5, r, h2, h3, ?_⟩
        unfold InMemory
        omega

theorem partOf_kind {ps : List VarHeader} {a n : Int} {m : VarHeader} (h : PartOf ps a n m) : m.kind ≠ .tls := by
  obtain ⟨p, _, hk, _, ⟨_, _, h1, _⟩ | ⟨h1, _⟩⟩ := h
  · rw [h1]; decide
  · rw [h1, hk]; decide

theorem category_permissions {m : VarHeader} (h : m.kind ≠ .tls) : (segData m).category = permissions m := by
  show headerCategory m = _
  unfold headerCategory
  rw [if_neg h]
  rfl

/-- Exactly one memory a variable is part of. -/
theorem partOf_unique {ps : List VarHeader} (h : Arranged ps) {a n : Int} (hn : n > 0) {m m' : VarHeader} (h1 : PartOf ps a n m)
    (h2 : PartOf ps a n m') : m = m' := by
  obtain ⟨p, p1, p2, p3, p4⟩ := h1
  obtain ⟨q, q1, q2, q3, q4⟩ := h2
  have := within_unique h hn p1 q1 p2 q2 p3 q3
  subst this
  rcases p4 with ⟨a1, a2, a3, a4⟩ | ⟨a1, a2⟩ <;> rcases q4 with ⟨b1, b2, b3, b4⟩ | ⟨b1, b2⟩
  · exact relro_unique h.2 a2 b2 a3 b3
  · exact absurd ⟨a1, m, a2, a3, a4⟩ b2
  · exact absurd ⟨b1, m', b2, b3, b4⟩ a2
  · rw [a1, b1]

theorem symbol_segment {ps : List VarHeader} {s : TableSym} (h : Sits ps s) :
    ∃ p ∈ ps, p.kind = .load ∧ InMemory p s.value s.size ∧ symbolSegment (loadHeaders ps) s.shndx = .ok (segData p) := by
  obtain ⟨i, h1, ⟨p, h2, h3, h4⟩, h5⟩ := h
  rcases foldl_sec2seg ps {} i with ⟨_, h6⟩ | ⟨q, h6, h7, h8, h9⟩
  · exact absurd h4 (h6 p h2 h3)
  · obtain ⟨h10, h11⟩ := h5 q h6 h7 h8
    refine ⟨q, h6, h10, h11, ?_⟩
    rw [h1]
    unfold symbolSegment loadHeaders
    dsimp only
    rw [h9]

/-- The segment found for a variable of the debug information. -/
theorem debug_segment {ps : List VarHeader} (h : Arranged ps) {p : VarHeader} (hp : p ∈ ps) (hk : p.kind = .load) {a n : Int} (hn : n > 0)
    (hw : InMemory p a n) :
    (loadHeaders ps).segments.find? (fun seg => decide (a ≥ seg.value ∧ a + n ≤ seg.value + seg.size)) = some (segData p) := by
  rw [loaded_segments]
  have hu := fun q hq k2 w2 => within_unique h (p := p) (q := q) hn hp hq hk k2 hw w2
  have h1 := h.1
  clear h
  induction h1 with
  | nil => cases hp
  | @cons x xs hx _ ih =>
    rw [List.filter_cons]
    by_cases hm : x.kind = .load ∨ x.kind = .tls
    · rw [if_pos (decide_eq_true hm), List.map_cons, List.find?_cons]
      by_cases hc : x.vaddr ≤ a ∧ a + n ≤ x.vaddr + x.memsz
      · rw [show decide (a ≥ (segData x).value ∧ a + n ≤ (segData x).value + (segData x).size) = true from decide_eq_true hc]
        dsimp only
        rcases hm with hm | hm
        · rw [hu x List.mem_cons_self hm hc]
        · cases hp with
          | head => exact absurd (hk.symm.trans hm) (by decide)
          | tail _ hp => exact absurd hk ((hx p hp).2 hm)
      · rw [show decide (a ≥ (segData x).value ∧ a + n ≤ (segData x).value + (segData x).size) = false from decide_eq_false hc]
        dsimp only
        cases hp with
        | head => exact absurd hw hc
        | tail _ hp => exact ih hp (fun q hq => hu q (List.mem_cons_of_mem _ hq))
    · rw [if_neg (by simpa using hm)]
      cases hp with
      | head => exact absurd (Or.inl hk) hm
      | tail _ hp => exact ih hp (fun q hq => hu q (List.mem_cons_of_mem _ hq))

theorem positioned {m : VarHeader} (hm : m.kind ≠ .tls) {a n : Int} {v : Var} (h1 : v.category = (segData m).category)
    (h2 : v.value = a - pageStart (segData m).value) (h3 : v.align = a % 4096) (h4 : v.size = n) : PositionedIn m a n v := by
  refine ⟨by rw [h1, category_permissions hm], ?_, h3, h4⟩
  rw [h2]
  show a - pageStart m.vaddr + 4096 * (m.vaddr / 4096) = a
  unfold pageStart
  omega

/-- C97: a variable of the symbol table is listed with the permissions and the offset in the memory it is part of. Missing: variables that
end exactly where the protected memory ends are said to be writable (see `C97_counterexample`). -/
theorem C97_symbol_partial (ps : List VarHeader) (s : TableSym) (h : Arranged ps) (ht : s.type ≠ .tls) (hs : Sits ps s)
    (he : NotAtEnd ps s.value s.size) :
    ∃ v m, symbolVar (loadHeaders ps) s = .ok v ∧ v.name = s.name ∧ PartOf ps s.value s.size m ∧ PositionedIn m s.value s.size v := by
  obtain ⟨p, h1, h2, h3, h4⟩ := symbol_segment hs
  obtain ⟨m, h5, h6⟩ := chosen_part h h1 h2 h3 he
  unfold symbolVar
  rw [h4]
  dsimp only
  rw [if_neg ht, h6]
  exact ⟨_, m, rfl, rfl, h5, positioned (partOf_kind h5) rfl rfl rfl rfl⟩

/-- C97: likewise for a variable of the debug information. -/
theorem C97_debug_partial (ps : List VarHeader) (d : DwVar) (h : Arranged ps) (hn : d.size > 0)
    (hp : ∃ p ∈ ps, p.kind = .load ∧ InMemory p d.value d.size) (he : NotAtEnd ps d.value d.size) :
    ∃ v m, debugVar (loadHeaders ps) d = .ok v ∧ v.name = d.name ∧ v.hash = some d.hash ∧ PartOf ps d.value d.size m ∧
      PositionedIn m d.value d.size v := by
  obtain ⟨p, h1, h2, h3⟩ := hp
  obtain ⟨m, h5, h6⟩ := chosen_part h h1 h2 h3 he
  unfold debugVar
  rw [debug_segment h h1 h2 hn h3]
  dsimp only
  rw [h6]
  exact ⟨_, m, rfl, rfl, rfl, h5, positioned (partOf_kind h5) rfl rfl rfl rfl⟩

theorem variable_iff (s : TableSym) : isVariable s ↔ VariableEntry s := by
  constructor
  · rintro ⟨h1, h2, h3⟩
    refine ⟨h1, ?_, h3⟩
    simp only [List.mem_cons, List.not_mem_nil, or_false]
    exact h2
  · rintro ⟨h1, h2, h3⟩
    refine ⟨h1, ?_, h3⟩
    simp only [List.mem_cons, List.not_mem_nil, or_false] at h2
    exact h2

/-- C97: symbol table and debug information agree on the position of a variable, wherever it ends. -/
theorem C97_agree (ps : List VarHeader) (s : TableSym) (d : DwVar) (h : Arranged ps) (hv : VariableEntry s) (ht : s.type ≠ .tls) (hs : Sits ps s)
    (ha : d.value = s.value) (hn : d.size = s.size) :
    ∃ v w, symbolVar (loadHeaders ps) s = .ok v ∧ debugVar (loadHeaders ps) d = .ok w ∧
      v.category = w.category ∧ v.value = w.value ∧ v.align = w.align ∧ v.size = w.size := by
  obtain ⟨p, h1, h2, h3, h4⟩ := symbol_segment hs
  unfold symbolVar debugVar
  rw [h4, ha, hn, debug_segment h h1 h2 hv.nonempty h3]
  dsimp only
  rw [if_neg ht]
  exact ⟨_, _, rfl, rfl, rfl, rfl, rfl, rfl⟩

theorem symbolVars_special {l : Loaded} {ss : List TableSym} (h : ∃ s ∈ ss, isVariable s ∧ symbolSegment l s.shndx = .error .keyError) :
    symbolVars l ss = .error .keyError := by
  induction ss with
  | nil => obtain ⟨_, h, _⟩ := h; cases h
  | cons x xs ih =>
    obtain ⟨s, h1, h2, h3⟩ := h
    rw [symbolVars]
    cases h1 with
    | head =>
      rw [if_pos h2]
      unfold symbolVar
      rw [h3]
    | tail _ h1 =>
      rw [ih ⟨s, h1, h2, h3⟩]
      by_cases hc : isVariable x
      · rw [if_pos hc]
        have : ∀ e, symbolVar l x = .error e → e = .keyError := by
          intro e he
          unfold symbolVar at he
          cases hs : symbolSegment l x.shndx with
          | ok seg =>
            rw [hs] at he
            dsimp only at he
            split at he <;> cases he
          | error e' =>
            rw [hs] at he
            cases he
            unfold symbolSegment at hs
            split at hs
            · split at hs
              · cases hs
              · cases hs; rfl
            · cases hs; rfl
            · cases hs; rfl
        cases hv : symbolVar l x with
        | error e => rw [this e hv]
        | ok v => rfl
      · rw [if_neg hc]

/-- C97: a single variable of the symbol table without section (`SHN_ABS`, `SHN_COMMON`), or in a section that is part of no segment, makes the
summary of the whole file fail. -/
theorem C97_unmapped (names writableOnly : Bool) (ps : List VarHeader) (ss : List TableSym) (debug : Option DebugLists) (s : TableSym) (hs : s ∈ ss)
    (hv : VariableEntry s)
    (hx : s.shndx = .special ∨ ∃ i, s.shndx = .index i ∧ ∀ p ∈ ps, (p.kind = .load ∨ p.kind = .tls) → i ∉ p.sections) :
    fileTexts names writableOnly ps ss debug = .error .keyError := by
  have h := symbolVars_special (l := loadHeaders ps) (ss := ss) ⟨s, hs, (variable_iff s).mpr hv, by
    rcases hx with h1 | ⟨i, h1, h2⟩
    · rw [h1]; rfl
    · rw [h1]
      rcases foldl_sec2seg ps {} i with ⟨h3, _⟩ | ⟨p, h3, h4, h5, _⟩
      · unfold symbolSegment loadHeaders
        dsimp only
        rw [h3]
      · exact absurd h5 (h2 p h3 h4)⟩
  unfold fileTexts
  have : fileVars ps ss debug = .error .keyError := by
    cases debug with
    | none => unfold fileVars; dsimp only; rw [h]
    | some x => obtain ⟨f, t⟩ := x; unfold fileVars; dsimp only; rw [h]
  rw [this]
  rfl

/-- C97: if the sections of all variables are part of segments then all of them are listed, and the summary succeeds without debug information. -/
theorem C97_complete (ps : List VarHeader) (ss : List TableSym)
    (h : ∀ s ∈ ss, VariableEntry s → ∃ i, s.shndx = .index i ∧ ∃ p ∈ ps, (p.kind = .load ∨ p.kind = .tls) ∧ i ∈ p.sections) :
    (∃ vs, symbolVars (loadHeaders ps) ss = .ok vs ∧
      vs.map (fun v => (v.name, v.size)) = (ss.filter (fun s => decide (VariableEntry s))).map (fun s => (s.name, s.size))) ∧
    ∃ vs, fileVars ps ss none = .ok vs := by
  have key : ∃ vs, symbolVars (loadHeaders ps) ss = .ok vs ∧
      vs.map (fun v => (v.name, v.size)) = (ss.filter (fun s => decide (VariableEntry s))).map (fun s => (s.name, s.size)) := by
    induction ss with
    | nil => exact ⟨[], rfl, rfl⟩
    | cons s ss ih =>
      obtain ⟨vs, h1, h2⟩ := ih (fun x hx => h x (List.mem_cons_of_mem _ hx))
      rw [symbolVars, List.filter_cons]
      by_cases hc : VariableEntry s
      · rw [if_pos ((variable_iff s).mpr hc), if_pos (decide_eq_true hc), h1]
        obtain ⟨i, h3, p, h4, h5, h6⟩ := h s List.mem_cons_self hc
        have : ∃ seg, symbolSegment (loadHeaders ps) s.shndx = .ok seg := by
          rw [h3]
          rcases foldl_sec2seg ps {} i with ⟨_, h7⟩ | ⟨q, _, _, _, h7⟩
          · exact absurd h6 (h7 p h4 h5)
          · unfold symbolSegment loadHeaders
            dsimp only
            rw [h7]
            exact ⟨_, rfl⟩
        obtain ⟨seg, h7⟩ := this
        unfold symbolVar
        rw [h7]
        dsimp only
        by_cases ht : s.type = .tls
        · rw [if_pos ht]
          exact ⟨_, rfl, by rw [List.map_cons, List.map_cons, h2]⟩
        · rw [if_neg ht]
          exact ⟨_, rfl, by rw [List.map_cons, List.map_cons, h2]⟩
      · rw [if_neg (fun h => hc ((variable_iff s).mp h)), if_neg (by simpa using hc)]
        exact ⟨vs, h1, h2⟩
  refine ⟨key, ?_⟩
  obtain ⟨vs, h1, _⟩ := key
  unfold fileVars
  dsimp only
  rw [h1]
  exact ⟨_, rfl⟩

/-! ### Examples -/

/-- Code, data, thread-local data and protected memory up to the end of a page. -/
def exHeaders : List VarHeader :=
  [⟨.load, true, false, true, 0, 0x2000, [1, 2]⟩, ⟨.load, true, true, false, 0x3df0, 0x300, [3, 4, 5]⟩,
   ⟨.tls, true, false, false, 0x3df0, 0x18, [5]⟩, ⟨.relro, true, false, false, 0x3df0, 0x210, []⟩]

def exSym (name : String) (section_ : Nat) (value size : Int) : TableSym := ⟨name.toList, .index section_, .object, true, value, size⟩

def exTlsSym (name : String) (value size : Int) : TableSym := ⟨name.toList, .index 5, .tls, true, value, size⟩

def exDw (name : String) (value size : Int) (hash : String) : DwVar := ⟨name.toList, value, [], 0, size, true, hash.toList, []⟩

theorem exHeaders_arranged : Arranged exHeaders := by unfold Arranged exHeaders; decide

instance (p : VarHeader) (a n : Int) : Decidable (InMemory p a n) := by unfold InMemory; infer_instance

/-- C97: if only writable variables are asked for, exactly the texts of the writable categories and of thread-local variables are left, unchanged and in the same order. -/
theorem C97_writable (names : Bool) (ps : List VarHeader) (ss : List TableSym) (debug : Option DebugLists) (all l : List (Str × Option Str))
    (ha : fileTexts names false ps ss debug = .ok all) (hl : fileTexts names true ps ss debug = .ok l) :
    l.Sublist all ∧ (∀ x, x ∈ l ↔ x ∈ all ∧ ('W' ∈ x.1 ∨ x.1 = "TLS".toList)) ∧ ∀ c, (∃ t, (c, t) ∈ all) ↔ c ∈ (loadHeaders ps).categories := by
  unfold fileTexts at ha hl
  cases hv : fileVars ps ss debug with
  | error e => rw [hv] at ha; cases ha
  | ok vs =>
    rw [hv] at ha hl
    cases ha
    cases hl
    have hf : ∀ cs : List Str, cs.filter (fun c => !(false && !c.contains 'W' && c != "TLS".toList)) = cs := by
      intro cs
      exact List.filter_eq_self.mpr (fun _ _ => by simp)
    rw [hf]
    refine ⟨List.Sublist.map _ List.filter_sublist, fun x => ?_, fun c => ?_⟩
    · simp only [List.mem_map, List.mem_filter]
      constructor
      · rintro ⟨c, ⟨h1, h2⟩, rfl⟩
        refine ⟨⟨c, h1, rfl⟩, ?_⟩
        by_cases hw : 'W' ∈ c
        · exact .inl hw
        · by_cases ht : c = "TLS".toList
          · exact .inr ht
          · exfalso
            have e1 : c.contains 'W' = false := by simpa using hw
            have e2 : (c != "TLS".toList) = true := by simpa using ht
            rw [e1, e2] at h2
            cases h2
      · rintro ⟨⟨c, h1, rfl⟩, h2⟩
        refine ⟨c, ⟨h1, ?_⟩, rfl⟩
        rcases h2 with h2 | h2
        · have e1 : c.contains 'W' = true := by simpa using h2
          rw [e1]
          rfl
        · have e2 : (c != "TLS".toList) = false := by simpa using h2
          rw [e2, Bool.and_false]
          rfl
    · rw [← (pySorted_perm strcmp (loadHeaders ps).categories).mem_iff]
      constructor
      · rintro ⟨t, h⟩
        obtain ⟨c', h1, h2⟩ := List.mem_map.mp h
        cases h2
        exact h1
      · intro h
        exact ⟨_, List.mem_map.mpr ⟨c, h, rfl⟩⟩

/-- A file with and without debug information. -/
example : (fileTexts true false exHeaders [exSym "counter" 4 0x4010 4, exSym "table" 3 0x3df8 16, exTlsSym "errno" 0x10 4] none).toOption =
    some [("R".toList, some "table@3576/3576:16".toList), ("RW".toList, some "counter@4112/16:4".toList), ("RX".toList, none),
      ("TLS".toList, some "errno@16/16:4".toList)] := by decide +kernel

example : (fileTexts true true exHeaders [exSym "counter" 4 0x4010 4, exSym "table" 3 0x3df8 16]
    (some ([exDw "counter" 0x4010 4 "a1", exDw "local" 0x4018 8 "b2"], [exDw "errno" 0x10 4 "a1"]))).toOption =
    some [("RW".toList, some "counter#a1@4112/16:4local#b2@4120/24:8".toList), ("TLS".toList, some "errno#a1@16/16:4".toList)] := by
  decide +kernel

example : ∀ s ∈ [exSym "counter" 4 0x4010 4, exTlsSym "errno" 0x10 4], VariableEntry s →
    ∃ i, s.shndx = .index i ∧ ∃ p ∈ exHeaders, (p.kind = .load ∨ p.kind = .tls) ∧ i ∈ p.sections := by
  intro s hs _
  simp only [List.mem_cons, List.not_mem_nil, or_false] at hs
  rcases hs with rfl | rfl
  · exact ⟨4, rfl, by unfold exHeaders; decide⟩
  · exact ⟨5, rfl, by unfold exHeaders; decide⟩

/-- Both at another base address. -/
example : (fileTexts true false (exHeaders.map (moveHeader 0x5000))
    [exSym "counter" 4 0x9010 4, exSym "table" 3 0x8df8 16, exTlsSym "errno" 0x10 4] none).toOption =
    some [("R".toList, some "table@3576/3576:16".toList), ("RW".toList, some "counter@4112/16:4".toList), ("RX".toList, none),
      ("TLS".toList, some "errno@16/16:4".toList)] :=
  (C97_base 5 true false exHeaders [exSym "counter" 4 0x4010 4, exSym "table" 3 0x3df8 16, exTlsSym "errno" 0x10 4] none).trans (by decide +kernel)

theorem exCounter_sits : Sits exHeaders (exSym "counter" 4 0x4010 4) :=
  ⟨4, rfl, ⟨_, List.mem_cons_of_mem _ List.mem_cons_self, Or.inl rfl, by decide⟩, by unfold exHeaders; decide⟩

example : Arranged exHeaders ∧ VariableEntry (exSym "counter" 4 0x4010 4) ∧ Sits exHeaders (exSym "counter" 4 0x4010 4) ∧
    NotAtEnd exHeaders 0x4010 4 ∧ ∃ p ∈ exHeaders, p.kind = .load ∧ InMemory p 0x4010 4 := ⟨exHeaders_arranged, by decide, exCounter_sits, by unfold NotAtEnd exHeaders; decide,
  by unfold exHeaders; decide⟩

/-- An absolute symbol with a size. -/
example : fileTexts true false exHeaders [exSym "counter" 4 0x4010 4, ⟨"limit".toList, .special, .object, true, 0x100, 8⟩] none =
    .error .keyError :=
  C97_unmapped _ _ _ _ _ _ (List.mem_cons_of_mem _ List.mem_cons_self) (by decide) (Or.inl rfl)

/-- A variable at the end of the protected memory is part of this, but it is listed as writable by both sources. -/
theorem C97_counterexample :
    PartOf exHeaders 0x3ff8 8 ⟨.relro, true, false, false, 0x3df0, 0x210, []⟩ ∧
    (symbolVar (loadHeaders exHeaders) (exSym "vtable" 3 0x3ff8 8)).toOption.map (·.category) = some "RW".toList ∧
    (debugVar (loadHeaders exHeaders) (exDw "vtable" 0x3ff8 8 "c3")).toOption.map (·.category) = some "RW".toList := by
  refine ⟨⟨_, List.mem_cons_of_mem _ List.mem_cons_self, rfl, by decide, Or.inl ⟨rfl, ?_, rfl, by decide⟩⟩, by decide, by decide⟩
  unfold exHeaders
  decide

/-- Two static variables of the same name in two segments with the same permissions: only one of them is listed. -/
theorem C97_lost :
    (fileVars [⟨.load, true, true, false, 0x3000, 0x1000, [1]⟩, ⟨.load, true, true, false, 0x5000, 0x1000, [2]⟩]
      [exSym "state" 1 0x3010 4, exSym "state" 2 0x5010 4] none).toOption.map (fun l => l.map (fun v => (v.name, v.value))) =
      some [("state".toList, 0x10)] := by decide +kernel

/-- A symbol that is only known by the debug information (as local symbols are removed from stripped files) and a thread-local one whose name
starts with the same word: the summary fails, as categories are not compared before. -/
theorem C97_mismatch :
    fileVars exHeaders [exTlsSym "buffer_length" 0x1010 8] (some ([exDw "buffer" 0x4010 8 "a1"], [exDw "buffer_length" 0x1010 8 "b2"])) =
      .error (.summary .categoryMismatch) := by
  have h : ∀ x : Except TableError (List Var), decide (x.toOption = none) = true → ∀ e, (match x with
    | .error e' => decide (e' = e)
    | .ok _ => false) = true → x = .error e := by
    intro x _ e he
    cases x with
    | ok v => cases he
    | error e' => rw [of_decide_eq_true he]
  exact h _ (by decide +kernel) _ (by decide +kernel)

/-- For thread-local variables behind the first page it makes a difference whether they are in the symbol table. -/
theorem C97_tls_align :
    (fileVars exHeaders [exTlsSym "errno" 0x1004 4] (some ([], [exDw "errno" 0x1004 4 "a1"]))).toOption.map (fun l => l.map (·.align)) =
      some [0x1004] ∧
    (fileVars exHeaders [] (some ([], [exDw "errno" 0x1004 4 "a1"]))).toOption.map (fun l => l.map (·.align)) = some [4] :=
  ⟨by decide +kernel, by decide +kernel⟩

end Bean.Props

import Verif.Model.ChangeText
import Verif.Spec.ChangeText
import Verif.Props.ListRead
import Verif.Props.DiffTool
import Verif.Props.Map
/-
Output of bean-diff and bean-map (C110).
-/
namespace Bean.Props
open Bean Bean.Spec

/-! ### Lines -/

theorem readLines_last {l : List Str} {z : Str} (h : ∀ x ∈ l, '\n' ∉ x) (hz : readLines z = [z]) :
    readLines (l.flatMap (· ++ ['\n']) ++ z) = l ++ [z] := by
  induction l with
  | nil => exact hz
  | cons x l ih =>
    rw [List.flatMap_cons, List.append_assoc, List.append_assoc, List.singleton_append, readLines_cut (h x (List.mem_cons_self ..)),
      ih (fun y hy => h y (List.mem_cons_of_mem _ hy))]
    rfl

theorem setText_lines {level : Nat} {a : SymTree} (hl : level ≤ 1) (h : ∀ s ∈ a, '\n' ∉ listLine level s) :
    (readLines (setText level a)).tail = a.map (listLine level) := by
  have hh : ∃ x, listHeader level = x ++ ['\n'] ∧ '\n' ∉ x := by
    rcases Nat.le_one_iff_eq_zero_or_eq_one.mp hl with rfl | rfl
    · exact ⟨(listHeader 0).dropLast, by decide +kernel, by decide +kernel⟩
    · exact ⟨(listHeader 1).dropLast, by decide +kernel, by decide +kernel⟩
  obtain ⟨x, hx, hn⟩ := hh
  unfold setText
  rw [hx, List.append_assoc, List.singleton_append, readLines_cut hn, List.tail_cons]
  have : a.flatMap (fun s => listLine level s ++ ['\n']) = (a.map (listLine level)).flatMap (· ++ ['\n']) := by
    rw [List.flatMap_map]
  rw [this, readLines_lines]
  intro y hy
  obtain ⟨s, hs, rfl⟩ := List.mem_map.mp hy
  exact h s hs

theorem line_id (s : Symbol) : listLine 0 s = symIdText s.id := List.append_nil _

theorem changes_lines {l : List (Mark × Symbol)} (h : ∀ x ∈ l, '\n' ∉ listLine 1 x.2) :
    (readLines (changesText l)).tail.dropLast = l.map (fun x => markText x.1 ++ listLine 1 x.2) := by
  obtain ⟨x, hx, hn⟩ : ∃ x, ' ' :: listHeader 1 = x ++ ['\n'] ∧ '\n' ∉ x :=
    ⟨(' ' :: listHeader 1).dropLast, by decide +kernel, by decide +kernel⟩
  unfold changesText
  rw [hx, List.append_assoc, List.singleton_append, readLines_cut hn, List.tail_cons]
  have : l.flatMap (fun x => markText x.1 ++ (listLine 1 x.2 ++ ['\n'])) =
      (l.map (fun x => markText x.1 ++ listLine 1 x.2)).flatMap (· ++ ['\n']) := by
    rw [List.flatMap_map]
    simp only [List.append_assoc]
  rw [this, readLines_last, List.dropLast_concat]
  · intro y hy
    obtain ⟨s, hs, rfl⟩ := List.mem_map.mp hy
    intro hc
    rcases List.mem_append.mp hc with hc | hc
    · revert hc
      cases s.1 <;> decide
    · exact h s hs hc
  · decide

theorem readChange_line (m : Mark) (s : Symbol) : readChange (markText m ++ listLine 1 s) = some (m, rowOf s) := by
  unfold readChange
  cases m with
  | removed =>
    have : skipColor (markText .removed ++ listLine 1 s) = '-' :: listLine 1 s := rfl
    rw [this]
    simp only [readRow_line, Option.map_some]
  | added =>
    have : skipColor (markText .added ++ listLine 1 s) = '+' :: listLine 1 s := rfl
    rw [this]
    simp only [readRow_line, Option.map_some]
  | kept =>
    have : skipColor (markText .kept ++ listLine 1 s) = ' ' :: listLine 1 s := rfl
    rw [this]
    simp only [readRow_line, Option.map_some]

/-! ### C110: differences -/

/-- C110: Without level, bean-diff prints the identifiers of the symbols of the report about the new file. -/
theorem C110_diff_ids {b : Build} {h : BitVec 64 → BitVec 32} {c : Cli} {old new : SymTree} {t : Str} (hc : c.verbose = 0)
    (ht : diffMain b h c old new = .ok t) :
    ∃ added, diff b h new old c.deps c.mode = .ok added ∧ (readLines t).tail.map readId = added.map (fun s => (s.id, [])) := by
  unfold diffMain at ht
  rw [if_pos hc] at ht
  cases hd : diff b h new old c.deps c.mode with
  | error e => rw [hd] at ht; cases ht
  | ok added =>
    rw [hd] at ht
    have e : setText 0 added = t := Except.ok.inj ht
    refine ⟨added, rfl, ?_⟩
    rw [← e, setText_lines (by decide) (fun s _ => by rw [line_id]; exact id_break _), List.map_map]
    refine List.map_congr_left (fun s _ => ?_)
    have := readId_text s.id []
    rw [List.append_nil] at this
    show readId (listLine 0 s) = _
    rw [line_id, this]

/-- C110: With level 1, the text of bean-diff can be read back as a list that shows the report about the old file (removed) and all symbols of the new
file, of which those of the report about the new file are marked as added. Names are without line breaks. -/
theorem C110_diff_rows {b : Build} {h : BitVec 64 → BitVec 32} {c : Cli} {old new : SymTree} {t : Str} (hc : c.verbose = 1) (hn : Ordered new)
    (ht : diffMain b h c old new = .ok t) (h1 : ∀ s ∈ old, OneLine s) (h2 : ∀ s ∈ new, OneLine s) :
    ∃ (added removed : SymTree) (lines : List (Mark × Symbol)), diff b h new old c.deps c.mode = .ok added ∧ diff b h old new c.deps c.mode = .ok removed ∧
      readChanges t = lines.map (fun x => some (x.1, rowOf x.2)) ∧
      (lines.filter (fun x => x.1 == .removed)).map (·.2) = removed ∧
      (lines.filter (fun x => x.1 != .removed)).map (·.2) = new ∧
      (∀ x ∈ lines, x.1 ≠ .removed → (x.1 = .added ↔ x.2 ∈ added)) ∧
      lines.Pairwise (fun x y => x.2.address.toNat ≤ y.2.address.toNat) := by
  unfold diffMain at ht
  rw [if_neg (by rw [hc]; decide)] at ht
  cases hd : diffTool b h old new c.deps c.mode with
  | error e => rw [hd] at ht; cases ht
  | ok lines =>
    rw [hd] at ht
    have e : changesText lines = t := Except.ok.inj ht
    obtain ⟨added, removed, ha, hr, p1, p2, p3, -, p4⟩ := C51_listing b h old new c.deps c.mode hn lines hd
    refine ⟨added, removed, lines, ha, hr, ?_, p1, p2, p3, p4⟩
    have hl : ∀ x ∈ lines, OneLine x.2 := by
      intro x hx
      by_cases hm : x.1 = .removed
      · have : x.2 ∈ removed := by
          rw [← p1]
          exact List.mem_map.mpr ⟨x, List.mem_filter.mpr ⟨hx, by simpa using hm⟩, rfl⟩
        exact h1 _ ((C07_sized_only b h old new c.deps c.mode removed hr).2 _ this).1
      · have : x.2 ∈ new := by
          rw [← p2]
          exact List.mem_map.mpr ⟨x, List.mem_filter.mpr ⟨hx, by simpa using hm⟩, rfl⟩
        exact h2 _ this
    unfold readChanges
    rw [← e, changes_lines (fun x hx => line_break (hl x hx)), List.map_map]
    exact List.map_congr_left (fun x _ => readChange_line x.1 x.2)

/-- An old function that was changed and moved, next to an unchanged one. -/
def ctOld : SymTree :=
  [{ address := 8, size := 4, id := { internal := 1 }, name := some "f" }, { address := 16, size := 4, id := { internal := 3 }, name := some "g" }]

/-- The new file. -/
def ctNew : SymTree :=
  [{ address := 16, size := 4, id := { internal := 3 }, name := some "g" }, { address := 32, size := 4, id := { internal := 2 }, name := some "f" }]

/-- Signs, identifiers and addresses of the example. -/
example : ∃ t, diffMain .debug (fun _ => 0) { verbose := 1 } ctOld ctNew = .ok t ∧ Ordered ctNew ∧ (∀ s ∈ ctOld, OneLine s) ∧ (∀ s ∈ ctNew, OneLine s) ∧
    (readChanges t).map (fun r => r.map (fun r => (r.1, r.2.id.internal, r.2.place))) =
      [some (.removed, 1, 8), some (.kept, 3, 16), some (.added, 2, 32)] := by
  refine ⟨_, rfl, by decide, ?_, ?_, by decide +kernel⟩
  · intro s hs
    simp only [ctOld, List.mem_cons, List.not_mem_nil, or_false] at hs
    rcases hs with rfl | rfl <;> exact ⟨fun n hn => by cases hn; decide, fun n hn => by cases hn⟩
  · intro s hs
    simp only [ctNew, List.mem_cons, List.not_mem_nil, or_false] at hs
    rcases hs with rfl | rfl <;> exact ⟨fun n hn => by cases hn; decide, fun n hn => by cases hn⟩

/-- Identifiers of the example. -/
example : ∃ t, diffMain .debug (fun _ => 0) {} ctOld ctNew = .ok t ∧ (readLines t).tail.map readId = [(⟨2, 0⟩, [])] :=
  ⟨_, rfl, by decide +kernel⟩

/-! ### C110: mapping -/

/-- The lines for an old symbol and its counterpart. -/
def mapBlock (level : Nat) (p : Symbol × Option Symbol) : List Str :=
  match p.2 with
  | some y => [color ['3', '2'] ++ ("sym ".toList ++ listLine level p.1), color ['0'] ++ (" -> ".toList ++ listLine level y), color ['0']]
  | none => [color ['3', '1'] ++ ("sym ".toList ++ listLine level p.1), color ['0']]

theorem mapEntry_ok {b : Build} {level : Nat} {m : List (Addr × Addr)} {old new : SymTree} {s : Symbol} (hn : Ordered new)
    (hc : ∀ e ∈ m, Compatible old new e.1 e.2) :
    ∃ y, Counterpart m new s y ∧ mapEntry b level m new s = .ok ((mapBlock level (s, y)).flatMap (· ++ ['\n'])) := by
  unfold mapEntry
  cases hf : Tree.find m s.address with
  | none =>
    refine ⟨none, ?_, ?_⟩
    · intro v hv
      exact Tree.find_eq_none_iff.mp hf _ hv rfl
    · unfold mapBlock
      simp only [List.flatMap_cons, List.flatMap_nil, List.append_assoc, List.append_nil, List.cons_append, List.nil_append]
      rfl
  | some e =>
    obtain ⟨he, hk⟩ := Tree.find_mem hf
    obtain ⟨x, y, -, hy, -, -⟩ := hc e he
    have hfl := (closest_of_floor ((ordered_iff_sorted _).mp hn)).mpr hy
    refine ⟨some y, ⟨e.2, ?_, hy⟩, ?_⟩
    · have : e.1 = s.address := hk
      rw [← this]
      exact he
    · unfold mapBlock
      dsimp only
      rw [hfl]
      simp only [List.flatMap_cons, List.flatMap_nil, List.append_assoc, List.append_nil, List.cons_append, List.nil_append]
      cases b <;> rfl

theorem mapEntries_ok {b : Build} {level : Nat} {m : List (Addr × Addr)} {old new : SymTree} (hn : Ordered new)
    (hc : ∀ e ∈ m, Compatible old new e.1 e.2) (l : SymTree) :
    ∃ pairs : List (Symbol × Option Symbol), pairs.map (·.1) = l ∧ (∀ p ∈ pairs, Counterpart m new p.1 p.2) ∧
      mapEntries b level m new l = .ok ((pairs.flatMap (mapBlock level)).flatMap (· ++ ['\n'])) := by
  induction l with
  | nil => exact ⟨[], rfl, (fun _ h => by cases h), rfl⟩
  | cons s l ih =>
    obtain ⟨pairs, h1, h2, h3⟩ := ih
    obtain ⟨y, hy, he⟩ := mapEntry_ok (b := b) (level := level) (s := s) hn hc
    refine ⟨(s, y) :: pairs, by rw [List.map_cons, h1], ?_, ?_⟩
    · intro p hp
      rcases List.mem_cons.mp hp with rfl | hp
      · exact hy
      · exact h2 p hp
    · rw [mapEntries, he, h3, List.flatMap_cons, List.flatMap_append]
      rfl

theorem readPairs_blocks (level : Nat) (pairs : List (Symbol × Option Symbol)) :
    readPairs (pairs.flatMap (mapBlock level)) = some (pairs.map (fun p => (listLine level p.1, p.2.map (listLine level)))) := by
  induction pairs with
  | nil => rfl
  | cons p pairs ih =>
    obtain ⟨s, y⟩ := p
    rw [List.flatMap_cons, List.map_cons]
    have h1 : ∀ c x, c = ['3', '1'] ∨ c = ['3', '2'] → readTagged "sym ".toList (color c ++ ("sym ".toList ++ x)) = some x := by
      rintro c x (rfl | rfl) <;> rfl
    have h2 : ∀ x, readTagged " -> ".toList (color ['0'] ++ (" -> ".toList ++ x)) = some x := fun _ => rfl
    have h3 : readTagged " -> ".toList (color ['0']) = none := rfl
    have h4 : skipColor (color ['0']) = [] := rfl
    cases y with
    | none =>
      show readPairs ((color ['3', '1'] ++ ("sym ".toList ++ listLine level s)) :: color ['0'] :: pairs.flatMap (mapBlock level)) = _
      rw [readPairs.eq_def]
      dsimp only
      rw [h1 _ _ (.inl rfl), h3]
      dsimp only
      rw [if_pos h4, ih]
      rfl
    | some y =>
      show readPairs ((color ['3', '2'] ++ ("sym ".toList ++ listLine level s)) :: (color ['0'] ++ (" -> ".toList ++ listLine level y)) ::
        color ['0'] :: pairs.flatMap (mapBlock level)) = _
      rw [readPairs.eq_def]
      dsimp only
      rw [h1 _ _ (.inr rfl), h2]
      dsimp only
      rw [if_pos h4, ih]
      rfl

theorem block_break {level : Nat} {p : Symbol × Option Symbol} (h1 : '\n' ∉ listLine level p.1) (h2 : ∀ y, p.2 = some y → '\n' ∉ listLine level y) :
    ∀ x ∈ mapBlock level p, '\n' ∉ x := by
  obtain ⟨s, y⟩ := p
  have e1 : '\n' ∉ color ['3', '1'] := by decide
  have e2 : '\n' ∉ color ['3', '2'] := by decide
  have e3 : '\n' ∉ color ['0'] := by decide
  have e4 : '\n' ∉ "sym ".toList := by decide
  have e5 : '\n' ∉ " -> ".toList := by decide
  unfold mapBlock
  intro x hx hc
  cases y with
  | none =>
    rcases List.mem_cons.mp hx with rfl | hx
    · simp only [List.mem_append, e1, e4, false_or] at hc
      exact h1 hc
    · rw [List.mem_singleton] at hx
      subst hx
      exact e3 hc
  | some y =>
    rcases List.mem_cons.mp hx with rfl | hx
    · simp only [List.mem_append, e2, e4, false_or] at hc
      exact h1 hc
    · rcases List.mem_cons.mp hx with rfl | hx
      · simp only [List.mem_append, e3, e5, false_or] at hc
        exact h2 y rfl hc
      · rw [List.mem_singleton] at hx
        subst hx
        exact e3 hc

/-- The text of bean-map for all levels: it is printed if there is a mapping, and can be read back. -/
theorem mapMain_read {b : Build} {h : BitVec 64 → BitVec 32} {c : Cli} {old new : SymTree} {m : List (Addr × Addr)} {p q : Str}
    (ho : Ordered old) (hn : Ordered new) (hm : map b h old new c.names = .ok m) (hp : c.oldPath = some p) (hq : c.newPath = some q)
    (np : '\n' ∉ p) (nq : '\n' ∉ q) (h1 : ∀ s ∈ old, '\n' ∉ listLine c.verbose.toNat s) (h2 : ∀ s ∈ new, '\n' ∉ listLine c.verbose.toNat s) :
    ∃ (t : Str) (pairs : List (Symbol × Option Symbol)), mapMain b h c old new = .ok t ∧ pairs.map Prod.fst = old ∧ (∀ p ∈ pairs, Counterpart m new p.1 p.2) ∧
      readMapping t = some ((p, q), pairs.map (fun p => (listLine c.verbose.toNat p.1, p.2.map (listLine c.verbose.toNat)))) := by
  obtain ⟨pairs, e1, e2, e3⟩ := mapEntries_ok (b := b) (level := c.verbose.toNat) hn
    (C18_mapped_compatible b h old new ho hn c.names m hm) old
  have hx : mapHeader c.oldPath c.newPath = .ok ([color ['1'] ++ ("file ".toList ++ p), "  -> ".toList ++ (q ++ color ['0']), []].flatMap (· ++ ['\n'])) := by
    rw [hp, hq]
    simp only [List.flatMap_cons, List.flatMap_nil, List.append_assoc, List.append_nil, List.cons_append, List.nil_append]
    rfl
  refine ⟨([color ['1'] ++ ("file ".toList ++ p), "  -> ".toList ++ (q ++ color ['0']), []] ++ pairs.flatMap (mapBlock c.verbose.toNat)).flatMap (· ++ ['\n']),
    pairs, ?_, e1, e2, ?_⟩
  · unfold mapMain
    rw [hm, hx, List.flatMap_append]
    change (do let r ← mapEntries b c.verbose.toNat m new old; pure (_ ++ r)) = _
    rw [e3]
    rfl
  · have hl : readLines (([color ['1'] ++ ("file ".toList ++ p), "  -> ".toList ++ (q ++ color ['0']), []] ++
        pairs.flatMap (mapBlock c.verbose.toNat)).flatMap (· ++ ['\n'])) = _ := readLines_lines (by
      intro x hx
      have d1 : '\n' ∉ color ['1'] := by decide
      have d2 : '\n' ∉ color ['0'] := by decide
      have d3 : '\n' ∉ "file ".toList := by decide
      have d4 : '\n' ∉ "  -> ".toList := by decide
      rcases List.mem_append.mp hx with hx | hx
      · intro hc
        rcases List.mem_cons.mp hx with rfl | hx
        · simp only [List.mem_append, d1, d3, false_or] at hc
          exact np hc
        · rcases List.mem_cons.mp hx with rfl | hx
          · simp only [List.mem_append, d2, d4, false_or, or_false] at hc
            exact nq hc
          · rw [List.mem_singleton] at hx
            subst hx
            cases hc
      · obtain ⟨w, hw, hx⟩ := List.mem_flatMap.mp hx
        refine block_break (p := w) (h1 _ (by rw [← e1]; exact List.mem_map_of_mem hw)) ?_ x hx
        intro y hy
        have := e2 w hw
        rw [hy] at this
        obtain ⟨v, -, hv⟩ := this
        exact h2 _ hv.1)
    unfold readMapping
    rw [hl]
    have r1 : readPaths ([color ['1'] ++ ("file ".toList ++ p), "  -> ".toList ++ (q ++ color ['0']), []] ++ pairs.flatMap (mapBlock c.verbose.toNat)) =
        some (p, q) := by
      have ht : readTagged "file ".toList (color ['1'] ++ ("file ".toList ++ p)) = some p := rfl
      show (match readTagged "file ".toList (color ['1'] ++ ("file ".toList ++ p)) with
        | some p => some (p, (("  -> ".toList ++ (q ++ color ['0'])).drop 5).take (("  -> ".toList ++ (q ++ color ['0'])).length - 9))
        | none => none) = _
      rw [ht]
      have hd : ("  -> ".toList ++ (q ++ color ['0'])).drop 5 = q ++ color ['0'] := rfl
      have hlen : ("  -> ".toList ++ (q ++ color ['0'])).length - 9 = q.length := by
        simp only [List.length_append]
        have : "  -> ".toList.length = 5 := rfl
        have : (color ['0']).length = 4 := rfl
        omega
      dsimp only
      rw [hd, hlen, List.take_left]
    have r2 : ([color ['1'] ++ ("file ".toList ++ p), "  -> ".toList ++ (q ++ color ['0']), []] ++ pairs.flatMap (mapBlock c.verbose.toNat)).drop 3 =
        pairs.flatMap (mapBlock c.verbose.toNat) := rfl
    rw [r1, r2, readPairs_blocks]

/-- C110: Without level, bean-map prints the paths and, for all symbols of the old file, the identifiers of the symbol and of its counterpart. -/
theorem C110_map_ids_partial {b : Build} {h : BitVec 64 → BitVec 32} {c : Cli} {old new : SymTree} {m : List (Addr × Addr)} {p q : Str}
    (hc : c.verbose = 0) (ho : Ordered old) (hn : Ordered new) (hm : map b h old new c.names = .ok m) (hp : c.oldPath = some p)
    (hq : c.newPath = some q) (np : '\n' ∉ p) (nq : '\n' ∉ q) :
    ∃ (t : Str) (pairs : List (Symbol × Option Symbol)) (lines : List (List Char × Option (List Char))), mapMain b h c old new = .ok t ∧ pairs.map Prod.fst = old ∧ (∀ p ∈ pairs, Counterpart m new p.1 p.2) ∧
      readMapping t = some ((p, q), lines) ∧
      lines.map (fun l => ((readId l.1).1, l.2.map (fun x => (readId x).1))) = pairs.map (fun p => (p.1.id, p.2.map (·.id))) := by
  have hz : c.verbose.toNat = 0 := by rw [hc]; rfl
  have hi : ∀ s, '\n' ∉ listLine c.verbose.toNat s := fun s => by rw [hz, line_id]; exact id_break _
  obtain ⟨t, pairs, e1, e2, e3, e4⟩ := mapMain_read ho hn hm hp hq np nq (fun s _ => hi s) (fun s _ => hi s)
  refine ⟨t, pairs, _, e1, e2, e3, e4, ?_⟩
  have hr : ∀ s, (readId (listLine c.verbose.toNat s)).1 = s.id := by
    intro s
    have := readId_text s.id []
    rw [List.append_nil] at this
    rw [hz, line_id, this]
  rw [List.map_map]
  refine List.map_congr_left (fun x _ => ?_)
  simp only [Function.comp, hr]
  cases x.2 with
  | none => rfl
  | some y => simp only [Option.map_some, hr]

/-- C110: With level 1, bean-map prints the paths and, for all symbols of the old file, the lines of the symbol and of its counterpart. What is missing
here and above: calls with a single path (`C110_path_counterexample`). Names are without line breaks. -/
theorem C110_map_rows_partial {b : Build} {h : BitVec 64 → BitVec 32} {c : Cli} {old new : SymTree} {m : List (Addr × Addr)} {p q : Str}
    (hc : c.verbose = 1) (ho : Ordered old) (hn : Ordered new) (hm : map b h old new c.names = .ok m) (hp : c.oldPath = some p)
    (hq : c.newPath = some q) (np : '\n' ∉ p) (nq : '\n' ∉ q) (h1 : ∀ s ∈ old, OneLine s) (h2 : ∀ s ∈ new, OneLine s) :
    ∃ (t : Str) (pairs : List (Symbol × Option Symbol)) (lines : List (List Char × Option (List Char))), mapMain b h c old new = .ok t ∧ pairs.map Prod.fst = old ∧ (∀ p ∈ pairs, Counterpart m new p.1 p.2) ∧
      readMapping t = some ((p, q), lines) ∧
      lines.map (fun l => ((readRow l.1).map Prod.fst, l.2.map (fun x => (readRow x).map Prod.fst))) =
        pairs.map (fun p => (some (rowOf p.1), p.2.map (fun y => some (rowOf y)))) := by
  have hz : c.verbose.toNat = 1 := by rw [hc]; rfl
  obtain ⟨t, pairs, e1, e2, e3, e4⟩ := mapMain_read ho hn hm hp hq np nq (fun s hs => by rw [hz]; exact line_break (h1 s hs))
    (fun s hs => by rw [hz]; exact line_break (h2 s hs))
  refine ⟨t, pairs, _, e1, e2, e3, e4, ?_⟩
  rw [List.map_map, hz]
  refine List.map_congr_left (fun x _ => ?_)
  simp only [Function.comp, readRow_line, Option.map_some]
  cases x.2 with
  | none => rfl
  | some y => simp only [Option.map_some, readRow_line]

/-- Only the names allow to map the changed function. -/
example : ∃ t, mapMain .debug (fun _ => 0) { verbose := 1, names := true, oldPath := some "a".toList, newPath := some "b".toList } ctOld ctNew = .ok t ∧
    (readMapping t).map (fun r => (r.1, r.2.map (fun l => ((readRow l.1).map (·.1.place), l.2.map (fun x => (readRow x).map (·.1.place)))))) =
      some (("a".toList, "b".toList), [(some 8, some (some 32)), (some 16, some (some 16))]) :=
  ⟨_, rfl, by decide +kernel⟩

example : ∃ t, mapMain .debug (fun _ => 0) { oldPath := some "a".toList, newPath := some "b".toList } ctOld ctNew = .ok t ∧
    (readMapping t).map (fun r => (r.1, r.2.map (fun l => ((readId l.1).1.internal, l.2.map (fun x => (readId x).1.internal))))) =
      some (("a".toList, "b".toList), [(1, none), (3, some 3)]) :=
  ⟨_, rfl, by decide +kernel⟩

/-- C110 is false if the file is compared with itself for two directories with debug symbols, as supported by the program: it prints a
null pointer instead of the path, for any symbols that can be mapped. -/
theorem C110_path_counterexample (b : Build) (h : BitVec 64 → BitVec 32) :
    ∃ c, parseArgs .map {} ["-b".toList, "old".toList, "-b".toList, "new".toList, "lib.so".toList] = .ok (.go c) ∧
      startsWith (.go c) = true ∧ ∀ old new m, map b h old new c.names = .ok m → mapMain b h c old new = .error .ub := by
  refine ⟨_, rfl, rfl, ?_⟩
  intro old new m hm
  unfold mapMain
  rw [hm]
  rfl

example : ∃ m, map .debug (fun _ => 0) ctOld ctNew true = .ok m := ⟨_, rfl⟩

end Bean.Props

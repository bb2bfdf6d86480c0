import Verif.Spec.ListTools
/-
Property theorems C103: command lines of the programs for lists of files.
-/
namespace Bean.Props
open Bean Spec

/-- Effect of one argument. -/
def itemStep (t : ListTool) (s : Settings) (x : Str × Option Str) : ListStep :=
  match listSwitch t x.1, listValue t x.1 with
  | some f, _ => .go (f s)
  | none, some f => .go (f x.2 s)
  | none, none => listOther s x.1

/-- The program on arguments with values. -/
def runItems (t : ListTool) (ok : Job → Bool) : Settings → List (Str × Option Str) → List Job × Bool
  | _, [] => ([], true)
  | s, x :: rest =>
    match itemStep t s x with
    | .fail => ([], false)
    | .go s => runItems t ok s rest
    | .file s =>
      if ok { settings := s, path := x.1 } then
        ({ settings := s, path := x.1 } :: (runItems t ok s rest).1, (runItems t ok s rest).2)
      else ([{ settings := s, path := x.1 }], false)

theorem listValue_none {t : ListTool} {a : Str} : listValue t a = none ↔ ¬ HasValue t a := by
  unfold listValue HasValue
  split
  · rename_i h; simp [h]
  · rename_i h
    split
    · rename_i h'; simp [h']
    · rename_i h'; simp [h']; intro e e'; exact h ⟨e', e⟩

theorem listSwitch_value {t : ListTool} {a : Str} (h : HasValue t a) : listSwitch t a = none := by
  rcases h with rfl | ⟨rfl, rfl⟩
  · cases t <;> decide
  · decide

theorem runArgs_items (t : ListTool) (ok : Job → Bool) (s : Settings) (args : List Str) :
    runArgs t ok s args = runItems t ok s (items t args) := by
  fun_induction items t args generalizing s with
  | case1 => rfl
  | case2 a =>
    unfold runArgs runItems itemStep
    cases listSwitch t a with
    | some f => rfl
    | none =>
      cases listValue t a with
      | some f => rfl
      | none =>
        dsimp only
        cases listOther s a with
        | fail => rfl
        | go s => rfl
        | file s =>
          dsimp only [runItems]
          by_cases h : ok { settings := s, path := a } = true
          · rw [if_pos h, h]
          · rw [if_neg h, Bool.not_eq_true _ |>.mp h]
  | case3 a v rest h ih =>
    unfold runArgs runItems itemStep
    rw [listSwitch_value h]
    cases hv : listValue t a with
    | none => exact absurd h (listValue_none.mp hv)
    | some f => exact ih _
  | case4 a v rest h ih =>
    unfold runArgs runItems itemStep
    rw [listValue_none.mpr h]
    cases listSwitch t a with
    | some f => exact ih _
    | none =>
      dsimp only
      cases listOther s a with
      | fail => rfl
      | go s => exact ih _
      | file s => dsimp only; rw [ih]

theorem countV_eq (l : Str) (n : BitVec 8) : countV l n = if ∀ c ∈ l, c = 'v' then some (n + BitVec.ofNat 8 l.length) else none := by
  induction l generalizing n with
  | nil => simp [countV]
  | cons c cs ih =>
    unfold countV
    by_cases h : c = 'v'
    · rw [if_pos h, ih]
      by_cases h' : ∀ c ∈ cs, c = 'v'
      · rw [if_pos h', if_pos (by simp [h]; exact h')]
        congr 1
        rw [List.length_cons]
        bv_omega
      · rw [if_neg h', if_neg (by simp [h]; simpa using h')]
    · rw [if_neg h, if_neg (by simp [h])]

theorem take_two {a : Str} (h : a.take 2 = ['-', 'v']) : ∃ r, a = '-' :: 'v' :: r := by
  cases a with
  | nil => cases h
  | cons x a =>
    cases a with
    | nil => cases h
    | cons y r =>
      simp only [List.take_succ_cons, List.take_zero, List.cons.injEq, and_true] at h
      exact ⟨r, by rw [h.1, h.2]⟩

theorem given_append {l : List (Str × Option Str)} {x : Str × Option Str} {a : Str} :
    Given (l ++ [x]) a ↔ Given l a ∨ x.1 = a := by
  simp only [Given, List.map_append, List.map_cons, List.map_nil, List.mem_append, List.mem_singleton, eq_comm]

theorem letters_append {l : List (Str × Option Str)} {x : Str × Option Str} :
    letters (l ++ [x]) = letters l + if x.1.take 2 = ['-', 'v'] then x.1.length - 1 else 0 := by
  unfold letters
  rw [List.filter_append, List.map_append, List.sum_append]
  by_cases h : x.1.take 2 = ['-', 'v'] <;> simp [h]

theorem lastValue_append {l : List (Str × Option Str)} {x : Str × Option Str} {a : Str} :
    lastValue a (l ++ [x]) = if x.1 = a then some x.2 else lastValue a l := by
  unfold lastValue
  rw [List.filter_append, List.map_append]
  by_cases h : x.1 = a <;> simp [h]

theorem debug_append {l : List (Str × Option Str)} {x : Str × Option Str} :
    (∃ p f q, l ++ [x] = p ++ f :: q ∧ IsPath f.1 ∧ 2 ≤ letters p % 256) ↔
    (∃ p f q, l = p ++ f :: q ∧ IsPath f.1 ∧ 2 ≤ letters p % 256) ∨ (IsPath x.1 ∧ 2 ≤ letters l % 256) := by
  constructor
  · rintro ⟨p, f, q, h, h1, h2⟩
    rcases List.eq_nil_or_concat q with rfl | ⟨q', y, rfl⟩
    · obtain ⟨rfl, e⟩ := List.append_inj' h rfl
      cases e
      exact .inr ⟨h1, h2⟩
    · rw [List.concat_eq_append, ← List.cons_append, ← List.append_assoc] at h
      obtain ⟨rfl, -⟩ := List.append_inj' h rfl
      exact .inl ⟨p, f, q', rfl, h1, h2⟩
  · rintro (⟨p, f, q, rfl, h1, h2⟩ | ⟨h1, h2⟩)
    · exact ⟨p, f, q ++ [x], by simp, h1, h2⟩
    · exact ⟨l, x, [], rfl, h1, h2⟩

theorem described_nil : Described [] {} := by
  constructor <;> simp [Given, lastValue, letters]

/-- All fields after one more argument. -/
theorem described_append {l : List (Str × Option Str)} {s s' : Settings} {x : Str × Option Str} (h : Described l s)
    (h1 : s'.dbgsym = (s.dbgsym || decide (x.1 = ['-', 's']))) (h2 : s'.keep = (s.keep || decide (x.1 = ['-', 'k'])))
    (h3 : s'.resolve = (s.resolve || decide (x.1 = ['-', 'r']))) (h4 : s'.reconstruct = (s.reconstruct || decide (x.1 = ['-', 'R'])))
    (h5 : s'.attributes = (s.attributes || decide (x.1 = ['-', 'a']))) (h6 : s'.extern_ = (s.extern_ || decide (x.1 = ['-', 'e'])))
    (h7 : s'.entry = (s.entry || decide (x.1 = ['-', 'E']))) (h8 : s'.concentrate = (s.concentrate || decide (x.1 = ['-', 'c'])))
    (h9 : s'.base = if x.1 = ['-', 'b'] then x.2 else s.base) (h10 : s'.font = if x.1 = ['-', 'f'] then x.2 else s.font)
    (h11 : s'.verbose = s.verbose + BitVec.ofNat 8 (if x.1.take 2 = ['-', 'v'] then x.1.length - 1 else 0))
    (h12 : s'.debug = (s.debug || (decide (IsPath x.1) && decide (2 ≤ s.verbose.toNat)))) : Described (l ++ [x]) s' where
  dbgsym := by rw [given_append, ← h.dbgsym, h1]; simp
  keep := by rw [given_append, ← h.keep, h2]; simp
  resolve := by rw [given_append, ← h.resolve, h3]; simp
  reconstruct := by rw [given_append, ← h.reconstruct, h4]; simp
  attributes := by rw [given_append, ← h.attributes, h5]; simp
  extern_ := by rw [given_append, ← h.extern_, h6]; simp
  entry := by rw [given_append, ← h.entry, h7]; simp
  concentrate := by rw [given_append, ← h.concentrate, h8]; simp
  base := by
    rw [lastValue_append, h9]
    by_cases e : x.1 = ['-', 'b']
    · rw [if_pos e, if_pos e]; exact .inr rfl
    · rw [if_neg e, if_neg e]; exact h.base
  font := by
    rw [lastValue_append, h10]
    by_cases e : x.1 = ['-', 'f']
    · rw [if_pos e, if_pos e]; exact .inr rfl
    · rw [if_neg e, if_neg e]; exact h.font
  verbose := by
    rw [letters_append, h11, BitVec.toNat_add, BitVec.toNat_ofNat, h.verbose]
    omega
  debug := by
    rw [debug_append, ← h.debug, h12, ← h.verbose]
    simp

/-- Effect of an argument on the settings, and which arguments are known. -/
theorem item_step {t : ListTool} {l : List (Str × Option Str)} {s : Settings} (h : Described l s) (x : Str × Option Str) :
    match itemStep t s x with
    | .fail => ¬ Known t x.1
    | .go s' => Described (l ++ [x]) s' ∧ Known t x.1 ∧ ¬ IsPath x.1
    | .file s' => Described (l ++ [x]) s' ∧ IsPath x.1 := by
  obtain ⟨a, v⟩ := x
  have sw : ∀ c s', c ∈ switches t → a = ['-', c] → itemStep t s (a, v) = .go s' → Described (l ++ [(a, v)]) s' →
      (match itemStep t s (a, v) with
      | .fail => ¬ Known t a
      | .go s' => Described (l ++ [(a, v)]) s' ∧ Known t a ∧ ¬ IsPath a
      | .file s' => Described (l ++ [(a, v)]) s' ∧ IsPath a) := by
    intro c s' hc e hs hd
    rw [hs]
    exact ⟨hd, .inr (.inr (.inl ⟨c, hc, e⟩)), by rw [e]; simp [IsPath]⟩
  by_cases hv : HasValue t a
  · rcases hv with rfl | ⟨rfl, rfl⟩
    · have e : itemStep t s (['-', 'b'], v) = .go { s with base := v } := by cases t <;> rfl
      rw [e]
      refine ⟨?_, .inr (.inl (.inl rfl)), fun hp => hp rfl⟩
      apply described_append h <;> simp [IsPath]
    · have e : itemStep .graph s (['-', 'f'], v) = .go { s with font := v } := rfl
      rw [e]
      refine ⟨?_, .inr (.inl (.inr ⟨rfl, rfl⟩)), fun hp => hp rfl⟩
      apply described_append h <;> simp [IsPath]
  by_cases hs : ∃ c ∈ switches t, a = ['-', c]
  · obtain ⟨c, hc, rfl⟩ := hs
    cases t <;> simp only [switches, List.mem_cons, List.not_mem_nil, or_false] at hc
    · rcases hc with rfl | rfl | rfl | rfl | rfl <;>
        exact sw _ _ (by decide) rfl rfl (by apply described_append h <;> simp [IsPath])
    · rcases hc with rfl | rfl | rfl | rfl | rfl | rfl | rfl | rfl <;>
        exact sw _ _ (by decide) rfl rfl (by apply described_append h <;> simp [IsPath])
  have hsn : listSwitch t a = none := by
    unfold listSwitch
    rw [if_neg, if_neg, if_neg, if_neg, if_neg, if_neg, if_neg, if_neg]
    all_goals (first | (rintro ⟨rfl, rfl⟩; exact hs ⟨_, by decide, rfl⟩) | (rintro rfl; exact hs ⟨_, by cases t <;> decide, rfl⟩))
  have he : itemStep t s (a, v) = listOther s a := by
    unfold itemStep
    rw [hsn, listValue_none.mpr hv]
  rw [he]
  unfold listOther
  by_cases h2 : a.take 2 = ['-', 'v']
  · obtain ⟨r, rfl⟩ := take_two h2
    rw [if_pos h2, countV_eq]
    by_cases hr : ∀ c ∈ ('-' :: 'v' :: r).tail, c = 'v'
    · rw [if_pos hr]
      refine ⟨?_, .inr (.inr (.inr ⟨r.length, ?_⟩)), by simp [IsPath]⟩
      · apply described_append h <;> simp [IsPath]
      · rw [List.replicate_succ]
        have : r = List.replicate r.length 'v' := List.eq_replicate_iff.mpr ⟨rfl, fun c hc => hr c (List.mem_cons_of_mem _ hc)⟩
        rw [← this]
    · rw [if_neg hr]
      rintro (hk | hk | hk | ⟨n, hk⟩)
      · exact hk rfl
      · exact hv hk
      · exact hs hk
      · dsimp only at hk
        rw [hk] at hr
        exact hr (fun c hc => (List.mem_replicate.mp hc).2)
  · rw [if_neg h2]
    by_cases h3 : a.head? = some '-'
    · rw [if_pos h3]
      rintro (hk | hk | hk | ⟨n, hk⟩)
      · exact hk h3
      · exact hv hk
      · exact hs hk
      · dsimp only at hk
        rw [hk] at h2
        exact h2 rfl
    · rw [if_neg h3]
      have hp : IsPath a := h3
      refine ⟨?_, hp⟩
      have hne : ∀ c, a ≠ ['-', c] := fun c e => h3 (by rw [e]; rfl)
      apply described_append h <;> simp [hne, hp, h2]

theorem pathCount_cons {x : Str × Option Str} {l : List (Str × Option Str)} :
    pathCount (x :: l) = (if IsPath x.1 then 1 else 0) + pathCount l := by
  unfold pathCount
  by_cases h : IsPath x.1 <;> simp [h]
  omega

theorem runItems_sound {t : ListTool} {ok : Job → Bool} : ∀ {l : List (Str × Option Str)} {s : Settings} {done : List (Str × Option Str)},
    Described done s → ∀ (i : Nat) (job : Job), (runItems t ok s l).1[i]? = some job →
    ∃ pre v post, l = pre ++ (job.path, v) :: post ∧ IsPath job.path ∧ (∀ x ∈ pre, Known t x.1) ∧ pathCount pre = i ∧
      (∀ (j : Nat) (k : Job), j < i → (runItems t ok s l).1[j]? = some k → ok k = true) ∧
      Described (done ++ pre ++ [(job.path, v)]) job.settings := by
  intro l
  induction l with
  | nil => intro s done _ i job h; cases h
  | cons x rest ih =>
    intro s done hd i job h
    have hx := item_step (t := t) hd x
    unfold runItems at h ⊢
    cases hs : itemStep t s x with
    | fail => rw [hs] at h; cases h
    | go s' =>
      rw [hs] at h hx
      obtain ⟨h1, h2, h3⟩ := hx
      obtain ⟨pre, v, post, e, p1, p2, p3, p4, p5⟩ := ih h1 i job h
      refine ⟨x :: pre, v, post, by rw [e]; rfl, p1, ?_, ?_, p4, ?_⟩
      · intro y hy
        rcases List.mem_cons.mp hy with rfl | hy
        · exact h2
        · exact p2 y hy
      · rw [pathCount_cons, if_neg h3, p3, Nat.zero_add]
      · rw [List.append_assoc done [x]] at p5
        exact p5
    | file s' =>
      rw [hs] at h hx
      obtain ⟨h1, h2⟩ := hx
      dsimp only at h ⊢
      by_cases hok : ok { settings := s', path := x.1 } = true
      · rw [if_pos hok] at h ⊢
        cases i with
        | zero =>
          cases h
          exact ⟨[], x.2, rest, rfl, h2, fun _ hy => absurd hy List.not_mem_nil, rfl, fun j _ hj => absurd hj (Nat.not_lt_zero j),
            by rw [List.append_nil]; exact h1⟩
        | succ i =>
          obtain ⟨pre, v, post, e, p1, p2, p3, p4, p5⟩ := ih h1 i job h
          refine ⟨x :: pre, v, post, by rw [e]; rfl, p1, ?_, ?_, ?_, ?_⟩
          · intro y hy
            rcases List.mem_cons.mp hy with rfl | hy
            · exact .inl h2
            · exact p2 y hy
          · rw [pathCount_cons, if_pos h2, p3, Nat.add_comm]
          · intro j k hj hk
            cases j with
            | zero => cases hk; exact hok
            | succ j => exact p4 j k (Nat.lt_of_succ_lt_succ hj) hk
          · rw [List.append_assoc done [x]] at p5
            exact p5
      · rw [if_neg hok] at h ⊢
        cases i with
        | zero =>
          cases h
          exact ⟨[], x.2, rest, rfl, h2, fun _ hy => absurd hy List.not_mem_nil, rfl, fun j _ hj => absurd hj (Nat.not_lt_zero j),
            by rw [List.append_nil]; exact h1⟩
        | succ i => cases h

theorem runItems_complete {t : ListTool} {ok : Job → Bool} : ∀ {l : List (Str × Option Str)} {s : Settings}
    {done : List (Str × Option Str)}, Described done s → ∀ {pre x post}, l = pre ++ x :: post → IsPath x.1 → (∀ y ∈ pre, Known t y.1) →
    (∀ (j : Nat) (k : Job), j < pathCount pre → (runItems t ok s l).1[j]? = some k → ok k = true) →
    pathCount pre < (runItems t ok s l).1.length := by
  intro l
  induction l with
  | nil => intro s done _ pre x post h; cases pre <;> cases h
  | cons y rest ih =>
    intro s done hd pre x post h hp hk hok
    have hy := item_step (t := t) hd y
    unfold runItems at hok ⊢
    cases pre with
    | nil =>
      cases h
      cases hs : itemStep t s y with
      | fail => rw [hs] at hy; exact absurd (.inl hp) hy
      | go s' => rw [hs] at hy; exact absurd hp hy.2.2
      | file s' =>
        dsimp only
        split
        · exact Nat.zero_lt_succ _
        · exact Nat.zero_lt_succ _
    | cons z pre =>
      cases h
      have hk' : ∀ y ∈ pre, Known t y.1 := fun a ha => hk a (List.mem_cons_of_mem _ ha)
      cases hs : itemStep t s y with
      | fail => rw [hs] at hy; exact absurd (hk y List.mem_cons_self) hy
      | go s' =>
        rw [hs] at hy hok
        rw [pathCount_cons, if_neg hy.2.2, Nat.zero_add] at hok ⊢
        exact ih hy.1 rfl hp hk' hok
      | file s' =>
        rw [hs] at hy hok
        rw [pathCount_cons, if_pos hy.2] at hok ⊢
        dsimp only at hok ⊢
        by_cases ho : ok { settings := s', path := y.1 } = true
        · rw [if_pos ho] at hok ⊢
          have := ih hy.1 rfl hp hk' (fun j k hj hj' => hok (j + 1) k (by omega) hj')
          show 1 + pathCount pre < (_ :: _).length
          rw [List.length_cons]
          omega
        · rw [if_neg ho] at hok
          exact absurd (hok 0 _ (by omega) rfl) ho

theorem runItems_success {t : ListTool} {ok : Job → Bool} : ∀ {l : List (Str × Option Str)} {s : Settings}
    {done : List (Str × Option Str)}, Described done s → ((runItems t ok s l).2 = true ↔
      (∀ x ∈ l, Known t x.1) ∧ ∀ k ∈ (runItems t ok s l).1, ok k = true) := by
  intro l
  induction l with
  | nil => intro s done _; simp [runItems]
  | cons x rest ih =>
    intro s done hd
    have hx := item_step (t := t) hd x
    unfold runItems
    cases hs : itemStep t s x with
    | fail =>
      rw [hs] at hx
      exact ⟨fun h => (by cases h), fun h => absurd (h.1 x List.mem_cons_self) hx⟩
    | go s' =>
      rw [hs] at hx
      dsimp only
      rw [ih hx.1, List.forall_mem_cons]
      exact ⟨fun h => ⟨⟨hx.2.1, h.1⟩, h.2⟩, fun h => ⟨h.1.2, h.2⟩⟩
    | file s' =>
      rw [hs] at hx
      dsimp only
      by_cases ho : ok { settings := s', path := x.1 } = true
      · rw [if_pos ho]
        dsimp only
        rw [ih hx.1, List.forall_mem_cons, List.forall_mem_cons]
        exact ⟨fun h => ⟨⟨.inl hx.2, h.1⟩, ho, h.2⟩, fun h => ⟨h.1.2, h.2.2⟩⟩
      · rw [if_neg ho]
        exact ⟨fun h => (by cases h), fun h => absurd (h.2 _ List.mem_cons_self) ho⟩

theorem listMain_items {t : ListTool} {ok : Job → Bool} {args : List Str} (h : args ≠ []) :
    listMain t ok args = runItems t ok {} (items t args) := by
  unfold listMain
  rw [if_neg h, runArgs_items]

/-- C103: the files that are opened are the paths of the command line in their order, each one with exactly the settings given in front of
it; everything in front of it is known and all files before could be processed. -/
theorem C103_jobs (t : ListTool) (ok : Job → Bool) (args : List Str) (i : Nat) (job : Job)
    (h : (listMain t ok args).1[i]? = some job) :
    ∃ pre v post, items t args = pre ++ (job.path, v) :: post ∧ IsPath job.path ∧ (∀ x ∈ pre, Known t x.1) ∧ pathCount pre = i ∧
      (∀ (j : Nat) (k : Job), j < i → (listMain t ok args).1[j]? = some k → ok k = true) ∧
      Described (pre ++ [(job.path, v)]) job.settings := by
  have hn : args ≠ [] := by rintro rfl; cases h
  rw [listMain_items hn] at h ⊢
  exact runItems_sound described_nil i job h

/-- C103: no path is left out, unless something unknown or a file that cannot be processed is in front of it. -/
theorem C103_complete (t : ListTool) (ok : Job → Bool) (args : List Str) (pre post : List (Str × Option Str)) (x : Str × Option Str)
    (h : items t args = pre ++ x :: post) (hp : IsPath x.1) (hk : ∀ y ∈ pre, Known t y.1)
    (hok : ∀ (j : Nat) (k : Job), j < pathCount pre → (listMain t ok args).1[j]? = some k → ok k = true) :
    pathCount pre < (listMain t ok args).1.length := by
  have hn : args ≠ [] := by rintro rfl; cases pre <;> cases h
  rw [listMain_items hn] at hok ⊢
  exact runItems_complete described_nil h hp hk hok

/-- C103: the program is successful iff there are arguments, all of them are known and all files could be processed. -/
theorem C103_success (t : ListTool) (ok : Job → Bool) (args : List Str) :
    (listMain t ok args).2 = true ↔
      args ≠ [] ∧ (∀ x ∈ items t args, Known t x.1) ∧ ∀ k ∈ (listMain t ok args).1, ok k = true := by
  by_cases hn : args = []
  · subst hn
    exact ⟨fun h => (by cases h), fun h => absurd rfl h.1⟩
  · rw [listMain_items hn, runItems_success described_nil]
    exact ⟨fun h => ⟨hn, h⟩, fun h => h.2⟩

/-! Examples: `hash a -vv -b /r -k b -x c` and `graph -f Mono -e a -v b`. -/

def exHash : List Str := ["a".toList, "-vv".toList, "-b".toList, "/r".toList, "-k".toList, "b".toList, "-x".toList, "c".toList]
def exGraph : List Str := ["-f".toList, "Mono".toList, "-e".toList, "a".toList, "-v".toList, "b".toList]

example : listMain .hash (fun _ => true) exHash = ([⟨{}, "a".toList⟩,
    ⟨{ keep := true, debug := true, base := some "/r".toList, verbose := 2 }, "b".toList⟩], false) := by decide

/-- `C103_jobs`: the second file. -/
example : ∃ pre v post, items .hash exHash = pre ++ ("b".toList, v) :: post ∧ pathCount pre = 1 := by
  obtain ⟨pre, v, post, h1, -, -, h4, -⟩ := C103_jobs .hash (fun _ => true) exHash 1
    ⟨{ keep := true, debug := true, base := some "/r".toList, verbose := 2 }, "b".toList⟩ (by decide)
  exact ⟨pre, v, post, h1, h4⟩

/-- `C103_complete`: the second file of the second command line. -/
example : 1 < (listMain .graph (fun _ => true) exGraph).1.length :=
  C103_complete .graph (fun _ => true) exGraph [("-f".toList, some "Mono".toList), ("-e".toList, none), ("a".toList, none),
    ("-v".toList, none)] [] ("b".toList, none) (by decide) (by decide)
    (fun y hy => by
      simp only [List.mem_cons, List.not_mem_nil, or_false] at hy
      rcases hy with rfl | rfl | rfl | rfl
      · exact .inr (.inl (.inr ⟨rfl, rfl⟩))
      · exact .inr (.inr (.inl ⟨'e', by decide, rfl⟩))
      · exact .inl (by decide)
      · exact .inr (.inr (.inr ⟨0, rfl⟩)))
    (fun _ _ _ _ => rfl)

/-- `C103_success`: both outcomes occur. -/
example : (listMain .graph (fun _ => true) exGraph).2 = true ∧ (listMain .hash (fun _ => true) exHash).2 = false := by decide

end Bean.Props

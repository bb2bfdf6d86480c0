import Verif.Spec.Tools
import Verif.Model.Map
/-
Command lines of the example programs (C75, C78).
-/
namespace Bean.Props
open Bean Bean.Spec

/-- Successful runs of the loop over the arguments. -/
inductive Parsed (t : Tool) : Cli → List Str → Cli → Prop
  | nil {c} : Parsed t c [] c
  | simple {c a f rest c'} : simpleOption t a = some f → Parsed t (f c) rest c' → Parsed t c (a :: rest) c'
  | last {c c'} : baseOption c none = .go c' → Parsed t c [['-', 'b']] c'
  | base {c v rest c₁ c'} : baseOption c (some v) = .go c₁ → Parsed t c₁ rest c' →
      Parsed t c (['-', 'b'] :: v :: rest) c'
  | other {c a rest c₁ c'} : simpleOption t a = none → a ≠ ['-', 'b'] → otherArg t c a = .ok (.go c₁) →
      Parsed t c₁ rest c' → Parsed t c (a :: rest) c'

theorem parsed (t : Tool) (args : List Str) (c c' : Cli) (h : parseArgs t c args = .ok (.go c')) : Parsed t c args c' := by
  fun_induction parseArgs t c args with
  | case1 c => injection h with h; injection h with h; subst h; exact .nil
  | case2 c a f hf => injection h with h; injection h with h; subst h; exact .simple hf .nil
  | case3 c hn => injection h with h; exact .last h
  | case4 c a hn hb => exact .other hn hb h .nil
  | case5 c a v rest f hf ih => exact .simple hf (ih h)
  | case6 c v rest c₁ hb hn ih => exact .base hb (ih h)
  | case7 c v rest hn hb => cases h
  | case8 c a v rest hn hb c₁ ho ih => exact .other hn hb ho (ih h)
  | case9 c a v rest hn hb ho => cases h
  | case10 c a v rest hn hb e ho => cases h

theorem letterI_ok {l : Str} {c c' : Cli} (h : letterI l c = .ok (.go c')) :
    c' = { c with mode := c.mode + l.length } ∧ (l ≠ [] → c'.mode ≤ 3) ∧ ∀ x ∈ l, x = 'i' := by
  induction l generalizing c with
  | nil => injection h with h; injection h with h; subst h; exact ⟨rfl, fun e => absurd rfl e, by simp⟩
  | cons x l ih =>
    simp only [letterI] at h
    split at h
    · next hx =>
      unfold nextMode at h
      split at h
      · next hm =>
        obtain ⟨h1, h2, h3⟩ := ih h
        refine ⟨?_, ?_, ?_⟩
        · rw [h1]; simp only [List.length_cons]
          congr 1; omega
        · intro _
          by_cases hl : l = []
          · subst hl; rw [h1]; simpa using hm
          · exact h2 hl
        · intro y hy
          rcases List.mem_cons.mp hy with rfl | hy
          · exact hx
          · exact h3 y hy
      · cases h
    · cases h

theorem letterV_ok {l : Str} {c c' : Cli} (h : letterV l c = .go c') :
    c' = { c with verbose := c.verbose + BitVec.ofNat 8 l.length } ∧ ∀ x ∈ l, x = 'v' := by
  induction l generalizing c with
  | nil => injection h with h; subst h; simp
  | cons x l ih =>
    simp only [letterV] at h
    split at h
    · next hx =>
      obtain ⟨h1, h2⟩ := ih h
      refine ⟨?_, ?_⟩
      · rw [h1]; simp only [List.length_cons]
        congr 1
        simp only [BitVec.ofNat_add]
        grind
      · intro y hy
        rcases List.mem_cons.mp hy with rfl | hy
        · exact hx
        · exact h2 y hy
    · cases h

/-- The settings that do not depend on the order of the arguments. -/
structure Effect (t : Tool) (c : Cli) (args : List Str) (c' : Cli) : Prop where
  deps : c'.deps = (c.deps || decide ("-d".toList ∈ options args))
  dbgsym : c'.dbgsym = (c.dbgsym || decide ("-s".toList ∈ options args))
  keep : c'.keep = (c.keep || decide ("-k".toList ∈ options args))
  resolve : c'.resolve = (c.resolve || decide ("-r".toList ∈ options args))
  reconstruct : c'.reconstruct = (c.reconstruct || decide ("-R".toList ∈ options args))
  attributes : c'.attributes = (c.attributes || decide ("-a".toList ∈ options args))
  trampolines : c'.trampolines = (c.trampolines || decide ("-t".toList ∈ options args))
  branches : c'.branches = (c.branches || decide ("-B".toList ∈ options args))
  onlyExec : c'.onlyExec = (c.onlyExec || decide ("-X".toList ∈ options args))
  mode : c'.mode = c.mode + modeLetters args

theorem options_one (a : Str) : options [a] = [a] := rfl

theorem options_cons {a : Str} (ha : a ≠ ['-', 'b']) (rest : List Str) : options (a :: rest) = a :: options rest := by
  cases rest with
  | nil => rfl
  | cons v rest => exact if_neg ha

theorem bases_cons {a : Str} (ha : a ≠ ['-', 'b']) (rest : List Str) : bases (a :: rest) = bases rest := by
  cases rest with
  | nil => rfl
  | cons v rest => exact if_neg ha

theorem options_base (v : Str) (rest : List Str) : options (['-', 'b'] :: v :: rest) = ['-', 'b'] :: options rest :=
  if_pos rfl

theorem bases_base (v : Str) (rest : List Str) : bases (['-', 'b'] :: v :: rest) = v :: bases rest := if_pos rfl

theorem or_decide_cons (b : Bool) (x a : Str) (l : List Str) :
    ((b || decide (x ∈ [a])) || decide (x ∈ l)) = (b || decide (x ∈ a :: l)) := by
  cases b <;> by_cases h1 : x = a <;> by_cases h2 : x ∈ l <;> simp [h1, h2]

/-- The effect of one argument followed by others. -/
theorem Effect.cons {t : Tool} {c c₁ c' : Cli} {args rest : List Str} {a : Str} (ho : options args = a :: options rest)
    (h : Effect t c [a] c₁) (h' : Effect t c₁ rest c') : Effect t c args c' := by
  have hs : options [a] = [a] := rfl
  constructor
  · rw [h'.deps, h.deps, ho, hs, or_decide_cons]
  · rw [h'.dbgsym, h.dbgsym, ho, hs, or_decide_cons]
  · rw [h'.keep, h.keep, ho, hs, or_decide_cons]
  · rw [h'.resolve, h.resolve, ho, hs, or_decide_cons]
  · rw [h'.reconstruct, h.reconstruct, ho, hs, or_decide_cons]
  · rw [h'.attributes, h.attributes, ho, hs, or_decide_cons]
  · rw [h'.trampolines, h.trampolines, ho, hs, or_decide_cons]
  · rw [h'.branches, h.branches, ho, hs, or_decide_cons]
  · rw [h'.onlyExec, h.onlyExec, ho, hs, or_decide_cons]
  · rw [h'.mode, h.mode]
    unfold modeLetters
    rw [ho, hs]
    by_cases hi : a.take 2 = "-i".toList
    · simp only [List.filter_cons, hi, decide_true, if_true, List.map_cons, List.sum_cons, List.filter_nil, List.map_nil,
        List.sum_nil]
      omega
    · simp only [List.filter_cons, hi, decide_false, Bool.false_eq_true, if_false, List.map_nil, List.sum_nil, List.filter_nil]
      omega

theorem simple_effect {t : Tool} {a : Str} {f : Cli → Cli} (h : simpleOption t a = some f) (c : Cli) :
    Effect t c [a] (f c) ∧ a ≠ ['-', 'b'] := by
  have fin : ∀ {g : Cli → Cli}, some g = some f → a ≠ ['-', 'b'] → Effect t c [a] (g c) → Effect t c [a] (f c) ∧ a ≠ ['-', 'b'] := by
    intro g e hb he
    have e : g = f := Option.some.inj e
    subst e
    exact ⟨he, hb⟩
  unfold simpleOption at h
  by_cases hc : a = ['-', 'd'] ∧ (t = .diff ∨ t = .diffstat ∨ t = .update)
  · rw [if_pos hc] at h
    exact fin h (by rcases hc with ⟨rfl, -⟩; decide) (by rcases hc with ⟨rfl, -⟩; constructor <;> simp [options, modeLetters])
  rw [if_neg hc] at h; clear hc
  by_cases hc : a = ['-', 's']
  · rw [if_pos hc] at h
    exact fin h (by subst hc; decide) (by subst hc; constructor <;> simp [options, modeLetters])
  rw [if_neg hc] at h; clear hc
  by_cases hc : a = ['-', 'n'] ∧ t = .map
  · rw [if_pos hc] at h
    exact fin h (by rcases hc with ⟨rfl, -⟩; decide) (by rcases hc with ⟨rfl, -⟩; constructor <;> simp [options, modeLetters])
  rw [if_neg hc] at h; clear hc
  by_cases hc : a = ['-', 'n'] ∧ t = .updateCode
  · rw [if_pos hc] at h
    exact fin h (by rcases hc with ⟨rfl, -⟩; decide) (by rcases hc with ⟨rfl, -⟩; constructor <;> simp [options, modeLetters])
  rw [if_neg hc] at h; clear hc
  by_cases hc : a = ['-', 't'] ∧ t = .updateCode
  · rw [if_pos hc] at h
    exact fin h (by rcases hc with ⟨rfl, -⟩; decide) (by rcases hc with ⟨rfl, -⟩; constructor <;> simp [options, modeLetters])
  rw [if_neg hc] at h; clear hc
  by_cases hc : a = ['-', 'B'] ∧ t = .updateCode
  · rw [if_pos hc] at h
    exact fin h (by rcases hc with ⟨rfl, -⟩; decide) (by rcases hc with ⟨rfl, -⟩; constructor <;> simp [options, modeLetters])
  rw [if_neg hc] at h; clear hc
  by_cases hc : a = ['-', 'X'] ∧ t = .updateCode
  · rw [if_pos hc] at h
    exact fin h (by rcases hc with ⟨rfl, -⟩; decide) (by rcases hc with ⟨rfl, -⟩; constructor <;> simp [options, modeLetters])
  rw [if_neg hc] at h; clear hc
  by_cases hc : a = ['-', 'k']
  · rw [if_pos hc] at h
    exact fin h (by subst hc; decide) (by subst hc; constructor <;> simp [options, modeLetters])
  rw [if_neg hc] at h; clear hc
  by_cases hc : a = ['-', 'r']
  · rw [if_pos hc] at h
    exact fin h (by subst hc; decide) (by subst hc; constructor <;> simp [options, modeLetters])
  rw [if_neg hc] at h; clear hc
  by_cases hc : a = ['-', 'R']
  · rw [if_pos hc] at h
    exact fin h (by subst hc; decide) (by subst hc; constructor <;> simp [options, modeLetters])
  rw [if_neg hc] at h; clear hc
  by_cases hc : a = ['-', 'a']
  · rw [if_pos hc] at h
    exact fin h (by subst hc; decide) (by subst hc; constructor <;> simp [options, modeLetters])
  rw [if_neg hc] at h; clear hc
  cases h

/-- An argument that is no simple option has no effect on the switches. -/
theorem plain_effect {t : Tool} {a : Str} {c c' : Cli} {n : Nat} (hc : c'.deps = c.deps ∧ c'.dbgsym = c.dbgsym ∧ c'.keep = c.keep ∧
    c'.resolve = c.resolve ∧ c'.reconstruct = c.reconstruct ∧ c'.attributes = c.attributes ∧ c'.trampolines = c.trampolines ∧
    c'.branches = c.branches ∧ c'.onlyExec = c.onlyExec ∧ c'.mode = c.mode + n) (hm : modeLetters [a] = n)
    (ha : a.head? ≠ some '-' ∨ a.take 2 = ['-', 'i'] ∨ a.take 2 = ['-', 'v'] ∨ a = ['-', 'b']) :
    Effect t c [a] c' := by
  obtain ⟨h1, h2, h3, h4, h5, h6, h7, h8, h9, h10⟩ := hc
  have key : ∀ x : Str, x ∈ ["-d".toList, "-s".toList, "-k".toList, "-r".toList, "-R".toList, "-a".toList, "-t".toList,
      "-B".toList, "-X".toList] → decide (x ∈ options [a]) = false := by
    intro x hx
    rw [decide_eq_false_iff_not]
    intro hm'
    have e : x = a := List.mem_singleton.mp hm'
    subst e
    clear hm hm'
    revert ha
    revert x
    decide
  constructor
  all_goals first
    | rw [h10, hm]
    | (simp only [h1, h2, h3, h4, h5, h6, h7, h8, h9]; rw [key _ (by decide), Bool.or_false])

theorem other_effect {t : Tool} {a : Str} {c c' : Cli} (h : otherArg t c a = .ok (.go c')) : Effect t c [a] c' := by
  unfold otherArg at h
  split at h
  · next hi =>
    obtain ⟨rfl, -, -⟩ := letterI_ok h
    refine plain_effect (n := a.tail.length) ⟨rfl, rfl, rfl, rfl, rfl, rfl, rfl, rfl, rfl, rfl⟩ ?_ (.inr (.inl hi))
    have hi' : a.take 2 = "-i".toList := hi
    simp [modeLetters, options, hi']
  · next hi =>
    have hm : modeLetters [a] = 0 := by
      unfold modeLetters
      rw [options_one, List.filter_cons, if_neg (by simpa using hi)]
      rfl
    split at h
    · next hv =>
      obtain ⟨rfl, -⟩ := letterV_ok (Except.ok.inj h)
      exact plain_effect (n := 0) ⟨rfl, rfl, rfl, rfl, rfl, rfl, rfl, rfl, rfl, rfl⟩ hm (.inr (.inr (.inl hv.1)))
    · split at h
      · cases h
      · next hd =>
        have e : ∃ o n, c' = { c with oldPath := o, newPath := n } := by
          split at h
          all_goals (injection h with h; injection h with h; subst h)
          · exact ⟨some a, c.newPath, rfl⟩
          · exact ⟨c.oldPath, some a, rfl⟩
          · exact ⟨c.oldPath, c.newPath, rfl⟩
        obtain ⟨o, n, rfl⟩ := e
        exact plain_effect (n := 0) ⟨rfl, rfl, rfl, rfl, rfl, rfl, rfl, rfl, rfl, rfl⟩ hm (.inl hd)

theorem base_effect {t : Tool} {c c' : Cli} {v : Option Str} (h : baseOption c v = .go c') : Effect t c [['-', 'b']] c' := by
  have e : ∃ o n, c' = { c with oldBase := o, newBase := n } := by
    unfold baseOption at h
    split at h
    all_goals first
      | cases h; done
      | (injection h with h; subst h)
    · exact ⟨v, c.newBase, rfl⟩
    · exact ⟨c.oldBase, v, rfl⟩
  obtain ⟨o, n, rfl⟩ := e
  exact plain_effect (n := 0) ⟨rfl, rfl, rfl, rfl, rfl, rfl, rfl, rfl, rfl, rfl⟩ rfl (.inr (.inr (.inr rfl)))

theorem parsed_effect {t : Tool} {c c' : Cli} {args : List Str} (h : Parsed t c args c') : Effect t c args c' := by
  induction h with
  | nil => constructor <;> simp [options, modeLetters]
  | simple hf _ ih =>
    obtain ⟨he, hb⟩ := simple_effect hf _
    exact he.cons (options_cons hb _) ih
  | last hb => exact base_effect hb
  | base hb _ ih => exact (base_effect hb).cons (options_base _ _) ih
  | other _ hb ho _ ih => exact (other_effect ho).cons (options_cons hb _) ih

/-- Settings given in order. -/
def inOrder (first second : Option Str) : List Str := first.toList ++ second.toList

/-- Directories, files and the use of names. -/
structure Places (t : Tool) (c : Cli) (args : List Str) (c' : Cli) : Prop where
  base : inOrder c'.oldBase c'.newBase = inOrder c.oldBase c.newBase ++ bases args
  path : inOrder c'.oldPath c'.newPath = (inOrder c.oldPath c.newPath ++ files args).take 2
  names : t = .updateCode → c'.names = (c.names || decide ("-n".toList ∈ options args))
  mapNames : t ≠ .updateCode → c.names = false → c'.names = false
  baseInv : (c.newBase.isSome → c.oldBase.isSome) → (c'.newBase.isSome → c'.oldBase.isSome)
  pathInv : (c.newPath.isSome → c.oldPath.isSome) → (c'.newPath.isSome → c'.oldPath.isSome)

theorem inOrder_length (a b : Option Str) : (inOrder a b).length ≤ 2 := by
  cases a <;> cases b <;> simp [inOrder]

theorem Places.cons {t : Tool} {c c₁ c' : Cli} {args rest : List Str} {a : Str} {vs : List Str}
    (ho : options args = a :: options rest) (hb : bases args = vs ++ bases rest)
    (h : Places t c [a] { c₁ with oldBase := c.oldBase, newBase := c.newBase })
    (hv : inOrder c₁.oldBase c₁.newBase = inOrder c.oldBase c.newBase ++ vs)
    (hi : (c.newBase.isSome → c.oldBase.isSome) → (c₁.newBase.isSome → c₁.oldBase.isSome))
    (h' : Places t c₁ rest c') : Places t c args c' := by
  constructor
  · rw [h'.base, hv, hb, List.append_assoc]
  · have hp := h.path
    have hf : files args = files [a] ++ files rest := by
      unfold files
      rw [ho, options_one, ← List.filter_append]
      rfl
    rw [h'.path, hf]
    change inOrder c₁.oldPath c₁.newPath = _ at hp
    rw [hp, ← List.append_assoc]
    generalize inOrder c.oldPath c.newPath ++ files [a] = l
    match l with
    | [] => rfl
    | [x] => rfl
    | x :: y :: l => simp
  · intro ht
    rw [h'.names ht, ho]
    have := h.names ht
    change c₁.names = _ at this
    rw [this, options_one, or_decide_cons]
  · intro ht hc
    exact h'.mapNames ht (h.mapNames ht hc)
  · exact fun hc => h'.baseInv (hi hc)
  · exact fun hc => h'.pathInv (h.pathInv hc)

theorem simple_places {t : Tool} {a : Str} {f : Cli → Cli} (h : simpleOption t a = some f) (c : Cli) :
    Places t c [a] (f c) ∧ (f c).oldBase = c.oldBase ∧ (f c).newBase = c.newBase ∧ (f c).mode = c.mode := by
  have fin : ∀ {g : Cli → Cli}, some g = some f → Places t c [a] (g c) ∧ (g c).oldBase = c.oldBase ∧ (g c).newBase = c.newBase ∧ (g c).mode = c.mode →
      Places t c [a] (f c) ∧ (f c).oldBase = c.oldBase ∧ (f c).newBase = c.newBase ∧ (f c).mode = c.mode := by
    intro g e he
    have e : g = f := Option.some.inj e
    subst e
    exact he
  have take2 : ∀ o n : Option Str, (inOrder o n ++ []).take 2 = inOrder o n := by
    intro o n; cases o <;> cases n <;> rfl
  unfold simpleOption at h
  by_cases hc : a = ['-', 'd'] ∧ (t = .diff ∨ t = .diffstat ∨ t = .update)
  · rw [if_pos hc] at h
    exact fin h (by
      rcases hc with ⟨rfl, ht⟩
      exact ⟨⟨by simp [bases], (take2 _ _).symm, by simp_all [options], by simp_all, fun h => h, fun h => h⟩, rfl, rfl, rfl⟩)
  rw [if_neg hc] at h; clear hc
  by_cases hc : a = ['-', 's']
  · rw [if_pos hc] at h
    exact fin h (by
      rcases hc with rfl
      exact ⟨⟨by simp [bases], (take2 _ _).symm, by simp_all [options], by simp_all, fun h => h, fun h => h⟩, rfl, rfl, rfl⟩)
  rw [if_neg hc] at h; clear hc
  by_cases hc : a = ['-', 'n'] ∧ t = .map
  · rw [if_pos hc] at h
    exact fin h (by
      rcases hc with ⟨rfl, ht⟩
      exact ⟨⟨by simp [bases], (take2 _ _).symm, by simp_all [options], by simp_all, fun h => h, fun h => h⟩, rfl, rfl, rfl⟩)
  rw [if_neg hc] at h; clear hc
  by_cases hc : a = ['-', 'n'] ∧ t = .updateCode
  · rw [if_pos hc] at h
    exact fin h (by
      rcases hc with ⟨rfl, ht⟩
      exact ⟨⟨by simp [bases], (take2 _ _).symm, by simp_all [options], by simp_all, fun h => h, fun h => h⟩, rfl, rfl, rfl⟩)
  rw [if_neg hc] at h; clear hc
  by_cases hc : a = ['-', 't'] ∧ t = .updateCode
  · rw [if_pos hc] at h
    exact fin h (by
      rcases hc with ⟨rfl, ht⟩
      exact ⟨⟨by simp [bases], (take2 _ _).symm, by simp_all [options], by simp_all, fun h => h, fun h => h⟩, rfl, rfl, rfl⟩)
  rw [if_neg hc] at h; clear hc
  by_cases hc : a = ['-', 'B'] ∧ t = .updateCode
  · rw [if_pos hc] at h
    exact fin h (by
      rcases hc with ⟨rfl, ht⟩
      exact ⟨⟨by simp [bases], (take2 _ _).symm, by simp_all [options], by simp_all, fun h => h, fun h => h⟩, rfl, rfl, rfl⟩)
  rw [if_neg hc] at h; clear hc
  by_cases hc : a = ['-', 'X'] ∧ t = .updateCode
  · rw [if_pos hc] at h
    exact fin h (by
      rcases hc with ⟨rfl, ht⟩
      exact ⟨⟨by simp [bases], (take2 _ _).symm, by simp_all [options], by simp_all, fun h => h, fun h => h⟩, rfl, rfl, rfl⟩)
  rw [if_neg hc] at h; clear hc
  by_cases hc : a = ['-', 'k']
  · rw [if_pos hc] at h
    exact fin h (by
      rcases hc with rfl
      exact ⟨⟨by simp [bases], (take2 _ _).symm, by simp_all [options], by simp_all, fun h => h, fun h => h⟩, rfl, rfl, rfl⟩)
  rw [if_neg hc] at h; clear hc
  by_cases hc : a = ['-', 'r']
  · rw [if_pos hc] at h
    exact fin h (by
      rcases hc with rfl
      exact ⟨⟨by simp [bases], (take2 _ _).symm, by simp_all [options], by simp_all, fun h => h, fun h => h⟩, rfl, rfl, rfl⟩)
  rw [if_neg hc] at h; clear hc
  by_cases hc : a = ['-', 'R']
  · rw [if_pos hc] at h
    exact fin h (by
      rcases hc with rfl
      exact ⟨⟨by simp [bases], (take2 _ _).symm, by simp_all [options], by simp_all, fun h => h, fun h => h⟩, rfl, rfl, rfl⟩)
  rw [if_neg hc] at h; clear hc
  by_cases hc : a = ['-', 'a']
  · rw [if_pos hc] at h
    exact fin h (by
      rcases hc with rfl
      exact ⟨⟨by simp [bases], (take2 _ _).symm, by simp_all [options], by simp_all, fun h => h, fun h => h⟩, rfl, rfl, rfl⟩)
  rw [if_neg hc] at h; clear hc
  cases h


theorem take_inOrder (o n : Option Str) : (inOrder o n ++ []).take 2 = inOrder o n := by
  cases o <;> cases n <;> rfl

theorem not_n {a : Str} (ha : a.head? ≠ some '-' ∨ a.take 2 = ['-', 'i'] ∨ a.take 2 = ['-', 'v'] ∨ a = ['-', 'b']) :
    decide ("-n".toList ∈ options [a]) = false := by
  rw [decide_eq_false_iff_not, options_one]
  intro hm
  have e : "-n".toList = a := List.mem_singleton.mp hm
  subst e
  revert ha
  decide

theorem files_dash {a : Str} (ha : a.head? = some '-') : files [a] = [] := by
  unfold files
  rw [options_one, List.filter_cons, if_neg (by simpa using ha)]
  rfl

theorem files_plain {a : Str} (ha : a.head? ≠ some '-') : files [a] = [a] := by
  unfold files
  rw [options_one, List.filter_cons, if_pos (by simpa using ha)]
  rfl

theorem head_of_take {a : Str} {x y : Char} (h : a.take 2 = [x, y]) : a.head? = some x := by
  match a, h with
  | [], h => cases h
  | [_], h => cases h
  | p :: q :: r, h =>
    simp only [List.take_succ_cons, List.take_zero, List.cons.injEq] at h
    simp [h.1]

theorem other_places {t : Tool} {a : Str} {c c' : Cli} (h : otherArg t c a = .ok (.go c')) :
    ((c.newPath.isSome → c.oldPath.isSome) → Places t c [a] c') ∧ c'.oldBase = c.oldBase ∧ c'.newBase = c.newBase := by
  unfold otherArg at h
  split at h
  · next hi =>
    obtain ⟨rfl, -, -⟩ := letterI_ok h
    refine ⟨fun _ => ⟨(List.append_nil _).symm, ?_, fun _ => ?_, fun _ h => h, fun h => h, fun h => h⟩, rfl, rfl⟩
    · rw [files_dash (head_of_take hi), take_inOrder]
    · rw [not_n (.inr (.inl hi)), Bool.or_false]
  · split at h
    · next hv =>
      obtain ⟨rfl, -⟩ := letterV_ok (Except.ok.inj h)
      refine ⟨fun _ => ⟨(List.append_nil _).symm, ?_, fun _ => ?_, fun _ h => h, fun h => h, fun h => h⟩, rfl, rfl⟩
      · rw [files_dash (head_of_take hv.1), take_inOrder]
      · rw [not_n (.inr (.inr (.inl hv.1))), Bool.or_false]
    · split at h
      · cases h
      · next hd =>
        have hn := not_n (.inl hd)
        cases ho : c.oldPath with
        | none =>
          rw [ho] at h
          injection h with h; injection h with h; subst h
          refine ⟨fun hinv => ⟨(List.append_nil _).symm, ?_, fun _ => ?_, fun _ h => h, fun h => h, fun _ _ => rfl⟩, rfl, rfl⟩
          · have e : c.newPath = none := by
              cases he : c.newPath with
              | none => rfl
              | some x => have := hinv (by rw [he]; rfl); cases this
            rw [files_plain hd, ho, e]; rfl
          · rw [hn, Bool.or_false]
        | some o =>
          cases hp : c.newPath with
          | none =>
            rw [ho, hp] at h
            injection h with h; injection h with h; subst h
            refine ⟨fun hinv => ⟨(List.append_nil _).symm, ?_, fun _ => ?_, fun _ h => h, fun h => h, fun _ _ => ?_⟩, rfl, rfl⟩
            · rw [files_plain hd, ho, hp]; rfl
            · rw [hn, Bool.or_false]
            · rfl
          | some n =>
            rw [ho, hp] at h
            injection h with h; injection h with h; subst h
            refine ⟨fun hinv => ⟨(List.append_nil _).symm, ?_, fun _ => ?_, fun _ h => h, fun h => h, fun h => h⟩, rfl, rfl⟩
            · rw [files_plain hd, ho, hp]; rfl
            · rw [hn, Bool.or_false]

theorem base_places {t : Tool} {c c' : Cli} {v : Option Str} (h : baseOption c v = .go c')
    (hinv : c.newBase.isSome → c.oldBase.isSome) :
    Places t c [['-', 'b']] { c' with oldBase := c.oldBase, newBase := c.newBase } ∧
    inOrder c'.oldBase c'.newBase = inOrder c.oldBase c.newBase ++ v.toList ∧ (c'.newBase.isSome → c'.oldBase.isSome) := by
  have hn : decide ("-n".toList ∈ options [['-', 'b']]) = false := by decide
  unfold baseOption at h
  cases ho : c.oldBase with
  | none =>
    have e : c.newBase = none := by
      cases he : c.newBase with
      | none => rfl
      | some x => have := hinv (by rw [he]; rfl); rw [ho] at this; cases this
    rw [ho] at h
    injection h with h; subst h
    refine ⟨⟨?_, ?_, fun _ => ?_, fun _ h => h, ?_, fun h => h⟩, ?_, ?_⟩
    · rw [ho]; exact (List.append_nil _).symm
    · rw [files_dash rfl, take_inOrder]
    · rw [hn, Bool.or_false]
    · rw [ho]; exact fun h => h
    · rw [e]; cases v <;> rfl
    · rw [e]; exact fun h => (by cases h)
  | some o =>
    cases hp : c.newBase with
    | none =>
      rw [ho, hp] at h
      injection h with h; subst h
      refine ⟨⟨?_, ?_, fun _ => ?_, fun _ h => h, ?_, fun h => h⟩, ?_, ?_⟩
      · rw [ho, hp]; exact (List.append_nil _).symm
      · rw [files_dash rfl, take_inOrder]
      · rw [hn, Bool.or_false]
      · rw [ho, hp]; exact fun h => h
      · cases v <;> rfl
      · intro _; rfl
    | some n => rw [ho, hp] at h; cases h

theorem parsed_places {t : Tool} {c c' : Cli} {args : List Str} (h : Parsed t c args c')
    (hb : c.newBase.isSome → c.oldBase.isSome) (hp : c.newPath.isSome → c.oldPath.isSome) : Places t c args c' := by
  induction h with
  | nil =>
    exact ⟨(List.append_nil _).symm, (take_inOrder _ _).symm, fun _ => by simp [options], fun _ h => h, fun h => h, fun h => h⟩
  | @simple c a f rest c' hf _ ih =>
    obtain ⟨hs, e1, e2, -⟩ := simple_places hf c
    have hne := (simple_effect hf c).2
    refine Places.cons (vs := []) (options_cons hne _) (bases_cons hne _) ?_ ?_ ?_ (ih ?_ (hs.pathInv hp))
    · rw [← e1, ← e2]; exact hs
    · rw [e1, e2, List.append_nil]
    · rw [e1, e2]; exact fun h => h
    · rw [e1, e2]; exact hb
  | @last c c' hbase =>
    obtain ⟨hs, e1, e2⟩ := base_places (t := t) hbase hb
    exact ⟨e1, hs.path, hs.names, hs.mapNames, fun _ => e2, hs.pathInv⟩
  | @base c v rest c₁ c' hbase _ ih =>
    obtain ⟨hs, e1, e2⟩ := base_places (t := t) hbase hb
    exact Places.cons (vs := [v]) (options_base _ _) (bases_base _ _) hs e1 (fun _ => e2) (ih e2 (hs.pathInv hp))
  | @other c a rest c₁ c' _ hne ho _ ih =>
    obtain ⟨hs, e1, e2⟩ := other_places ho
    have hs := hs hp
    refine Places.cons (vs := []) (options_cons hne _) (bases_cons hne _) ?_ ?_ ?_ (ih ?_ (hs.pathInv hp))
    · rw [← e1, ← e2]; exact hs
    · rw [e1, e2, List.append_nil]
    · rw [e1, e2]; exact fun h => h
    · rw [e1, e2]; exact hb

/-- The first and the second of settings given in order. -/
theorem inOrder_get {o n : Option Str} {l : List Str} (h : inOrder o n = l) (hinv : n.isSome → o.isSome) :
    o = l[0]? ∧ n = l[1]? := by
  subst h
  cases o <;> cases n
  · exact ⟨rfl, rfl⟩
  · exact absurd (hinv rfl) (by simp)
  · exact ⟨rfl, rfl⟩
  · exact ⟨rfl, rfl⟩

theorem parsed_mode {t : Tool} {c c' : Cli} {args : List Str} (h : Parsed t c args c') (hm : c.mode ≤ 3) : c'.mode ≤ 3 := by
  induction h with
  | nil => exact hm
  | simple hf _ ih => exact ih (by rw [(simple_places hf _).2.2.2]; exact hm)
  | last hb => rw [(base_effect (t := t) hb).mode]; exact hm
  | base hb _ ih => exact ih (by rw [(base_effect (t := t) hb).mode]; exact hm)
  | @other c a rest c₁ c' _ hb ho _ ih =>
    refine ih ?_
    unfold otherArg at ho
    split at ho
    · next hi =>
      have hne : a.tail ≠ [] := by
        match a, hi with
        | [], h => cases h
        | [_], h => cases h
        | _ :: _ :: _, _ => simp
      exact (letterI_ok ho).2.1 hne
    · split at ho
      · obtain ⟨rfl, -⟩ := letterV_ok (Except.ok.inj ho)
        exact hm
      · split at ho
        · cases ho
        · split at ho
          all_goals (injection ho with ho; injection ho with ho; subst ho; exact hm)

theorem letterI_error {l : Str} {c : Cli} {e : Fault} (h : letterI l c = .error e) : 3 < c.mode + l.length := by
  induction l generalizing c with
  | nil => cases h
  | cons x l ih =>
    simp only [letterI] at h
    split at h
    · unfold nextMode at h
      split at h
      · have := ih h
        simp only [List.length_cons]
        change 3 < c.mode + 1 + l.length at this
        omega
      · simp only [List.length_cons]; omega
    · cases h

theorem otherArg_error {t : Tool} {c : Cli} {a : Str} {e : Fault} (h : otherArg t c a = .error e) :
    3 < c.mode + modeLetters [a] := by
  unfold otherArg at h
  split at h
  · next hi =>
    have := letterI_error h
    have hi' : a.take 2 = "-i".toList := hi
    simpa [modeLetters, options, hi'] using this
  · split at h
    · cases h
    · split at h
      · cases h
      · split at h <;> cases h

theorem modeLetters_cons {args rest : List Str} {a : Str} (ho : options args = a :: options rest) :
    modeLetters args = modeLetters [a] + modeLetters rest := by
  unfold modeLetters
  rw [ho, options_one]
  simp only [List.filter_cons, List.filter_nil]
  split <;> simp

theorem parse_error {t : Tool} {args : List Str} {c : Cli} {e : Fault} (h : parseArgs t c args = .error e) :
    3 < c.mode + modeLetters args := by
  fun_induction parseArgs t c args with
  | case1 c => cases h
  | case2 c a f hf => cases h
  | case3 c hn => cases h
  | case4 c a hn hb => exact otherArg_error h
  | case5 c a v rest f hf ih =>
    rw [modeLetters_cons (options_cons (simple_effect hf c).2 _)]
    have := ih h
    rw [(simple_effect hf c).1.mode] at this
    omega
  | case6 c v rest c₁ hb hn ih =>
    rw [modeLetters_cons (options_base _ _)]
    have := ih h
    rw [(base_effect (t := t) hb).mode] at this
    omega
  | case7 c v rest hn hb => cases h
  | case8 c a v rest hn hb c₁ ho ih =>
    rw [modeLetters_cons (options_cons hb _)]
    have := ih h
    rw [(other_effect ho).mode] at this
    omega
  | case9 c a v rest hn hb ho => cases h
  | case10 c a v rest hn hb e' ho =>
    rw [modeLetters_cons (options_cons hb _)]
    have := otherArg_error ho
    omega

/-! ### C75 -/

/-- C75: the settings after a successful run of the loop over the arguments are those of the options, in any order: each
switch is set iff its option is given, the comparison mode is the number of letters of the options `-i`, and the first two
arguments without dash are the files, the first two values of `-b` the directories. -/
theorem C75_settings (t : Tool) (args : List Str) (c : Cli) (h : parseArgs t {} args = .ok (.go c)) :
    (c.deps = true ↔ "-d".toList ∈ options args) ∧ (c.dbgsym = true ↔ "-s".toList ∈ options args)
    ∧ (c.keep = true ↔ "-k".toList ∈ options args) ∧ (c.resolve = true ↔ "-r".toList ∈ options args)
    ∧ (c.reconstruct = true ↔ "-R".toList ∈ options args) ∧ (c.attributes = true ↔ "-a".toList ∈ options args)
    ∧ (c.trampolines = true ↔ "-t".toList ∈ options args) ∧ (c.branches = true ↔ "-B".toList ∈ options args)
    ∧ (c.onlyExec = true ↔ "-X".toList ∈ options args)
    ∧ c.mode = modeLetters args ∧ c.mode ≤ 3
    ∧ c.oldPath = (files args)[0]? ∧ c.newPath = (files args)[1]?
    ∧ c.oldBase = (bases args)[0]? ∧ c.newBase = (bases args)[1]? ∧ (bases args).length ≤ 2 := by
  have hp := parsed t args {} c h
  have he := parsed_effect hp
  have hl := parsed_places hp (fun h => h) (fun h => h)
  have hb := inOrder_get hl.base (hl.baseInv (fun h => h))
  have hq := inOrder_get hl.path (hl.pathInv (fun h => h))
  have hlen := inOrder_length c.oldBase c.newBase
  rw [hl.base] at hlen
  refine ⟨?_, ?_, ?_, ?_, ?_, ?_, ?_, ?_, ?_, ?_, parsed_mode hp (by decide), ?_, ?_, hb.1, hb.2, hlen⟩
  · rw [he.deps, Bool.false_or, decide_eq_true_eq]
  · rw [he.dbgsym, Bool.false_or, decide_eq_true_eq]
  · rw [he.keep, Bool.false_or, decide_eq_true_eq]
  · rw [he.resolve, Bool.false_or, decide_eq_true_eq]
  · rw [he.reconstruct, Bool.false_or, decide_eq_true_eq]
  · rw [he.attributes, Bool.false_or, decide_eq_true_eq]
  · rw [he.trampolines, Bool.false_or, decide_eq_true_eq]
  · rw [he.branches, Bool.false_or, decide_eq_true_eq]
  · rw [he.onlyExec, Bool.false_or, decide_eq_true_eq]
  · rw [he.mode]; exact Nat.zero_add _
  · rw [hq.1]; exact List.getElem?_take_of_lt (by decide)
  · rw [hq.2]; exact List.getElem?_take_of_lt (by decide)

/-- arguments in mixed order -/
example : parseArgs .diff {} ["-vv".toList, "old".toList, "-b".toList, "-d".toList, "-ii".toList, "new".toList, "-r".toList] =
    .ok (.go { resolve := true, mode := 2, verbose := 2, oldBase := some "-d".toList, oldPath := some "old".toList,
               newPath := some "new".toList }) := rfl

/-- C75 (the documented forms): with a single option `-i`, `-ii` or `-iii`, the programs use the mode with this number. What
is missing in general are other uses of the option, see `C75_counterexample`. -/
theorem C75_mode_partial (t : Tool) (args : List Str) (c : Cli) (h : parseArgs t {} args = .ok (.go c)) (k : Nat)
    (hk : (options args).filter (fun a => a.take 2 = "-i".toList) = [modeOption k]) : c.mode = k := by
  rw [(C75_settings t args c h).2.2.2.2.2.2.2.2.2.1]
  unfold modeLetters
  rw [hk]
  simp [modeOption]

/-- the three options -/
example : (options ["a".toList, "-iii".toList, "b".toList]).filter (fun a => a.take 2 = "-i".toList) = [modeOption 3] := by
  decide

/-- C75: the behaviour is defined if the options have up to three letters `i` in total. -/
theorem C75_defined (t : Tool) (args : List Str) (h : modeLetters args ≤ 3) : ∃ r, parseArgs t {} args = .ok r := by
  cases hr : parseArgs t {} args with
  | ok r => exact ⟨r, rfl⟩
  | error e =>
    have := parse_error hr
    change 3 < 0 + modeLetters args at this
    omega

example : modeLetters ["-i".toList, "old".toList, "-ii".toList, "new".toList] = 3 := by decide

/-- C75 fails for further letters: neither an error message nor a mode, but a value outside of the enumeration. -/
theorem C75_counterexample (t : Tool) :
    parseArgs t {} ["-iiii".toList, "old".toList, "new".toList] = .error .ub
    ∧ parseArgs t {} ["-iii".toList, "-i".toList, "old".toList, "new".toList] = .error .ub := by
  cases t <;> exact ⟨rfl, rfl⟩

/-- C75: the programs go on iff there are two files or two directories: with two directories also without any file, which
is then opened although its name is a null pointer. -/
theorem C75_files (t : Tool) (args : List Str) (e : CliEnd) (h : parseArgs t {} args = .ok e) :
    startsWith e = true ↔ e ≠ .failure ∧ (2 ≤ (files args).length ∨ 2 ≤ (bases args).length) := by
  cases e with
  | failure => simp [startsWith]
  | go c =>
    obtain ⟨-, -, -, -, -, -, -, -, -, -, -, -, h1, -, h2, -⟩ := C75_settings t args c h
    unfold startsWith
    simp only [h1, h2, Bool.or_eq_true, Option.isSome_iff_ne_none, List.getElem?_eq_none_iff, ne_eq, reduceCtorEq, not_false_eq_true, true_and]
    omega

/-- two directories and no file -/
example : (parseArgs .update {} ["-b".toList, "a".toList, "-b".toList, "b".toList]) =
    .ok (.go { oldBase := some "a".toList, newBase := some "b".toList }) := rfl

/-! ### C78 -/

/-- C78: bean-map does not use symbol names, with or without the option `-n`. -/
theorem C78_map_names (args : List Str) (c : Cli) (h : parseArgs .map {} args = .ok (.go c)) : c.names = false :=
  (parsed_places (parsed _ args {} c h) (fun h => h) (fun h => h)).mapNames (by decide) rfl

/-- C78: bean-update-code uses symbol names iff the option `-n` is given, which is documented as "ignore symbol names". -/
theorem C78_update_names (args : List Str) (c : Cli) (h : parseArgs .updateCode {} args = .ok (.go c)) :
    c.names = true ↔ "-n".toList ∈ options args := by
  rw [(parsed_places (parsed _ args {} c h) (fun h => h) (fun h => h)).names rfl, Bool.false_or, decide_eq_true_eq]

/-- both programs with the option -/
example : parseArgs .map {} ["-n".toList, "old".toList, "new".toList] =
      .ok (.go { oldPath := some "old".toList, newPath := some "new".toList })
    ∧ parseArgs .updateCode {} ["-n".toList, "old".toList, "new".toList] =
      .ok (.go { names := true, oldPath := some "old".toList, newPath := some "new".toList }) := ⟨rfl, rfl⟩

end Bean.Props

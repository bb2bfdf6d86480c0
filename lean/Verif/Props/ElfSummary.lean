import Verif.Spec.ElfSummary
import Verif.Lemmas.PySortKey
import Verif.Props.ElfTables
import Verif.Props.DwarfVars
/-
Functions of a summary (C98).
-/
namespace Bean.Props
open Bean Bean.Spec

/-! ### Exported functions -/

theorem plainName_iff {s n : Str} : plainName s = n ↔ NameOf s n := by
  unfold plainName NameOf
  induction s generalizing n with
  | nil =>
    constructor
    · rintro rfl
      exact ⟨by simp, Or.inl rfl⟩
    · rintro ⟨_, h | ⟨v, h⟩⟩
      · rw [← h]; rfl
      · simp at h
  | cons c s ih =>
    by_cases hc : c = '@'
    · subst hc
      rw [List.takeWhile_cons_of_neg (by simp)]
      constructor
      · rintro rfl
        exact ⟨by simp, Or.inr ⟨s, rfl⟩⟩
      · rintro ⟨h1, h | ⟨v, h⟩⟩
        · rw [← h] at h1; simp at h1
        · cases n with
          | nil => rfl
          | cons d n =>
            rw [List.cons_append] at h
            cases h
            simp at h1
    · rw [List.takeWhile_cons_of_pos (by simpa using hc)]
      cases n with
      | nil =>
        refine ⟨fun h => (by cases h), ?_⟩
        rintro ⟨_, h | ⟨v, h⟩⟩
        · cases h
        · rw [List.nil_append] at h
          cases h
          exact absurd rfl hc
      | cons d n =>
        constructor
        · intro h
          cases h
          obtain ⟨h1, h2⟩ := (ih (n := s.takeWhile (fun c => c != '@'))).mp rfl
          refine ⟨by simp [Ne.symm hc, h1], ?_⟩
          rcases h2 with h2 | ⟨v, h2⟩
          · exact Or.inl (by rw [← h2])
          · exact Or.inr ⟨v, by rw [List.cons_append, ← h2]⟩
        · rintro ⟨h1, h2⟩
          have h1' : '@' ∉ n := fun h => h1 (List.mem_cons_of_mem _ h)
          rcases h2 with h2 | ⟨v, h2⟩
          · cases h2
            rw [ih.mpr ⟨h1', Or.inl rfl⟩]
          · rw [List.cons_append] at h2
            cases h2
            rw [ih.mpr ⟨h1', Or.inr ⟨v, rfl⟩⟩]

/-- Order of pairs. -/
def PairLt (a b : Str × Int) : Prop := a.1 < b.1 ∨ (a.1 = b.1 ∧ a.2 < b.2)

theorem strict_pair : StrictTotal PairLt where
  irrefl := by
    rintro a (h | ⟨_, h⟩)
    · exact str_irrefl _ h
    · omega
  trans := by
    rintro a b c (h | ⟨h1, h⟩) (h' | ⟨h1', h'⟩)
    · exact Or.inl (str_trans h h')
    · exact Or.inl (h1' ▸ h)
    · exact Or.inl (h1 ▸ h')
    · exact Or.inr ⟨h1.trans h1', by omega⟩
  total := by
    rintro ⟨a1, a2⟩ ⟨b1, b2⟩ h h'
    unfold PairLt at h h'
    simp only [not_or, not_and] at h h'
    have e := str_eq h.1 h'.1
    subst e
    have := h.2 rfl
    have := h'.2 rfl
    have e : a2 = b2 := by omega
    rw [e]

theorem comparePair_by : ComparesBy PairLt id comparePair := by
  rintro ⟨a1, a2⟩ ⟨b1, b2⟩
  unfold comparePair PairLt
  dsimp only [id]
  by_cases h : a1 = b1
  · rw [if_pos h]
    subst h
    constructor
    · exact fun h => Or.inr ⟨rfl, by omega⟩
    · rintro (h | ⟨_, h⟩)
      · exact absurd h (str_irrefl _)
      · omega
  · rw [if_neg h, strcmp_neg]
    exact ⟨Or.inl, fun h' => h'.elim id (fun h' => absurd h'.1 h)⟩

theorem foldl_setAdd {β : Type} [DecidableEq β] (l : List β) : l.foldl setAdd [] = setUnion [] l := rfl

theorem functionNames_mem {ss : List TableSym} {n : Str} {a : Int} : (n, a) ∈ functionNames ss ↔ Exports ss n a := by
  unfold functionNames Exports
  rw [(pySorted_perm comparePair _).mem_iff, foldl_setAdd, setUnion_mem, List.mem_map]
  constructor
  · rintro (h | ⟨s, h1, h2⟩)
    · cases h
    · obtain ⟨h3, h4⟩ := List.mem_filter.mp h1
      obtain ⟨f1, f2, f3, f4, f5⟩ := of_decide_eq_true h4
      cases h2
      exact ⟨s, h3, plainName_iff.mp rfl, rfl, f5, f2, f4, f3, f1⟩
  · rintro ⟨s, h1, h2, h3, h4, h5, h6, h7, h8⟩
    refine Or.inr ⟨s, List.mem_filter.mpr ⟨h1, decide_eq_true ⟨h8, h5, h7, h6, h3 ▸ h4⟩⟩, ?_⟩
    rw [plainName_iff.mpr h2, h3]

/-- C98: the functions of the symbol table are the exported ones, in order and each of them once. -/
theorem C98_exported (ss : List TableSym) :
    (∀ n a, (n, a) ∈ functionNames ss ↔ Exports ss n a) ∧
      (functionNames ss).Pairwise (fun x y => x.1 < y.1 ∨ (x.1 = y.1 ∧ x.2 < y.2)) := by
  refine ⟨fun n a => functionNames_mem, ?_⟩
  have h1 := pySorted_keyed strict_pair comparePair_by
    (((ss.filter (fun s => decide (isFunction s))).map (fun s => (plainName s.name, s.value))).foldl setAdd [])
  have h2 : (functionNames ss).Nodup := by
    unfold functionNames
    rw [(pySorted_perm comparePair _).nodup_iff, foldl_setAdd]
    exact setUnion_nodup List.nodup_nil
  refine (List.pairwise_and_iff.mpr ⟨h1, h2⟩).imp ?_
  rintro a b ⟨h, hne⟩
  exact Classical.byContradiction fun h' => hne (strict_pair.total a b h' h)

theorem functionNames_perm {ss ss' : List TableSym} (h : ss.Perm ss') : functionNames ss = functionNames ss' := by
  unfold functionNames
  refine pySorted_keyed_perm strict_pair comparePair_by ?_ (fun a _ b _ h => h)
  rw [foldl_setAdd, foldl_setAdd]
  refine (List.perm_ext_iff_of_nodup (setUnion_nodup List.nodup_nil) (setUnion_nodup List.nodup_nil)).mpr fun x => ?_
  rw [setUnion_mem, setUnion_mem]
  exact or_congr Iff.rfl ((h.filter _).map _).mem_iff

theorem strcmp_by : ComparesBy (fun a b : Str => a < b) id strcmp := fun _ _ => strcmp_neg

theorem strcmp_fst_by : ComparesBy (fun a b : Str => a < b) (fun e : Str × Str => e.1) (fun a b => strcmp a.1 b.1) := fun _ _ => strcmp_neg

/-- C98: the order of the symbol table makes no difference for the functions of a summary. -/
theorem C98_order (ss ss' : List TableSym) (h : ss.Perm ss') (debug : Option (List FuncInfo)) :
    summaryFunctions ss debug = summaryFunctions ss' debug := by
  cases debug with
  | none => unfold summaryFunctions; dsimp only; rw [functionNames_perm h]
  | some fs => unfold summaryFunctions; dsimp only; rw [functionNames_perm h]

/-- C98: without debug information the names of the exported functions are listed, in order. -/
theorem C98_names (ss : List TableSym) :
    (∀ n, n ∈ summaryFunctions ss none ↔ ∃ a, Exports ss n a) ∧ (summaryFunctions ss none).Pairwise (fun x y => ¬ y < x) := by
  constructor
  · intro n
    show n ∈ pySorted strcmp ((functionNames ss).map (·.1)) ↔ _
    rw [(pySorted_perm strcmp _).mem_iff, List.mem_map]
    constructor
    · rintro ⟨⟨n', a⟩, h1, rfl⟩
      exact ⟨a, functionNames_mem.mp h1⟩
    · rintro ⟨a, h⟩
      exact ⟨(n, a), functionNames_mem.mpr h, rfl⟩
  · exact pySorted_keyed strict_str strcmp_by _

/-- Two names of a function, another function with a version, a local and a missing one. -/
def exFuncSyms : List TableSym :=
  [⟨"memcpy".toList, .index 1, .func, true, 0x1100, 40⟩, ⟨"__memcpy".toList, .index 1, .func, true, 0x1100, 40⟩,
   ⟨"open@@V2".toList, .index 1, .func, true, 0x1200, 16⟩, ⟨"helper".toList, .index 1, .func, false, 0x1300, 16⟩,
   ⟨"malloc".toList, .undef, .func, true, 0, 0⟩]

example : functionNames exFuncSyms = [("__memcpy".toList, 0x1100), ("memcpy".toList, 0x1100), ("open".toList, 0x1200)] := by decide +kernel

example : Exports exFuncSyms "open".toList 0x1200 := (C98_exported exFuncSyms).1 _ _ |>.mp (by decide +kernel)

example : "open".toList ∈ summaryFunctions exFuncSyms none := ((C98_names exFuncSyms).1 _).mpr
  ⟨0x1200, (C98_exported exFuncSyms).1 _ _ |>.mp (by decide +kernel)⟩

example : summaryFunctions exFuncSyms none = summaryFunctions exFuncSyms.reverse none :=
  C98_order _ _ (List.reverse_perm _).symm none

/-! ### Declarations -/

/-- What is entered for a function, if anything. -/
def protoOf (filter : List (Str × Int)) (f : FuncInfo) : Option Str :=
  if filter = [] then some (protoText f.ret f.name f.params)
  else (filter.find? (fun e => decide (f.name = e.1 ∨ f.addr = e.2))).map (fun e => protoText f.ret e.1 f.params)

theorem declare_eq (filter : List (Str × Int)) (d : List (Str × Str)) (f : FuncInfo) :
    declare filter d f = match protoOf filter f with
      | some v => dictSet d f.name v
      | none => d := by
  unfold declare protoOf
  by_cases h : filter = []
  · rw [if_pos h, if_pos h]
  · rw [if_neg h, if_neg h]
    cases filter.find? (fun e => decide (f.name = e.1 ∨ f.addr = e.2)) <;> rfl

/-- Keys of a dictionary are unique. -/
def KeysOnce (d : List (Str × Str)) : Prop := (d.map (·.1)).Nodup

theorem dictSet_keys {d : List (Str × Str)} (h : KeysOnce d) (k v : Str) : KeysOnce (dictSet d k v) := by
  unfold dictSet KeysOnce at *
  split
  · have : (d.map (fun e => if e.1 = k then (k, v) else e)).map (·.1) = d.map (·.1) := by
      rw [List.map_map]
      apply List.map_congr_left
      intro e _
      dsimp only [Function.comp_apply]
      split
      · rename_i h; exact h.symm
      · rfl
    rw [this]
    exact h
  · rename_i hn
    rw [List.map_append, List.nodup_append]
    refine ⟨h, by simp, ?_⟩
    intro a ha b hb e
    rw [List.map_cons, List.map_nil, List.mem_singleton] at hb
    rw [List.mem_map] at ha
    obtain ⟨x, hx, rfl⟩ := ha
    apply hn
    rw [List.any_eq_true]
    exact ⟨x, hx, by rw [e, hb]; simp⟩

theorem dictSet_mem {d : List (Str × Str)} (k v : Str) (x w : Str) :
    (x, w) ∈ dictSet d k v ↔ (x = k ∧ w = v) ∨ (x ≠ k ∧ (x, w) ∈ d) := by
  unfold dictSet
  split
  · rename_i h
    obtain ⟨e0, h0, h1⟩ := List.any_eq_true.mp h
    have h1 : e0.1 = k := by simpa using h1
    rw [List.mem_map]
    constructor
    · rintro ⟨e, h2, h3⟩
      by_cases hc : e.1 = k
      · rw [if_pos hc] at h3
        cases h3
        exact Or.inl ⟨rfl, rfl⟩
      · rw [if_neg hc] at h3
        subst h3
        exact Or.inr ⟨hc, h2⟩
    · rintro (⟨rfl, rfl⟩ | ⟨h2, h3⟩)
      · exact ⟨e0, h0, if_pos h1⟩
      · exact ⟨(x, w), h3, if_neg h2⟩
  · rename_i h
    have h : ∀ e ∈ d, e.1 ≠ k := by
      intro e he hk
      exact h (List.any_eq_true.mpr ⟨e, he, by simpa using hk⟩)
    rw [List.mem_append, List.mem_singleton]
    constructor
    · rintro (h1 | h1)
      · exact Or.inr ⟨h _ h1, h1⟩
      · cases h1
        exact Or.inl ⟨rfl, rfl⟩
    · rintro (⟨rfl, rfl⟩ | ⟨_, h2⟩)
      · exact Or.inr rfl
      · exact Or.inl h2

theorem declareAll_keys (filter : List (Str × Int)) (fs : List FuncInfo) {d : List (Str × Str)} (h : KeysOnce d) :
    KeysOnce (fs.foldl (declare filter) d) := by
  induction fs generalizing d with
  | nil => exact h
  | cons f fs ih =>
    apply ih
    rw [declare_eq]
    split
    · exact dictSet_keys h _ _
    · exact h

/-- The last declaration of a name counts. -/
theorem declareAll_mem (filter : List (Str × Int)) (fs : List FuncInfo) (d : List (Str × Str)) (k v : Str) :
    (k, v) ∈ fs.foldl (declare filter) d ↔
      (∃ pre f post, fs = pre ++ f :: post ∧ f.name = k ∧ protoOf filter f = some v ∧ ∀ g ∈ post, g.name = k → protoOf filter g = none) ∨
        ((k, v) ∈ d ∧ ∀ g ∈ fs, g.name = k → protoOf filter g = none) := by
  induction fs generalizing d with
  | nil =>
    constructor
    · exact fun h => Or.inr ⟨h, fun g hg => by cases hg⟩
    · rintro (⟨pre, f, post, h, _⟩ | ⟨h, _⟩)
      · simp at h
      · exact h
  | cons f fs ih =>
    rw [List.foldl_cons, ih, declare_eq]
    constructor
    · rintro (⟨pre, g, post, h1, h2⟩ | ⟨h1, h2⟩)
      · exact Or.inl ⟨f :: pre, g, post, by rw [h1]; rfl, h2⟩
      · cases hp : protoOf filter f with
        | none =>
          rw [hp] at h1
          refine Or.inr ⟨h1, fun g hg hn => ?_⟩
          rcases List.mem_cons.mp hg with rfl | hg
          · exact hp
          · exact h2 g hg hn
        | some w =>
          rw [hp] at h1
          rcases (dictSet_mem _ _ _ _).mp h1 with ⟨h3, h4⟩ | ⟨h3, h4⟩
          · exact Or.inl ⟨[], f, fs, rfl, h3.symm, by rw [hp, h4], h2⟩
          · refine Or.inr ⟨h4, fun g hg hn => ?_⟩
            rcases List.mem_cons.mp hg with rfl | hg
            · exact absurd hn.symm h3
            · exact h2 g hg hn
    · rintro (⟨pre, g, post, h1, h2, h3, h4⟩ | ⟨h1, h2⟩)
      · cases pre with
        | nil =>
          rw [List.nil_append] at h1
          cases h1
          refine Or.inr ⟨?_, h4⟩
          rw [h3]
          exact (dictSet_mem _ _ _ _).mpr (Or.inl ⟨h2.symm, rfl⟩)
        | cons x pre =>
          rw [List.cons_append] at h1
          cases h1
          exact Or.inl ⟨pre, g, post, rfl, h2, h3, h4⟩
      · refine Or.inr ⟨?_, fun g hg => h2 g (List.mem_cons_of_mem _ hg)⟩
        cases hp : protoOf filter f with
        | none => exact h1
        | some w =>
          refine (dictSet_mem _ _ _ _).mpr (Or.inr ⟨fun e => ?_, h1⟩)
          rw [h2 f List.mem_cons_self e.symm] at hp
          cases hp

theorem functionsDebug_mem {filter : List (Str × Int)} {fs : List FuncInfo} {t : Str} :
    t ∈ functionsDebug filter fs ↔ ∃ k, (k, t) ∈ fs.foldl (declare filter) [] := by
  unfold functionsDebug
  rw [List.mem_map]
  constructor
  · rintro ⟨⟨k, v⟩, h1, rfl⟩
    exact ⟨k, (pySorted_perm _ _).mem_iff.mp h1⟩
  · rintro ⟨k, h⟩
    exact ⟨(k, t), (pySorted_perm _ _).mem_iff.mpr h, rfl⟩

theorem protoText_prototype (f : FuncInfo) (n : Str) : Prototype f n (protoText f.ret n f.params) := by
  unfold Prototype protoText
  simp

theorem last_of {fs : List FuncInfo} {p : FuncInfo → Prop} (h : ∃ f ∈ fs, p f) :
    ∃ pre f post, fs = pre ++ f :: post ∧ p f ∧ ∀ g ∈ post, ¬ p g := by
  induction fs with
  | nil => obtain ⟨_, h, _⟩ := h; cases h
  | cons x xs ih =>
    by_cases hx : ∃ f ∈ xs, p f
    · obtain ⟨pre, f, post, h1, h2⟩ := ih hx
      exact ⟨x :: pre, f, post, by rw [h1]; rfl, h2⟩
    · obtain ⟨f, h1, h2⟩ := h
      rcases List.mem_cons.mp h1 with rfl | h1
      · exact ⟨[], f, xs, rfl, h2, fun g hg hp => hx ⟨g, hg, hp⟩⟩
      · exact absurd ⟨f, h1, h2⟩ hx

/-- C98: the declaration of an exported function is listed. Missing: functions of which another name is exported for the same address (aliases),
and names with several different declarations (see `C98_alias` and `C98_last`). -/
theorem C98_declared_partial (ss : List TableSym) (fs : List FuncInfo) (f : FuncInfo) (a : Int) (hf : f ∈ fs) (he : Exports ss f.name a)
    (hu : ∀ g ∈ fs, g.name = f.name → g.ret = f.ret ∧ g.params = f.params ∧ ∀ n, Exports ss n g.addr → n = f.name) :
    ∃ t ∈ summaryFunctions ss (some fs), Prototype f f.name t := by
  refine ⟨_, ?_, protoText_prototype f f.name⟩
  have hne : functionNames ss ≠ [] := by
    intro h
    have := functionNames_mem.mpr he
    rw [h] at this
    cases this
  have hp : ∀ g ∈ fs, g.name = f.name → protoOf (functionNames ss) g = some (protoText f.ret f.name f.params) := by
    intro g hg hn
    obtain ⟨u1, u2, u3⟩ := hu g hg hn
    unfold protoOf
    rw [if_neg hne]
    cases hx : (functionNames ss).find? (fun e => decide (g.name = e.1 ∨ g.addr = e.2)) with
    | none =>
      have := List.find?_eq_none.mp hx _ (functionNames_mem.mpr he)
      exact absurd (decide_eq_true (Or.inl hn)) this
    | some e =>
      obtain ⟨n, b⟩ := e
      have h1 := List.find?_some hx
      have h2 := List.mem_of_find?_eq_some hx
      have h3 : n = f.name := by
        rcases of_decide_eq_true h1 with h | h
        · exact h.symm.trans hn
        · exact u3 n (by rw [h]; exact functionNames_mem.mp h2)
      show some (protoText g.ret n g.params) = _
      rw [u1, u2, h3]
  refine functionsDebug_mem.mpr ⟨f.name, (declareAll_mem _ _ _ _ _).mpr (Or.inl ?_)⟩
  obtain ⟨pre, g, post, h1, h2, h3⟩ := last_of (p := fun g => g.name = f.name) ⟨f, hf, rfl⟩
  exact ⟨pre, g, post, h1, h2, hp g (by rw [h1]; simp) h2, fun x hx hn => absurd hn (h3 x hx)⟩

/-- C98: conversely each declaration that is listed is the one of a function of the debug information under a name that is exported for
its name or address, or nothing is exported at all. -/
theorem C98_listed (ss : List TableSym) (fs : List FuncInfo) (t : Str) (h : t ∈ summaryFunctions ss (some fs)) :
    ∃ f ∈ fs, ∃ n, Prototype f n t ∧ ((∃ a, Exports ss n a ∧ (n = f.name ∨ a = f.addr)) ∨ (n = f.name ∧ ∀ m a, ¬ Exports ss m a)) := by
  obtain ⟨k, h⟩ := functionsDebug_mem.mp h
  rcases (declareAll_mem _ _ _ _ _).mp h with ⟨pre, f, post, h1, h2, h3, _⟩ | ⟨h1, _⟩
  · refine ⟨f, by rw [h1]; simp, ?_⟩
    unfold protoOf at h3
    by_cases hc : functionNames ss = []
    · rw [if_pos hc] at h3
      cases h3
      refine ⟨f.name, protoText_prototype f _, Or.inr ⟨rfl, fun m a hm => ?_⟩⟩
      have := functionNames_mem.mpr hm
      rw [hc] at this
      cases this
    · rw [if_neg hc] at h3
      obtain ⟨⟨n, a⟩, h4, h5⟩ := Option.map_eq_some_iff.mp h3
      cases h5
      refine ⟨n, protoText_prototype f _, Or.inl ⟨a, functionNames_mem.mp (List.mem_of_find?_eq_some h4), ?_⟩⟩
      have h6 := List.find?_some h4
      exact (of_decide_eq_true h6).imp Eq.symm Eq.symm
  · cases h1

/-- C98: the order of the debug information makes no difference as long as functions of the same name have the same declaration and address. -/
theorem C98_debug_order_partial (ss : List TableSym) (fs fs' : List FuncInfo) (h : fs.Perm fs')
    (hu : ∀ f ∈ fs, ∀ g ∈ fs, f.name = g.name → f.ret = g.ret ∧ f.params = g.params ∧ f.addr = g.addr) :
    summaryFunctions ss (some fs) = summaryFunctions ss (some fs') := by
  have hp : ∀ f ∈ fs, ∀ g ∈ fs, f.name = g.name → protoOf (functionNames ss) f = protoOf (functionNames ss) g := by
    intro f hf g hg hn
    obtain ⟨h1, h2, h3⟩ := hu f hf g hg hn
    unfold protoOf
    rw [hn, h1, h2, h3]
  have key : ∀ {l : List FuncInfo}, (∀ x, x ∈ l ↔ x ∈ fs) → ∀ k v, (k, v) ∈ l.foldl (declare (functionNames ss)) [] ↔
      ∃ f ∈ fs, f.name = k ∧ protoOf (functionNames ss) f = some v := by
    intro l hl k v
    rw [declareAll_mem]
    constructor
    · rintro (⟨pre, f, post, h1, h2, h3, _⟩ | ⟨h1, _⟩)
      · exact ⟨f, (hl f).mp (by rw [h1]; simp), h2, h3⟩
      · cases h1
    · rintro ⟨f, h1, h2, h3⟩
      obtain ⟨pre, g, post, g1, g2, g3⟩ := last_of (fs := l) (p := fun g => g.name = k) ⟨f, (hl f).mpr h1, h2⟩
      refine Or.inl ⟨pre, g, post, g1, g2, ?_, fun x hx hn => absurd hn (g3 x hx)⟩
      rw [hp g ((hl g).mp (by rw [g1]; simp)) f h1 (by rw [g2, h2])]
      exact h3
  show functionsDebug _ _ = functionsDebug _ _
  unfold functionsDebug
  rw [pySorted_keyed_perm strict_str strcmp_fst_by (l' := fs'.foldl (declare (functionNames ss)) [])]
  · have n1 : (fs.foldl (declare (functionNames ss)) []).Nodup :=
      List.Pairwise.of_map _ (fun a b hab e => hab (by rw [e])) (declareAll_keys (functionNames ss) fs (d := []) List.nodup_nil)
    have n2 : (fs'.foldl (declare (functionNames ss)) []).Nodup :=
      List.Pairwise.of_map _ (fun a b hab e => hab (by rw [e])) (declareAll_keys (functionNames ss) fs' (d := []) List.nodup_nil)
    refine (List.perm_ext_iff_of_nodup n1 n2).mpr ?_
    rintro ⟨k, v⟩
    rw [key (fun _ => Iff.rfl), key (fun x => h.mem_iff.symm)]
  · rintro ⟨k, v⟩ ha ⟨k', v'⟩ hb e
    dsimp only at e
    subst e
    obtain ⟨f, f1, f2, f3⟩ := (key (fun _ => Iff.rfl) _ _).mp ha
    obtain ⟨g, g1, g2, g3⟩ := (key (fun _ => Iff.rfl) _ _).mp hb
    have := hp f f1 g g1 (by rw [f2, g2])
    rw [f3, g3] at this
    cases this
    rfl

/-- Functions of the debug information for `exFuncSyms`. -/
def exFuncs : List FuncInfo :=
  [⟨"open".toList, 0x1200, "4 byte signed".toList, "1 byte signed*".toList, []⟩, ⟨"memcpy".toList, 0x1100, "*".toList, "*, *, 8 byte unsigned".toList, []⟩]

theorem exFuncs_open (n : Str) (h : Exports exFuncSyms n 0x1200) : n = "open".toList := by
  have h := functionNames_mem.mpr h
  rw [show functionNames exFuncSyms = [("__memcpy".toList, 0x1100), ("memcpy".toList, 0x1100), ("open".toList, 0x1200)] from by decide +kernel] at h
  simp only [List.mem_cons, Prod.mk.injEq, List.not_mem_nil, or_false] at h
  rcases h with ⟨_, h⟩ | ⟨_, h⟩ | ⟨h, _⟩
  · omega
  · omega
  · exact h

example : ∃ t ∈ summaryFunctions exFuncSyms (some exFuncs), Prototype ⟨"open".toList, 0x1200, "4 byte signed".toList, "1 byte signed*".toList, []⟩ "open".toList t := by
  refine C98_declared_partial exFuncSyms exFuncs _ 0x1200 List.mem_cons_self (functionNames_mem.mp (by decide +kernel)) ?_
  intro g hg hn
  rcases List.mem_cons.mp hg with rfl | hg
  · exact ⟨rfl, rfl, exFuncs_open⟩
  · rcases List.mem_cons.mp hg with rfl | hg
    · exact absurd hn (by decide)
    · cases hg

example : summaryFunctions exFuncSyms (some exFuncs) =
    ["* __memcpy(*, *, 8 byte unsigned)".toList, "4 byte signed open(1 byte signed*)".toList] := by decide +kernel

example : ∃ f ∈ exFuncs, ∃ n, Prototype f n "* __memcpy(*, *, 8 byte unsigned)".toList ∧
    ((∃ a, Exports exFuncSyms n a ∧ (n = f.name ∨ a = f.addr)) ∨ (n = f.name ∧ ∀ m a, ¬ Exports exFuncSyms m a)) :=
  C98_listed _ _ _ (by decide +kernel)

example : summaryFunctions exFuncSyms (some exFuncs) = summaryFunctions exFuncSyms (some exFuncs.reverse) :=
  C98_debug_order_partial _ _ _ (List.reverse_perm _).symm (by decide +kernel)

/-- The declaration of `memcpy` is not listed although it is exported: the first name for its address counts. -/
theorem C98_alias : ∃ ss fs f a, f ∈ fs ∧ Exports ss f.name a ∧ f.addr = a ∧ ∀ t ∈ summaryFunctions ss (some fs), ¬ Prototype f f.name t := by
  refine ⟨exFuncSyms, exFuncs, ⟨"memcpy".toList, 0x1100, "*".toList, "*, *, 8 byte unsigned".toList, []⟩, 0x1100, by simp [exFuncs],
    functionNames_mem.mp (by decide +kernel), rfl, ?_⟩
  unfold Prototype
  decide +kernel

/-- With two functions of a name the last one counts, so the order of the debug information makes a difference. -/
theorem C98_last : ∃ ss fs fs', fs.Perm fs' ∧ summaryFunctions ss (some fs) ≠ summaryFunctions ss (some fs') :=
  ⟨exFuncSyms, [⟨"open".toList, 0x1200, "void".toList, [], []⟩, ⟨"open".toList, 0x5000, "*".toList, [], []⟩],
    [⟨"open".toList, 0x5000, "*".toList, [], []⟩, ⟨"open".toList, 0x1200, "void".toList, [], []⟩], List.Perm.swap _ _ _, by decide +kernel⟩

/-- An exported function without debug information (as from assembler code) does not count if there is debug information for others. -/
theorem C98_missing : ∃ ss s fs, (∃ a, Exports (s :: ss) s.name a) ∧ (∀ a, ¬ Exports ss s.name a) ∧
    summaryFunctions (s :: ss) (some fs) = summaryFunctions ss (some fs) ∧ fs ≠ [] ∧ summaryFunctions ss (some fs) ≠ [] := by
  refine ⟨exFuncSyms, ⟨"memset".toList, .index 1, .func, true, 0x1400, 16⟩, exFuncs, ⟨0x1400, functionNames_mem.mp (by decide +kernel)⟩,
    fun a h => ?_, by decide +kernel, by decide, by decide +kernel⟩
  obtain ⟨s, h1, h2, _⟩ := h
  exact absurd (plainName_iff.mpr h2) ((show ∀ s ∈ exFuncSyms, plainName s.name ≠ "memset".toList from by decide +kernel) s h1)

/-- C98, no functions: without debug information the summary is without a hash of functions iff the file exports no function. -/
theorem C98_absent (ss : List TableSym) : functionsText (summaryFunctions ss none) = none ↔ ¬ ∃ n a, Exports ss n a := by
  have h := (C98_names ss).1
  unfold functionsText
  constructor
  · intro e ⟨n, a, hn⟩
    have hm := (h n).mpr ⟨a, hn⟩
    split at e
    · next e' =>
      rw [e'] at hm
      cases hm
    · cases e
  · intro hn
    rw [if_pos]
    exact List.eq_nil_iff_forall_not_mem.mpr (fun n hm => hn ⟨n, (h n).mp hm⟩)

/-- The names are hashed without anything between them, so different exports can have the same hash. -/
theorem C98_ambiguous : ∃ ss ss', (¬ ∃ n, (∃ a, Exports ss n a) ∧ ∃ a, Exports ss' n a) ∧
    functionsText (summaryFunctions ss none) = functionsText (summaryFunctions ss' none) ∧ functionsText (summaryFunctions ss none) ≠ none := by
  refine ⟨[⟨"a".toList, .index 1, .func, true, 0x1100, 4⟩, ⟨"bc".toList, .index 1, .func, true, 0x1200, 4⟩],
    [⟨"ab".toList, .index 1, .func, true, 0x1100, 4⟩, ⟨"c".toList, .index 1, .func, true, 0x1200, 4⟩], ?_, by decide +kernel, by decide +kernel⟩
  rintro ⟨n, h1, h2⟩
  replace h1 := ((C98_names _).1 n).mpr h1
  replace h2 := ((C98_names _).1 n).mpr h2
  revert h2
  revert h1
  revert n
  decide +kernel

/-! ### Another base address -/

/-- Functions that only differ in their address: absent, or moved. -/
inductive MovedFuncs (k : Int) : List FuncInfo → List FuncInfo → Prop where
  | nil : MovedFuncs k [] []
  | cons {f f' : FuncInfo} {fs fs' : List FuncInfo} (h : f' = f ∧ f.addr = 0 ∨ f' = { f with addr := f.addr + k }) (r : MovedFuncs k fs fs') :
      MovedFuncs k (f :: fs) (f' :: fs')

theorem funcInfo_move (o : TypeOpts) (k : Int) (d : FuncDie) (n : Str) (ret : Option TypeInfo) (ps : List TypeInfo) :
    funcInfo o (moveFunc k d) n ret ps = funcInfo o d n ret ps ∧ (funcInfo o d n ret ps).addr = 0 ∨
      funcInfo o (moveFunc k d) n ret ps = { funcInfo o d n ret ps with addr := (funcInfo o d n ret ps).addr + k } := by
  unfold moveFunc funcInfo
  cases d.low_pc with
  | none => exact Or.inl ⟨rfl, rfl⟩
  | some a => exact Or.inr rfl

theorem listFuncs_move {o : TypeOpts} {dies : Dies} {n : Nat} {only : Bool} (k : Int) {m m' : TypeMemo} {ds : List FuncDie} {fs : List FuncInfo}
    (h : listFuncs o dies n only m ds = .ok (fs, m')) :
    ∃ fs', listFuncs o dies n only m (ds.map (moveFunc k)) = .ok (fs', m') ∧ MovedFuncs k fs fs' := by
  induction ds generalizing m fs with
  | nil => cases h; exact ⟨[], rfl, .nil⟩
  | cons d ds ih =>
    rw [listFuncs] at h
    rw [List.map_cons, listFuncs]
    rw [show funcEligible only (moveFunc k d) = funcEligible only d from rfl]
    cases h1 : funcEligible only d with
    | none => rw [h1] at h; exact ih h
    | some name =>
      rw [h1] at h
      dsimp only at h ⊢
      rw [show resultType o dies n m (moveFunc k d) = resultType o dies n m d from rfl,
        show (moveFunc k d).children = d.children from rfl]
      cases h2 : resultType o dies n m d with
      | error e => rw [h2] at h; cases h
      | ok x =>
        obtain ⟨ret, m1⟩ := x
        rw [h2] at h
        dsimp only at h ⊢
        cases h3 : paramTypes o dies n m1 d.children with
        | error e => rw [h3] at h; cases h
        | ok x =>
          obtain ⟨ps, m2⟩ := x
          rw [h3] at h
          dsimp only at h ⊢
          cases h4 : listFuncs o dies n only m2 ds with
          | error e => rw [h4] at h; cases h
          | ok x =>
            obtain ⟨gs, m3⟩ := x
            rw [h4] at h
            cases h
            obtain ⟨gs', g1, g2⟩ := ih h4
            rw [g1]
            exact ⟨_, rfl, .cons (funcInfo_move o k d name ret ps) g2⟩

theorem functionNames_move (k : Int) (ss : List TableSym)
    (hz : ∀ s ∈ ss, s.shndx ≠ .undef → s.type = .func → s.value ≠ 0 ∧ s.value + k ≠ 0) :
    functionNames (ss.map (moveSym k)) = (functionNames ss).map (fun e => (e.1, e.2 + k)) := by
  have e1 : ((ss.map (moveSym k)).filter (fun s => decide (isFunction s))).map (fun s => (plainName s.name, s.value)) =
      ((ss.filter (fun s => decide (isFunction s))).map (fun s => (plainName s.name, s.value))).map (fun e => (e.1, e.2 + k)) := by
    induction ss with
    | nil => rfl
    | cons s ss ih =>
      have ih := ih (fun x hx => hz x (List.mem_cons_of_mem _ hx))
      have hs := hz s List.mem_cons_self
      rw [List.map_cons, List.filter_cons, List.filter_cons]
      by_cases hf : isFunction s
      · have ht : moveSym k s = { s with value := s.value + k } := if_neg (by rw [hf.2.1]; decide)
        have hf' : isFunction (moveSym k s) := by
          rw [ht]
          exact ⟨hf.1, hf.2.1, hf.2.2.1, hf.2.2.2.1, (hs hf.1 hf.2.1).2⟩
        rw [if_pos (decide_eq_true hf), if_pos (decide_eq_true hf'), List.map_cons, List.map_cons, List.map_cons, ih, ht]
      · have hf' : ¬ isFunction (moveSym k s) := by
          intro h
          unfold moveSym at h
          split at h
          · exact hf h
          · exact hf ⟨h.1, h.2.1, h.2.2.1, h.2.2.2.1, (hs h.1 h.2.1).1⟩
        rw [if_neg (by simpa using hf'), if_neg (by simpa using hf), ih]
  have e2 : ∀ (l acc : List (Str × Int)), (l.map (fun e => (e.1, e.2 + k))).foldl setAdd (acc.map (fun e => (e.1, e.2 + k))) =
      (l.foldl setAdd acc).map (fun e => (e.1, e.2 + k)) := by
    intro l
    induction l with
    | nil => exact fun _ => rfl
    | cons x l ih =>
      intro acc
      rw [List.map_cons, List.foldl_cons, List.foldl_cons, ← ih]
      congr 1
      unfold setAdd
      have : (x.1, x.2 + k) ∈ acc.map (fun e => (e.1, e.2 + k)) ↔ x ∈ acc := by
        rw [List.mem_map]
        constructor
        · rintro ⟨y, h1, h2⟩
          obtain ⟨a1, a2⟩ := Prod.mk.inj h2
          have : y = x := Prod.ext a1 (by omega)
          rwa [← this]
        · exact fun h => ⟨x, h, rfl⟩
      by_cases h : x ∈ acc
      · rw [if_pos h, if_pos (this.mpr h)]
      · rw [if_neg h, if_neg (fun h' => h (this.mp h')), List.map_append]
        rfl
  unfold functionNames
  rw [e1, show ([] : List (Str × Int)) = [].map (fun e : Str × Int => (e.1, e.2 + k)) from rfl, e2]
  refine pySorted_map _ ?_ _
  rintro ⟨a1, a2⟩ ⟨b1, b2⟩
  unfold comparePair
  dsimp only
  split
  · omega
  · rfl

theorem protoOf_move {k : Int} {filter : List (Str × Int)} (hz : ∀ e ∈ filter, e.2 ≠ 0 ∧ e.2 + k ≠ 0) {f f' : FuncInfo}
    (h : f' = f ∧ f.addr = 0 ∨ f' = { f with addr := f.addr + k }) :
    protoOf (filter.map (fun e => (e.1, e.2 + k))) f' = protoOf filter f := by
  have hn : f'.name = f.name ∧ f'.ret = f.ret ∧ f'.params = f.params := by
    rcases h with ⟨rfl, _⟩ | rfl <;> exact ⟨rfl, rfl, rfl⟩
  unfold protoOf
  rw [hn.1, hn.2.1, hn.2.2]
  by_cases hc : filter = []
  · rw [if_pos hc, if_pos (by rw [hc]; rfl)]
  · rw [if_neg hc, if_neg (by simpa using hc), List.find?_map]
    rw [Option.map_map]
    clear hc
    induction filter with
    | nil => rfl
    | cons e es ih =>
      have := hz e List.mem_cons_self
      have he : decide (f.name = e.1 ∨ f'.addr = e.2 + k) = decide (f.name = e.1 ∨ f.addr = e.2) := by
        refine decide_eq_decide.mpr (or_congr Iff.rfl ?_)
        rcases h with ⟨rfl, h0⟩ | rfl
        · rw [h0]
          omega
        · dsimp only
          omega
      rw [List.find?_cons, List.find?_cons]
      dsimp only [Function.comp_apply]
      rw [he]
      split
      · rfl
      · exact ih (fun e he => hz e (List.mem_cons_of_mem _ he))

/-- C98: the base address of a file makes no difference for the functions of a summary. -/
theorem C98_base (k : Int) (ss : List TableSym) (hz : ∀ s ∈ ss, s.shndx ≠ .undef → s.type = .func → s.value ≠ 0 ∧ s.value + k ≠ 0) :
    summaryFunctions (ss.map (moveSym k)) none = summaryFunctions ss none ∧
    ∀ (o : TypeOpts) (dies : Dies) (n : Nat) (m m' : TypeMemo) (ds : List FuncDie) (fs : List FuncInfo),
      listFuncs o dies n true m ds = .ok (fs, m') → ∃ fs', listFuncs o dies n true m (ds.map (moveFunc k)) = .ok (fs', m') ∧
        summaryFunctions (ss.map (moveSym k)) (some fs') = summaryFunctions ss (some fs) := by
  have hf := functionNames_move k ss hz
  constructor
  · show pySorted strcmp ((functionNames _).map (·.1)) = pySorted strcmp ((functionNames _).map (·.1))
    rw [hf, List.map_map]
    rfl
  · intro o dies n m m' ds fs h
    obtain ⟨fs', h1, h2⟩ := listFuncs_move k h
    refine ⟨fs', h1, ?_⟩
    show functionsDebug _ _ = functionsDebug _ _
    unfold functionsDebug
    have hz' : ∀ e ∈ functionNames ss, e.2 ≠ 0 ∧ e.2 + k ≠ 0 := by
      rintro ⟨nm, a⟩ he
      obtain ⟨s, s1, _, s3, s4, s5, _, _, s8⟩ := functionNames_mem.mp he
      have := hz s s1 s8 s5
      rw [s3] at this
      exact this
    rw [hf]
    have : ∀ d, fs'.foldl (declare ((functionNames ss).map (fun e => (e.1, e.2 + k)))) d = fs.foldl (declare (functionNames ss)) d := by
      clear h h1
      induction h2 with
      | nil => exact fun _ => rfl
      | cons h _ ih =>
        intro d
        rw [List.foldl_cons, List.foldl_cons, ih, declare_eq, declare_eq, protoOf_move hz' h]
        rcases h with ⟨rfl, _⟩ | rfl <;> rfl
    rw [this]

example : summaryFunctions (exFuncSyms.map (moveSym 0x400000)) none = summaryFunctions exFuncSyms none :=
  (C98_base 0x400000 exFuncSyms (by decide +kernel)).1

/-! ### Functions of the debug information -/

theorem joinText_eq (l : List Str) : joinText l = ", ".toList.intercalate l := by
  induction l with
  | nil => rfl
  | cons a l ih =>
    cases l with
    | nil => simp [joinText, List.intercalate]
    | cons b l =>
      rw [joinText, ih]
      simp [List.intercalate, List.intersperse]

theorem paramTypes_right {o : TypeOpts} {dies : Dies} {n : Nat} {m m' : TypeMemo} {cs : List Nat} {ts : List TypeInfo} (hm : RightMemo o dies m)
    (h : paramTypes o dies n m cs = .ok (ts, m')) :
    RightMemo o dies m' ∧ ∃ ps : List Nat, List.Sublist ps cs ∧ (∀ c ∈ cs, IsParam dies c → c ∈ ps) ∧ (∀ c ∈ ps, IsParam dies c) ∧
      ts.length = ps.length ∧ ∀ (i : Nat) c t, ps[i]? = some c → ts[i]? = some t → HasType o dies c true t := by
  induction cs generalizing m ts with
  | nil =>
    cases h
    exact ⟨hm, [], List.Sublist.slnil, fun c hc => (by cases hc), fun c hc => (by cases hc), rfl, fun i c t hi => by cases hi⟩
  | cons c cs ih =>
    rw [paramTypes] at h
    cases hd : dies c with
    | none => rw [hd] at h; cases h
    | some child =>
      rw [hd] at h
      dsimp only at h
      by_cases ht : child.tag = "formal_parameter".toList
      · rw [if_pos ht] at h
        cases hg : getType o dies n m c true with
        | error e => rw [hg] at h; cases h
        | ok x =>
          obtain ⟨t, m1⟩ := x
          rw [hg] at h
          dsimp only at h
          obtain ⟨g1, g2⟩ := getType_right n m c true t m1 hm hg
          cases hp : paramTypes o dies n m1 cs with
          | error e => rw [hp] at h; cases h
          | ok x =>
            obtain ⟨ts', m2⟩ := x
            rw [hp] at h
            cases h
            obtain ⟨h1, ps, h2, h3, h4, h5, h6⟩ := ih g1 hp
            refine ⟨h1, c :: ps, h2.cons_cons c, ?_, ?_, by rw [List.length_cons, List.length_cons, h5], ?_⟩
            · intro x hx hxp
              rcases List.mem_cons.mp hx with rfl | hx
              · exact List.mem_cons_self
              · exact List.mem_cons_of_mem _ (h3 x hx hxp)
            · intro x hx
              rcases List.mem_cons.mp hx with rfl | hx
              · exact ⟨child, hd, ht⟩
              · exact h4 x hx
            · intro i x y hi hj
              cases i with
              | zero => cases hi; cases hj; exact g2
              | succ i => exact h6 i x y hi hj
      · rw [if_neg ht] at h
        obtain ⟨h1, ps, h2, h3, h4⟩ := ih hm h
        refine ⟨h1, ps, h2.cons c, ?_, h4⟩
        intro x hx hxp
        rcases List.mem_cons.mp hx with rfl | hx
        · obtain ⟨d, d1, d2⟩ := hxp
          rw [hd] at d1
          cases d1
          exact absurd d2 ht
        · exact h3 x hx hxp

theorem resultType_right {o : TypeOpts} {dies : Dies} {n : Nat} {m m' : TypeMemo} {d : FuncDie} {r : Option TypeInfo} (hm : RightMemo o dies m)
    (h : resultType o dies n m d = .ok (r, m')) :
    RightMemo o dies m' ∧ (∀ t, d.type = some t → dies t ≠ none → ∃ ti, HasType o dies t true ti ∧ r = some ti) ∧
      ((∀ t, d.type = some t → dies t = none) → r = none) := by
  unfold resultType at h
  cases ht : d.type with
  | none =>
    rw [ht] at h
    cases h
    exact ⟨hm, fun t e => (by cases e), fun _ => rfl⟩
  | some t =>
    rw [ht] at h
    dsimp only at h
    cases hd : dies t with
    | none =>
      rw [hd] at h
      cases h
      refine ⟨hm, fun t' e hn => ?_, fun _ => rfl⟩
      cases e
      exact absurd hd hn
    | some td =>
      rw [hd] at h
      dsimp only at h
      cases hg : getType o dies n m t true with
      | error e => rw [hg] at h; cases h
      | ok x =>
        obtain ⟨ti, m1⟩ := x
        rw [hg] at h
        cases h
        obtain ⟨g1, g2⟩ := getType_right n m t true ti _ hm hg
        refine ⟨g1, fun t' e _ => ?_, fun hn => ?_⟩
        · cases e
          exact ⟨ti, g2, rfl⟩
        · rw [hn t rfl] at hd
          cases hd

theorem funcEligible_iff {only : Bool} {d : FuncDie} : (funcEligible only d).isSome = true ↔ DefinesFunc only d := by
  unfold funcEligible DefinesFunc
  by_cases h1 : d.declaration = true
  · rw [if_pos h1]
    exact ⟨fun h => (by cases h), fun h => by rw [h1] at h; exact absurd h.2.1 (by decide)⟩
  · rw [if_neg h1]
    have h1 : d.declaration = false := by simpa using h1
    by_cases h2 : (only && !d.external) = true
    · rw [if_pos h2]
      refine ⟨fun h => (by cases h), fun h => ?_⟩
      cases only with
      | false => cases h2
      | true => rw [h.2.2.1 rfl] at h2; cases h2
    · rw [if_neg h2]
      by_cases h3 : d.tag = "subprogram".toList
      · rw [if_pos h3]
        have h4 : only = true → d.external = true := by
          intro h
          rw [h] at h2
          simpa using h2
        unfold funcName
        constructor
        · intro h
          refine ⟨h3, h1, h4, ?_⟩
          cases h5 : d.linkage_name with
          | some _ => exact Or.inl (fun e => by cases e)
          | none =>
            cases h6 : d.name with
            | some _ => exact Or.inr (fun e => by cases e)
            | none => rw [h5, h6] at h; cases h
        · rintro ⟨_, _, _, h5⟩
          cases h6 : d.linkage_name with
          | some _ => rfl
          | none =>
            cases h7 : d.name with
            | some _ => rfl
            | none => exact h5.elim (fun h => absurd h6 h) (fun h => absurd h7 h)
      · rw [if_neg h3]
        exact ⟨fun h => (by cases h), fun h => absurd h.1 h3⟩

theorem funcInfo_right {o : TypeOpts} {dies : Dies} {only : Bool} {d : FuncDie} {name : Str} {ret : Option TypeInfo} {ts : List TypeInfo}
    (h1 : funcEligible only d = some name)
    (h2 : ∀ t, d.type = some t → dies t ≠ none → ∃ ti, HasType o dies t true ti ∧ ret = some ti)
    (h3 : (∀ t, d.type = some t → dies t = none) → ret = none)
    (h4 : ∃ ps : List Nat, List.Sublist ps d.children ∧ (∀ c ∈ d.children, IsParam dies c → c ∈ ps) ∧ (∀ c ∈ ps, IsParam dies c) ∧
      ts.length = ps.length ∧ ∀ (i : Nat) c t, ps[i]? = some c → ts[i]? = some t → HasType o dies c true t) :
    FuncOf o dies d (funcInfo o d name ret ts) := by
  have hn : funcName d = some name := by
    unfold funcEligible at h1
    split at h1
    · cases h1
    · split at h1
      · cases h1
      · split at h1
        · exact h1
        · cases h1
  unfold funcName at hn
  obtain ⟨ps, p1, p2, p3, p4, p5⟩ := h4
  refine ⟨fun n e => ?_, fun e => ?_, fun a e => ?_, fun e => ?_, fun t e hd => ?_, fun hd => ?_, ps, ts, p1, p2, p3, p4, p5, joinText_eq _⟩
  · rw [e] at hn; cases hn; rfl
  · rw [e] at hn; exact hn
  · unfold funcInfo; rw [e]
  · unfold funcInfo; rw [e]
  · obtain ⟨ti, t1, t2⟩ := h2 t e hd
    refine ⟨ti, t1, ?_⟩
    unfold funcInfo
    rw [t2]
  · unfold funcInfo
    rw [h3 hd]

open Classical in
/-- C98: the functions of the debug information are delivered in order, each with name, address, and the types of its result and its
parameters, whatever has been asked before. -/
theorem C98_functions (o : TypeOpts) (dies : Dies) (n : Nat) (only : Bool) (m m' : TypeMemo) (ds : List FuncDie) (fs : List FuncInfo)
    (hm : RightMemo o dies m) (h : listFuncs o dies n only m ds = .ok (fs, m')) :
    let defined := ds.filter (fun d => decide (DefinesFunc only d))
    RightMemo o dies m' ∧ fs.length = defined.length ∧
      ∀ (i : Nat) d f, defined[i]? = some d → fs[i]? = some f → FuncOf o dies d f := by
  induction ds generalizing m fs with
  | nil =>
    cases h
    exact ⟨hm, rfl, fun i d f hi => by cases hi⟩
  | cons d ds ih =>
    dsimp only
    rw [listFuncs] at h
    rw [List.filter_cons]
    cases h1 : funcEligible only d with
    | none =>
      rw [h1] at h
      rw [if_neg]
      · exact ih m fs hm h
      · rw [decide_eq_true_iff, ← funcEligible_iff, h1]
        decide
    | some name =>
      rw [h1] at h
      rw [if_pos (decide_eq_true (funcEligible_iff.mp (by rw [h1]; rfl)))]
      dsimp only at h
      cases h2 : resultType o dies n m d with
      | error e => rw [h2] at h; cases h
      | ok x =>
        obtain ⟨ret, m1⟩ := x
        rw [h2] at h
        dsimp only at h
        obtain ⟨r1, r2, r3⟩ := resultType_right hm h2
        cases h3 : paramTypes o dies n m1 d.children with
        | error e => rw [h3] at h; cases h
        | ok x =>
          obtain ⟨ts, m2⟩ := x
          rw [h3] at h
          dsimp only at h
          obtain ⟨p1, p2⟩ := paramTypes_right r1 h3
          cases h4 : listFuncs o dies n only m2 ds with
          | error e => rw [h4] at h; cases h
          | ok x =>
            obtain ⟨gs, m3⟩ := x
            rw [h4] at h
            cases h
            obtain ⟨i1, i2, i3⟩ := ih m2 gs p1 h4
            refine ⟨i1, by rw [List.length_cons, List.length_cons, i2], fun i x y hi hj => ?_⟩
            cases i with
            | zero => cases hi; cases hj; exact funcInfo_right h1 r2 r3 p2
            | succ i => exact i3 i x y hi hj

/-- Entries of a function `int size(struct list *)`, a declaration, and another one without type. -/
def exFuncDies : Dies := fun i => if i = 20 then some { tag := "formal_parameter".toList, type := some 4 } else exList i

def exFuncEntries : List FuncDie :=
  [{ tag := "subprogram".toList, external := true, name := some "size".toList, type := some 7, children := [20], low_pc := some 0x1100 },
   { tag := "subprogram".toList, external := true, declaration := true, name := some "free".toList },
   { tag := "subprogram".toList, external := true, name := some "clear".toList, linkage_name := some "_Z5clearv".toList, low_pc := some 0x1200 }]

theorem exFuncs_ok : ∃ fs m, listFuncs exTypeOpts exFuncDies 9 true noMemo exFuncEntries = .ok (fs, m) ∧
    fs.map (fun f => (f.name, f.addr, f.ret, f.params)) = [("size".toList, 0x1100, "4 byte signed".toList, "struct*".toList),
      ("_Z5clearv".toList, 0x1200, "void".toList, [])] := by
  have h : ((listFuncs exTypeOpts exFuncDies 9 true noMemo exFuncEntries).toOption.map (fun r => r.1.map (fun f => (f.name, f.addr, f.ret, f.params)))) =
    some [("size".toList, 0x1100, "4 byte signed".toList, "struct*".toList), ("_Z5clearv".toList, 0x1200, "void".toList, [])] := by decide +kernel
  cases hx : listFuncs exTypeOpts exFuncDies 9 true noMemo exFuncEntries with
  | error e => rw [hx] at h; cases h
  | ok x =>
    rw [hx] at h
    exact ⟨x.1, x.2, rfl, Option.some.inj h⟩

open Classical in
example : ∃ fs m, listFuncs exTypeOpts exFuncDies 9 true noMemo exFuncEntries = .ok (fs, m) ∧
    fs.length = (exFuncEntries.filter (fun d => decide (DefinesFunc true d))).length := by
  obtain ⟨fs, m, h, _⟩ := exFuncs_ok
  exact ⟨fs, m, h, (C98_functions _ _ _ _ _ _ _ _ rightMemo_none h).2.1⟩

example : ∃ fs fs' m, listFuncs exTypeOpts exFuncDies 9 true noMemo exFuncEntries = .ok (fs, m) ∧
    listFuncs exTypeOpts exFuncDies 9 true noMemo (exFuncEntries.map (moveFunc 0x400000)) = .ok (fs', m) ∧
    summaryFunctions (exFuncSyms.map (moveSym 0x400000)) (some fs') = summaryFunctions exFuncSyms (some fs) := by
  obtain ⟨fs, m, h, _⟩ := exFuncs_ok
  obtain ⟨fs', h1, h2⟩ := (C98_base 0x400000 exFuncSyms (by decide +kernel)).2 _ _ _ _ _ _ _ h
  exact ⟨fs, fs', m, h, h1, h2⟩

end Bean.Props

import Verif.Spec.Tools
import Verif.Props.Lookup
/-
Output of the program bean-graph (C52, C53, C76).
-/
namespace Bean.Props
open Bean Bean.Spec

/-! ### C52 -/

theorem isWord_iff (c : Char) : isWord c = c.isAlphanum := by
  simp only [isWord, Char.isAlphanum, Char.isAlpha, Char.isUpper, Char.isLower, Char.isDigit, Char.le_def, UInt32.le_iff_toNat_le,
    ge_iff_le, Bool.decide_and]

theorem word_not_underscore {c : Char} (h : isWord c = true) : c ≠ '_' := by
  rintro rfl; revert h; decide

theorem normalize_chars (r : Bool) (s : Str) : ∀ c ∈ normalizeFrom r s, c.isAlphanum = true ∨ c = '_' := by
  induction s generalizing r with
  | nil => simp [normalizeFrom]
  | cons x s ih =>
    intro c hc
    rw [normalizeFrom] at hc
    split at hc
    · next hx =>
      rcases List.mem_cons.mp hc with rfl | hc
      · exact .inl (by rw [← isWord_iff]; exact hx)
      · exact ih _ c hc
    · split at hc
      · exact ih _ c hc
      · rcases List.mem_cons.mp hc with rfl | hc
        · exact .inr rfl
        · exact ih _ c hc

/-- After an underscore there is no other one. -/
theorem normalize_head (s : Str) : (normalizeFrom true s).head? ≠ some '_' := by
  induction s with
  | nil => simp [normalizeFrom]
  | cons x s ih =>
    rw [normalizeFrom]
    split
    · next hx =>
      intro e
      exact word_not_underscore hx (Option.some.inj e)
    · exact ih

theorem normalize_runs (r : Bool) (s : Str) : ∀ l₁ l₂, normalizeFrom r s ≠ l₁ ++ '_' :: '_' :: l₂ := by
  induction s generalizing r with
  | nil => intro l₁ l₂ h; cases l₁ <;> cases h
  | cons x s ih =>
    intro l₁ l₂ h
    rw [normalizeFrom] at h
    split at h
    · next hx =>
      cases l₁ with
      | nil => exact word_not_underscore hx (List.cons.inj h).1
      | cons y l₁ => exact ih _ _ _ (List.cons.inj h).2
    · split at h
      · exact ih _ _ _ h
      · cases l₁ with
        | nil =>
          have := (List.cons.inj h).2
          exact normalize_head s (by rw [this]; rfl)
        | cons y l₁ => exact ih _ _ _ (List.cons.inj h).2

theorem normalize_keeps (r : Bool) (s : Str) : (normalizeFrom r s).filter isWord = s.filter isWord := by
  induction s generalizing r with
  | nil => rfl
  | cons x s ih =>
    rw [normalizeFrom, List.filter_cons]
    split
    · next hx => rw [List.filter_cons, if_pos hx, ih]
    · split
      · exact ih _
      · rw [List.filter_cons, if_neg (by decide), ih]

/-- C52 (characters): the name made of any text consists of letters, digits and underscores without adjacent underscores, and
keeps the letters and digits of the text in order. -/
theorem C52_normalize (s : Str) :
    (∀ c ∈ normalize (some s), c.isAlphanum = true ∨ c = '_')
    ∧ (∀ l₁ l₂, normalize (some s) ≠ l₁ ++ '_' :: '_' :: l₂)
    ∧ (normalize (some s)).filter Char.isAlphanum = s.filter Char.isAlphanum := by
  refine ⟨normalize_chars _ _, normalize_runs _ _, ?_⟩
  have e : isWord = Char.isAlphanum := funext isWord_iff
  rw [← e]
  exact normalize_keeps _ _

theorem normalizeFrom_true {s : Str} (h : ∀ c, s.head? = some c → isWord c = true) : normalizeFrom true s = normalizeFrom false s := by
  cases s with
  | nil => rfl
  | cons c s => simp only [normalizeFrom, h c rfl, if_true]

/-- C52 (words): a word in front stays as it is and a run of other characters gives exactly one underscore. -/
theorem C52_words (s : Str) :
    (∀ w : Str, (∀ c ∈ w, c.isAlphanum = true) → normalize (some (w ++ s)) = w ++ normalize (some s))
    ∧ (∀ sep : Str, sep ≠ [] → (∀ c ∈ sep, c.isAlphanum = false) → (∀ c, s.head? = some c → c.isAlphanum = true) →
      normalize (some (sep ++ s)) = '_' :: normalize (some s)) := by
  constructor
  · intro w
    induction w with
    | nil => intro _; rfl
    | cons c w ih =>
      intro hw
      have hc : isWord c = true := by rw [isWord_iff]; exact hw c List.mem_cons_self
      change normalizeFrom false (c :: (w ++ s)) = _
      rw [normalizeFrom, if_pos hc]
      exact congrArg (c :: ·) (ih fun x hx => hw x (List.mem_cons_of_mem _ hx))
  · intro sep hne hsep hs
    have hw : ∀ c, s.head? = some c → isWord c = true := fun c hc => by rw [isWord_iff]; exact hs c hc
    have hrest : ∀ l : Str, (∀ c ∈ l, c.isAlphanum = false) → normalizeFrom true (l ++ s) = normalizeFrom false s := by
      intro l
      induction l with
      | nil => intro _; exact normalizeFrom_true hw
      | cons c l ih =>
        intro hl
        have hc : isWord c = false := by rw [isWord_iff]; exact hl c List.mem_cons_self
        rw [List.cons_append, normalizeFrom, hc, if_neg (by decide), if_pos rfl]
        exact ih fun x hx => hl x (List.mem_cons_of_mem _ hx)
    cases sep with
    | nil => exact absurd rfl hne
    | cons c l =>
      have hc : isWord c = false := by rw [isWord_iff]; exact hsep c List.mem_cons_self
      change normalizeFrom false (c :: (l ++ s)) = '_' :: normalizeFrom false s
      rw [normalizeFrom, hc, if_neg (by decide), if_neg (by decide), hrest l fun x hx => hsep x (List.mem_cons_of_mem _ hx)]

example : normalize (some ("..".toList ++ "a-b".toList)) = '_' :: normalize (some "a-b".toList) :=
  (C52_words "a-b".toList).2 _ (by decide) (by decide) (by decide)

example : normalize (some "../lib/x86-64//libc.so".toList) = "_lib_x86_64_libc_so".toList := by decide

theorem normalize_nil {s : Str} (h : normalize (some s) = []) : s = [] := by
  cases s with
  | nil => rfl
  | cons x s =>
    simp only [normalize, normalizeFrom] at h
    split at h
    · cases h
    · cases h

theorem normalize_first {x : Char} {s : Str} (hx : x.isDigit = false) (c : Char)
    (h : (normalize (some (x :: s))).head? = some c) : c.isDigit = false := by
  simp only [normalize, normalizeFrom] at h
  split at h
  · have e : x = c := Option.some.inj h
    rw [← e]; exact hx
  · have e : '_' = c := Option.some.inj h
    rw [← e]; decide

/-- C52 (identifiers): the name of the graph is a valid identifier unless the text is empty or starts with a digit. -/
theorem C52_identifier_partial (x : Char) (s : Str) (hx : x.isDigit = false) : IsDotId (normalize (some (x :: s))) :=
  ⟨fun h => (by cases normalize_nil h), normalize_chars _ _, normalize_first hx⟩

example : ('/' : Char).isDigit = false := by decide

/-- C52 fails for paths with a digit in front: `digraph 7z {` is no valid graph. -/
theorem C52_counterexample : ¬ IsDotId (normalize (some "7z".toList)) := by
  rintro ⟨-, -, h⟩
  exact absurd (h '7' rfl) (by decide)

/-- C52: cluster names are valid identifiers for any section name. -/
theorem C52_cluster (s : Option Str) : IsDotId ("cluster_".toList ++ normalize s) := by
  refine ⟨by simp, ?_, ?_⟩
  · intro c hc
    replace hc := List.mem_append.mp hc
    rcases hc with hc | hc
    · exact (by decide : ∀ c ∈ "cluster_".toList, c.isAlphanum = true ∨ c = '_') c hc
    · cases s with
      | none => cases hc
      | some s => exact normalize_chars _ _ c hc
  · intro c hc
    have e : 'c' = c := Option.some.inj hc
    rw [← e]; decide

/-! ### C53 -/

/-- The clusters for a list of symbols that starts within a cluster. -/
theorem clusters_from (n : String) (l : List Symbol) (hl : ∀ s ∈ l, s.sec.name.isSome = true) :
    ∃ (as : List Addr) (gs : List (String × List Addr)),
      clusterLines (some n) l = as.map .node ++ [.close] ++ gs.flatMap clusterBlock
      ∧ (as.map (fun a => (some n, a))) ++ gs.flatMap (fun g => g.2.map (fun a => (some g.1, a))) =
          l.map (fun s => (s.sec.name, s.address))
      ∧ (∀ g ∈ gs, g.2 ≠ []) := by
  induction l generalizing n with
  | nil => exact ⟨[], [], rfl, rfl, by simp⟩
  | cons s l ih =>
    obtain ⟨m, hm⟩ := Option.isSome_iff_exists.mp (hl s List.mem_cons_self)
    have hl' : ∀ s ∈ l, s.sec.name.isSome = true := fun x hx => hl x (List.mem_cons_of_mem _ hx)
    by_cases e : n = m
    · obtain ⟨as, gs, h1, h2, h3⟩ := ih n hl'
      refine ⟨s.address :: as, gs, ?_, ?_, h3⟩
      · rw [clusterLines, if_neg (by rw [hm, e]; simp), h1]; rfl
      · rw [List.map_cons, List.map_cons, List.cons_append, h2, hm, e]
    · obtain ⟨as, gs, h1, h2, h3⟩ := ih m hl'
      refine ⟨[], (m, s.address :: as) :: gs, ?_, ?_, ?_⟩
      · rw [clusterLines, if_pos (by rw [hm]; simp [e]), hm, h1]
        simp [clusterBlock]
      · rw [List.flatMap_cons, List.map_cons, List.map_cons, hm, ← h2]
        simp
      · intro g hg
        rcases List.mem_cons.mp hg with rfl | hg
        · simp
        · exact h3 g hg

/-- C53: if all sections have names, the nodes are printed as a sequence of closed, non-empty clusters; each symbol is a node of
the cluster with the name of its section, in the order of the symbols. -/
theorem C53_clusters (symbols : List Symbol) (hn : ∀ s ∈ symbols, s.sec.name.isSome = true) :
    ∃ gs : List (String × List Addr), nodeLines true symbols = gs.flatMap clusterBlock
      ∧ gs.flatMap (fun g => g.2.map (fun a => (some g.1, a))) = symbols.map (fun s => (s.sec.name, s.address))
      ∧ (∀ g ∈ gs, g.2 ≠ []) := by
  cases symbols with
  | nil => exact ⟨[], rfl, rfl, by simp⟩
  | cons s l =>
    obtain ⟨m, hm⟩ := Option.isSome_iff_exists.mp (hn s List.mem_cons_self)
    obtain ⟨as, gs, h1, h2, h3⟩ := clusters_from m l (fun x hx => hn x (List.mem_cons_of_mem _ hx))
    refine ⟨(m, s.address :: as) :: gs, ?_, ?_, ?_⟩
    · change clusterLines none (s :: l) = _
      rw [clusterLines, if_pos (.inl rfl), hm, h1]
      simp [clusterBlock]
    · rw [List.flatMap_cons, List.map_cons, List.map_cons, hm, ← h2]
      simp
    · intro g hg
      rcases List.mem_cons.mp hg with rfl | hg
      · simp
      · exact h3 g hg

/-- two sections, one of them with two symbols -/
example : nodeLines true [{ address := 16, sec := { name := some ".text" } }, { address := 32, sec := { name := some ".text" } },
    { address := 64, sec := { name := some ".data" } }] =
    [(".text", [16, 32]), (".data", [64])].flatMap clusterBlock := by decide

theorem depth_append (l m : List DotLine) : depth (l ++ m) = depth l + depth m := by
  have gen : ∀ (m : List DotLine) (d e : Int), m.foldl (fun d x => match x with
      | .open_ _ => d + 1
      | .close => d - 1
      | _ => d) (d + e) = d + m.foldl (fun d x => match x with
      | .open_ _ => d + 1
      | .close => d - 1
      | _ => d) e := by
    intro m
    induction m with
    | nil => intro d e; rfl
    | cons x m ih =>
      intro d e
      rw [List.foldl_cons, List.foldl_cons, ← ih]
      congr 1
      cases x <;> simp <;> omega
  unfold depth
  rw [List.foldl_append]
  have := gen m (l.foldl (fun d x => match x with
      | .open_ _ => d + 1
      | .close => d - 1
      | _ => d) 0) 0
  rw [Int.add_zero] at this
  exact this

/-- C53: the braces are balanced in particular. -/
theorem C53_balanced (symbols : List Symbol) (hn : ∀ s ∈ symbols, s.sec.name.isSome = true) :
    depth (nodeLines true symbols) = 0 := by
  obtain ⟨gs, h, -, -⟩ := C53_clusters symbols hn
  rw [h]
  clear h hn
  induction gs with
  | nil => rfl
  | cons g gs ih =>
    have hb : depth (clusterBlock g) = 0 := by
      have e : clusterBlock g = [.open_ (some g.1)] ++ g.2.map .node ++ [.close] := rfl
      have hmid : ∀ as : List Addr, depth (as.map .node) = 0 := by
        intro as
        induction as with
        | nil => rfl
        | cons a as ih =>
          have e : (a :: as).map DotLine.node = [.node a] ++ as.map .node := rfl
          rw [e, depth_append, ih]; rfl
      rw [e, depth_append, depth_append, hmid]; rfl
    rw [List.flatMap_cons, depth_append, hb, ih]; rfl

example : ∀ s ∈ [({ address := 16, sec := { name := some ".text" } } : Symbol)], s.sec.name.isSome = true := by decide

/-- C53 fails for symbols without named section: the cluster is not closed. -/
theorem C53_counterexample : ∃ symbols : SymTree, Ordered symbols ∧ depth (nodeLines true symbols) ≠ 0 :=
  ⟨[{ address := 16 }], by decide, by decide⟩

/-! ### C76 -/

theorem node_mem_clusters (sec : Option String) (l : List Symbol) (s : Symbol) (hs : s ∈ l) :
    DotLine.node s.address ∈ clusterLines sec l := by
  induction l generalizing sec with
  | nil => cases hs
  | cons x l ih =>
    rw [clusterLines]
    rcases List.mem_cons.mp hs with rfl | hs
    · split <;> simp
    · split
      · simp [ih _ hs]
      · simp [ih _ hs]

theorem edge_not_clusters (sec : Option String) (l : List Symbol) (a b : Addr) : DotLine.edge a b ∉ clusterLines sec l := by
  induction l generalizing sec with
  | nil => rw [clusterLines]; split <;> simp
  | cons x l ih =>
    rw [clusterLines]
    split
    · split <;> simp [ih]
    · simp [ih]

theorem node_mem {verbose : Bool} {l : List Symbol} {s : Symbol} (hs : s ∈ l) : DotLine.node s.address ∈ nodeLines verbose l := by
  unfold nodeLines
  split
  · exact node_mem_clusters _ _ _ hs
  · exact List.mem_map.mpr ⟨s, hs, rfl⟩

theorem edge_not_node {verbose : Bool} {l : List Symbol} {a b : Addr} : DotLine.edge a b ∉ nodeLines verbose l := by
  unfold nodeLines
  split
  · exact edge_not_clusters _ _ _ _
  · intro h
    obtain ⟨s, -, h⟩ := List.mem_map.mp h
    cases h

/-- C76: an edge is drawn for a reference exactly if a symbol starts at or below the referenced address and the closest one is of
the same kind (thread local or not); it leads to that symbol. All edges connect printed nodes. -/
theorem C76_edges (verbose : Bool) (symbols : SymTree) (ho : Ordered symbols) (a b : Addr) :
    (DotLine.edge a b ∈ graphLines verbose symbols ↔
      ∃ s ∈ symbols, ∃ ref ∈ s.refs, ∃ t ∈ symbols, s.address = a ∧ t.address = b ∧ t.address.toNat ≤ ref.toNat
        ∧ (∀ y ∈ symbols, y.address.toNat ≤ ref.toNat → y.address.toNat ≤ t.address.toNat)
        ∧ TLS.is_tls t.address = TLS.is_tls ref)
    ∧ (DotLine.edge a b ∈ graphLines verbose symbols →
        DotLine.node a ∈ graphLines verbose symbols ∧ DotLine.node b ∈ graphLines verbose symbols) := by
  have hs := (ordered_iff_sorted symbols).mp ho
  have key : DotLine.edge a b ∈ graphLines verbose symbols ↔
      ∃ s ∈ symbols, ∃ ref ∈ s.refs, ∃ t ∈ symbols, s.address = a ∧ t.address = b ∧ t.address.toNat ≤ ref.toNat
        ∧ (∀ y ∈ symbols, y.address.toNat ≤ ref.toNat → y.address.toNat ≤ t.address.toNat)
        ∧ TLS.is_tls t.address = TLS.is_tls ref := by
    unfold graphLines
    rw [List.mem_append]
    constructor
    · rintro (h | h)
      · exact absurd h edge_not_node
      · obtain ⟨s, hm, h⟩ := List.mem_flatMap.mp h
        obtain ⟨ref, hr, h⟩ := List.mem_filterMap.mp h
        unfold refEdge at h
        cases hf : Tree.floor symbols ref with
        | none => rw [hf] at h; cases h
        | some t =>
          rw [hf] at h
          simp only at h
          split at h
          · next ht =>
            obtain ⟨h1, h2, h3⟩ := (Tree.floor_eq_some_iff hs).mp hf
            have e := Option.some.inj h
            injection e with e1 e2
            exact ⟨s, hm, ref, hr, t, h1, e1, e2, BitVec.le_def.mp h2,
              fun y hy hle => BitVec.le_def.mp (h3 y hy (BitVec.le_def.mpr hle)), ht⟩
          · cases h
    · rintro ⟨s, hm, ref, hr, t, h1, rfl, rfl, h2, h3, ht⟩
      refine .inr (List.mem_flatMap.mpr ⟨s, hm, List.mem_filterMap.mpr ⟨ref, hr, ?_⟩⟩)
      have hf : Tree.floor symbols ref = some t := (Tree.floor_eq_some_iff hs).mpr
        ⟨h1, BitVec.le_def.mpr h2, fun y hy hle => BitVec.le_def.mpr (h3 y hy (BitVec.le_def.mp hle))⟩
      unfold refEdge
      rw [hf]
      simp only [ht, if_true]
  refine ⟨key, fun h => ?_⟩
  obtain ⟨s, hm, ref, hr, t, h1, rfl, rfl, -⟩ := key.mp h
  exact ⟨List.mem_append_left _ (node_mem hm), List.mem_append_left _ (node_mem h1)⟩

/-- a function that refers to the middle of a variable -/
example : graphLines true [{ address := 16, size := 8, refs := [36], sec := { name := some ".text" } },
    { address := 32, size := 8, sec := { name := some ".data" } }] =
    [.open_ (some ".text"), .node 16, .close, .open_ (some ".data"), .node 32, .close, .edge 16 32] := by decide

end Bean.Props

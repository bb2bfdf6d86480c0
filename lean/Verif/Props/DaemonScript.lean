import Verif.Spec.DaemonScript
/-
C115: the script for the daemon.
-/
namespace Bean.Props
open Bean Bean.Spec DaemonScript

/-! ### Words -/

theorem separator_word {s : List Char} (h : BashWord s) : ∀ c ∈ s, isSeparator c = false := by
  intro c hc
  unfold isSeparator
  have h1 : c ≠ ' ' := fun e => h.2.1 (e ▸ hc)
  have h2 : c ≠ '\t' := fun e => h.2.2.1 (e ▸ hc)
  have h3 : c ≠ '\n' := fun e => h.2.2.2 (e ▸ hc)
  simp [h1, h2, h3]

theorem wordsFrom_sep (cur w : Str) (h : ∀ c ∈ w, isSeparator c = false) (hne : cur ++ w ≠ []) (d : Char) (hd : isSeparator d = true) (s : Str) :
    wordsFrom cur (w ++ d :: s) = (cur ++ w) :: wordsFrom [] s := by
  induction w generalizing cur with
  | nil =>
    rw [List.append_nil] at hne ⊢
    rw [List.nil_append, wordsFrom, if_pos hd, if_neg hne]
  | cons c w ih =>
    rw [List.cons_append, wordsFrom, if_neg (by rw [h c List.mem_cons_self]; exact Bool.false_ne_true),
      ih (cur ++ [c]) (fun x hx => h x (List.mem_cons_of_mem _ hx)) (by simp)]
    simp

theorem wordsFrom_end (cur w : Str) (h : ∀ c ∈ w, isSeparator c = false) (hne : cur ++ w ≠ []) : wordsFrom cur w = [cur ++ w] := by
  induction w generalizing cur with
  | nil =>
    rw [List.append_nil] at hne ⊢
    rw [wordsFrom, if_neg hne]
  | cons c w ih =>
    rw [wordsFrom, if_neg (by rw [h c List.mem_cons_self]; exact Bool.false_ne_true), ih (cur ++ [c]) (fun x hx => h x (List.mem_cons_of_mem _ hx)) (by simp)]
    simp

theorem unquoted_word {w : Str} (h : BashWord w) : unquoted w = [w] := wordsFrom_end [] w (separator_word h) h.1

theorem unquoted_words {l : List Str} (h : ∀ w ∈ l, BashWord w) : l.flatMap unquoted = l := by
  induction l with
  | nil => rfl
  | cons w l ih => rw [List.flatMap_cons, unquoted_word (h w List.mem_cons_self), ih (fun x hx => h x (List.mem_cons_of_mem _ hx))]; rfl

theorem unquoted_joined {l : List Str} (h : ∀ w ∈ l, BashWord w) : unquoted (joined l) = l := by
  induction l with
  | nil => rfl
  | cons w l ih =>
    cases l with
    | nil => exact (congrArg unquoted (by simp [joined, List.intercalate])).trans (unquoted_word (h w List.mem_cons_self))
    | cons x l =>
      have e : joined (w :: x :: l) = w ++ ' ' :: joined (x :: l) := by simp [joined, List.intercalate]
      have hw := h w List.mem_cons_self
      rw [e]
      show wordsFrom [] (w ++ ' ' :: joined (x :: l)) = _
      rw [wordsFrom_sep [] w (separator_word hw) hw.1 ' ' rfl]
      exact congrArg (w :: ·) (ih (fun y hy => h y (List.mem_cons_of_mem _ hy)))

theorem unquoted_lines {l : List Str} (h : ∀ w ∈ l, BashWord w) : unquoted (l.flatMap (· ++ ['\n'])) = l := by
  induction l with
  | nil => rfl
  | cons w l ih =>
    have hw := h w List.mem_cons_self
    rw [List.flatMap_cons, List.append_assoc]
    show wordsFrom [] (w ++ '\n' :: l.flatMap (· ++ ['\n'])) = _
    rw [wordsFrom_sep [] w (separator_word hw) hw.1 '\n' rfl]
    exact congrArg (w :: ·) (ih (fun y hy => h y (List.mem_cons_of_mem _ hy)))

/-! ### Command line -/

/-- What the arguments do to the variables. -/
def argStep (v : Vars) : Argument → Vars
  | .cache p => { v with cache := p }
  | .place a => positional a v

theorem commandLine_place {a : Str} (h : (Argument.place a).Plain) (l : List Str) (v : Vars) : commandLine (a :: l) v = commandLine l (positional a v) := by
  obtain ⟨_, h1, h2, h3, h4⟩ := h
  cases l with
  | nil =>
    show (if a = "-h".toList then none else if a = "-c".toList then some { v with cache := [] } else if a = "-N".toList then some { v with nodebug := true }
      else if a = "--".toList then some { v with args := assignFirst [] v.args } else some (positional a v)) = some (positional a v)
    rw [if_neg h1, if_neg h2, if_neg h3, if_neg h4]
  | cons b l => rw [commandLine, if_neg h1, if_neg h2, if_neg h3, if_neg h4]

theorem commandLine_args {l : List Argument} (h : ∀ x ∈ l, x.Plain) (rest : List Str) (v : Vars) :
    commandLine (l.flatMap Argument.text ++ rest) v = commandLine rest (l.foldl argStep v) := by
  induction l generalizing v with
  | nil => rfl
  | cons x l ih =>
    have ih := ih (fun y hy => h y (List.mem_cons_of_mem _ hy))
    rw [List.flatMap_cons, List.append_assoc, List.foldl_cons]
    cases x with
    | cache p =>
      show commandLine ("-c".toList :: p :: (l.flatMap Argument.text ++ rest)) v = _
      rw [commandLine, if_neg (by decide), if_pos rfl, ih]
      rfl
    | place a =>
      show commandLine (a :: (l.flatMap Argument.text ++ rest)) v = _
      rw [commandLine_place (h _ List.mem_cons_self), ih]
      rfl

theorem argSteps_keep (l : List Argument) (v : Vars) : (l.foldl argStep v).args = v.args ∧ (l.foldl argStep v).nodebug = v.nodebug := by
  induction l generalizing v with
  | nil => exact ⟨rfl, rfl⟩
  | cons x l ih =>
    rw [List.foldl_cons, (ih _).1, (ih _).2]
    cases x with
    | cache p => exact ⟨rfl, rfl⟩
    | place a =>
      unfold argStep positional
      dsimp only
      cases v.socket <;> exact ⟨rfl, rfl⟩

theorem argSteps_cache (l : List Argument) (v : Vars) : (l.foldl argStep v).cache =
    match (l.filterMap (fun x => match x with | .cache p => some p | .place _ => none)).getLast? with
    | some p => p
    | none => v.cache := by
  induction l generalizing v with
  | nil => rfl
  | cons x l ih =>
    rw [List.foldl_cons, ih]
    cases x with
    | cache p =>
      rw [List.filterMap_cons]
      dsimp only
      rw [List.getLast?_cons]
      cases (l.filterMap _).getLast? <;> rfl
    | place a =>
      rw [List.filterMap_cons]
      dsimp only
      unfold argStep positional
      dsimp only
      cases v.socket <;> rfl

theorem argSteps_dirs {l : List Argument} (h : ∀ x ∈ l, x.Plain) (v : Vars) (s : Str) (hs : v.socket = some s) :
    (l.foldl argStep v).socket = some s ∧ (l.foldl argStep v).dirs = v.dirs ++ placesOf l := by
  induction l generalizing v with
  | nil => exact ⟨hs, (List.append_nil _).symm⟩
  | cons x l ih =>
    have ih := ih (fun y hy => h y (List.mem_cons_of_mem _ hy))
    rw [List.foldl_cons]
    cases x with
    | cache p => exact ih { v with cache := p } hs
    | place a =>
      have hp := (h _ List.mem_cons_self : (Argument.place a).Plain).1
      have e : argStep v (.place a) = { v with dirs := v.dirs ++ [a] } := by
        show positional a v = _
        unfold positional
        rw [hs]
        dsimp only
        rw [unquoted_word hp]
      rw [e]
      obtain ⟨h1, h2⟩ := ih { v with dirs := v.dirs ++ [a] } hs
      refine ⟨h1, h2.trans ?_⟩
      show (v.dirs ++ [a]) ++ placesOf l = v.dirs ++ placesOf (.place a :: l)
      rw [List.append_assoc]
      rfl

theorem argSteps_first {l : List Argument} (h : ∀ x ∈ l, x.Plain) (v : Vars) (hs : v.socket = none) (hd : v.dirs = []) :
    (l.foldl argStep v).socket = (placesOf l).head? ∧ (l.foldl argStep v).dirs = (placesOf l).drop 1 := by
  induction l generalizing v with
  | nil => exact ⟨hs, hd⟩
  | cons x l ih =>
    rw [List.foldl_cons]
    cases x with
    | cache p => exact ih (fun y hy => h y (List.mem_cons_of_mem _ hy)) { v with cache := p } hs hd
    | place a =>
      have e : argStep v (.place a) = { v with socket := some a } := by
        unfold argStep positional
        rw [hs]
      rw [e]
      obtain ⟨h1, h2⟩ := argSteps_dirs (fun y hy => h y (List.mem_cons_of_mem _ hy)) { v with socket := some a } a rfl
      refine ⟨h1, h2.trans ?_⟩
      rw [hd]
      rfl

theorem place_plain {l : List Argument} (h : ∀ x ∈ l, x.Plain) {a : Str} (ha : a ∈ placesOf l) : BashWord a := by
  obtain ⟨x, hx, e⟩ := List.mem_filterMap.mp ha
  cases x with
  | cache p => cases e
  | place b =>
    obtain rfl := Option.some.inj e
    exact (h _ hx : (Argument.place b).Plain).1

theorem cache_plain {l : List Argument} (h : ∀ x ∈ l, x.Plain) : BashWord (cacheOf l) := by
  unfold cacheOf
  cases hg : (l.filterMap (fun x => match x with | .cache p => some p | .place _ => none)).getLast? with
  | none => dsimp only; decide
  | some p =>
    obtain ⟨x, hx, e⟩ := List.mem_filterMap.mp (List.mem_of_getLast? hg)
    cases x with
    | place b => cases e
    | cache b =>
      obtain rfl := Option.some.inj e
      exact (h _ hx : (Argument.cache b).Plain)

theorem socket_plain {l : List Argument} (h : ∀ x ∈ l, x.Plain) : BashWord (socketWish l) := by
  unfold socketWish
  cases hp : placesOf l with
  | nil => dsimp only; decide
  | cons s r => exact place_plain h (by rw [hp]; exact List.mem_cons_self)

theorem socketOf_wish {l : List Argument} (h : ∀ x ∈ l, x.Plain) : socketOf (placesOf l).head? = socketWish l := by
  unfold socketWish
  cases hp : placesOf l with
  | nil => rfl
  | cons s r =>
    have := (place_plain h (a := s) (by rw [hp]; exact List.mem_cons_self)).1
    cases s with
    | nil => exact absurd rfl this
    | cons c s => rfl

/-! ### Commands -/

/-- Commands for the elements of the array of options. -/
theorem commands_calls (find : Str → List Found) {l : List Argument} (h : ∀ x ∈ l, x.Plain) (v : Vars) (hs : v.socket = (placesOf l).head?)
    (hd : v.dirs = (placesOf l).drop 1) (hc : BashWord v.cache) :
    commands find v = callsWish ((elements v.args).flatMap unquoted) v.cache (fun d => filesOf (find d)) l := by
  have hc1 : unquoted "-c".toList = ["-c".toList] := unquoted_word (by decide)
  have hc2 : unquoted "-s".toList = ["-s".toList] := unquoted_word (by decide)
  have e1 : (elements (v.args ++ [some "-c".toList, some v.cache])).flatMap unquoted = (elements v.args).flatMap unquoted ++ ["-c".toList, v.cache] := by
    unfold elements
    rw [List.filterMap_append, List.flatMap_append]
    show _ ++ (unquoted "-c".toList ++ (unquoted v.cache ++ [])) = _
    rw [hc1, unquoted_word hc]
    rfl
  have e2 : (elements (v.args ++ [some "-c".toList, some v.cache] ++ [some "-s".toList, some (socketOf v.socket)])).flatMap unquoted =
      (elements v.args).flatMap unquoted ++ ["-c".toList, v.cache, "-s".toList, socketWish l] := by
    have : elements (v.args ++ [some "-c".toList, some v.cache] ++ [some "-s".toList, some (socketOf v.socket)]) =
        elements (v.args ++ [some "-c".toList, some v.cache]) ++ ["-s".toList, socketOf v.socket] := by
      unfold elements
      rw [List.filterMap_append]
      rfl
    rw [this, List.flatMap_append, e1, hs, socketOf_wish h]
    show _ ++ (unquoted "-s".toList ++ (unquoted (socketWish l) ++ [])) = _
    rw [hc2, unquoted_word (socket_plain h), List.append_assoc]
    rfl
  unfold commands callsWish
  dsimp only
  rw [e2, hd, hs, socketOf_wish h]
  refine congr (congrArg _ ?_) ?_
  · refine List.map_congr_left (fun d _ => ?_)
    unfold cacheCall
    rw [e1]
    simp
  · by_cases hc : (socketWish l).map Char.toLower = "cache".toList
    · rw [if_pos hc, if_neg (not_not_intro hc)]
    · rw [if_neg hc, if_pos hc]

/-- **C115**, settings: for all sequences of prefixes, socket and directories the commands get the usual options, the last prefix, and the places. -/
theorem C115_settings_partial (find : Str → List Found) {l : List Argument} (h : ∀ x ∈ l, x.Plain) :
    script none false find (l.flatMap Argument.text) = callsWish (optionsWish false none) (cacheOf l) (fun d => filesOf (find d)) l := by
  unfold script
  have e := commandLine_args h [] (initial none false)
  rw [List.append_nil] at e
  rw [e]
  show commands find (applyNodebug (l.foldl argStep (initial none false))) = _
  obtain ⟨k1, k2⟩ := argSteps_keep l (initial none false)
  obtain ⟨k3, k4⟩ := argSteps_first h (initial none false) rfl rfl
  have k5 : (l.foldl argStep (initial none false)).cache = cacheOf l := argSteps_cache l _
  unfold applyNodebug
  rw [k2, if_neg (by decide), commands_calls find h _ k3 k4 (by rw [k5]; exact cache_plain h), k5, k1]
  exact congrArg (fun o => callsWish o _ _ _) (by decide +kernel)

/-- **C115**, own options: they are all passed, in their order, but followed by default options. -/
theorem C115_own_partial (find : Str → List Found) {l : List Argument} (h : ∀ x ∈ l, x.Plain) {own : List Str} (ho : ∀ w ∈ own, BashWord w) :
    script none false find (l.flatMap Argument.text ++ "--".toList :: own) =
      callsWish (optionsWish false (some own) ++ usualOptions.drop 1) (cacheOf l) (fun d => filesOf (find d)) l := by
  unfold script
  have e : commandLine ("--".toList :: own) (l.foldl argStep (initial none false)) =
      some { l.foldl argStep (initial none false) with args := assignFirst (joined own) (l.foldl argStep (initial none false)).args } := by
    cases own with
    | nil => rfl
    | cons b own => rfl
  rw [commandLine_args h, e]
  obtain ⟨k1, k2⟩ := argSteps_keep l (initial none false)
  obtain ⟨k3, k4⟩ := argSteps_first h (initial none false) rfl rfl
  have k5 : (l.foldl argStep (initial none false)).cache = cacheOf l := argSteps_cache l _
  generalize l.foldl argStep (initial none false) = w at *
  have hn : applyNodebug { w with args := assignFirst (joined own) w.args } = { w with args := assignFirst (joined own) w.args } := by
    unfold applyNodebug
    exact if_neg (by rw [show ({ w with args := assignFirst (joined own) w.args } : Vars).nodebug = false from k2]; decide)
  show commands find (applyNodebug { w with args := assignFirst (joined own) w.args }) = _
  rw [hn]
  refine (commands_calls find h { w with args := assignFirst (joined own) w.args } k3 k4 (show BashWord w.cache by rw [k5]; exact cache_plain h)).trans ?_
  dsimp only
  rw [k5, k1]
  refine congrArg (fun o => callsWish o _ _ _) ?_
  show unquoted (joined own) ++ (usualOptions.drop 1).flatMap unquoted = _
  rw [unquoted_joined ho, unquoted_words (by decide)]
  unfold optionsWish
  exact congrArg (· ++ _) (List.filter_eq_self.mpr (fun _ _ => rfl)).symm

/-- **C115**, without debug symbols (`NODEBUG=1` or `-N` as last argument): another cache is used, and no debug symbols. -/
theorem C115_nodebug_partial (find : Str → List Found) {l : List Argument} (h : ∀ x ∈ l, x.Plain) (env : Bool) {rest : List Str}
    (hr : (env = true ∧ rest = []) ∨ rest = ["-N".toList]) :
    script none env find (l.flatMap Argument.text ++ rest) = callsWish (optionsWish true none) (cacheOf l ++ "-nodebug".toList) (fun d => filesOf (find d)) l := by
  have hv : ∃ v, commandLine (l.flatMap Argument.text ++ rest) (initial none env) = some v ∧ v.nodebug = true ∧ v.args = defaultArgs.map some ∧ v.cache = cacheOf l ∧
      v.socket = (placesOf l).head? ∧ v.dirs = (placesOf l).drop 1 := by
    rw [commandLine_args h]
    obtain ⟨k1, k2⟩ := argSteps_keep l (initial none env)
    obtain ⟨k3, k4⟩ := argSteps_first h (initial none env) rfl rfl
    have k5 : (l.foldl argStep (initial none env)).cache = cacheOf l := argSteps_cache l _
    rcases hr with ⟨rfl, rfl⟩ | rfl
    · exact ⟨_, rfl, k2, k1, k5, k3, k4⟩
    · exact ⟨_, rfl, rfl, k1, k5, k3, k4⟩
  obtain ⟨v, e, v1, v2, v3, v4, v5⟩ := hv
  unfold script
  rw [e]
  dsimp only
  unfold applyNodebug
  rw [if_pos v1]
  have hc : BashWord (v.cache ++ "-nodebug".toList) := by
    rw [v3]
    have hw := cache_plain h
    refine ⟨fun e => hw.1 (List.append_eq_nil_iff.mp e).1, fun hm => ?_, fun hm => ?_, fun hm => ?_⟩
    · exact (List.mem_append.mp hm).elim hw.2.1 (by decide)
    · exact (List.mem_append.mp hm).elim hw.2.2.1 (by decide)
    · exact (List.mem_append.mp hm).elim hw.2.2.2 (by decide)
  refine (commands_calls find h { v with args := dropDebug v.args, cache := v.cache ++ "-nodebug".toList } v4 v5 hc).trans ?_
  dsimp only
  rw [v2, v3]
  exact congrArg (fun o => callsWish o _ _ _) (by decide +kernel)

/-- **C115**, without debug symbols: no command uses them, for words other than the option itself. -/
theorem C115_without_partial (find : Str → List Found) {l : List Argument} (h : ∀ x ∈ l, x.Plain) (env : Bool) {rest : List Str}
    (hr : (env = true ∧ rest = []) ∨ rest = ["-N".toList]) (hd : ∀ d, "-d".toList ∉ filesOf (find d)) (hl : "-d".toList ∉ placesOf l) :
    ∀ call ∈ script none env find (l.flatMap Argument.text ++ rest), ¬ UsesDebug call := by
  rw [C115_nodebug_partial find h env hr]
  intro call hc hu
  have hp : "-d".toList ∉ optionsWish true none := by decide
  have hcache : "-d".toList ≠ cacheOf l ++ "-nodebug".toList := by
    intro e
    have := congrArg List.length e
    rw [List.length_append] at this
    have : 2 = (cacheOf l).length + 8 := this
    omega
  unfold UsesDebug at hu
  unfold callsWish at hc
  rcases List.mem_append.mp hc with hc | hc
  · obtain ⟨d, hd', rfl⟩ := List.mem_map.mp hc
    rcases List.mem_append.mp hu with hu | hu
    · rcases List.mem_append.mp hu with hu | hu
      · exact hp hu
      · rcases List.mem_cons.mp hu with e | hu
        · exact absurd e (by decide)
        rcases List.mem_cons.mp hu with e | hu
        · exact hcache e
        rcases List.mem_cons.mp hu with e | hu
        · exact absurd e (by decide)
        · exact hl (List.mem_of_mem_drop (List.mem_singleton.mp hu ▸ hd'))
    · exact hd d hu
  · split at hc
    · cases hc
    · obtain rfl := List.mem_singleton.mp hc
      rcases List.mem_append.mp hu with hu | hu
      · exact hp hu
      rcases List.mem_cons.mp hu with e | hu
      · exact absurd e (by decide)
      rcases List.mem_cons.mp hu with e | hu
      · exact hcache e
      rcases List.mem_cons.mp hu with e | hu
      · exact absurd e (by decide)
      · have e := List.mem_singleton.mp hu
        unfold socketWish at e
        cases hpl : placesOf l with
        | nil => rw [hpl] at e; exact absurd e (by decide)
        | cons s r => rw [hpl] at e hl; exact hl (e ▸ List.mem_cons_self)

/-! ### Files -/

theorem containsText_iff (t s : Str) : containsText t s = true ↔ t <:+: s := by
  induction s with
  | nil => rw [containsText, List.isEmpty_iff, List.infix_nil]
  | cons c s ih => rw [containsText, Bool.or_eq_true, List.isPrefixOf_iff_prefix, ih, List.infix_cons_iff]

theorem prefix_split {t a b : Str} (h : t <+: a ++ b) : t <+: a ∨ ∃ r, t = a ++ r ∧ r <+: b := by
  induction a generalizing t with
  | nil => exact Or.inr ⟨t, rfl, h⟩
  | cons x a ih =>
    cases t with
    | nil => exact Or.inl List.nil_prefix
    | cons y t =>
      obtain ⟨rfl, h'⟩ := List.cons_prefix_cons.mp h
      rcases ih h' with h | ⟨r, e, h⟩
      · exact Or.inl (List.cons_prefix_cons.mpr ⟨rfl, h⟩)
      · exact Or.inr ⟨r, by rw [e]; rfl, h⟩

/-- A text without a character lies on one side of it. -/
theorem infix_split {t a b : Str} {c : Char} (hc : c ∉ t) (h : t <:+: a ++ c :: b) : t <:+: a ∨ t <:+: b := by
  induction a with
  | nil =>
    rcases List.infix_cons_iff.mp h with h | h
    · left
      cases t with
      | nil => exact List.nil_infix
      | cons x t =>
        obtain ⟨r, e⟩ := h
        injection e with e1 e2
        exact absurd (e1 ▸ List.mem_cons_self) hc
    · exact Or.inr h
  | cons x a ih =>
    rcases List.infix_cons_iff.mp h with h | h
    · rcases prefix_split (a := x :: a) h with h | ⟨r, e, h⟩
      · exact Or.inl h.isInfix
      · cases r with
        | nil => exact Or.inl ⟨[], [], by rw [e]; simp⟩
        | cons y r =>
          obtain ⟨z, e'⟩ := h
          injection e' with e1 e2
          exact absurd (by rw [e, ← e1]; simp) hc
    · exact (ih h).imp (fun h => List.infix_cons_iff.mpr (Or.inr h)) id

theorem cutColon_line (p d : Str) (h : ' ' ∉ p) : cutColon (p ++ ':' :: ' ' :: d) = p := by
  induction p with
  | nil => rfl
  | cons c p ih =>
    have ih := ih (fun hm => h (List.mem_cons_of_mem _ hm))
    rw [List.cons_append]
    rw [cutColon.eq_def]
    split
    · rename_i heq; cases heq
    · rename_i heq
      injection heq with e1 e2
      cases p with
      | nil =>
        injection e2 with e3 e4
        exact absurd e3 (by decide)
      | cons x p =>
        injection e2 with e3 e4
        exact absurd (by rw [e3]; simp) h
    · rename_i heq
      injection heq with e1 e2
      rw [← e1, ← e2, ih]

/-- **C115**, files: exactly the shared objects that were found are analysed, in their order. -/
theorem C115_files_partial (l : List Found) (h : ∀ f ∈ l, BashWord f.path) :
    ∃ shared : List Found, shared.Sublist l ∧ (∀ f ∈ l, f ∈ shared ↔ SharedObject f) ∧ filesOf l = shared.map (·.path) := by
  have hb : ∀ f ∈ l, containsText "shared object".toList (foundLine f) = true ↔ SharedObject f := by
    intro f hf
    rw [containsText_iff]
    unfold SharedObject foundLine
    refine ⟨fun hi => ?_, fun hi => ?_⟩
    · rcases infix_split (c := ':') (by decide) hi with hi | hi
      · exact absurd (hi.subset (by decide : ' ' ∈ "shared object".toList)) (h f hf).2.1
      · rcases List.infix_cons_iff.mp hi with ⟨r, e⟩ | hi
        · cases e
        · exact hi
    · obtain ⟨x, y, e⟩ := hi
      exact ⟨f.path ++ ':' :: ' ' :: x, y, by rw [← e]; simp⟩
  refine ⟨l.filter (fun f => containsText "shared object".toList (foundLine f)), List.filter_sublist, fun f hf => ?_, ?_⟩
  · rw [List.mem_filter]
    exact ⟨fun hm => (hb f hf).mp hm.2, fun hm => ⟨hf, (hb f hf).mpr hm⟩⟩
  · unfold filesOf
    rw [List.filter_map, List.flatMap_map]
    have e : (l.filter (containsText "shared object".toList ∘ foundLine)).flatMap (fun a => cutColon (foundLine a) ++ ['\n']) =
        ((l.filter (containsText "shared object".toList ∘ foundLine)).map (·.path)).flatMap (· ++ ['\n']) := by
      rw [List.flatMap_map]
      rw [List.flatMap_def, List.flatMap_def]
      refine congrArg _ (List.map_congr_left (fun f hf => ?_))
      unfold foundLine
      rw [cutColon_line _ _ (h f (List.mem_filter.mp hf).1).2.1]
    rw [e, unquoted_lines]
    · rfl
    · intro w hw
      obtain ⟨f, hf, rfl⟩ := List.mem_map.mp hw
      exact h f (List.mem_filter.mp hf).1

/-! ### Examples -/

/-- Two files in each directory, one of them a shared object. -/
def dsFind (d : Str) : List Found :=
  [⟨d ++ "/liba.so.1".toList, "ELF 64-bit LSB shared object".toList⟩, ⟨d ++ "/libb.so".toList, "ASCII text".toList⟩]

def dsArgs : List Argument := [.place "localhost:9".toList, .cache "one".toList, .place "/a".toList, .cache "two".toList, .place "/b".toList]

theorem ds_plain : ∀ x ∈ dsArgs, x.Plain := by
  intro x hx
  rcases List.mem_cons.mp hx with rfl | hx
  · exact ⟨by decide, by decide, by decide, by decide, by decide⟩
  rcases List.mem_cons.mp hx with rfl | hx
  · exact (by decide : BashWord "one".toList)
  rcases List.mem_cons.mp hx with rfl | hx
  · exact ⟨by decide, by decide, by decide, by decide, by decide⟩
  rcases List.mem_cons.mp hx with rfl | hx
  · exact (by decide : BashWord "two".toList)
  · obtain rfl := List.mem_singleton.mp hx
    exact ⟨by decide, by decide, by decide, by decide, by decide⟩

example : (script none false dsFind (["localhost:9", "-c", "one", "/a", "-c", "two", "/b"].map String.toList)).map (·.map String.ofList) =
    [["-d", "-D", "-t", "-f", "-w", "-p", "-c", "two", "-b", "/a", "/a/liba.so.1"], ["-d", "-D", "-t", "-f", "-w", "-p", "-c", "two", "-b", "/b", "/b/liba.so.1"],
     ["-d", "-D", "-t", "-f", "-w", "-p", "-c", "two", "-s", "localhost:9"]] := by
  decide +kernel

example : script none false dsFind (dsArgs.flatMap Argument.text) = callsWish usualOptions "two".toList (fun d => filesOf (dsFind d)) dsArgs := by
  exact (C115_settings_partial dsFind ds_plain).trans (by decide +kernel)

example : script none false dsFind (dsArgs.flatMap Argument.text ++ "--".toList :: ["-a".toList, "-n".toList]) =
    callsWish (["-a", "-n", "-D", "-t", "-f", "-w", "-p"].map String.toList) "two".toList (fun d => filesOf (dsFind d)) dsArgs := by
  exact (C115_own_partial dsFind ds_plain (by decide)).trans (by decide +kernel)

example : script none false dsFind (dsArgs.flatMap Argument.text ++ ["-N".toList]) =
    callsWish (["-D", "-t", "-f", "-w", "-p"].map String.toList) "two-nodebug".toList (fun d => filesOf (dsFind d)) dsArgs := by
  exact (C115_nodebug_partial dsFind ds_plain false (Or.inr rfl)).trans (by decide +kernel)

example : ∃ shared : List Found, shared.Sublist (dsFind "/a".toList) ∧ (∀ f ∈ dsFind "/a".toList, f ∈ shared ↔ SharedObject f) ∧
    filesOf (dsFind "/a".toList) = shared.map (·.path) := by
  exact C115_files_partial _ (by decide)

example : ∀ call ∈ script none true (fun _ => []) (dsArgs.flatMap Argument.text ++ []), ¬ UsesDebug call := by
  exact C115_without_partial _ ds_plain true (Or.inl ⟨rfl, rfl⟩) (fun _ => List.not_mem_nil) (by decide)

/-- The socket `cache` is for preparation only. -/
example : (script none false dsFind (["Cache", "/a"].map String.toList)).length = 1 := by
  decide +kernel

/-! ### Where it fails -/

/-- **C115** is false for the option `-N` in front of other arguments: the next argument is ignored, here the socket, so that the directory is taken as socket. -/
theorem C115_skip_counterexample : ∃ argv : List Str, argv = ["-N".toList, "localhost:9".toList, "/a".toList] ∧
    ∃ call, script none false dsFind argv = [call] ∧ "localhost:9".toList ∉ call ∧ ["-s".toList, "/a".toList] <:+ call := by
  refine ⟨_, rfl, ["-D", "-t", "-f", "-w", "-p", "-c", ".elfvarsd-cache-nodebug", "-s", "/a"].map String.toList, by decide +kernel, by decide, ?_⟩
  exact ⟨["-D", "-t", "-f", "-w", "-p", "-c", ".elfvarsd-cache-nodebug"].map String.toList, rfl⟩

/-- **C115** is false for own options without debug symbols: the tool uses them nevertheless. -/
theorem C115_nodebug_counterexample : ∃ argv : List Str, argv = ["localhost:9".toList, "--".toList, "-d".toList, "-t".toList] ∧
    ∃ call, script none true dsFind argv = [call] ∧ UsesDebug call := by
  exact ⟨_, rfl, ["-d", "-t", "-D", "-t", "-f", "-w", "-p", "-c", ".elfvarsd-cache-nodebug", "-s", "localhost:9"].map String.toList, by decide +kernel, List.mem_cons_self⟩

/-- **C115** is false for own options: default options are passed that were not asked for. -/
theorem C115_own_counterexample : ∃ argv : List Str, argv = ["localhost:9".toList, "--".toList, "-f".toList] ∧
    ∃ call, script none false dsFind argv = [call] ∧ "-D".toList ∈ call ∧ "-w".toList ∈ call := by
  exact ⟨_, rfl, ["-f", "-D", "-t", "-f", "-w", "-p", "-c", ".elfvarsd-cache", "-s", "localhost:9"].map String.toList, by decide +kernel, by decide, by decide⟩

/-- **C115** is false for files with blanks in their names: other names are passed. -/
theorem C115_blank_counterexample : ∃ f : Found, SharedObject f ∧ f.path = "/a/lib c.so".toList ∧ filesOf [f] = ["/a/lib".toList, "c.so".toList] := by
  exact ⟨⟨"/a/lib c.so".toList, "ELF shared object".toList⟩, ⟨"ELF ".toList, [], by decide⟩, rfl, by decide +kernel⟩

end Bean.Props

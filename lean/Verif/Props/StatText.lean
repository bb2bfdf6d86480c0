import Verif.Spec.StatText
import Verif.Props.ListRead
import Verif.Props.BuildId
import Verif.Props.DiffTool
import Verif.Props.Compare
/-
C107: the summary of differences can be read, and says what was computed.
-/
namespace Bean.Props
open Bean Bean.Spec

/-! Tokens -/

/-- A text without any effect on what follows. -/
def Whole (x : Str) (ts : List Tok) : Prop := ∀ r, tokens .start (x ++ r) = ts ++ tokens .start r

theorem whole_append {x y : Str} {ts us : List Tok} (hx : Whole x ts) (hy : Whole y us) : Whole (x ++ y) (ts ++ us) := by
  intro r
  rw [List.append_assoc, hx, hy, List.append_assoc]

theorem whole_cons {c : Char} {y : Str} {ts us : List Tok} (hx : Whole [c] ts) (hy : Whole y us) : Whole (c :: y) (ts ++ us) :=
  whole_append hx hy

theorem whole_startLine (d : Nat) : Whole (startLine d) [] := by
  intro r
  have h : ∀ d, tokens .start (List.replicate d '\t' ++ r) = tokens .start r := by
    intro d
    induction d with
    | zero => rfl
    | succ d ih => rw [List.replicate_succ]; exact ih
  exact h d

theorem tokens_str {s : Str} (hs : PlainText s) (acc r : Str) :
    tokens (.inStr acc) (s ++ '"' :: r) = .str (acc.reverse ++ s) :: tokens .start r := by
  induction s generalizing acc with
  | nil => rw [List.append_nil]; rfl
  | cons c s ih =>
    obtain ⟨h1, h2, h3⟩ := hs c (List.mem_cons_self ..)
    have e : tokens (.inStr acc) (c :: (s ++ '"' :: r)) = tokens (.inStr (c :: acc)) (s ++ '"' :: r) := by
      rw [tokens]
      · rw [if_neg (by rintro (h | h); exact h2 h; omega)]
      · exact h1
    rw [List.cons_append, e, ih (fun x hx => hs x (List.mem_cons_of_mem _ hx)), List.reverse_cons, List.append_assoc]
    rfl

theorem whole_str {s : Str} (hs : PlainText s) : Whole ('"' :: (s ++ ['"'])) [.str s] := by
  intro r
  have := tokens_str hs [] r
  rw [List.cons_append, List.append_assoc]
  exact this

/-- Characters that end a word. -/
def Ends (c : Char) : Prop := c = '{' ∨ c = '}' ∨ c = ':' ∨ c = ',' ∨ c = '"' ∨ c = ' ' ∨ c = '\n' ∨ c = '\t' ∨ c = '\r'

theorem tokens_word {w : Str} (hw : ∀ a ∈ w, ¬ Ends a) {c : Char} (hc : c = ',' ∨ c = '\n') (acc r : Str) :
    tokens (.inWord acc) (w ++ c :: r) = wordTok (acc.reverse ++ w) :: tokens .start (c :: r) := by
  induction w generalizing acc with
  | nil => rw [List.append_nil]; rcases hc with rfl | rfl <;> rfl
  | cons a w ih =>
    have h := hw a (List.mem_cons_self ..)
    simp only [Ends, not_or] at h
    obtain ⟨h1, h2, h3, h4, h5, h6⟩ := h
    have e : tokens (.inWord acc) (a :: (w ++ c :: r)) = tokens (.inWord (a :: acc)) (w ++ c :: r) := by
      rw [tokens]
      · simp only [if_neg h1, if_neg h2, if_neg h3, if_neg h4, if_neg h5]
        rw [if_neg (by simp only [not_or]; exact h6)]
      all_goals (intros; contradiction)
    rw [List.cons_append, e, ih (fun x hx => hw x (List.mem_cons_of_mem _ hx)), List.reverse_cons, List.append_assoc]
    rfl

theorem start_word {w : Str} (hne : w ≠ []) (hw : ∀ a ∈ w, ¬ Ends a) {c : Char} (hc : c = ',' ∨ c = '\n') (r : Str) :
    tokens .start (w ++ c :: r) = wordTok w :: tokens .start (c :: r) := by
  cases w with
  | nil => exact absurd rfl hne
  | cons a w =>
    have h := hw a (List.mem_cons_self ..)
    simp only [Ends, not_or] at h
    obtain ⟨h1, h2, h3, h4, h5, h6⟩ := h
    have e : tokens .start (a :: (w ++ c :: r)) = tokens (.inWord [a]) (w ++ c :: r) := by
      rw [tokens]
      · simp only [if_neg h1, if_neg h2, if_neg h3, if_neg h4, if_neg h5]
        rw [if_neg (by simp only [not_or]; exact h6)]
      all_goals (intros; contradiction)
    rw [List.cons_append, e, tokens_word (fun x hx => hw x (List.mem_cons_of_mem _ hx)) hc]
    rfl

theorem wordTok_digits (n : Nat) : wordTok (Nat.toDigits 10 n) = .num n := by
  have hd : ∀ a ∈ Nat.toDigits 10 n, a.isDigit = true := fun a ha => Nat.isDigit_of_mem_toDigits (by decide) (by decide) ha
  unfold wordTok
  rw [if_pos (List.all_eq_true.mpr hd)]
  have h10 : ∀ k < 10, (Nat.digitChar k).toNat - 48 = k := by decide
  have : ∀ n, (Nat.toDigits 10 n).foldl (fun a c => 10 * a + (c.toNat - 48)) 0 = n := by
    intro n
    induction n using Nat.strongRecOn with
    | ind n ih =>
      rw [Nat.toDigits_eq_if (by decide)]
      by_cases h : n < 10
      · rw [if_pos h]
        show 10 * 0 + _ = n
        rw [h10 n h]
        omega
      · rw [if_neg h, List.foldl_append, ih (n / 10) (by omega)]
        show 10 * (n / 10) + _ = n
        rw [h10 _ (Nat.mod_lt _ (by decide))]
        omega
  rw [this]

theorem digit_no_end {a : Char} (h : a.isDigit = true) : ¬ Ends a := by
  rintro (rfl | rfl | rfl | rfl | rfl | rfl | rfl | rfl | rfl) <;> exact absurd h (by decide)

theorem toDigits_ne (n : Nat) : Nat.toDigits 10 n ≠ [] := by
  rw [Nat.toDigits_eq_if (by decide)]
  split
  · exact List.cons_ne_nil _ _
  · exact List.append_ne_nil_of_right_ne_nil _ (List.cons_ne_nil _ _)

/-- A word and what follows. -/
theorem whole_word {w y : Str} {ts : List Tok} {c : Char} (hne : w ≠ []) (hw : ∀ a ∈ w, ¬ Ends a) (hc : c = ',' ∨ c = '\n')
    (hy : Whole (c :: y) ts) : Whole (w ++ c :: y) (wordTok w :: ts) := by
  intro r
  rw [List.append_assoc, List.cons_append, start_word hne hw hc, List.cons_append, ← hy r]
  rfl

theorem whole_num {n : Nat} {y : Str} {ts : List Tok} {c : Char} (hc : c = ',' ∨ c = '\n') (hy : Whole (c :: y) ts) :
    Whole (Nat.toDigits 10 n ++ c :: y) (.num n :: ts) := by
  rw [← wordTok_digits n]
  exact whole_word (toDigits_ne n) (fun a ha => digit_no_end (Nat.isDigit_of_mem_toDigits (by decide) (by decide) ha)) hc hy

theorem whole_open {name : String} (hn : PlainText name.toList) (d : Nat) : Whole (openObject d name) [.str name.toList, .colon, .open] := by
  have ho : Whole (": {".toList) [.colon, .open] := fun r => rfl
  have h := whole_append (whole_startLine d) (whole_append (whole_str hn) ho)
  rw [List.cons_append, List.append_assoc] at h
  exact h

/-- The tokens of a count. -/
def countToks (name : String) (c : Nat × BitVec 64) : List Tok :=
  [.str name.toList, .colon, .open, .str "count".toList, .colon, .num c.1, .comma, .str "size".toList, .colon, .num c.2.toNat, .close]

theorem whole_count {name : String} (hn : PlainText name.toList) (d : Nat) (c : Nat × BitVec 64) :
    Whole (countText name d c) (countToks name c) := by
  have hsize : Whole ("\"size\": ".toList) [.str "size".toList, .colon] := fun r => rfl
  have hcount : Whole ("\"count\": ".toList) [.str "count".toList, .colon] := fun r => rfl
  have hclose : Whole ['}'] [.close] := fun r => rfl
  have hcomma : Whole [','] [.comma] := fun r => rfl
  have h1 : Whole (Nat.toDigits 10 c.2.toNat ++ (startLine d ++ ['}'])) [.num c.2.toNat, .close] :=
    whole_num (Or.inr rfl) (whole_append (whole_startLine d) hclose)
  have h2 := whole_append (whole_startLine (d + 1)) (whole_append hsize h1)
  have h3 := whole_num (n := c.1) (Or.inl rfl) (whole_cons hcomma h2)
  exact whole_append (whole_open hn d) (whole_append (whole_startLine (d + 1)) (whole_append hcount h3))

/-- The tokens of changes. -/
def changeToks (name : String) (a r : Nat × BitVec 64) : List Tok :=
  [.str name.toList, .colon, .open] ++ (countToks "added" a ++ ([.comma] ++ (countToks "removed" r ++ [.close])))

theorem plain_of {s : Str} (h : s.all (fun c => c != '"' && c != '\\' && decide (32 ≤ c.toNat)) = true) : PlainText s := by
  intro c hc
  have := List.all_eq_true.mp h c hc
  simpa [and_assoc] using this

theorem whole_change {name : String} (hn : PlainText name.toList) (d : Nat) (a r : Nat × BitVec 64) :
    Whole (changeText name d a r) (changeToks name a r) := by
  have hclose : Whole ['}'] [.close] := fun r => rfl
  have hcomma : Whole [','] [.comma] := fun r => rfl
  exact whole_append (whole_open hn d) (whole_append (whole_count (plain_of (by decide)) (d + 1) a) (whole_cons hcomma
    (whole_append (whole_count (plain_of (by decide)) (d + 1) r) (whole_append (whole_startLine d) hclose))))

/-- The tokens of a category. -/
def statToks (name : String) (s : Stat) : List Tok :=
  [.str name.toList, .colon, .open] ++ (countToks "total" s.total ++ ([.comma] ++
  (changeToks "changed-internal" s.internalAdded s.internalRemoved ++ ([.comma] ++
  (changeToks "changed-extended" s.extendedAdded s.extendedRemoved ++ [.close])))))

theorem whole_stat {name : String} (hn : PlainText name.toList) (d : Nat) (s : Stat) : Whole (statBlock name d s) (statToks name s) := by
  have hclose : Whole ['}'] [.close] := fun r => rfl
  have hcomma : Whole [','] [.comma] := fun r => rfl
  exact whole_append (whole_open hn d) (whole_append (whole_count (plain_of (by decide)) (d + 1) s.total) (whole_cons hcomma
    (whole_append (whole_change (plain_of (by decide)) (d + 1) _ _) (whole_cons hcomma
    (whole_append (whole_change (plain_of (by decide)) (d + 1) _ _) (whole_append (whole_startLine d) hclose))))))

theorem whole_quoted {name : String} (hn : PlainText name.toList) {v : Str} (hv : PlainText v) (d : Nat) :
    Whole (quotedText d name v) [.str name.toList, .colon, .str v] := by
  have ho : Whole (": ".toList) [.colon] := fun r => rfl
  have h := whole_append (whole_startLine d) (whole_append (whole_str hn) (whole_append ho (whole_str hv)))
  rw [List.cons_append, List.append_assoc] at h
  exact h

/-- The token of a mode. -/
def modeTok : Nat → Tok
  | 0 => .str "COMPARE_EXTENDED".toList
  | 1 => .str "COMPARE_WRITEABLE_INTERNAL".toList
  | 2 => .str "COMPARE_EXECUTABLE_EXTENDED".toList
  | 3 => .str "COMPARE_ONLY_INTERNAL".toList
  | _ => .word "null".toList

theorem whole_mode (m : Nat) {y : Str} {ts : List Tok} (hy : Whole ('\n' :: y) ts) : Whole (modeText m ++ '\n' :: y) (modeTok m :: ts) := by
  match m with
  | 0 => exact whole_append (x := modeText 0) (ts := [modeTok 0]) (fun r => rfl) hy
  | 1 => exact whole_append (x := modeText 1) (ts := [modeTok 1]) (fun r => rfl) hy
  | 2 => exact whole_append (x := modeText 2) (ts := [modeTok 2]) (fun r => rfl) hy
  | 3 => exact whole_append (x := modeText 3) (ts := [modeTok 3]) (fun r => rfl) hy
  | n + 4 =>
    refine whole_word (w := "null".toList) (by decide) ?_ (Or.inr rfl) hy
    unfold Ends
    decide

/-- The tokens before the categories. -/
def headToks (word : Bool → Str) (s : Summary) : List Tok :=
  [.open, .str "patchable".toList, .colon, wordTok (word s.patchable), .comma, .str "settings".toList, .colon, .open,
    .str "resolve_internal_relocations".toList, .colon, .str (word s.resolve), .comma,
    .str "include_dependencies".toList, .colon, .str (word s.dependencies), .comma, .str "comparison_mode".toList, .colon, modeTok s.mode,
    .close, .comma, .str "build-id".toList, .colon, .open, .str "added".toList, .colon, .str s.newId, .comma,
    .str "removed".toList, .colon, .str s.oldId, .close, .comma]

theorem boolText_facts {word : Bool → Str} {value : Bool → Json} (h : BoolText word value) (b : Bool) :
    word b ≠ [] ∧ (∀ a ∈ word b, ¬ Ends a) ∧ PlainText (word b) ∧
    ∀ n ts, readValue (n + 1) (wordTok (word b) :: ts) = some (value b, ts) := by
  cases h <;> cases b
  all_goals refine ⟨by decide, by unfold Ends; decide, plain_of (by decide), fun n ts => rfl⟩

theorem whole_head {word : Bool → Str} {value : Bool → Json} (hw : BoolText word value) {s : Summary} (ho : PlainText s.oldId)
    (hn : PlainText s.newId) : Whole (summaryHead word s) (headToks word s) := by
  have hcomma : Whole [','] [.comma] := fun r => rfl
  have hopen : Whole ['{'] [.open] := fun r => rfl
  have hclose : Whole ['}', ','] [.close, .comma] := fun r => rfl
  have hp : Whole ("\"patchable\": ".toList) [.str "patchable".toList, .colon] := fun r => rfl
  have hm : Whole ("\"comparison_mode\": ".toList) [.str "comparison_mode".toList, .colon] := fun r => rfl
  have f := boolText_facts hw
  have h1 := whole_append (whole_open (name := "build-id") (plain_of (by decide)) 1) (whole_append (whole_quoted (name := "added") (plain_of (by decide)) hn 2)
    (whole_cons hcomma (whole_append (whole_quoted (name := "removed") (plain_of (by decide)) ho 2) (whole_append (whole_startLine 1) hclose))))
  have h0 := whole_append (whole_startLine 1) (whole_append hclose h1)
  have h2 := whole_mode s.mode (y := '\t' :: ('}' :: ',' :: _)) h0
  have h3 := whole_append (whole_open (name := "settings") (plain_of (by decide)) 1)
    (whole_append (whole_quoted (name := "resolve_internal_relocations") (plain_of (by decide)) (f s.resolve).2.2.1 2) (whole_cons hcomma
    (whole_append (whole_quoted (name := "include_dependencies") (plain_of (by decide)) (f s.dependencies).2.2.1 2) (whole_cons hcomma
    (whole_append (whole_startLine 2) (whole_append hm h2))))))
  have h4 := whole_word (f s.patchable).1 (f s.patchable).2.1 (Or.inl rfl) (whole_cons hcomma h3)
  exact whole_cons hopen (whole_append (whole_startLine 1) (whole_append hp h4))

/-- Tokens with commas in between. -/
def joinToks : List (List Tok) → List Tok
  | [] => []
  | [b] => b
  | b :: bs => b ++ .comma :: joinToks bs

theorem whole_join {α : Type} (f : α → Str) (g : α → List Tok) (l : List α) (h : ∀ x ∈ l, Whole (f x) (g x)) :
    Whole (joinBlocks (l.map f)) (joinToks (l.map g)) := by
  have hcomma : Whole [','] [.comma] := fun r => rfl
  induction l with
  | nil => exact fun r => rfl
  | cons x l ih =>
    cases l with
    | nil => exact h x (List.mem_cons_self ..)
    | cons y l =>
      exact whole_append (h x (List.mem_cons_self ..)) (whole_cons hcomma (ih (fun z hz => h z (List.mem_cons_of_mem _ hz))))

theorem tokens_summary {word : Bool → Str} {value : Bool → Json} (hw : BoolText word value) {s : Summary} (ho : PlainText s.oldId)
    (hn : PlainText s.newId) :
    tokens .start (summaryText word s) = headToks word s ++ (joinToks (statNames.map (fun x => statToks x.1 (s.stat x.2))) ++ [.close]) := by
  have hend : Whole ['\n', '}', '\n'] [.close] := fun r => rfl
  have h := whole_append (whole_head hw ho hn) (whole_append (whole_join (fun x : String × Category => statBlock x.1 1 (s.stat x.2))
    (fun x => statToks x.1 (s.stat x.2)) statNames (by
      intro x hx
      refine whole_stat (plain_of ?_) 1 _
      revert x
      decide)) hend)
  have h' := h []
  rw [List.append_nil] at h'
  rw [summaryText, h']
  exact List.append_nil _

/-! Values -/

theorem read_stat (n : Nat) (name : String) (s : Stat) (ts : List Tok) :
    readValue (n + 20) ((statToks name s).tail.tail ++ ts) = some (statTree s, ts) := rfl

theorem members_step {n : Nat} {k : Str} {v : Json} {ts ts' ts'' : List Tok} {ms : List (Str × Json)}
    (h : readValue n ts = some (v, .comma :: ts')) (h' : readMembers n ts' = some (ms, ts'')) :
    readMembers (n + 1) (.str k :: .colon :: ts) = some ((k, v) :: ms, ts'') := by
  rw [readMembers, h]
  dsimp only
  rw [h']

theorem members_last {n : Nat} {k : Str} {v : Json} {ts ts' : List Tok} (h : readValue n ts = some (v, .close :: ts')) :
    readMembers (n + 1) (.str k :: .colon :: ts) = some ([(k, v)], ts') := by
  rw [readMembers, h]

theorem members_stats (f : Category → Stat) (ts : List Tok) (l : List (String × Category)) (hl : l ≠ []) (n : Nat) :
    readMembers (n + 20 + l.length) (joinToks (l.map (fun x => statToks x.1 (f x.2))) ++ .close :: ts) =
      some (l.map (fun x => (x.1.toList, statTree (f x.2))), ts) := by
  induction l with
  | nil => exact absurd rfl hl
  | cons x l ih =>
    cases l with
    | nil => exact members_last (read_stat n x.1 (f x.2) (.close :: ts))
    | cons y l =>
      have h2 := ih (List.cons_ne_nil _ _)
      have h1 := read_stat (n + (y :: l).length) x.1 (f x.2) (.comma :: (joinToks ((y :: l).map (fun x => statToks x.1 (f x.2))) ++ .close :: ts))
      rw [Nat.add_right_comm] at h1
      have h := members_step (k := x.1.toList) h1 h2
      have e : joinToks ((x :: y :: l).map (fun x => statToks x.1 (f x.2))) ++ .close :: ts =
          statToks x.1 (f x.2) ++ (.comma :: (joinToks ((y :: l).map (fun x => statToks x.1 (f x.2))) ++ .close :: ts)) := by
        show (statToks x.1 (f x.2) ++ _) ++ _ = _
        rw [List.append_assoc]
        rfl
      rw [e]
      exact h

theorem read_str (n : Nat) (s : Str) (ts : List Tok) : readValue (n + 1) (.str s :: ts) = some (.str s, ts) := rfl

theorem read_mode (n m : Nat) (ts : List Tok) : readValue (n + 1) (modeTok m :: ts) = some (modeTree m, ts) := by
  match m with
  | 0 | 1 | 2 | 3 => rfl
  | _ + 4 => rfl

/-- The members of the summary are read back. -/
theorem read_summary {word : Bool → Str} {value : Bool → Json} (hw : BoolText word value) {s : Summary} (ho : PlainText s.oldId)
    (hn : PlainText s.newId) : readJson (summaryText word s) = some (.obj (summaryMembers word value s)) := by
  have f := boolText_facts hw
  unfold readJson
  simp only [tokens_summary hw ho hn]
  have hs := fun n => members_stats s.stat [] statNames (List.cons_ne_nil _ _) n
  have hmode : ∀ n ts, readValue (n + 5) (.open :: .str "resolve_internal_relocations".toList :: .colon :: .str (word s.resolve) :: .comma ::
      .str "include_dependencies".toList :: .colon :: .str (word s.dependencies) :: .comma :: .str "comparison_mode".toList :: .colon ::
      modeTok s.mode :: .close :: ts) = some (.obj [("resolve_internal_relocations".toList, .str (word s.resolve)),
        ("include_dependencies".toList, .str (word s.dependencies)), ("comparison_mode".toList, modeTree s.mode)], ts) := by
    intro n ts
    have h := members_step (k := "resolve_internal_relocations".toList) (read_str (n + 2) (word s.resolve) _)
      (members_step (k := "include_dependencies".toList) (read_str (n + 1) (word s.dependencies) _)
      (members_last (n := n + 1) (k := "comparison_mode".toList) (read_mode n s.mode (.close :: ts))))
    rw [readValue, h]
    intro _ e
    cases e
  have hid : ∀ n ts, readValue (n + 5) (.open :: .str "added".toList :: .colon :: .str s.newId :: .comma ::
      .str "removed".toList :: .colon :: .str s.oldId :: .close :: ts) =
        some (.obj [("added".toList, .str s.newId), ("removed".toList, .str s.oldId)], ts) := fun n ts => rfl
  obtain ⟨n, hlen⟩ : ∃ n, (headToks word s ++ (joinToks (statNames.map (fun x : String × Category => statToks x.1 (s.stat x.2))) ++
      [Tok.close])).length = n + 33 := ⟨_, by rw [List.length_append, Nat.add_comm]; rfl⟩
  rw [hlen]
  have h := members_step (k := "patchable".toList) ((f s.patchable).2.2.2 (n + 30) (.comma :: _))
    (members_step (k := "settings".toList) (hmode (n + 25) (.comma :: _))
    (members_step (k := "build-id".toList) (hid (n + 24) (.comma :: _)) (hs n)))
  have h' : readValue (n + 33) (.open :: (headToks word s).tail ++ (joinToks (statNames.map (fun x : String × Category =>
      statToks x.1 (s.stat x.2))) ++ [Tok.close])) = some (.obj (summaryMembers word value s), []) := by
    have e : (headToks word s).tail = .str "patchable".toList :: (headToks word s).tail.tail := rfl
    rw [e, List.cons_append, List.cons_append, readValue]
    · have h2 : readMembers (n + 32) (.str "patchable".toList :: ((headToks word s).tail.tail ++ (joinToks (statNames.map
          (fun x : String × Category => statToks x.1 (s.stat x.2))) ++ [Tok.close]))) = some (summaryMembers word value s, []) := h
      rw [h2]
    · intro _ e
      cases e
  have h'' : readValue (n + 33) (headToks word s ++ (joinToks (statNames.map (fun x : String × Category =>
      statToks x.1 (s.stat x.2))) ++ [Tok.close])) = some (.obj (summaryMembers word value s), []) := h'
  rw [h'']

/-! Identifiers -/

theorem cText_plain {b : Build} {junk : Str} (hj : junk.length = 41) {file : Option (List NoteSec)} {v : Str}
    (h : buildIdOf b junk file = .ok v) : PlainText (cText v) := by
  have hc : (clearFirst junk).length = buildIdSize := by
    unfold clearFirst buildIdSize
    rw [List.length_cons, List.length_tail, hj]
  have hempty : cText (clearFirst junk) = [] := rfl
  have hnil : PlainText [] := fun _ h => (by cases h)
  cases file with
  | none =>
    rw [← Except.ok.inj h, hempty]
    exact hnil
  | some secs =>
    obtain ⟨-, ⟨-, rfl⟩ | ⟨d, u, -, -, rfl⟩⟩ := sections_ok hc h
    · rw [hempty]; exact hnil
    · have hp : ∀ c ∈ d.flatMap renderByte, c ≠ '"' ∧ c ≠ '\\' ∧ 32 ≤ c.toNat := by
        have hd : ∀ k < 16, hexDigit k ≠ '"' ∧ hexDigit k ≠ '\\' ∧ 32 ≤ (hexDigit k).toNat := by decide
        intro c hc
        obtain ⟨x, _, hx⟩ := List.mem_flatMap.mp hc
        rcases List.mem_cons.mp hx with rfl | hx
        · exact hd _ (nibbles x).1
        · rw [List.mem_singleton.mp hx]
          exact hd _ (nibbles x).2
      unfold bufferWrite
      dsimp only
      rw [cText_append (fun c hc => render_nonzero d c (List.mem_of_mem_take hc))]
      exact fun c hc => hp c (List.mem_of_mem_take hc)

/-- C107: whatever is counted, whichever notes the files have and however truth values are written (as words or as digits), the text
of the summary is JSON. It has distinct members at the top; they tell the verdict, the settings, the identifiers of both files and, for
each of the nine categories, the counts. -/
theorem C107_read {word : Bool → Str} {value : Bool → Json} (hw : BoolText word value) (s : Summary) {bld : Build} {ja jb va vb : Str}
    {fa fb : Option (List NoteSec)} (hja : ja.length = 41) (hjb : jb.length = 41) (ha : buildIdOf bld ja fa = .ok va)
    (hb : buildIdOf bld jb fb = .ok vb) (hold : s.oldId = cText va) (hnew : s.newId = cText vb) :
    readJson (summaryText word s) = some (.obj (summaryMembers word value s)) ∧ ((summaryMembers word value s).map (·.1)).Nodup := by
  refine ⟨read_summary hw (hold ▸ cText_plain hja ha) (hnew ▸ cText_plain hjb hb), ?_⟩
  have e : (summaryMembers word value s).map (·.1) = ["patchable".toList, "settings".toList, "build-id".toList, "init".toList, "fini".toList,
      "text".toList, "rodata".toList, "relro".toList, "data".toList, "bss".toList, "tdata".toList, "tbss".toList] := rfl
  rw [e]
  decide

/-- A summary. -/
def exSummary : Summary where
  patchable := true
  resolve := false
  dependencies := true
  mode := 2
  oldId := "0aff".toList
  newId := []
  stat := fun c => if c = .text then ⟨(12, 4096), (1, 5), (0, 0), (10, 55), (0, 0)⟩ else ⟨(0, 0), (0, 0), (0, 0), (0, 0), (0, 0)⟩

example : readJson (summaryText boolWord exSummary) = some (.obj (summaryMembers boolWord .bool exSummary)) :=
  (C107_read .words exSummary (bld := .release) (ja := List.replicate 41 'x') (jb := List.replicate 41 'x') (fa := some (exNotes [0x0a, 0xff]))
    (fb := none) rfl rfl rfl rfl (by decide) (by decide)).1

/-- the text itself, up to the first category -/
example : ("{\n\t\"patchable\": 1,\n\t\"settings\": {\n\t\t\"resolve_internal_relocations\": \"0\",\n\t\t\"include_dependencies\": \"1\"," ++
    "\n\t\t\"comparison_mode\": \"COMPARE_EXECUTABLE_EXTENDED\"\n\t},\n\t\"build-id\": {").toList.isPrefixOf (summaryText boolDigit exSummary) = true := by
  decide +kernel

/-- Texts of different summaries differ. -/
theorem C107_lossless {word : Bool → Str} {value : Bool → Json} (hw : BoolText word value) (s t : Summary)
    (hs : PlainText s.oldId ∧ PlainText s.newId) (ht : PlainText t.oldId ∧ PlainText t.newId) (hm : s.mode ≤ 3 ∧ t.mode ≤ 3)
    (h : summaryText word s = summaryText word t) : s = t := by
  have e := (read_summary hw hs.1 hs.2).symm.trans ((congrArg readJson h).trans (read_summary hw ht.1 ht.2))
  replace e := Json.obj.inj (Option.some.inj e)
  obtain ⟨pa, ra, da, ma, oa, na, fa⟩ := s
  obtain ⟨pb, rb, db, mb, ob, nb, fb⟩ := t
  simp only [summaryMembers, List.map_cons, List.map_nil, List.cons.injEq, Prod.mk.injEq, Json.obj.injEq, Json.str.injEq, true_and, and_true] at e
  obtain ⟨e1, ⟨e2, e3, e4⟩, ⟨e5, e6⟩, e7⟩ := e
  have hv : ∀ x y, value x = value y → x = y := by cases hw <;> intro x y h <;> cases x <;> cases y <;> first | rfl | cases h
  have hwd : ∀ x y, word x = word y → x = y := by
    intro x y h
    cases hw <;> cases x <;> cases y <;> first | rfl | exact absurd h (by decide)
  have hmode : ∀ x y, x ≤ 3 → y ≤ 3 → modeTree x = modeTree y → x = y := by
    intro x y hx hy h
    match x, y, hx, hy with
    | 0, 0, _, _ | 1, 1, _, _ | 2, 2, _, _ | 3, 3, _, _ => rfl
    | 0, 1, _, _ | 0, 2, _, _ | 0, 3, _, _ | 1, 0, _, _ | 1, 2, _, _ | 1, 3, _, _ | 2, 0, _, _ | 2, 1, _, _ | 2, 3, _, _ | 3, 0, _, _ | 3, 1, _, _
    | 3, 2, _, _ => exact absurd (Json.str.inj h) (by decide)
  have hcount : ∀ x y, countTree x = countTree y → x = y := by
    intro x y h
    simp only [countTree, Json.obj.injEq, List.cons.injEq, Prod.mk.injEq, Json.num.injEq, true_and, and_true] at h
    exact Prod.ext h.1 (BitVec.eq_of_toNat_eq h.2)
  have hstat : ∀ x y, statTree x = statTree y → x = y := by
    intro x y h
    simp only [statTree, changeTree, Json.obj.injEq, List.cons.injEq, Prod.mk.injEq, true_and, and_true] at h
    obtain ⟨h1, ⟨h2, h3⟩, h4, h5⟩ := h
    cases x
    cases y
    rw [Stat.mk.injEq]
    exact ⟨hcount _ _ h1, hcount _ _ h2, hcount _ _ h3, hcount _ _ h4, hcount _ _ h5⟩
  have hf : fa = fb := by
    funext c
    obtain ⟨a1, a2, a3, a4, a5, a6, a7, a8, a9⟩ := e7
    cases c
    · exact hstat _ _ a1
    · exact hstat _ _ a2
    · exact hstat _ _ a3
    · exact hstat _ _ a4
    · exact hstat _ _ a5
    · exact hstat _ _ a6
    · exact hstat _ _ a7
    · exact hstat _ _ a8
    · exact hstat _ _ a9
  rw [hv _ _ e1, hwd _ _ e2, hwd _ _ e3, hmode ma mb hm.1 hm.2 e4, e5, e6, hf]

example : summaryText boolWord exSummary ≠ summaryText boolWord { exSummary with mode := 1 } := fun h =>
  absurd (congrArg Summary.mode (C107_lossless .words _ _ ⟨plain_of (by decide), plain_of (by decide)⟩ ⟨plain_of (by decide), plain_of (by decide)⟩
    ⟨by decide, by decide⟩ h)) (by decide)

/-- C107: the cell of the table of versions shows the verdict that was computed for the two files, together with the comparison of the
hashes. -/
theorem C107_verdict {word : Bool → Str} {value : Bool → Json} (hw : BoolText word value) {bld : Build} {h : BitVec 64 → BitVec 32}
    {a b : SymTree} {ja jb va vb : Str} {fa fb : Option (List NoteSec)} (hja : ja.length = 41) (hjb : jb.length = 41)
    (ha : buildIdOf bld ja fa = .ok va) (hb : buildIdOf bld jb fb = .ok vb) {resolve deps : Bool} {mode : Nat} {s : Summary}
    (hs : summaryOf bld h a b (cText va) (cText vb) resolve deps mode = .ok s) (base obj : Hashes) :
    ∃ p, patchableWith bld h b a deps mode = .ok p ∧
      cellVerdict (diffMembers (execJson (some (summaryText word s)))) base obj =
        some (p && (base.isEmpty || obj.isEmpty || dictEq base obj)) := by
  unfold summaryOf at hs
  cases hp : patchableWith bld h b a deps mode with
  | error e => rw [hp] at hs; cases hs
  | ok p =>
    rw [hp] at hs
    have hs' := Except.ok.inj hs
    refine ⟨p, rfl, ?_⟩
    have e := (C107_read hw s hja hjb ha hb (by rw [← hs']) (by rw [← hs'])).1
    have em : execJson (some (summaryText word s)) = summaryMembers word value s := by
      unfold execJson
      dsimp only
      rw [e]
    have hpat : s.patchable = p := by rw [← hs']
    have ht : truthy (value s.patchable) = p := by
      rw [hpat]
      cases hw <;> cases p <;> rfl
    rw [em]
    refine cellVerdict_fold _ _ none p ?_
    have e2 : diffMembers (summaryMembers word value s) = .patchable (truthy (value s.patchable)) :: List.replicate 11 .other := rfl
    rw [e2, ht]
    rfl

/-- C107: if the program fails, or its text is no JSON, the cell has no verdict. -/
theorem C107_failure (base obj : Hashes) (out : Option Str) (h : out = none ∨ ∃ t, out = some t ∧ readJson t = none) :
    cellVerdict (diffMembers (execJson out)) base obj = none := by
  rcases h with rfl | ⟨t, rfl, h⟩
  · rfl
  · have : execJson (some t) = [] := by
      unfold execJson
      dsimp only
      rw [h]
    rw [this]
    rfl

/-- Old and new file of the example: one function is new. -/
def exOld : SymTree := [{ address := 16, size := 4, id := { internal := 3 }, sec := { executable := true } }]

def exNew : SymTree :=
  [{ address := 16, size := 4, id := { internal := 3 }, sec := { executable := true } },
    { address := 32, size := 5, id := { internal := 2 }, sec := { executable := true } }]

example : ∃ s, summaryOf .debug (fun _ => 0) exOld exNew (cText (clearFirst (List.replicate 41 'x'))) (cText (clearFirst (List.replicate 41 'x')))
    false false 0 = .ok s ∧ cellVerdict (diffMembers (execJson (some (summaryText boolDigit s)))) [] [] = some true := by
  refine ⟨_, rfl, ?_⟩
  obtain ⟨p, hp, hv⟩ := C107_verdict .digits (bld := .debug) (h := fun _ => 0) (a := exOld) (b := exNew) (ja := List.replicate 41 'x')
    (jb := List.replicate 41 'x') (fa := none) (fb := none) (resolve := false) (deps := false) (mode := 0) rfl rfl rfl rfl rfl [] []
  rw [hv, ← Except.ok.inj (hp : Except.ok true = _)]
  rfl

example : cellVerdict (diffMembers (execJson (some "{\"patchable\": 1".toList))) [] [] = none :=
  C107_failure [] [] _ (Or.inr ⟨_, rfl, by decide +kernel⟩)

/-! Categories -/

theorem bytes_zero {f : Symbol → Bool} {l : List Symbol} (hl : ∀ s ∈ l, s.size ≠ 0) : bytes f l = 0 ↔ ∀ s ∈ l, f s = false := by
  induction l with
  | nil => simp [bytes]
  | cons x l ih =>
    have hx := hl x (List.mem_cons_self ..)
    have ih := ih (fun s hs => hl s (List.mem_cons_of_mem _ hs))
    have hx0 : x.size.toNat ≠ 0 := fun e => hx (BitVec.eq_of_toNat_eq e)
    by_cases hf : f x = true
    · simp only [bytes, List.filter_cons, hf, if_true, List.map_cons, List.sum_cons]
      constructor
      · intro h
        exact absurd h (by omega)
      · intro h
        have := h x (List.mem_cons_self ..)
        rw [hf] at this
        cases this
    · have hf' : f x = false := by simpa using hf
      have e : bytes f (x :: l) = bytes f l := by simp [bytes, hf']
      rw [e, ih]
      exact ⟨fun h s hs => by rcases List.mem_cons.mp hs with rfl | hs; exact hf'; exact h s hs,
        fun h s hs => h s (List.mem_cons_of_mem _ hs)⟩

theorem changed_size {h : BitVec 64 → BitVec 32} {a b : SymTree} {deps : Bool} {f : Symbol → Bool} (hb : bytes f a < 2 ^ 64) :
    ((countStat f (diff_extended h a b deps)).2.toNat != 0) = true ↔ ∃ s ∈ diff_extended h a b deps, f s = true := by
  have he := (diffT_bounded (extCmp_lawful h) a b deps f).2
  have hz : ∀ s ∈ diff_extended h a b deps, s.size ≠ 0 := fun s hs => (diffT_mem (extCmp_lawful h) hs).2
  rw [countStat_eq]
  have hlt : bytes f (diff_extended h a b deps) < 2 ^ 64 := Nat.lt_of_le_of_lt he hb
  simp only [BitVec.toNat_ofNat, Nat.mod_eq_of_lt hlt, bne_iff_ne, ne_eq, bytes_zero hz]
  simp

theorem shown_eq {word : Bool → Str} {value : Bool → Json} (hw : BoolText word value) {s : Summary} (ho : PlainText s.oldId)
    (hn : PlainText s.newId) {changed : Category → Bool}
    (hc : ∀ c, changed c = ((s.stat c).extendedAdded.2.toNat != 0 || (s.stat c).extendedRemoved.2.toNat != 0)) :
    shownSections (execJson (some (summaryText word s))) =
      [("init".toList, some (changed .init)), ("fini".toList, some (changed .fini)), ("text".toList, some (changed .text)),
        ("rodata".toList, some (changed .rodata)), ("relro".toList, some (changed .relro)), ("data".toList, some (changed .data)),
        ("bss".toList, some (changed .bss)), ("tdata".toList, some (changed .tdata)), ("tbss".toList, some (changed .tbss))] := by
  have em : execJson (some (summaryText word s)) = summaryMembers word value s := by
    unfold execJson
    dsimp only
    rw [read_summary hw ho hn]
  have hs : ∀ c, shownChanged (statTree (s.stat c)) = some (changed c) := by
    intro c
    rw [hc]
    generalize s.stat c = x
    show (if notZero (.num x.extendedAdded.2.toNat) then some true else some (notZero (.num x.extendedRemoved.2.toNat))) = _
    unfold notZero
    dsimp only
    by_cases hz : (x.extendedAdded.2.toNat != 0) = true
    · rw [if_pos hz, hz]
      rfl
    · rw [if_neg hz, Bool.eq_false_iff.mpr hz]
      rfl
  rw [em]
  have e2 : shownSections (summaryMembers word value s) =
      [("init".toList, shownChanged (statTree (s.stat .init))), ("fini".toList, shownChanged (statTree (s.stat .fini))),
        ("text".toList, shownChanged (statTree (s.stat .text))), ("rodata".toList, shownChanged (statTree (s.stat .rodata))),
        ("relro".toList, shownChanged (statTree (s.stat .relro))), ("data".toList, shownChanged (statTree (s.stat .data))),
        ("bss".toList, shownChanged (statTree (s.stat .bss))), ("tdata".toList, shownChanged (statTree (s.stat .tdata))),
        ("tbss".toList, shownChanged (statTree (s.stat .tbss)))] := by
    cases hw <;> rfl
  rw [e2]
  simp only [hs]

theorem summaryOf_ok {bld : Build} {h : BitVec 64 → BitVec 32} {a b : SymTree} {ia ib : Str} {resolve deps : Bool} {mode : Nat} {s : Summary}
    (hs : summaryOf bld h a b ia ib resolve deps mode = .ok s) : s.oldId = ia ∧ s.newId = ib ∧ s.stat = statOf h a b deps := by
  unfold summaryOf at hs
  cases hp : patchableWith bld h b a deps mode with
  | error e => rw [hp] at hs; cases hs
  | ok p =>
    rw [hp] at hs
    rw [← Except.ok.inj hs]
    exact ⟨rfl, rfl, rfl⟩

/-- C107 (up to sizes beyond 64 bits): the cell lists the nine categories in this order, and shows a category as changed exactly if a
symbol of it was added or removed. -/
theorem C107_sections_partial {word : Bool → Str} {value : Bool → Json} (hw : BoolText word value) {bld : Build} {h : BitVec 64 → BitVec 32}
    {a b : SymTree} {ja jb va vb : Str} {fa fb : Option (List NoteSec)} (hja : ja.length = 41) (hjb : jb.length = 41)
    (ha : buildIdOf bld ja fa = .ok va) (hb : buildIdOf bld jb fb = .ok vb) {resolve deps : Bool} {mode : Nat} {s : Summary}
    (hs : summaryOf bld h a b (cText va) (cText vb) resolve deps mode = .ok s)
    (hsize : ∀ c : Category, bytes c.filter a < 2 ^ 64 ∧ bytes c.filter b < 2 ^ 64) :
    ∃ changed : Category → Bool,
      shownSections (execJson (some (summaryText word s))) =
        [("init".toList, some (changed .init)), ("fini".toList, some (changed .fini)), ("text".toList, some (changed .text)),
          ("rodata".toList, some (changed .rodata)), ("relro".toList, some (changed .relro)), ("data".toList, some (changed .data)),
          ("bss".toList, some (changed .bss)), ("tdata".toList, some (changed .tdata)), ("tbss".toList, some (changed .tbss))] ∧
      ∀ c, changed c = true ↔ (∃ x ∈ diff_extended h b a deps, c.filter x = true) ∨ ∃ x ∈ diff_extended h a b deps, c.filter x = true := by
  obtain ⟨e1, e2, e3⟩ := summaryOf_ok hs
  refine ⟨_, shown_eq hw (e1 ▸ cText_plain hja ha) (e2 ▸ cText_plain hjb hb) (fun c => rfl), fun c => ?_⟩
  rw [e3, Bool.or_eq_true]
  exact or_congr (changed_size (hsize c).2) (changed_size (hsize c).1)

example : ∃ s, summaryOf .debug (fun _ => 0) exOld exNew (cText (clearFirst (List.replicate 41 'x'))) (cText (clearFirst (List.replicate 41 'x')))
    false false 0 = .ok s ∧ ∃ changed : Category → Bool, (shownSections (execJson (some (summaryText boolWord s))))[2]? = some ("text".toList, some (changed .text)) ∧
      changed .text = true ∧ changed .data = false := by
  refine ⟨_, rfl, ?_⟩
  obtain ⟨f, h1, h2⟩ := C107_sections_partial .words (bld := .debug) (h := fun _ => 0) (a := exOld) (b := exNew) (ja := List.replicate 41 'x')
    (jb := List.replicate 41 'x') (fa := none) (fb := none) (resolve := false) (deps := false) (mode := 0) rfl rfl rfl rfl rfl
    (fun c => by cases c <;> exact ⟨by decide, by decide⟩)
  refine ⟨f, by rw [h1]; rfl, (h2 .text).mpr (by decide), ?_⟩
  rw [Bool.eq_false_iff, ne_eq, h2]
  decide

/-- C107 fails for sizes beyond 64 bits: a category with two added symbols is shown as unchanged, as the sum of their sizes is zero. -/
theorem C107_sections_counterexample : ∃ (b : SymTree) (s : Summary), Ordered b ∧
    summaryOf .debug (fun _ => 0) [] b [] [] false false 0 = .ok s ∧
    (shownSections (execJson (some (summaryText boolWord s))))[2]? = some ("text".toList, some false) ∧
    ∃ x ∈ diff_extended (fun _ => 0) b [] false, Category.text.filter x = true := by
  refine ⟨[{ address := 16, size := 0x8000000000000000, id := { internal := 3 }, sec := { executable := true } },
    { address := 0x8000000000000016, size := 0x8000000000000000, id := { internal := 2 }, sec := { executable := true } }], _, by decide, rfl, ?_,
    by decide⟩
  rw [shown_eq .words (fun _ h => by cases h) (fun _ h => by cases h) (changed := fun _ => false) (by intro c; cases c <;> decide)]
  rfl

end Bean.Props

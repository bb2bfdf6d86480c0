import Verif.Model.CompareMarkup
import Verif.Props.CompareText
import Verif.Props.RelLines
/-
C142: the summary of the comparison names the object.
-/
namespace Bean.Props

open Bean CompareText

theorem shown_plain {a : Str} (h : '[' ∉ a) (b : Str) : shownText false (a ++ b) = a ++ shownText false b := by
  induction a with
  | nil => rfl
  | cons c a ih =>
    rw [List.mem_cons, not_or] at h
    rw [List.cons_append, shownText, if_neg (fun e => h.1 e.1.symm), ih h.2]
    rfl

theorem tag_ends {t : Str} (h : '[' ∉ t) (h' : ']' ∉ t) (r : Str) : tagEnds (t ++ ']' :: r) = true ∧ shownText true (t ++ ']' :: r) = shownText false r := by
  induction t with
  | nil => exact ⟨rfl, rfl⟩
  | cons c t ih =>
    rw [List.mem_cons, not_or] at h h'
    obtain ⟨i1, i2⟩ := ih h.2 h'.2
    constructor
    · rw [List.cons_append, tagEnds, if_neg (fun e => h'.1 e.symm), if_neg (fun e => h.1 e.symm), i1]
    · rw [List.cons_append, shownText, bne_iff_ne.mpr (fun e => h'.1 e.symm), i2]

theorem shown_tag {x : Char} {t : Str} (hx : tagFirst x = true) (h : '[' ∉ t) (h' : ']' ∉ t) (r : Str) :
    shownText false ('[' :: x :: t ++ ']' :: r) = shownText false r := by
  obtain ⟨i1, i2⟩ := tag_ends h h' r
  have ho : opensTag (x :: t ++ ']' :: r) = true := by
    rw [List.cons_append, opensTag, hx, i1]
    rfl
  have hx' : x ≠ ']' := by
    rintro rfl
    exact absurd hx (by decide)
  show shownText false ('[' :: (x :: t ++ ']' :: r)) = _
  rw [shownText, if_pos ⟨rfl, ho⟩, List.cons_append, shownText, bne_iff_ne.mpr hx', i2]

theorem settings_plain (s : CompareOptions) : '[' ∉ settingsText (settingsOf s) := by
  have key : ∀ m ∈ [modeText 0, modeText 1, modeText 2, modeText 3], ∀ d r g : Bool,
      '[' ∉ settingsText ([m.toList] ++ (if d then ["recusive symbol dependency checks".toList] else []) ++ (if r then ["internal relocation resolving".toList] else []) ++
        (if g then ["(external?) debug symbols".toList] else [])) := by decide +kernel
  have hm : modeText (internalLevel s) ∈ [modeText 0, modeText 1, modeText 2, modeText 3] := by
    match internalLevel s with
    | 0 => exact List.mem_cons_self
    | 1 => exact List.mem_cons_of_mem _ List.mem_cons_self
    | 2 => exact List.mem_cons_of_mem _ (List.mem_cons_of_mem _ List.mem_cons_self)
    | n + 3 => exact List.mem_cons_of_mem _ (List.mem_cons_of_mem _ (List.mem_cons_of_mem _ List.mem_cons_self))
  exact key _ hm s.dependencies s.relocations s.dbgsym

theorem digits_plain (n : Nat) : '[' ∉ Nat.toDigits 10 n := by
  intro h
  obtain ⟨k, hk, e⟩ := mem_digits (by decide) h
  have : ∀ k < 10, '[' ≠ Nat.digitChar k := by decide
  exact this k hk e

/-- What is behind the name. -/
theorem shown_rest (s : CompareOptions) (k n : Nat) (name : Str) (shown : Str) (h : ∀ r, shownText false (name ++ '[' :: r) = shown ++ shownText false ('[' :: r)) :
    shownText false (rawSentence s name k n) = sentence s shown k n := by
  have h' : ∀ r, shownText false (name ++ ('[' :: '/' :: ['b'] ++ ']' :: r)) = shown ++ shownText false ('[' :: '/' :: ['b'] ++ ']' :: r) := fun r => h _
  unfold rawSentence sentence
  rw [show "For [b]".toList = "For ".toList ++ ('[' :: 'b' :: [] ++ [']']) by decide, List.append_assoc, shown_plain (by decide), List.append_assoc, List.singleton_append,
    shown_tag (by decide) (by decide) (by decide),
    show "[/b], [light_green]".toList = ('[' :: '/' :: ['b'] ++ [']']) ++ (", ".toList ++ ('[' :: 'l' :: "ight_green".toList ++ [']'])) by decide,
    List.append_assoc, List.append_assoc, List.singleton_append, h', shown_tag (by decide) (by decide) (by decide), List.append_assoc, shown_plain (by decide), List.append_assoc, List.singleton_append,
    shown_tag (by decide) (by decide) (by decide), shown_plain (digits_plain k),
    show "[/light_green] of ".toList = ('[' :: '/' :: "light_green".toList ++ [']']) ++ " of ".toList by decide,
    List.append_assoc, List.append_assoc, List.singleton_append, shown_tag (by decide) (by decide) (by decide), shown_plain (by decide), shown_plain (digits_plain n),
    show " versions ([light_green]".toList = " versions (".toList ++ ('[' :: 'l' :: "ight_green".toList ++ [']']) by decide,
    List.append_assoc, shown_plain (by decide), List.append_assoc, List.singleton_append, shown_tag (by decide) (by decide) (by decide), shown_plain (digits_plain _),
    show "%[/light_green]) can be live patched".toList = "%".toList ++ (('[' :: '/' :: "light_green".toList ++ [']']) ++ ") can be live patched".toList) by decide,
    List.append_assoc, shown_plain (by decide), List.append_assoc, List.append_assoc, List.singleton_append, shown_tag (by decide) (by decide) (by decide), shown_plain (by decide)]
  have e : shownText false (settingsText (settingsOf s)) = settingsText (settingsOf s) := by
    have := shown_plain (settings_plain s) []
    rwa [List.append_nil, show shownText false [] = [] from rfl, List.append_nil] at this
  rw [e]
  rfl

/-- **C142**: the summary is the sentence with the name of the object, for names without backslash in which no `[` is followed by a character that starts a tag. -/
theorem C142_name_partial (s : CompareOptions) (name : Str) (k n : Nat)
    (h : ∀ p x q, name = p ++ '[' :: x :: q → ¬ ('a' ≤ x ∧ x ≤ 'z') ∧ x ≠ '#' ∧ x ≠ '/' ∧ x ≠ '@') (hb : '\\' ∉ name) :
    shownSentence s name k n = some (sentence s name k n) := by
  unfold shownSentence
  rw [if_neg hb]
  refine congrArg some (shown_rest s k n name name (fun r => ?_))
  clear hb
  induction name with
  | nil => rfl
  | cons c name ih =>
    have hc : ¬ (c = '[' ∧ opensTag (name ++ '[' :: r) = true) := by
      rintro ⟨rfl, ho⟩
      cases name with
      | nil => exact absurd ho (by simp [opensTag, tagFirst])
      | cons x q =>
        obtain ⟨h1, h2, h3, h4⟩ := h [] x q rfl
        rw [List.cons_append, opensTag, Bool.and_eq_true] at ho
        have ht := ho.1
        unfold tagFirst at ht
        simp only [Bool.or_eq_true, Bool.and_eq_true, decide_eq_true_eq] at ht
        rcases ht with ((ht | ht) | ht) | ht
        · exact h1 ht
        · exact h2 ht
        · exact h3 ht
        · exact h4 ht
    rw [List.cons_append, shownText, if_neg hc, ih (fun p x q e => h (c :: p) x q (by rw [e]; rfl))]
    rfl

/-- C142 is false for names with square brackets: what looks like a tag is missing in the summary, so that it is the one of another object. -/
theorem C142_tag_counterexample (s : CompareOptions) (p : Str) (x : Char) (t q : Str) (k n : Nat) (hp : '[' ∉ p) (hx : tagFirst x = true) (ht : '[' ∉ t) (ht' : ']' ∉ t) (hq : '[' ∉ q)
    (hb : '\\' ∉ p ++ ('[' :: x :: t ++ ']' :: q)) :
    shownSentence s (p ++ ('[' :: x :: t ++ ']' :: q)) k n = some (sentence s (p ++ q) k n) := by
  unfold shownSentence
  rw [if_neg hb]
  refine congrArg some (shown_rest s k n _ (p ++ q) (fun r => ?_))
  rw [List.append_assoc, shown_plain hp, List.append_assoc]
  show p ++ shownText false ('[' :: x :: t ++ ']' :: (q ++ '[' :: r)) = _
  rw [shown_tag hx ht ht', shown_plain hq, List.append_assoc]

example : '[' ∉ "libfoo.so.1".toList ∧ "lib[1].so".toList = "lib".toList ++ '[' :: '1' :: "].so".toList ∧ shownText false "lib[1].so".toList = "lib[1].so".toList ∧ "lib[dbg].so".toList = "lib".toList ++ ('[' :: 'd' :: "bg".toList ++ ']' :: ".so".toList) ∧ tagFirst 'd' = true ∧
    '\\' ∉ "libfoo.so.1".toList ∧ '\\' ∉ "lib[dbg].so".toList ∧ shownText false "For [b]lib[dbg].so[/b], [B]".toList = "For lib.so, [B]".toList := by decide +kernel

end Bean.Props

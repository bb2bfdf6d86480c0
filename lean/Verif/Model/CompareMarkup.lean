import Verif.Model.CompareText
/-
Markup in the summary of the comparison of versions (tools/compare.py:281-296). The library that prints the text (rich) is not part of /repo; assumed is its documented treatment of tags:
a tag starts with `[` and one of the characters `a` to `z`, `#`, `/` or `@`, has no further `[` and ends with the first `]`. Tags are not shown. Backslashes, which protect tags, are not modelled: there is no result for names with them.
-/
namespace Bean
namespace CompareText

/-- First character of a tag. -/
def tagFirst (c : Char) : Bool := ('a' ≤ c && c ≤ 'z') || c = '#' || c = '/' || c = '@'

/-- Is there an end of the tag? -/
def tagEnds : Str → Bool
  | [] => false
  | c :: s => if c = ']' then true else if c = '[' then false else tagEnds s

/-- Is the text behind `[` the remaining part of a tag? -/
def opensTag : Str → Bool
  | [] => false
  | c :: s => tagFirst c && tagEnds s

/-- The text that is shown; `inTag` for the part up to the end of a tag. -/
def shownText : Bool → Str → Str
  | _, [] => []
  | true, c :: s => shownText (c != ']') s
  | false, c :: s => if c = '[' ∧ opensTag s then shownText true s else c :: shownText false s

/-- compare.py:281-293: the text of the summary with its markup; the name of the object is not protected. -/
def rawSentence (s : CompareOptions) (name : Str) (k n : Nat) : Str :=
  "For [b]".toList ++ (name ++ ("[/b], [light_green]".toList ++ (Nat.toDigits 10 k ++ ("[/light_green] of ".toList ++ (Nat.toDigits 10 n ++ (" versions ([light_green]".toList ++
    (Nat.toDigits 10 (percent k n) ++ ("%[/light_green]) can be live patched".toList ++ settingsText (settingsOf s)))))))))

/-- compare.py:294, 297: what is shown of the summary (without the final `!` of the first of the two); `none` if the name has a backslash, which is not modelled. -/
def shownSentence (s : CompareOptions) (name : Str) (k n : Nat) : Option Str := if '\\' ∈ name then none else some (shownText false (rawSentence s name k n))

end CompareText
end Bean

import Verif.Model.DwarfVars
/-
Terminals: characters are shown with the current attributes, control sequences change the attributes (ECMA-48).
-/
namespace Bean.Spec

/-- Attributes of characters. -/
structure Style where
  bold : Bool := false
  faint : Bool := false
  italic : Bool := false
  underlined : Bool := false
  colour : Option Nat := none
deriving DecidableEq, Repr

/-- Parameters of `SGR` (select graphic rendition). -/
def rendition (s : Style) (n : Nat) : Style :=
  if n = 0 then {}
  else if n = 1 then { s with bold := true }
  else if n = 2 then { s with faint := true }
  else if n = 3 then { s with italic := true }
  else if n = 4 then { s with underlined := true }
  else if n = 22 then { s with bold := false, faint := false }
  else if n = 23 then { s with italic := false }
  else if n = 24 then { s with underlined := false }
  else if 30 ≤ n ∧ n ≤ 37 then { s with colour := some (n - 30) }
  else if n = 39 then { s with colour := none }
  else s

/-- Position in the input: in text, behind the escape character, or in the parameters of a control sequence (the finished ones and the current one). -/
inductive Awaits where
  | text
  | escape
  | parameters (done : List Nat) (current : Nat)
deriving DecidableEq, Repr

/-- A terminal with the characters that were shown. -/
structure Terminal where
  cells : List (Char × Style) := []
  style : Style := {}
  awaits : Awaits := .text
deriving DecidableEq, Repr

/-- A character arrives. An escape character and a character other than `[` form a complete sequence; sequences other than `SGR` are ignored. -/
def Terminal.feed (t : Terminal) (c : Char) : Terminal :=
  match t.awaits with
  | .text => if c = Char.ofNat 27 then { t with awaits := .escape } else { t with cells := t.cells ++ [(c, t.style)] }
  | .escape => if c = '[' then { t with awaits := .parameters [] 0 } else { t with awaits := .text }
  | .parameters done n =>
    if c.isDigit then { t with awaits := .parameters done (10 * n + (c.toNat - 48)) }
    else if c = ';' then { t with awaits := .parameters (done ++ [n]) 0 }
    else if c = 'm' then { t with style := (done ++ [n]).foldl rendition t.style, awaits := .text }
    else { t with awaits := .text }

/-- From the style `s` on, the text is shown as the characters `v` in colour `f`, and leads to the style `s'`. -/
def Shows (text : List Char) (s : Style) (v : List Char) (f : Option Nat) (s' : Style) : Prop :=
  ∃ cells : List (Char × Style), cells.map (·.1) = v ∧ (∀ x ∈ cells, x.2.colour = f) ∧
    ∀ out, text.foldl Terminal.feed { cells := out, style := s } = { cells := out ++ cells, style := s' }

/-- Upright letters of normal weight. -/
def Style.Calm (s : Style) : Prop := s.bold = false ∧ s.faint = false ∧ s.italic = false

end Bean.Spec

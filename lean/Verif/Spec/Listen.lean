import Verif.Model.Listen
/-
Addresses of servers (C128).
-/
namespace Bean.Spec

/-- A part of the name of a host: letters, digits and hyphens, but no hyphen at its ends. -/
def HostPart (l : Str) : Prop := l ≠ [] ∧ (∀ c ∈ l, c.isAlphanum = true ∨ c = '-') ∧ l.head? ≠ some '-' ∧ l.getLast? ≠ some '-'

/-- The name of a host, which may be a number. -/
def HostName (h : Str) : Prop := ∃ ls : List Str, ls ≠ [] ∧ (∀ l ∈ ls, HostPart l) ∧ h = ['.'].intercalate ls

/-- A network address: host and port of at most five digits, with spaces around it and possibly the end of the line. -/
def NetAddress (s host port : Str) : Prop :=
  HostName host ∧ port ≠ [] ∧ port.length ≤ 5 ∧ (∀ c ∈ port, c.isDigit = true) ∧
    ∃ m n nl, (nl = [] ∨ nl = ['\n']) ∧ s = List.replicate m ' ' ++ (host ++ ':' :: port) ++ List.replicate n ' ' ++ nl

end Bean.Spec

import Verif.Model.Daemon
/-
Notions for the daemon (C58, C59, C82).
-/
namespace Bean.Spec
open Bean

/-- The bytes of a client an event delivers. -/
def eventBytes (c : Nat) : DaemonEvent → Bytes
  | .ready i (some (.bytes b)) _ => if i = c then b else []
  | _ => []

/-- The bytes a client sent, as far as the daemon received them. -/
def received (c : Nat) (events : List DaemonEvent) : Bytes := events.flatMap (eventBytes c)

/-- A stream of bytes consists of lines and an incomplete rest. -/
def Framed (stream : Bytes) (lines : List Bytes) (rest : Bytes) : Prop :=
  stream = lines.flatMap (· ++ [10]) ++ rest ∧ (∀ l ∈ lines, 10 ∉ l) ∧ 10 ∉ rest

/-- Handling of requests one after the other: the cache afterwards and the answers with the clients they are for. -/
def sequential {κ : Type} (handle : κ → Bytes → κ × Bytes) (cache : κ) : List (Nat × Bytes) → κ × List (Nat × Bytes)
  | [] => (cache, [])
  | (c, r) :: log => ((sequential handle (handle cache r).1 log).1, (c, (handle cache r).2) :: (sequential handle (handle cache r).1 log).2)

/-- The entries of a client. -/
def ofClient (c : Nat) (log : List (Nat × Bytes)) : List Bytes := (log.filter (fun p => p.1 == c)).map (·.2)

/-- A line that asks for a build identifier: forty hexadecimal digits with spaces around them. -/
def IsIdLine (line id : Str) : Prop := ∃ before after, line = before ++ id ++ after ∧ (∀ c ∈ before, c = ' ') ∧ (∀ c ∈ after, c = ' ') ∧
  id.length = 40 ∧ ∀ c ∈ id, c ∈ "0123456789abcdef".toList

end Bean.Spec

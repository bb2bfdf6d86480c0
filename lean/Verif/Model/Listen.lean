import Verif.Model.Daemon
/-
The address of the server for variables (tools/elfvars.py:485-502).

The pattern of the address is the one for a network address: spaces, a host, a colon, up to five digits, spaces. The symbol for the end of the text
also stands for the place in front of a last line feed. Opening a server at an address may fail for other reasons that are not modelled.
-/
namespace Bean
namespace Listen

/-- `[a-zA-Z0-9]` -/
def isAlnum (c : Char) : Bool := ('a' ≤ c && c ≤ 'z') || ('A' ≤ c && c ≤ 'Z') || ('0' ≤ c && c ≤ '9')

/-- `[a-zA-Z0-9]|[a-zA-Z0-9][a-zA-Z0-9\-]*[a-zA-Z0-9]` -/
def isLabel : Str → Bool
  | [] => false
  | [c] => isAlnum c
  | c :: d :: rest => isAlnum c && (d :: rest).dropLast.all (fun x => isAlnum x || x == '-') && isAlnum ((d :: rest).getLast (by simp))

/-- The text between dots. -/
def splitDots : Str → List Str
  | [] => [[]]
  | c :: rest =>
    if c = '.' then [] :: splitDots rest
    else match splitDots rest with
      | [] => [[c]]
      | p :: ps => (c :: p) :: ps

/-- elfvars.py:486: the second alternative for the host, labels separated by dots. -/
def isHost (h : Str) : Bool := (splitDots h).all isLabel

/-- `25[0-5]|2[0-4][0-9]|[01]?[0-9][0-9]?` -/
def isOctet (s : Str) : Bool :=
  match s with
  | [a] => a.isDigit
  | [a, b] => a.isDigit && b.isDigit
  | [a, b, c] => (a == '2' && b == '5' && '0' ≤ c && c ≤ '5') || (a == '2' && '0' ≤ b && b ≤ '4' && c.isDigit) ||
      ((a == '0' || a == '1') && b.isDigit && c.isDigit)
  | _ => false

/-- elfvars.py:486: the first alternative for the host, four numbers. -/
def isIpv4 (h : Str) : Bool := (splitDots h).length == 4 && (splitDots h).all isOctet

/-- `$`: a last line feed is not part of the text. -/
def dropNewline (s : Str) : Str := if s.getLast? = some '\n' then s.dropLast else s

/-- Spaces at the end. -/
def dropSpaces (s : Str) : Str := (s.reverse.dropWhile (· == ' ')).reverse

/-- elfvars.py:486: the pattern, with both groups. -/
def inetMatch (s : Str) : Option (Str × Str) :=
  let t := dropSpaces ((dropNewline s).dropWhile (· == ' '))
  let host := t.takeWhile (· != ':')
  match t.dropWhile (· != ':') with
  | [] => none
  | _ :: port =>
    if (isIpv4 host || isHost host) && 1 ≤ port.length && port.length ≤ 5 && port.all Char.isDigit then some (host, port) else none

/-- `int(text)` for digits. -/
def portNumber (s : Str) : Nat := s.foldl (fun n c => 10 * n + (c.toNat - '0'.toNat)) 0

/-- What happens at the start of the server. -/
inductive Start where
  | tcp (host : Str) (port : Nat)
  | overflow (port : Nat)
  | occupied (path : Str)
  | unix (path : Str)
deriving DecidableEq, Repr

/-- elfvars.py:485-499: choice of the socket. Ports above 65535 raise an `OverflowError` in `bind`. -/
def startServer (present : Str → Bool) (s : Str) : Start :=
  match inetMatch s with
  | some (host, port) =>
    if portNumber port < 65536 then .tcp host (portNumber port) else .overflow (portNumber port)
  | none => if present s then .occupied s else .unix s

/-- elfvars.py:496-502: files after the server has ended. Only for an interrupt the function returns and the file of the socket is removed; in other
cases the exception ends the program. -/
def endServer (present : Str → Bool) (path : Str) (e : DaemonEnd) : Str → Bool :=
  fun p => if p = path then (match e with
    | .interrupt => false
    | _ => true) else present p

end Listen
end Bean

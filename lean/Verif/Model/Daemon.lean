import Verif.Model.ElfVars
/-
The daemon answering requests for summaries (tools/elfvars.py:376-435).

What the operating system reports is an event. A call of `select` reports several of them at once; as the loop handles them one
after the other and keeps nothing in between, the model is a sequence of events. An exception for a connection (line 432) makes
the loop forget the remaining events of a call; the next call reports them again.
-/
namespace Bean

abbrev Bytes := List UInt8

/-- Result of `recv`: the bytes, none at the end of the stream, or a connection error. -/
inductive Recv where
  | bytes (b : Bytes)
  | connectionError
deriving DecidableEq, Repr

/-- Result of `send`: the number of bytes, or a connection error. -/
inductive Send where
  | count (n : Nat)
  | connectionError
deriving DecidableEq, Repr

/-- Result of `accept`; connections are numbered. -/
inductive Accept where
  | connection (c : Nat)
  | connectionError
  /-- Any other error, e.g. too many open files. -/
  | osError
deriving DecidableEq, Repr

/-- An event: the listening socket is ready, or a connection is ready for reading (with the result of `recv`), for writing (with
the result of `send`, if it is called), or both; or the user interrupts the program. -/
inductive DaemonEvent where
  | listening (result : Accept)
  | ready (c : Nat) (read : Option Recv) (write : Option Send)
  | interrupt
deriving DecidableEq, Repr

/-- Reasons why the loop ends: the exception for undecodable requests, the one for using a closed socket, an error of `accept`, or
the user. `impossible` marks events that are not reported: for connections that are closed or do not exist. -/
inductive DaemonEnd where
  | decodeError | closedSocket | acceptError | interrupt | impossible
deriving DecidableEq, Repr

/-- elfvars.py:396: data of a connection. `sent` is what `send` took so far. -/
structure Conn where
  inb : Bytes := []
  outb : Bytes := []
  sent : Bytes := []
  isOpen : Bool := true
deriving DecidableEq, Repr

/-- State of the daemon; `κ` is the cache. -/
structure Daemon (κ : Type) where
  cache : κ
  conns : Nat → Option Conn

/-- elfvars.py:404: carriage returns and zero bytes count as ends of lines. -/
def normBytes (b : Bytes) : Bytes := b.map (fun x => if x = 13 ∨ x = 0 then 10 else x)

/-- `split(b'\n', maxsplit=1)`: absent if there is no end of line. -/
def splitLine : Bytes → Option (Bytes × Bytes)
  | [] => none
  | x :: xs => if x = 10 then some ([], xs) else (splitLine xs).map (fun p => (x :: p.1, p.2))

theorem splitLine_length {b l r : Bytes} (h : splitLine b = some (l, r)) : r.length < b.length := by
  induction b generalizing l with
  | nil => cases h
  | cons x xs ih =>
    rw [splitLine] at h
    split at h
    · cases h
      exact Nat.lt_succ_self _
    · cases hs : splitLine xs with
      | none => rw [hs] at h; cases h
      | some p =>
        rw [hs] at h
        cases h
        exact Nat.lt_succ_of_lt (ih hs)

/-- Does `decode('ascii')` succeed? -/
def isAscii (b : Bytes) : Bool := b.all (· < 128)

/-- elfvars.py:405-416: the loop over the complete lines in the input buffer. `handle` computes the answer and the new cache. The
result are cache, answers and remaining input. -/
def serve {κ : Type} (handle : κ → Bytes → κ × Bytes) (cache : κ) (inb : Bytes) : Except DaemonEnd (κ × Bytes × Bytes) :=
  match h : splitLine inb with
  | none => .ok (cache, [], inb)
  | some (line, rest) =>
    if isAscii line then
      (serve handle (handle cache line).1 rest).map (fun r => (r.1, (handle cache line).2 ++ r.2.1, r.2.2))
    else .error .decodeError
termination_by inb.length
decreasing_by exact splitLine_length h

/-- Replacement of the data of a connection. -/
def Daemon.set {κ : Type} (s : Daemon κ) (c : Nat) (d : Conn) : Daemon κ :=
  { s with conns := fun i => if i = c then some d else s.conns i }

/-- elfvars.py:402-420: reading. The result is absent for a connection error, for which the remainder of the event is skipped. -/
def daemonRead {κ : Type} (handle : κ → Bytes → κ × Bytes) (cache : κ) (d : Conn) :
    Option Recv → Except DaemonEnd (Option (κ × Conn))
  | none => .ok (some (cache, d))
  | some .connectionError => .ok none
  | some (.bytes []) => .ok (some (cache, { d with isOpen := false }))
  | some (.bytes (x :: xs)) =>
    match serve handle cache (d.inb ++ normBytes (x :: xs)) with
    | .error e => .error e
    | .ok (cache, out, rest) => .ok (some (cache, { d with inb := rest, outb := d.outb ++ out }))

/-- elfvars.py:421-428: writing. A closed socket cannot be used for it. A connection error changes nothing. -/
def daemonWrite (d : Conn) : Option Send → Except DaemonEnd Conn
  | none => .ok d
  | some w =>
    if d.outb = [] then .ok d
    else if d.isOpen = false then .error .closedSocket
    else match w with
      | .connectionError => .ok d
      | .count n => .ok { d with sent := d.sent ++ d.outb.take n, outb := d.outb.drop n }

/-- elfvars.py:390-433: handling of an event. -/
def daemonStep {κ : Type} (handle : κ → Bytes → κ × Bytes) (s : Daemon κ) : DaemonEvent → Except DaemonEnd (Daemon κ)
  | .interrupt => .error .interrupt
  | .listening .osError => .error .acceptError
  | .listening .connectionError => .ok s
  | .listening (.connection c) =>
    match s.conns c with
    | none => .ok (s.set c {})
    | some _ => .error .impossible
  | .ready c r w =>
    match s.conns c with
    | none => .error .impossible
    | some d =>
      if d.isOpen = false then .error .impossible
      else match daemonRead handle s.cache d r with
        | .error e => .error e
        | .ok none => .ok s
        | .ok (some (cache, d)) =>
          match daemonWrite d w with
          | .error e => .error e
          | .ok d => .ok ({ s with cache := cache }.set c d)

/-- The loop. -/
def daemonRun {κ : Type} (handle : κ → Bytes → κ × Bytes) (s : Daemon κ) : List DaemonEvent → Except DaemonEnd (Daemon κ)
  | [] => .ok s
  | e :: es => match daemonStep handle s e with
    | .error f => .error f
    | .ok s => daemonRun handle s es

/-- The daemon at its start: no connections. -/
def daemonStart {κ : Type} (cache : κ) : Daemon κ where
  cache := cache
  conns := fun _ => none

/-! ### Answers -/

/-- elfvars.py:387, 408: the pattern for build identifiers, forty hexadecimal digits with spaces around them. -/
def idRequest (r : Str) : Option Str :=
  let t := r.dropWhile (· == ' ')
  let digits := t.take 40
  if digits.length = 40 ∧ digits.all (fun c => c.isDigit || ('a' ≤ c && c ≤ 'f')) ∧ (t.drop 40).all (· == ' ') then some digits
  else none

/-- What `simplify` uses of a summary: its members with the hash of those that have one. -/
abbrev SummaryHashes := List (Str × Option Str)

/-- `','.join` -/
def joinComma : List Str → Str
  | [] => []
  | [x] => x
  | x :: y :: rest => x ++ ',' :: joinComma (y :: rest)

/-- elfvars.py:376-380 `simplify`; an empty dictionary counts as false. -/
def simplify : Option SummaryHashes → Str
  | none => ['-', '\n']
  | some [] => ['-', '\n']
  | some (d :: ds) => joinComma ((d :: ds).filterMap (fun m => m.2.map (fun h => m.1 ++ ':' :: h))) ++ ['\n']

/-- Text of bytes, each below 128. -/
def asciiText (b : Bytes) : Str := b.map (fun x => Char.ofNat x.toNat)

/-- elfvars.py:406-415 with plain output and an active cache: answer to a request. `file` is what the file system and the options
of the program deliver for a path. The output consists of ASCII characters. -/
def plainAnswer (args : VarArgs) (file : Str → VarRequest SummaryHashes) (cache : VarCache SummaryHashes) (request : Bytes) :
    VarCache SummaryHashes × Str :=
  match idRequest (asciiText request) with
  | some id => (cache, simplify (getById cache args id))
  | none =>
    let r := getData cache (file (asciiText request))
    (r.2, simplify r.1)

/-- `bytes(…, 'ascii')` -/
def textBytes (t : Str) : Bytes := t.map (fun c => UInt8.ofNat c.toNat)

/-- The same as handler of the daemon. -/
def plainHandle (args : VarArgs) (file : Str → VarRequest SummaryHashes) (cache : VarCache SummaryHashes) (request : Bytes) :
    VarCache SummaryHashes × Bytes :=
  ((plainAnswer args file cache request).1, textBytes (plainAnswer args file cache request).2)

end Bean

/-
The part of JSON (RFC 8259) without escapes, signs, fractions and arrays, as read by `json.loads`.
-/
namespace Bean
namespace Spec

/-- Tokens. -/
inductive Tok where
  | open | close | colon | comma
  | str (s : List Char)
  | num (n : Nat)
  | word (s : List Char)
  | bad
deriving DecidableEq, Repr

/-- The token of a text without quotes. -/
def wordTok (s : List Char) : Tok :=
  if s.all Char.isDigit then .num (s.foldl (fun a c => 10 * a + (c.toNat - 48)) 0) else .word s

/-- State of the reader of tokens: between tokens, in a string or in a word (with the characters in reverse). -/
inductive TokState where
  | start
  | inStr (acc : List Char)
  | inWord (acc : List Char)

/-- Tokens of a text. -/
def tokens : TokState → List Char → List Tok
  | .start, [] => []
  | .inStr _, [] => [.bad]
  | .inWord acc, [] => [wordTok acc.reverse]
  | .inStr acc, '"' :: s => .str acc.reverse :: tokens .start s
  | .inStr acc, c :: s => if c = '\\' ∨ c.toNat < 32 then .bad :: tokens (.inStr acc) s else tokens (.inStr (c :: acc)) s
  | st, c :: s =>
    let pending := match st with
      | .inWord acc => [wordTok acc.reverse]
      | _ => []
    if c = '{' then pending ++ .open :: tokens .start s
    else if c = '}' then pending ++ .close :: tokens .start s
    else if c = ':' then pending ++ .colon :: tokens .start s
    else if c = ',' then pending ++ .comma :: tokens .start s
    else if c = '"' then pending ++ tokens (.inStr []) s
    else if c = ' ' ∨ c = '\n' ∨ c = '\t' ∨ c = '\r' then pending ++ tokens .start s
    else match st with
      | .inWord acc => tokens (.inWord (c :: acc)) s
      | _ => tokens (.inWord [c]) s

/-- Values. -/
inductive Json where
  | null
  | bool (b : Bool)
  | num (n : Nat)
  | str (s : List Char)
  | obj (members : List (List Char × Json))

mutual
/-- A value and the remaining tokens. -/
def readValue : Nat → List Tok → Option (Json × List Tok)
  | 0, _ => none
  | n + 1, .open :: .close :: ts => some (.obj [], ts)
  | n + 1, .open :: ts =>
    match readMembers n ts with
    | some (ms, ts') => some (.obj ms, ts')
    | none => none
  | _, .str s :: ts => some (.str s, ts)
  | _, .num k :: ts => some (.num k, ts)
  | _, .word s :: ts =>
    if s = "true".toList then some (.bool true, ts)
    else if s = "false".toList then some (.bool false, ts)
    else if s = "null".toList then some (.null, ts)
    else none
  | _, _ => none

/-- Members of an object up to the closing brace. -/
def readMembers : Nat → List Tok → Option (List (List Char × Json) × List Tok)
  | 0, _ => none
  | n + 1, .str k :: .colon :: ts =>
    match readValue n ts with
    | some (v, .close :: ts') => some ([(k, v)], ts')
    | some (v, .comma :: ts') =>
      match readMembers n ts' with
      | some (ms, ts'') => some ((k, v) :: ms, ts'')
      | none => none
    | _ => none
  | _, _ => none
end

/-- The value of a text. -/
def readJson (s : List Char) : Option Json :=
  let ts := tokens .start s
  match readValue ts.length ts with
  | some (v, []) => some v
  | _ => none

end Spec
end Bean

import Verif.Model.Detail
import Verif.Model.ChangeText
/-
Text of the detailed listing of symbols with the attributes of the terminal and with a prefix for each line (src/dump.cpp:304-544), and the outputs of
bean-diff and bean-map for all levels.

The function `a` gives the text for the parameters of a control sequence; it is `color` for the output of the programs. Without debug text (it is there only with
`FLAG_DEBUG`). Assumptions on the streams as in Model/Listing.
-/
namespace Bean

/-- bean.hpp:464-470: an identifier that is written to a stream. -/
def idStream (i : Identifier) : Str :=
  if i.internal ≠ 0 then symIdText i else '{' :: (color ['3'] ++ ("unknown ID".toList ++ Char.ofNat 27 :: ['2', '3', 'm', '}']))

/-- dump.cpp:310-341 `dump_name` -/
def styledName (a : Str → Str) (s : Symbol) : Str :=
  (if TLS.is_tls s.address then "TLS:".toList else []) ++ ((match shownName s.name with
    | some n => a ['1'] ++ (n ++ (a ['2', '2'] ++ [' ', '(']))
    | none => "unnamed ".toList) ++ (Nat.toDigits 10 s.size.toNat ++ (" bytes @ 0x".toList ++ (Nat.toDigits 16 s.address.toNat ++
    (markColumn s ++ (kindColumn s ++ (permColumn s ++ match shownName s.name with
      | some _ => [')']
      | none => [])))))))

/-- dump.cpp:479-486: letters for the access by the instruction. -/
def accessLetters (r : Rel) : Str :=
  (if r.instruction_access &&& ACCESSFLAG_READ ≠ 0 then ['r'] else []) ++ ((if r.instruction_access &&& ACCESSFLAG_WRITE ≠ 0 then ['w'] else []) ++
    ((if r.instruction_access &&& ACCESSFLAG_BRANCH ≠ 0 then ['b'] else []) ++ (if r.instruction_access &&& ACCESSFLAG_LOCAL ≠ 0 then ['l'] else [])))

/-- dump.cpp:477-488: access by the instruction. -/
def styledAccess (a : Str → Str) (r : Rel) : Str :=
  if r.instruction_access ≠ 0 then
    ' ' :: (a ['2'] ++ ('(' :: (accessLetters r ++ ('@' :: '-' :: (Nat.toDigits 10 r.instruction_offset.toNat ++ (')' :: ' ' :: a ['2', '2']))))))
  else []

/-- dump.cpp:445-450: the place of a relocation. -/
def styledPlace (a : Str → Str) (r : Rel) : Str :=
  if r.reconstructed then a ['3'] ++ ("*0x".toList ++ (Nat.toDigits 16 r.offset.toNat ++ a ['2', '3']))
  else "*0x".toList ++ Nat.toDigits 16 r.offset.toNat

/-- dump.cpp:455-490: what a relocation refers to. -/
def styledTarget (a : Str → Str) (symbols : SymTree) (r : Rel) : Str :=
  if r.undefined then targetText symbols r ++ styledAccess a r
  else a ['3'] ++ (targetText symbols r ++ (styledAccess a r ++ a ['2', '3']))

/-- dump.cpp:445-490: a relocation. -/
def styledRel (a : Str → Str) (symbols : SymTree) (r : Rel) : Str :=
  "     ".toList ++ (styledPlace a r ++ (" = ".toList ++ (a ['2'] ++ (relTypeText r.type ++ (a ['2', '2'] ++ (' ' :: styledTarget a symbols r))))))

/-- dump.cpp:500-505: identifier of a position. -/
def styledPosition (a : Str → Str) (s : Symbol) (o : Addr × BitVec 64) : Str :=
  "     0x".toList ++ (Nat.toDigits 16 (o.1 + s.address).toNat ++ (' ' :: (a ['2'] ++ ("(+ ".toList ++ (Nat.toDigits 10 o.1.toNat ++ (')' :: (a ['2', '2'] ++
    (" = ".toList ++ hex16 o.2))))))))

/-- Entries with their number, each line with the prefix (dump.cpp:416-435, 437-493, 495-506, 508-522). -/
def entriesWith (p : Str) (level : Nat) (label : Str) (plural : Bool) (entries : List Str) : Str :=
  if entries = [] then []
  else p ++ (countLine entries.length label plural ++ '\n' :: (if 3 ≤ level then entries.flatMap (fun e => p ++ (e ++ ['\n'])) else []))

/-- dump.cpp:525-529: the identifiers of the symbol. -/
def styledId (a : Str → Str) (p : Str) (s : Symbol) : Str :=
  if s.id.internal ≠ 0 then p ++ ("  ".toList ++ (a ['1'] ++ ("ID: ".toList ++ (symIdText s.id ++ (a ['2', '2'] ++ ['\n']))))) else []

/-- dump.cpp:415-531: what follows the name. -/
def styledBody (a : Str → Str) (p : Str) (level : Nat) (symbols : SymTree) (s : Symbol) : Str :=
  entriesWith p level " Reference".toList true (s.refs.map (linkLine symbols)) ++
  (entriesWith p level " Relocation".toList true (s.rels.map (styledRel a symbols)) ++
  ((if 3 ≤ level then entriesWith p level " Offset ID".toList true (s.offset_ids.map (styledPosition a s)) else []) ++
  (entriesWith p level " depending on this".toList false (s.deps.map (linkLine symbols)) ++ (styledId a p s ++ ['\n']))))

/-- dump.cpp:377-533 `Symbol::dump` for all levels. -/
def symbolText (a : Str → Str) (p : Str) (diet : Bool) (level : Nat) (symbols : SymTree) (s : Symbol) : Str :=
  if level ≤ 1 then p ++ (listLine level s ++ ['\n'])
  else p ++ (styledName a s ++ ((if diet then [] else colonText s none ++ ['\n']) ++ styledBody a p level symbols s))

/-- dump.cpp:535-544: the listing for all levels. -/
def styledListing (diet : Bool) (level : Nat) (symbols : SymTree) : M Str :=
  match symbols.getLast? with
  | none => .error .ub
  | some _ => .ok (listHeader level ++ symbols.flatMap (symbolText color [] diet level symbols))

/-- diff.cpp:113-126: a symbol of the old or the new file. -/
def changeBlock (diet : Bool) (level : Nat) (old new : SymTree) (x : Mark × Symbol) : Str :=
  match x.1 with
  | .removed => symbolText color (markText .removed) diet level old x.2
  | .added => symbolText color (markText .added) diet level new x.2
  | .kept => symbolText color (markText .kept) diet 1 new x.2

/-- diff.cpp:108-128 for the levels other than `NONE`. -/
def styledChanges (diet : Bool) (level : Nat) (old new : SymTree) (lines : List (Mark × Symbol)) : Str :=
  ' ' :: listHeader level ++ (lines.flatMap (changeBlock diet level old new) ++ color ['0'])

/-- map.cpp:107-116: a symbol of the old file. -/
def styledEntry (b : Build) (diet : Bool) (level : Nat) (m : List (Addr × Addr)) (old new : SymTree) (s : Symbol) : M Str :=
  match Tree.find m s.address with
  | some e => do
    let y := Tree.floor new e.2
    massert b y.isSome
    match y with
    | some y =>
      return symbolText color (color ['3', '2'] ++ "sym ".toList) diet level old s ++ (symbolText color (color ['0'] ++ " -> ".toList) diet level new y ++
        (color ['0'] ++ ['\n']))
    | none => .error .ub
  | none => return symbolText color (color ['3', '1'] ++ "sym ".toList) diet level old s ++ (color ['0'] ++ ['\n'])

end Bean

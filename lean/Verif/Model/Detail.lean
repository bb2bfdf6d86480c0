import Verif.Model.Listing
/-
Text of the detailed listing of symbols (src/dump.cpp, levels `DEBUG` and `TRACE`), without the attributes of the terminal (bold, italics, faint).

`diet` tells that the library is built without `BEAN_VERBOSE` (bean.cpp:79-85).
-/
namespace Bean

/-- dump.cpp:321-330: flags. -/
def markColumn (s : Symbol) : Str :=
  if s.flags ≠ 0 then
    ' ' :: '[' :: ((if s.has SYMBOL_ENTRY then ['E'] else []) ++ ((if s.has SYMBOL_TRAMPOLINE then ['T'] else []) ++
      ((if s.has SYMBOL_USING_CET then ['C'] else []) ++ [']'])))
  else []

/-- dump.cpp:338: permissions. -/
def permColumn (s : Symbol) : Str :=
  [' ', '[', 'r', if s.sec.writeable then (if s.sec.has SECTION_RELRO then '*' else 'w') else '-', if s.sec.executable then 'x' else '-', ']']

/-- dump.cpp:332-336: binding and section. -/
def kindColumn (s : Symbol) : Str :=
  (if s.bind ≠ .local then ',' :: ' ' :: symBindText s.bind else []) ++
    match s.sec.name with
    | some n => ',' :: ' ' :: n.toList
    | none => []

/-- dump.cpp:310-341 `dump_name` -/
def detailName (s : Symbol) : Str :=
  (if TLS.is_tls s.address then "TLS:".toList else []) ++ ((match shownName s.name with
    | some n => n ++ [' ', '(']
    | none => "unnamed ".toList) ++ (Nat.toDigits 10 s.size.toNat ++ (" bytes @ 0x".toList ++ (Nat.toDigits 16 s.address.toNat ++
    (markColumn s ++ (kindColumn s ++ (permColumn s ++ match shownName s.name with
      | some _ => [')']
      | none => [])))))))

/-- dump.cpp:404-413: the loop over the debug text `d`, whose end is marked by a zero; none: it does not end, since an empty line is never left. -/
def debugText (d : Str) : Option Str :=
  match hd : d with
  | [] => some []
  | c :: r =>
    if c = '\n' then none
    else
      match hr : d.dropWhile (· ≠ '\n') with
      | [] => some (d ++ [Char.ofNat 0])
      | _ :: rest => do
        let x ← debugText rest
        return d.takeWhile (· ≠ '\n') ++ '\n' :: x
termination_by d.length
decreasing_by
  have := (List.dropWhile_sublist (fun c => decide (c ≠ '\n')) (l := c :: r)).length_le
  subst hd
  rw [hr] at this
  simp only [List.length_cons] at this ⊢
  omega

/-- dump.cpp:416-419, 437-440, 480-483, 497: number of entries. -/
def countLine (n : Nat) (label : Str) (plural : Bool) : Str :=
  ' ' :: ' ' :: (Nat.toDigits 10 n ++ (label ++ if plural && n != 1 then ['s'] else []))

/-- dump.cpp:427-430, 506-509: identifiers of the symbol in front of a reference, if they are valid (bean.hpp:224-226). -/
def linkId (symbols : SymTree) (v : Addr) : Str :=
  match Tree.floor symbols v with
  | some y => if y.id.internal ≠ 0 then ' ' :: symIdText y.id else []
  | none => []

/-- dump.cpp:421-433, 499-512: a reference. -/
def linkLine (symbols : SymTree) (v : Addr) : Str := "     ".toList ++ (addressText symbols v ++ linkId symbols v)

/-- dump.cpp:477-488: access by the instruction. -/
def accessText (r : Rel) : Str :=
  if r.instruction_access ≠ 0 then
    ' ' :: '(' :: ((if r.instruction_access &&& ACCESSFLAG_READ ≠ 0 then ['r'] else []) ++ ((if r.instruction_access &&& ACCESSFLAG_WRITE ≠ 0 then ['w'] else []) ++
      ((if r.instruction_access &&& ACCESSFLAG_BRANCH ≠ 0 then ['b'] else []) ++ ((if r.instruction_access &&& ACCESSFLAG_LOCAL ≠ 0 then ['l'] else []) ++
      ('@' :: '-' :: (Nat.toDigits 10 r.instruction_offset.toNat ++ [')', ' ']))))))
  else []

/-- dump.cpp:484-489: identifier of a position. -/
def positionLine (s : Symbol) (o : Addr × BitVec 64) : Str :=
  "     0x".toList ++ (Nat.toDigits 16 (o.1 + s.address).toNat ++ (" (+ ".toList ++ (Nat.toDigits 10 o.1.toNat ++ (") = ".toList ++ hex16 o.2))))

/-- Entries with their number: nothing if there are none; the entries are shown for the level `TRACE` (3) only. -/
def entriesText (level : Nat) (label : Str) (plural : Bool) (entries : List Str) : Str :=
  if entries = [] then []
  else countLine entries.length label plural ++ '\n' :: (if 3 ≤ level then entries.flatMap (· ++ ['\n']) else [])

/-- dump.cpp:415-531: what follows the name and the debug text. -/
def detailBody (level : Nat) (symbols : SymTree) (s : Symbol) : Str :=
  entriesText level " Reference".toList true (s.refs.map (linkLine symbols)) ++
  (entriesText level " Relocation".toList true (s.rels.map (fun r => relLine symbols r ++ accessText r)) ++
  ((if 3 ≤ level then entriesText level " Offset ID".toList true (s.offset_ids.map (positionLine s)) else []) ++
  (entriesText level " depending on this".toList false (s.deps.map (linkLine symbols)) ++
  ((if s.id.internal ≠ 0 then "  ID: ".toList ++ (symIdText s.id ++ ['\n']) else []) ++ ['\n']))))

/-- dump.cpp:404-414: the debug text, if present. -/
def debugPart : Option Str → Option Str
  | some d => debugText d
  | none => some []

/-- dump.cpp:399-401: a colon if something follows. -/
def colonText (s : Symbol) (debug : Option Str) : Str := if debug ≠ none ∨ s.refs ≠ [] ∨ s.rels ≠ [] ∨ s.deps ≠ [] then [':'] else []

/-- dump.cpp:398-414: end of the line with the name, and the debug text. -/
def detailMiddle (diet : Bool) (s : Symbol) (debug : Option Str) : Option Str :=
  if diet then some [] else (debugPart debug).map (fun d => colonText s debug ++ '\n' :: d)

/-- dump.cpp:377-533: a symbol for the levels `DEBUG` (2) and `TRACE` (3); none: the output does not end. -/
def detailSymbol (diet : Bool) (level : Nat) (debug : Addr → Option Str) (symbols : SymTree) (s : Symbol) : Option Str := do
  let m ← detailMiddle diet s (debug s.address)
  return detailName s ++ (m ++ detailBody level symbols s)

/-- dump.cpp:540-544: the symbols one after another. -/
def detailAll (diet : Bool) (level : Nat) (debug : Addr → Option Str) (symbols : SymTree) : List Symbol → Option Str
  | [] => some []
  | s :: rest => do
    let x ← detailSymbol diet level debug symbols s
    let y ← detailAll diet level debug symbols rest
    return x ++ y

/-- dump.cpp:535-544: the listing; there is no header for these levels. -/
def detailListing (diet : Bool) (level : Nat) (debug : Addr → Option Str) (symbols : SymTree) : M (Option Str) :=
  match symbols.getLast? with
  | none => .error .ub
  | some _ => .ok (detailAll diet level debug symbols symbols)

end Bean

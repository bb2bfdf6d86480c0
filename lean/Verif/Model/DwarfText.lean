import Verif.Model.ElfSummary
import Verif.Model.DwarfDefs
/-
Output of the tool for variables and types of the debug information (tools/dwarfvars.py:401-422).

`repr` of texts is a parameter `quote` of the output of lists; `pyQuote` is the one of Python.
-/
namespace Bean
namespace DwarfText

/-- `{…:016x}` of an integer: zeros between sign and digits up to the width. -/
def zeroHex (w : Nat) (i : Int) : Str :=
  if i < 0 then '-' :: padZeros (w - 1) (Nat.toDigits 16 i.natAbs) else padZeros w (Nat.toDigits 16 i.natAbs)

/-- Order of `sorted` with the address as key. -/
def byValue (a b : DwVar) : Int := a.value - b.value

/-- dwarfvars.py:407-409: the line of a variable. -/
def variableLine (source : Bool) (v : DwVar) : Str :=
  (if v.external then "extern ".toList else []) ++ (v.name ++ '(' :: (v.type ++ (") ".toList ++ (intText v.size ++ (" byte @ ".toList ++
    (zeroHex 16 v.value ++ (" # ".toList ++ (v.hash ++ (' ' :: (if source then " /* ".toList ++ (v.source ++ " */".toList) else []))))))))))

/-- Characters in the representation of texts by Python (`repr`) within the marks `q`; all characters outside of ASCII are taken as printable. -/
def escapeChar (q c : Char) : Str :=
  if c = q ∨ c = '\\' then ['\\', c]
  else if c = '\n' then ['\\', 'n']
  else if c = '\r' then ['\\', 'r']
  else if c = '\t' then ['\\', 't']
  else if c.toNat < 32 ∨ c.toNat = 127 then ['\\', 'x', Nat.digitChar (c.toNat / 16), Nat.digitChar (c.toNat % 16)]
  else [c]

/-- The marks around the text: double ones only for texts with single, but without double ones. -/
def quoteMark (s : Str) : Char := if '\'' ∈ s ∧ '"' ∉ s then '"' else '\''

/-- `repr` of a text. -/
def pyQuote (s : Str) : Str := quoteMark s :: (s.flatMap (escapeChar (quoteMark s)) ++ [quoteMark s])

/-- `True` and `False` -/
def boolRepr (b : Bool) : Str := (if b then "True" else "False").toList

/-- `repr` of a variable (dwarfvars.py:297-306). -/
def varRepr (quote : Str → Str) (v : DwVar) : Str :=
  "{'name': ".toList ++ (quote v.name ++ (", 'value': ".toList ++ (intText v.value ++ (", 'type': ".toList ++ (quote v.type ++ (", 'unit': ".toList ++
    (Nat.toDigits 10 v.unit ++ (", 'size': ".toList ++ (intText v.size ++ (", 'external': ".toList ++ (boolRepr v.external ++ (", 'hash': ".toList ++
    (quote v.hash ++ (", 'source': ".toList ++ (quote v.source ++ ['}'])))))))))))))))

/-- `repr` of a list of variables. -/
def listRepr (quote : Str → Str) (l : List DwVar) : Str := '[' :: (joinText (l.map (varRepr quote)) ++ [']'])

/-- dwarfvars.py:402-409: the lines for variables; `json` for the option `-j`. -/
def variableLines (quote : Str → Str) (json source : Bool) (vars : List DwVar) : List Str :=
  let l := pySorted byValue vars
  if json then [listRepr quote l] else l.map (variableLine source)

/-- dwarfvars.py:401-409: `variables`; `ds` are all entries. -/
def showVariables (o : TypeOpts) (dies : Dies) (n : Nat) (quote : Str → Str) (tls json source : Bool) (ds : List VarDie) : Except VarError (List Str) :=
  match getVars o dies n tls noMemo ds with
  | .error e => .error e
  | .ok (vs, _) => .ok (variableLines quote json source vs)

/-- dwarfvars.py:415: the line of a type. -/
def typeLine (t : TypeInfo) : Str := t.ident ++ (' ' :: (intText t.size ++ (" bytes # ".toList ++ t.hash)))

/-- dwarfvars.py:412-416: the lines for types, and the hash of all of them. -/
def typeLines (H : Str → Str) (ts : List TypeInfo) : List Str := ts.map typeLine ++ [H (ts.flatMap (·.hash))]

/-- dwarfvars.py:410-416: `datatypes`. -/
def showTypes (o : TypeOpts) (dies : Dies) (n : Nat) (system : Bool) (es : List TypeEntry) : Except TypeError (List Str) :=
  match listTypes o dies n system noMemo es with
  | .error e => .error e
  | .ok (ts, _) => .ok (typeLines o.H ts)

/-- dwarfvars.py:419: the line of a global definition. -/
def globalLine (text : Str) (size : Int) : Str := text ++ (";  // ".toList ++ (intText size ++ " bytes".toList))

/-- dwarfvars.py:422: the line of a function. -/
def functionLine (f : FuncInfo) : Str := f.ret ++ (' ' :: (f.name ++ ('(' :: (f.params ++ (") # ".toList ++ f.hash)))))

end DwarfText
end Bean

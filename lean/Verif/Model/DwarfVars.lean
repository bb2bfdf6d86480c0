import Verif.Model.DwarfTypes
/-
Variables of the debug information: locations (tools/dwarfparse.py:167-284) and the list of variables (tools/dwarfvars.py:17-27, 286-307).

Sets of Python are lists without duplicates; only their size, their only element and their members matter.
-/
namespace Bean

/-- `hex` of an integer. -/
def hexText (i : Int) : Str := (if i < 0 then ['-'] else []) ++ '0' :: 'x' :: Nat.toDigits 16 i.natAbs

/-- `%+d` of an integer. -/
def signedText (i : Int) : Str := (if i < 0 then '-' else '+') :: Nat.toDigits 10 i.natAbs

/-- Zeros in front up to a length. -/
def padZeros (n : Nat) (s : Str) : Str := List.replicate (n - s.length) '0' ++ s

/-- The value of a digit. -/
def digitValue (c : Char) : Option Nat :=
  if '0' ≤ c ∧ c ≤ '9' then some (c.toNat - '0'.toNat)
  else if 'a' ≤ c ∧ c ≤ 'f' then some (c.toNat - 'a'.toNat + 10)
  else if 'A' ≤ c ∧ c ≤ 'F' then some (c.toNat - 'A'.toNat + 10)
  else none

/-- Digits to a base, behind digits with value `acc`. -/
def parseDigits (base : Nat) : Nat → Str → Option Nat
  | acc, [] => some acc
  | acc, c :: cs =>
    match digitValue c with
    | some d => if d < base then parseDigits base (base * acc + d) cs else none
    | none => none

/-- The number without sign: hexadecimal with prefix, decimal without leading zeros. -/
def pyNat : Str → Option Nat
  | [] => none
  | '0' :: 'x' :: c :: cs => parseDigits 16 0 (c :: cs)
  | c :: cs => if c = '0' ∧ ∃ d ∈ cs, d ≠ '0' then none else parseDigits 10 0 (c :: cs)

/-- `int(text, 0)`; absent for `ValueError`. Space around numbers, underscores and the prefixes for other bases do not occur. -/
def pyInt : Str → Option Int
  | '-' :: s => (pyNat s).map (fun n : Nat => - Int.ofNat n)
  | '+' :: s => (pyNat s).map Int.ofNat
  | s => (pyNat s).map Int.ofNat

/-- A value of a location: text, or a number (dwarfparse.py:235, 273). -/
inductive LocVal where
  | text (s : Str)
  | num (i : Int)
deriving DecidableEq, Repr

/-- dwarfparse.py:167-212 `LocExpr`: names of operations and values. -/
structure LocDesc where
  op : List Str := []
  value : List LocVal := []
deriving DecidableEq, Repr

/-- Insertion into a set. -/
def setAdd {β : Type} [DecidableEq β] (s : List β) (x : β) : List β := if x ∈ s then s else s ++ [x]

/-- `|=` -/
def setUnion {β : Type} [DecidableEq β] (s t : List β) : List β := t.foldl setAdd s

/-- dwarfparse.py:183-187 `add` -/
def LocDesc.add (d e : LocDesc) : LocDesc where
  op := setUnion d.op e.op
  value := setUnion d.value e.value

/-- dwarfparse.py:189-195 `add_op` -/
def LocDesc.addOp (d : LocDesc) (o : Str) : LocDesc where
  op := setAdd d.op o
  value := d.value

/-- dwarfparse.py:214-218 `_loc_expr_merge` -/
def mergeDescs (l : List LocDesc) : LocDesc := l.foldl LocDesc.add {}

/-- dwarfparse.py:175-181: the set for a value; empty text and the number 0 give an empty set. -/
def valueSet : LocVal → List LocVal
  | .text [] => []
  | .num 0 => []
  | v => [v]

/-- An argument of an operation: a number, bytes or the description of an expression. -/
inductive DwArg where
  | num (i : Int)
  | blob (bytes : List Nat)
  | sub (d : LocDesc)
deriving DecidableEq, Repr

/-- An operation: code, name without `DW_OP_`, arguments. -/
structure DwOp where
  code : Nat
  name : Str
  args : List DwArg := []
deriving DecidableEq, Repr

/-- dwarfparse.py:251: text of bytes. -/
def blobText (bytes : List Nat) : Str :=
  hexText bytes.length ++ bytes.flatMap (fun b => ' ' :: '0' :: 'x' :: padZeros 2 (Nat.toDigits 16 b))

/-- dwarfparse.py:242-251 `_desc_operationarg` -/
def descArg : DwArg → LocDesc
  | .num i => { value := valueSet (.text (hexText i)) }
  | .blob b => { value := valueSet (.text (blobText b)) }
  | .sub d => d

/-- dwarfparse.py:259-277 `_desc_operation`; absent for an exception. `reg` are names of registers, `unit` is the offset of the unit. -/
def descOp (reg : Nat → Str) (unit : Nat) (op : DwOp) : Option LocDesc :=
  if 0x50 ≤ op.code ∧ op.code ≤ 0x6f then some { op := [op.name], value := valueSet (.text (reg (op.code - 0x50))) }
  else if 0x70 ≤ op.code ∧ op.code ≤ 0x8f then
    match op.args with
    | .num i :: _ => some { op := [op.name], value := valueSet (.text (reg (op.code - 0x70) ++ signedText i)) }
    | _ => none
  else if op.name ∈ ["fbreg".toList, "bra".toList, "skip".toList, "consts".toList] then
    match op.args with
    | .num i :: _ => some { op := [op.name], value := valueSet (.text (signedText i)) }
    | _ => none
  else if op.name ∈ ["const1s".toList, "const2s".toList] then
    match op.args with
    | .num i :: _ => some { op := [op.name], value := valueSet (.text (intText i)) }
    | _ => none
  else if op.name ∈ ["entry_value".toList, "GNU_entry_value".toList] then
    match op.args with
    | a :: _ => some ((descArg a).addOp op.name)
    | [] => none
  else if op.name = "regval_type".toList then
    match op.args with
    | .num r :: .num i :: _ => some { op := [op.name], value := valueSet (.text (reg r.toNat ++ " -> 0x".toList ++
        padZeros 8 (Nat.toDigits 16 (i + unit).toNat))) }
    | _ => none
  else if op.name = "convert".toList then
    match op.args with
    | .num i :: _ => some { op := [op.name], value := valueSet (.num (i + unit)) }
    | _ => none
  else if op.args ≠ [] then some ((mergeDescs (op.args.map descArg)).addOp op.name)
  else some { op := [op.name] }

/-- dwarfparse.py:280-284 `_desc_expression` -/
def descExpr (reg : Nat → Str) (unit : Nat) (ops : List DwOp) : Option LocDesc := (ops.mapM (descOp reg unit)).map mergeDescs

/-- The attribute for the location: an expression, or a list of expressions at some offset; `base` tells whether the unit has a
base address. -/
inductive DwLocation where
  | expr (ops : List DwOp)
  | list (offset : Nat) (base : Bool) (entries : List (List DwOp))
deriving DecidableEq, Repr

/-- dwarfparse.py:220-239 `_desc_locations`: absent for an exception, `some none` for `None`. -/
def descLocation (reg : Nat → Str) (unit : Nat) : DwLocation → Option (Option LocDesc)
  | .expr ops => (descExpr reg unit ops).map some
  | .list offset base entries =>
    if base then
      (entries.mapM (descExpr reg unit)).map (fun l => some (l.foldl LocDesc.add { value := valueSet (.num offset) }))
    else some none

/-- Exceptions: those of types, `int` of a text that is no number, wrong types of values. -/
inductive VarError where
  | type (e : TypeError)
  | valueError | typeError | attributeError
deriving DecidableEq, Repr

/-- dwarfvars.py:20-25: operations that are accepted for thread-local variables. -/
def tlsOp (op : Str) : Bool := op == "form_tls_address".toList || "const".toList.isPrefixOf op

/-- dwarfvars.py:27: `int` of the only value. -/
def locValue : LocVal → Except VarError (Option Int)
  | .text s =>
    match pyInt s with
    | some i => .ok (some i)
    | none => .error .valueError
  | .num _ => .error .typeError

/-- dwarfvars.py:17-27 `get_loc` -/
def getLoc (tls : Bool) (d : LocDesc) : Except VarError (Option Int) :=
  match d.value with
  | [v] =>
    if tls then
      if d.op.all tlsOp then locValue v else .ok none
    else if d.op.length = 1 ∧ "addr".toList ∈ d.op then locValue v else .ok none
  | _ => .ok none

/-- Attributes of an entry that matter for variables; the location as described. -/
structure VarDie where
  tag : Str
  location : Option (Option LocDesc) := none
  type : Option Nat := none
  name : Option Str := none
  unit : Nat := 0
  external : Bool := false
  decl : Option Str := none
  /-- The declaration of the variable, if it is declared elsewhere; not used by the tools. -/
  specification : Option Nat := none
deriving DecidableEq, Repr

/-- A variable as delivered (dwarfvars.py:297-306). -/
structure DwVar where
  name : Str
  value : Int
  type : Str
  unit : Nat
  size : Int
  external : Bool
  hash : Str
  source : Str
deriving DecidableEq, Repr

/-- dwarfvars.py:297-306 -/
def dwVar (d : VarDie) (addr : Int) (t : TypeInfo) : DwVar where
  name := match d.name with
    | some n => n
    | none => "[anonymous]".toList
  value := addr
  type := t.ident
  unit := d.unit
  size := t.size
  external := d.external
  hash := t.hash
  source := match d.decl with
    | some s => s
    | none => []

/-- dwarfvars.py:289-295: address and type of an entry that is a variable with a fixed place. -/
def varPlace (dies : Dies) (tls : Bool) (d : VarDie) : Except VarError (Option (Int × Nat)) :=
  match d.location, d.type with
  | some loc, some t =>
    if d.tag = "variable".toList then
      match loc with
      | none => .error .attributeError
      | some l =>
        match getLoc tls l with
        | .error e => .error e
        | .ok none => .ok none
        | .ok (some a) =>
          if a = 0 ∧ tls = false then .ok none
          else if (dies t).isSome then .ok (some (a, t)) else .ok none
    else .ok none
  | _, _ => .ok none

/-- dwarfvars.py:286-307 `get_vars`: the loop over all entries. `n` is the depth of recursion for types. -/
def getVars (o : TypeOpts) (dies : Dies) (n : Nat) (tls : Bool) : TypeMemo → List VarDie → Except VarError (List DwVar × TypeMemo)
  | m, [] => .ok ([], m)
  | m, d :: ds =>
    match varPlace dies tls d with
    | .error e => .error e
    | .ok none => getVars o dies n tls m ds
    | .ok (some (a, t)) =>
      match getType o dies n m t true with
      | .error e => .error (.type e)
      | .ok (ti, m) =>
        match getVars o dies n tls m ds with
        | .error e => .error e
        | .ok (vs, m) => .ok (dwVar d a ti :: vs, m)

end Bean

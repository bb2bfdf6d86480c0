import Verif.Model.ElfVars
/-
Types of variables in the debug information (tools/dwarfvars.py:76-198).

The entries of the debug information are a table indexed by offset (dwarfparse.py:380-404). Attributes that are not used for types
are left out. Attributes that hold numbers are numbers here; for forms that are taken as text, and for location expressions, see Model/DwarfForms.lean.
-/
namespace Bean

/-- An entry: attributes are absent or have a value. Each entry has a list of children, possibly empty (dwarfparse.py:344). -/
structure Die where
  tag : Str
  name : Option Str := none
  linkage_name : Option Str := none
  type : Option Nat := none
  children : List Nat := []
  byte_size : Option Int := none
  encoding : Option Str := none
  /-- The text of the offset of a member. -/
  location : Option Str := none
  const_value : Option Str := none
  lower_bound : Option Int := none
  upper_bound : Option Int := none
  /-- Number of elements of a range, given by some compilers instead of the upper bound; not used by the tools. -/
  count : Option Int := none
deriving DecidableEq, Repr

abbrev Dies := Nat → Option Die

/-- Exceptions. -/
inductive TypeError where
  | recursion | keyError | assertion | valueError
deriving DecidableEq, Repr

/-- Result of `get_type`: identifier, size and hash. -/
structure TypeInfo where
  ident : Str
  size : Int
  hash : Str
deriving DecidableEq, Repr

/-- Options and the hash function: the hexadecimal digest of all text passed to `update`. -/
structure TypeOpts where
  H : Str → Str
  aliases : Bool := false
  names : Bool := false

/-- Members that `get_type` adds to entries: identifier and hash, for full (`true`) and flat (`false`) types, and the size. -/
structure TypeMemo where
  entry : Nat → Bool → Option (Str × Str)
  total : Nat → Option Int

def noMemo : TypeMemo where
  entry := fun _ _ => none
  total := fun _ => none

/-- dwarfvars.py:191, 195-196: store a result. -/
def TypeMemo.store (m : TypeMemo) (id : Nat) (resolve : Bool) (t : TypeInfo) : TypeMemo where
  entry := fun i r => if i = id ∧ r = resolve then some (t.ident, t.hash) else m.entry i r
  total := fun i => if i = id then some t.size else m.total i

/-- dwarfvars.py:97-108: types with members. -/
def isComposite (tag : Str) : Bool :=
  tag = "structure_type".toList || tag = "class_type".toList || tag = "union_type".toList || tag = "enumeration_type".toList

/-- dwarfvars.py:97-120: start of the identifier. -/
def tagIdent (o : TypeOpts) (d : Die) : Str :=
  if d.tag = "structure_type".toList then "struct".toList
  else if d.tag = "class_type".toList then "class".toList
  else if d.tag = "union_type".toList then "union".toList
  else if d.tag = "enumeration_type".toList then "enum".toList
  else if d.tag = "const_type".toList ∧ (o.aliases ∨ d.type = none) then "const".toList
  else []

/-- dwarfvars.py:109-120: does the entry have the hash of the type it refers to? -/
def usesTypeHash (o : TypeOpts) (d : Die) : Bool :=
  (d.tag = "const_type".toList || d.tag = "typedef".toList) && !o.aliases && d.type.isSome

/-- dwarfvars.py:121-122: members are not resolved behind pointers. -/
def resolveIn (d : Die) (resolve : Bool) : Bool := resolve && d.tag != "pointer_type".toList

/-- dwarfvars.py:124-133: the name, if names are used. -/
def usedName (o : TypeOpts) (d : Die) : Option Str := if o.names then d.name.or d.linkage_name else none

/-- dwarfvars.py:124-133: identifier with name. -/
def namedIdent (o : TypeOpts) (d : Die) : Str :=
  match usedName o d with
  | some n => (if tagIdent o d = [] then [] else tagIdent o d ++ [' ']) ++ n
  | none => tagIdent o d

/-- dwarfvars.py:138-146: what a member adds to identifier and hash. -/
def memberText (child : Die) (t : TypeInfo) : Str × Str :=
  (t.ident ++ (match child.location with
    | some l => " @ ".toList ++ l
    | none => []) ++ "; ".toList,
   '>' :: t.hash ++ (match child.location with
    | some l => '@' :: l
    | none => []))

/-- dwarfvars.py:147-149: what an enumerator adds. -/
def enumText (n v : Str) : Str × Str := (n ++ " = ".toList ++ v ++ ", ".toList, '>' :: n ++ '=' :: v)

/-- Concatenation of both texts. -/
def addText (a b : Str × Str) : Str × Str := (a.1 ++ b.1, a.2 ++ b.2)

/-- dwarfvars.py:166-178: what the ranges of an array add to identifier and hash, and the number of elements. -/
def arrayText (dies : Dies) : List Nat → Except TypeError (Str × Str × Int)
  | [] => .ok ([], [], 1)
  | c :: cs =>
    match dies c with
    | none => .error .keyError
    | some child =>
      match arrayText dies cs with
      | .error e => .error e
      | .ok (i, h, f) =>
        if child.tag = "subrange_type".toList then
          let lower := child.lower_bound.getD 0
          let upper := child.upper_bound.getD 0
          let n := upper - lower + 1
          .ok ('[' :: intText n ++ ']' :: i, '[' :: intText lower ++ ':' :: intText upper ++ ']' :: h, n * f)
        else .ok (i, h, f)

/-- dwarfvars.py:88, 157: the size of the type the entry refers to. -/
def refSize : Option (Option TypeInfo) → Int
  | some (some t) => t.size
  | _ => 0

/-- dwarfvars.py:138-149: what the members add to the hash. -/
def memberHashText : Option (Str × Str) → Str
  | some m => m.2
  | none => []

/-- dwarfvars.py:158-160: what the type that is referred to adds to the hash. -/
def refHashText : Option (Option TypeInfo) → Str
  | some (some t) => if t.size ≠ 0 ∨ t.ident ≠ [] then '#' :: t.hash else []
  | _ => []

/-- The text that is hashed (dwarfvars.py:95, 124-133, 138-149, 158-160, 174, 185, 190), given the text of the members (if they are
resolved), the type the entry refers to (absent without reference, `some none` if the entry is missing), and text and number of
elements of the ranges. -/
def typeText (o : TypeOpts) (d : Die) (members : Option (Str × Str)) (type : Option (Option TypeInfo)) (ranges : Str) (factor : Int) :
    Str :=
  '%' :: d.tag ++ (match usedName o d with
    | some n => '.' :: n
    | none => []) ++ memberHashText members ++ refHashText type ++ ranges ++ (match d.encoding with
    | some e => e
    | none => []) ++ ':' :: intText factor

/-- The identifier (dwarfvars.py:135-188), with the same arguments and the size. -/
def typeIdent (o : TypeOpts) (d : Die) (members : Option (Str × Str)) (type : Option (Option TypeInfo)) (ranges : Str) (size : Int) :
    Str :=
  let id := namedIdent o d ++ (match members with
    | some m => " { ".toList ++ m.1 ++ ['}']
    | none => [])
  let id := id ++ (match type with
    | some (some t) => if id = [] then t.ident else '(' :: t.ident ++ [')']
    | _ => [])
  let id := id ++ (if d.tag = "pointer_type".toList then ['*'] else ranges)
  id ++ (match d.encoding with
    | some e => if id = [] then intText size ++ " byte ".toList ++ e else '(' :: intText size ++ " byte ".toList ++ e ++ [')']
    | none => [])

/-- dwarfvars.py:151-198: the result. -/
def finishType (o : TypeOpts) (dies : Dies) (d : Die) (members : Option (Str × Str)) (type : Option (Option TypeInfo)) :
    Except TypeError TypeInfo :=
  match (if d.tag = "array_type".toList then arrayText dies d.children else .ok ([], [], 1)) with
  | .error e => .error e
  | .ok (ai, ah, factor) =>
    let size := d.byte_size.getD (refSize type)
    if d.encoding.isSome ∧ factor ≠ 1 then .error .assertion
    else
      .ok { ident := typeIdent o d members type ai size, size := factor * size,
            hash := if usesTypeHash o d then (match type with
              | some (some t) => t.hash
              | _ => []) else o.H (typeText o d members type ah factor) }

/-- dwarfvars.py:137-149: the loop over the children. `get` is the recursive call. -/
def memberLoop (dies : Dies) (get : TypeMemo → Nat → Bool → Except TypeError (TypeInfo × TypeMemo)) (resolve : Bool) :
    TypeMemo → List Nat → Except TypeError ((Str × Str) × TypeMemo)
  | m, [] => .ok (([], []), m)
  | m, c :: cs =>
    match dies c with
    | none => .error .keyError
    | some child =>
      if child.tag = "member".toList then
        match get m c resolve with
        | .error e => .error e
        | .ok (t, m) =>
          match memberLoop dies get resolve m cs with
          | .error e => .error e
          | .ok (r, m) => .ok (addText (memberText child t) r, m)
      else if child.tag = "enumerator".toList then
        match child.name, child.const_value with
        | some n, some v =>
          match memberLoop dies get resolve m cs with
          | .error e => .error e
          | .ok (r, m) => .ok (addText (enumText n v) r, m)
        | _, _ => .error .keyError
      else memberLoop dies get resolve m cs

/-- dwarfvars.py:135-150: the members, if they are resolved. -/
def membersOf (dies : Dies) (get : TypeMemo → Nat → Bool → Except TypeError (TypeInfo × TypeMemo)) (d : Die) (resolve : Bool)
    (m : TypeMemo) : Except TypeError (Option (Str × Str) × TypeMemo) :=
  if isComposite d.tag && resolve then
    match memberLoop dies get resolve m d.children with
    | .error e => .error e
    | .ok (r, m) => .ok (some r, m)
  else .ok (none, m)

/-- dwarfvars.py:153-162: the type the entry refers to. -/
def referredType (dies : Dies) (get : TypeMemo → Nat → Bool → Except TypeError (TypeInfo × TypeMemo)) (d : Die) (resolve : Bool)
    (m : TypeMemo) : Except TypeError (Option (Option TypeInfo) × TypeMemo) :=
  match d.type with
  | none => .ok (none, m)
  | some t =>
    match dies t with
    | none => .ok (some none, m)
    | some _ =>
      match get m t resolve with
      | .error e => .error e
      | .ok (ti, m) => .ok (some (some ti), m)

/-- dwarfvars.py:191-196: store the result; the size must agree with the one stored before. -/
def storeType (m : TypeMemo) (id : Nat) (resolve : Bool) (t : TypeInfo) : Except TypeError (TypeInfo × TypeMemo) :=
  match m.total id with
  | some s => if s = t.size then .ok (t, m.store id resolve t) else .error .assertion
  | none => .ok (t, m.store id resolve t)

/-- dwarfvars.py:76-198 `get_type`; the first argument is the depth of recursion that is left. -/
def getType (o : TypeOpts) (dies : Dies) : Nat → TypeMemo → Nat → Bool → Except TypeError (TypeInfo × TypeMemo)
  | 0, _, _, _ => .error .recursion
  | n + 1, m, id, resolve =>
    match dies id with
    | none => .error .keyError
    | some d =>
      match m.entry id resolve, m.total id with
      | some (ident, hash), some size => .ok ({ ident := ident, size := size, hash := hash }, m)
      | some _, none => .error .keyError
      | none, _ =>
        match membersOf dies (getType o dies n) d (resolveIn d resolve) m with
        | .error e => .error e
        | .ok (members, m) =>
          match referredType dies (getType o dies n) d (resolveIn d resolve) m with
          | .error e => .error e
          | .ok (type, m) =>
            match finishType o dies d members type with
            | .error e => .error e
            | .ok t => storeType m id resolve t

/-- Types of several entries in turn, as for all variables (dwarfvars.py:271-291). -/
def getTypes (o : TypeOpts) (dies : Dies) (n : Nat) : TypeMemo → List Nat → Except TypeError (List TypeInfo)
  | _, [] => .ok []
  | m, id :: ids =>
    match getType o dies n m id true with
    | .error e => .error e
    | .ok (t, m) =>
      match getTypes o dies n m ids with
      | .error e => .error e
      | .ok ts => .ok (t :: ts)

end Bean

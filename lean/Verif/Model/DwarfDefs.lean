import Verif.Model.DwarfTypes
/-
Definitions of global variables and types as text (tools/dwarfvars.py:201-283, 323-330).
-/
namespace Bean

/-- Result of `get_def`: the text, the size and the number of elements that is not part of the text yet. -/
structure DefInfo where
  text : Str
  size : Int
  factor : Int
deriving DecidableEq, Repr

/-- Sizes stored with the entries (dwarfvars.py:278-281). -/
abbrev DefMemo := Nat → Option Int

/-- dwarfvars.py:224-228: the name; an empty name is no name. -/
def declName (d : Die) : Option Str :=
  match d.name with
  | some n => if n = [] then none else some n
  | none =>
    match d.linkage_name with
    | some n => if n = [] then none else some n
    | none => none

/-- dwarfvars.py:207-222: start of the text. -/
def defStart (d : Die) (skipConst : Bool) : Str :=
  if d.tag = "structure_type".toList then "struct".toList
  else if d.tag = "class_type".toList then "class".toList
  else if d.tag = "union_type".toList then "union".toList
  else if d.tag = "enumeration_type".toList then "enum".toList
  else if d.tag = "const_type".toList ∧ skipConst = false then "const ".toList
  else []

/-- dwarfvars.py:219-221 -/
def skipIn (d : Die) (skipConst : Bool) : Bool := skipConst || d.tag = "const_type".toList

/-- dwarfvars.py:240-241, 271-272: a number of elements in brackets, unless it is one. -/
def factorText (f : Int) : Str := if f ≠ 1 then '[' :: intText f ++ [']'] else []

/-- dwarfvars.py:239-244: a member. -/
def memberDef (child : Die) (i : DefInfo) : Str :=
  i.text ++ factorText i.factor ++ "; ".toList ++ (match child.location with
    | some l => " /* offset ".toList ++ l ++ " */".toList
    | none => [])

/-- dwarfvars.py:245-246: an enumerator. -/
def enumDef (n v : Str) : Str := n ++ " = ".toList ++ v ++ ", ".toList

/-- dwarfvars.py:236-246: the loop over the children. `get` is the recursive call. -/
def defMembers (dies : Dies) (get : DefMemo → Nat → Except TypeError (DefInfo × DefMemo)) :
    DefMemo → List Nat → Except TypeError (Str × DefMemo)
  | m, [] => .ok ([], m)
  | m, c :: cs =>
    match dies c with
    | none => .error .keyError
    | some child =>
      if child.tag = "member".toList then
        match get m c with
        | .error e => .error e
        | .ok (i, m) =>
          match defMembers dies get m cs with
          | .error e => .error e
          | .ok (r, m) => .ok (memberDef child i ++ r, m)
      else if child.tag = "enumerator".toList then
        match child.name, child.const_value with
        | some n, some v =>
          match defMembers dies get m cs with
          | .error e => .error e
          | .ok (r, m) => .ok (enumDef n v ++ r, m)
        | _, _ => .error .keyError
      else defMembers dies get m cs

/-- dwarfvars.py:230-247: kind, name and members of a type with members. -/
def defBody (dies : Dies) (get : DefMemo → Nat → Except TypeError (DefInfo × DefMemo)) (d : Die) (resolve skipConst : Bool) (m : DefMemo) :
    Except TypeError (Str × DefMemo) :=
  if isComposite d.tag && resolve then
    match defMembers dies get m d.children with
    | .error e => .error e
    | .ok (r, m) => .ok (defStart d skipConst ++ (match declName d with
        | some n => ' ' :: n
        | none => []) ++ " { ".toList ++ r ++ ['}'], m)
  else .ok (defStart d skipConst, m)

/-- dwarfvars.py:249-254: text, size and number of elements of the type the entry refers to. -/
def defRef (o : TypeOpts) (dies : Dies) (get : DefMemo → Nat → Except TypeError (DefInfo × DefMemo)) (d : Die) (m : DefMemo) :
    Except TypeError (DefInfo × DefMemo) :=
  match d.type with
  | none => .ok ({ text := [], size := 0, factor := 1 }, m)
  | some t =>
    if d.tag = "typedef".toList ∧ o.aliases = false then .ok ({ text := [], size := 0, factor := 1 }, m)
    else
      match dies t with
      | none => .ok ({ text := [], size := 0, factor := 1 }, m)
      | some _ => get m t

/-- dwarfvars.py:262-264: the number of elements of an array. -/
def rangesFactor (dies : Dies) : Int → List Nat → Except TypeError Int
  | f, [] => .ok f
  | f, c :: cs =>
    match dies c with
    | none => .error .keyError
    | some child =>
      if child.tag = "subrange_type".toList then
        rangesFactor dies (f * (child.upper_bound.getD 0 - child.lower_bound.getD 0 + 1)) cs
      else rangesFactor dies f cs

/-- dwarfvars.py:256-260: text with the mark of a pointer. -/
def pointerText (d : Die) (text : Str) : Str :=
  if d.tag = "pointer_type".toList then (if d.type = none ∨ text = [] then text ++ "void".toList else text) ++ ['*'] else text

/-- dwarfvars.py:260-264: the number of elements. -/
def defFactor (dies : Dies) (d : Die) (f : Int) : Except TypeError Int :=
  if d.tag = "pointer_type".toList then .ok 1
  else if d.tag = "array_type".toList then rangesFactor dies f d.children
  else .ok f

/-- dwarfvars.py:231-233, 266: the name behind the type, unless it was part of the members. -/
def nameBehind (o : TypeOpts) (d : Die) (resolve : Bool) : Option Str :=
  if isComposite d.tag && resolve then none
  else if o.names && (d.tag != "typedef".toList || !o.aliases) then declName d
  else none

/-- dwarfvars.py:266-272: text and number of elements with the name. -/
def defNamed (o : TypeOpts) (d : Die) (resolve : Bool) (text : Str) (factor : Int) : Str × Int :=
  match nameBehind o d resolve with
  | some n => (text ++ (if text = [] then [] else [' ']) ++ n ++ factorText factor, 1)
  | none => (text, factor)

/-- dwarfvars.py:278-283: the size has to agree with the one stored before. -/
def storeDef (m : DefMemo) (id : Nat) (i : DefInfo) : Except TypeError (DefInfo × DefMemo) :=
  match m id with
  | some s => if s = i.size then .ok (i, m) else .error .assertion
  | none => .ok (i, fun j => if j = id then some i.size else m j)

/-- dwarfvars.py:256-281: the result. -/
def finishDef (o : TypeOpts) (dies : Dies) (d : Die) (resolve : Bool) (body : Str) (ref : DefInfo) : Except TypeError DefInfo :=
  match defFactor dies d ref.factor with
  | .error e => .error e
  | .ok factor =>
    let r := defNamed o d resolve (pointerText d (body ++ ref.text)) factor
    .ok { text := r.1, size := r.2 * d.byte_size.getD ref.size, factor := r.2 }

/-- dwarfvars.py:201-283 `get_def`; the first argument is the depth of recursion that is left. -/
def getDef (o : TypeOpts) (dies : Dies) : Nat → DefMemo → Nat → Bool → Bool → Except TypeError (DefInfo × DefMemo)
  | 0, _, _, _, _ => .error .recursion
  | n + 1, m, id, resolve, skipConst =>
    match dies id with
    | none => .error .keyError
    | some d =>
      match defBody dies (fun m c => getDef o dies n m c (resolveIn d resolve) false) d (resolveIn d resolve) skipConst m with
      | .error e => .error e
      | .ok (body, m) =>
        match defRef o dies (fun m t => getDef o dies n m t (resolveIn d resolve) (skipIn d skipConst)) d m with
        | .error e => .error e
        | .ok (ref, m) =>
          match finishDef o dies d (resolveIn d resolve) body ref with
          | .error e => .error e
          | .ok i => storeDef m id i

/-- dwarfvars.py:324-326: named variables and types with members. -/
def isGlobal (d : Die) : Bool :=
  (d.tag = "variable".toList || isComposite d.tag) && (d.name.isSome || d.linkage_name.isSome)

/-- dwarfvars.py:323-330 `iter_globals`: text, size and entry of each; `ids` are the entries in order. -/
def iterGlobals (o : TypeOpts) (dies : Dies) (n : Nat) : DefMemo → List Nat → Except TypeError (List (Str × Int × Nat))
  | _, [] => .ok []
  | m, id :: ids =>
    match dies id with
    | none => .error .keyError
    | some d =>
      if isGlobal d then
        match getDef o dies n m id true false with
        | .error e => .error e
        | .ok (i, m) =>
          if i.factor ≠ 1 then .error .assertion
          else
            match iterGlobals o dies n m ids with
            | .error e => .error e
            | .ok r => .ok (if 0 < i.size then (i.text, i.size, id) :: r else r)
      else iterGlobals o dies n m ids

end Bean

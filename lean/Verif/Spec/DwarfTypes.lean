import Verif.Model.DwarfTypes
/-
Types of the debug information without stored results (C85 to C87).
-/
namespace Bean.Spec
open Bean

/-- The texts of the members. -/
def membersText (dies : Dies) (get : Nat → Except TypeError TypeInfo) : List Nat → Except TypeError (Str × Str)
  | [] => .ok ([], [])
  | c :: cs =>
    match dies c with
    | none => .error .keyError
    | some child =>
      if child.tag = "member".toList then
        match get c with
        | .error e => .error e
        | .ok t => (membersText dies get cs).map (addText (memberText child t))
      else if child.tag = "enumerator".toList then
        match child.name, child.const_value with
        | some n, some v => (membersText dies get cs).map (addText (enumText n v))
        | _, _ => .error .keyError
      else membersText dies get cs

/-- The members that matter. -/
def memberPart (dies : Dies) (get : Nat → Bool → Except TypeError TypeInfo) (d : Die) (resolve : Bool) :
    Except TypeError (Option (Str × Str)) :=
  if isComposite d.tag && resolve then (membersText dies (fun c => get c resolve) d.children).map some else .ok none

/-- The type an entry refers to. -/
def typePart (dies : Dies) (get : Nat → Bool → Except TypeError TypeInfo) (d : Die) (resolve : Bool) :
    Except TypeError (Option (Option TypeInfo)) :=
  match d.type with
  | none => .ok none
  | some t =>
    match dies t with
    | none => .ok (some none)
    | some _ => (get t resolve).map (fun t => some (some t))

/-- The type of an entry is determined by the entries it refers to: its type and, unless it is only pointed to, its members. -/
def typeOf (o : TypeOpts) (dies : Dies) : Nat → Nat → Bool → Except TypeError TypeInfo
  | 0, _, _ => .error .recursion
  | n + 1, id, resolve =>
    match dies id with
    | none => .error .keyError
    | some d =>
      match memberPart dies (typeOf o dies n) d (resolveIn d resolve) with
      | .error e => .error e
      | .ok members =>
        match typePart dies (typeOf o dies n) d (resolveIn d resolve) with
        | .error e => .error e
        | .ok type => finishType o dies d members type

/-- The type of an entry (with its members or without), whatever depth it takes. -/
def HasType (o : TypeOpts) (dies : Dies) (id : Nat) (resolve : Bool) (t : TypeInfo) : Prop := ∃ n, typeOf o dies n id resolve = .ok t

/-- An entry (with members or without) needs the type of another one: of the type it refers to, or of a member. Pointers need the type
they refer to without its members. -/
def Needs (dies : Dies) (id : Nat) (resolve : Bool) (id' : Nat) (resolve' : Bool) : Prop :=
  ∃ d d', dies id = some d ∧ dies id' = some d' ∧ resolve' = (resolve && d.tag != "pointer_type".toList) ∧
    (d.type = some id' ∨
      (resolve' = true ∧ d.tag ∈ ["structure_type".toList, "class_type".toList, "union_type".toList, "enumeration_type".toList] ∧
        id' ∈ d.children ∧ d'.tag = "member".toList))

end Bean.Spec
